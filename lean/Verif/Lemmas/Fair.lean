import Verif.Spec.Fair
import Verif.Props.Queue
import Verif.Lemmas.Server
/-
The queue in endless fair executions.
-/
namespace Wayuu.Queue
open Wayuu C Wayuu.Spec

theorem eventually_const (f : Nat → Nat) : ∀ (k N : Nat), f N ≤ k → (∀ m, N ≤ m → f (m + 1) ≤ f m) →
    ∃ M, N ≤ M ∧ ∀ m, M ≤ m → f m = f M := by
  intro k
  induction k with
  | zero =>
    intro N hk h
    have : ∀ d, f (N + d) = 0 := by
      intro d
      induction d with
      | zero => rw [Nat.add_zero]; omega
      | succ d ih => have := h (N + d) (by omega); rw [← Nat.add_assoc]; omega
    refine ⟨N, Nat.le_refl _, fun m hm => ?_⟩
    have h1 := this (m - N)
    have h2 := this 0
    rw [show N + (m - N) = m by omega] at h1
    rw [h1]; exact h2.symm
  | succ k ih =>
    intro N hk h
    by_cases hx : ∃ m, N ≤ m ∧ f m < f N
    · obtain ⟨m, hm, hlt⟩ := hx
      obtain ⟨M, h1, h2⟩ := ih m (by omega) (fun m' hm' => h m' (by omega))
      exact ⟨M, by omega, h2⟩
    · refine ⟨N, Nat.le_refl _, fun m hm => ?_⟩
      have hle : ∀ d, f (N + d) ≤ f N := by
        intro d
        induction d with
        | zero => exact Nat.le_refl _
        | succ d ih => have := h (N + d) (by omega); rw [← Nat.add_assoc]; omega
      have h1 := hle (m - N)
      rw [show N + (m - N) = m by omega] at h1
      have h2 : ¬ f m < f N := fun hlt => hx ⟨m, hm, hlt⟩
      omega

/-- What a step does to the record of what was delivered. -/
theorem delivered_step {s s' : QSt} {a : Act} (h : step s a = some (ok s')) :
    s'.delivered = s.delivered ∨ ∃ i v, s'.delivered = s.delivered ++ [(i, v)] ∧ s'.workers[i]? = some (.handle v) := by
  cases a with
  | accept v b =>
    simp only [step] at h
    split at h
    · split at h
      · cases h; exact Or.inl rfl
      · cases h; exact Or.inl rfl
    · cases h
  | prod =>
    simp only [step, prodStep] at h
    left
    split at h
    · cases h
    · split at h
      · cases h; rfl
      · cases h
    · split at h
      · cases h; rfl
      · cases h; rfl
    · cases h; rfl
    · cases h; rfl
    · cases h; rfl
    · injection h with h
      obtain ⟨r, -, h⟩ := bind_eq_ok.mp h
      cases h; rfl
    · cases h; rfl
    · cases h
  | signal w =>
    simp only [step] at h
    left
    split at h
    · split at h
      · cases h
      · cases h; rfl
    · split at h
      · cases h; rfl
      · cases h
    · cases h
  | spurious i =>
    simp only [step] at h
    left
    split at h
    · cases h; rfl
    · cases h
  | worker i =>
    simp only [step, workerStep] at h
    cases hi : s.workers[i]? with
    | none => rw [hi] at h; cases h
    | some pc =>
      have hlt := lt_of_getElem?_some hi
      rw [hi] at h
      cases pc with
      | unlock v =>
        cases h
        exact Or.inr ⟨i, v, rfl, by simp [setW, hlt]⟩
      | read =>
        injection h with h
        obtain ⟨r, -, h⟩ := bind_eq_ok.mp h
        cases h; exact Or.inl rfl
      | waiting => cases h
      | _ =>
        left
        simp only at h
        first
        | (cases h; rfl)
        | (split at h <;> first | (cases h; rfl) | cases h)

/-- What a step does to the records of what was accepted and put in the queue. -/
theorem accepted_step {s s' : QSt} {a : Act} (h : step s a = some (ok s')) :
    (∃ l, s'.enqueued = s.enqueued ++ l) ∧
    ((s'.accepted = s.accepted) ∨ ∃ v, a = .accept v true ∧ s.prod = .accept ∧ s'.accepted = s.accepted ++ [v]) ∧
    (∀ v, a = .accept v true → s.prod = .accept ∧ s'.accepted = s.accepted ++ [v]) := by
  cases a with
  | accept v b =>
    simp only [step] at h
    split at h
    · rename_i hp
      split at h
      · rename_i hb
        subst hb
        cases h; exact ⟨⟨[], by simp⟩, Or.inr ⟨v, rfl, hp, rfl⟩, fun u hu => by cases hu; exact ⟨hp, rfl⟩⟩
      · rename_i hb
        cases h; exact ⟨⟨[], by simp⟩, Or.inl rfl, fun u hu => by cases hu; exact absurd rfl hb⟩
    · cases h
  | prod =>
    refine ⟨?_, Or.inl ?_, fun u hu => by cases hu⟩
    all_goals
      simp only [step, prodStep] at h
      split at h
      · cases h
      · split at h
        · cases h; first | rfl | exact ⟨[], by simp⟩
        · cases h
      · split at h
        · cases h; first | rfl | exact ⟨[], by simp⟩
        · cases h; first | rfl | exact ⟨[], by simp⟩
      · cases h; first | rfl | exact ⟨[], by simp⟩
      · cases h; first | rfl | exact ⟨[], by simp⟩
      · cases h; first | rfl | exact ⟨[], by simp⟩
      · injection h with h
        obtain ⟨r, -, h⟩ := bind_eq_ok.mp h
        cases h; first | rfl | exact ⟨_, rfl⟩
      · cases h; first | rfl | exact ⟨[], by simp⟩
      · cases h
  | signal w =>
    refine ⟨?_, Or.inl ?_, fun u hu => by cases hu⟩
    all_goals
      simp only [step] at h
      split at h
      · split at h
        · cases h
        · cases h; first | rfl | exact ⟨[], by simp⟩
      · split at h
        · cases h; first | rfl | exact ⟨[], by simp [setW]⟩
        · cases h
      · cases h
  | spurious i =>
    refine ⟨?_, Or.inl ?_, fun u hu => by cases hu⟩
    all_goals
      simp only [step] at h
      split at h
      · cases h; first | rfl | exact ⟨[], by simp [setW]⟩
      · cases h
  | worker i =>
    have key : s'.enqueued = s.enqueued ∧ s'.accepted = s.accepted := by
      simp only [step, workerStep] at h
      cases hi : s.workers[i]? with
      | none => rw [hi] at h; cases h
      | some pc =>
        rw [hi] at h
        cases pc with
        | read =>
          injection h with h
          obtain ⟨r, -, h⟩ := bind_eq_ok.mp h
          cases h; exact ⟨rfl, rfl⟩
        | waiting => cases h
        | _ =>
          simp only at h
          first
          | (cases h; exact ⟨rfl, rfl⟩)
          | (split at h <;> first | (cases h; exact ⟨rfl, rfl⟩) | cases h)
    exact ⟨⟨[], by rw [key.1, List.append_nil]⟩, Or.inl key.2, fun u hu => by cases hu⟩

/-- What workers do other than the one that moves: nothing changes for them, unless they sleep. -/
theorem worker_stays {s s' : QSt} {a : Act} {i : Nat} {pc : WPc} (h : step s a = some (ok s')) (hi : s.workers[i]? = some pc)
    (hw : pc ≠ .waiting) (ha : a ≠ .worker i) : s'.workers[i]? = some pc := by
  have set_ne : ∀ (t : QSt) (j : Nat) (b : WPc), t.workers = s.workers → j ≠ i → (setW t j b).workers[i]? = some pc := by
    intro t j b ht hj
    simp only [setW, ht, List.getElem?_set_ne hj, hi]
  cases a with
  | accept v b =>
    simp only [step] at h
    split at h
    · split at h
      · cases h; exact hi
      · cases h; exact hi
    · cases h
  | prod =>
    simp only [step, prodStep] at h
    split at h
    · cases h
    · split at h
      · cases h; exact hi
      · cases h
    · split at h
      · cases h; exact hi
      · cases h; exact hi
    · cases h; exact hi
    · cases h; exact hi
    · cases h; exact hi
    · injection h with h
      obtain ⟨r, -, h⟩ := bind_eq_ok.mp h
      cases h; exact hi
    · cases h; exact hi
    · cases h
  | signal w =>
    simp only [step] at h
    split at h
    · split at h
      · cases h
      · cases h; exact hi
    · rename_i j
      split at h
      · rename_i hj
        cases h
        exact set_ne _ _ _ rfl (by rintro rfl; rw [hi] at hj; cases hj; exact hw rfl)
      · cases h
    · cases h
  | spurious j =>
    simp only [step] at h
    split at h
    · rename_i hj
      cases h
      exact set_ne _ _ _ rfl (by rintro rfl; rw [hi] at hj; cases hj; exact hw rfl)
    · cases h
  | worker j =>
    have hj : j ≠ i := by rintro rfl; exact ha rfl
    simp only [step, workerStep] at h
    cases hk : s.workers[j]? with
    | none => rw [hk] at h; cases h
    | some pc' =>
      rw [hk] at h
      cases pc' with
      | read =>
        injection h with h
        obtain ⟨r, -, h⟩ := bind_eq_ok.mp h
        cases h; exact set_ne _ _ _ rfl hj
      | waiting => cases h
      | _ =>
        simp only at h
        first
        | (cases h; exact set_ne _ _ _ rfl hj)
        | (split at h <;> first | (cases h; exact set_ne _ _ _ rfl hj) | cases h)

/-- Whether a thread can go on does not depend on the record of closed sockets. -/
theorem step_closed (s : QSt) (c : List Nat) {a : Act} (ha : Inner a) : step { s with closed := c } a = none ↔ step s a = none := by
  cases a with
  | accept v b => exact ha.elim
  | spurious i => exact ha.elim
  | prod =>
    simp only [step, prodStep]
    split <;> (try split) <;> simp
  | signal w =>
    simp only [step]
    split <;> (try split) <;> simp
  | worker i =>
    simp only [step, workerStep]
    cases s.workers[i]? with
    | none => simp
    | some pc => cases pc <;> simp <;> split <;> simp

/-- The states of an endless execution are reachable. -/
theorem reach_at {cap n : Nat} {q : Nat → QSt} {lab : Nat → Option Act} (h : QEndless cap n q lab) (t : Nat) : Reach cap n (q t) := by
  induction t with
  | zero => rw [h.start]; exact .init
  | succ t ih =>
    have := h.next t
    split at this
    · rw [this]; exact ih
    · exact ih.step this

theorem acts_inner {th : Thread} {a : Act} (h : th.Acts a) : Inner a := by
  cases th <;> cases a <;> simp_all [Thread.Acts, Inner]

theorem inner_acts {a : Act} (h : Inner a) : ∃ th : Thread, th.Acts a ∧ ∀ b, th.Acts b → Inner b := by
  cases a with
  | accept v b => exact h.elim
  | spurious i => exact h.elim
  | prod => exact ⟨.main, trivial, fun _ => acts_inner⟩
  | signal w => exact ⟨.main, trivial, fun _ => acts_inner⟩
  | worker i => exact ⟨.worker i, rfl, fun _ => acts_inner⟩

/-- Without new connections and spurious wake-ups a fair execution comes to rest. -/
theorem settles {cap n : Nat} (hc : 0 < cap) {q : Nat → QSt} {lab : Nat → Option Act} (h : QEndless cap n q lab) (hf : QFair q lab)
    {N : Nat} (hno : ∀ m, N ≤ m → ∀ a, lab m = some a → Inner a ∨ ∃ v, a = .accept v false) : ∃ M, N ≤ M ∧ Quiet (q M) := by
  have hdec : ∀ m, N ≤ m → (q (m + 1)).work ≤ (q m).work ∧ ((∃ a, lab m = some a ∧ Inner a) → (q (m + 1)).work < (q m).work) ∧
      ((¬ ∃ a, lab m = some a ∧ Inner a) → ∃ c, q (m + 1) = { q m with closed := c }) := by
    intro m hm
    have hst := h.next m
    have hno := hno m hm
    have hinv := (reach_at h m).inv hc
    split at hst
    · rename_i hl
      rw [hst]
      refine ⟨Nat.le_refl _, ?_, fun _ => ⟨_, rfl⟩⟩
      rintro ⟨a, ha, -⟩
      rw [hl] at ha; cases ha
    · rename_i a hl
      rcases hno a hl with hin | ⟨v, rfl⟩
      · have hlt : (q (m + 1)).work < (q m).work := by
          cases a with
          | accept v b => exact hin.elim
          | spurious i => exact hin.elim
          | prod => exact work_prod hinv hst
          | worker i => exact work_worker hinv hst
          | signal w => exact work_signal hst
        exact ⟨Nat.le_of_lt hlt, fun _ => hlt, fun hn => absurd ⟨a, hl, hin⟩ hn⟩
      · have : q (m + 1) = { q m with closed := (q m).closed ++ [v] } := by
          simp only [step] at hst
          split at hst
          · simp only [Bool.false_eq_true, if_false] at hst
            injection hst with hst
            injection hst with hst
            exact hst.symm
          · cases hst
        refine ⟨by rw [this]; exact Nat.le_refl _, ?_, fun _ => ⟨_, this⟩⟩
        rintro ⟨a, ha, hi⟩
        rw [hl] at ha; cases ha; exact hi.elim
  obtain ⟨M, hM, hconst⟩ := eventually_const (fun m => (q m).work) _ N (Nat.le_refl _) (fun m hm => (hdec m hm).1)
  have hquiet : ∀ m, M ≤ m → ¬ ∃ a, lab m = some a ∧ Inner a := by
    intro m hm hx
    have h1 := (hdec m (by omega)).2.1 hx
    have h2 := hconst m hm
    have h3 := hconst (m + 1) (by omega)
    omega
  have hsame : ∀ d a, Inner a → (step (q (M + d)) a = none ↔ step (q M) a = none) := by
    intro d
    induction d with
    | zero => intro a _; exact Iff.rfl
    | succ d ih =>
      intro a ha
      obtain ⟨c, hcl⟩ := (hdec (M + d) (by omega)).2.2 (hquiet (M + d) (by omega))
      rw [← Nat.add_assoc, hcl, step_closed _ _ ha]
      exact ih a ha
  refine ⟨M, hM, fun a ha => ?_⟩
  by_contra hmove
  obtain ⟨th, hth, hall⟩ := inner_acts ha
  obtain ⟨m, b, hm, hb, hl⟩ := hf th M (fun m hm => ⟨a, hth, fun hn => hmove (by
    have := hsame (m - M) a ha
    rw [show M + (m - M) = m by omega] at this
    exact this.mp hn)⟩)
  exact hquiet m hm ⟨b, hl, hall b hb⟩

/-- The records only grow. -/
theorem grows {cap n : Nat} {q : Nat → QSt} {lab : Nat → Option Act} (h : QEndless cap n q lab) (t d : Nat) :
    (∃ l, (q (t + d)).enqueued = (q t).enqueued ++ l) ∧ (q t).delivered.length ≤ (q (t + d)).delivered.length ∧
      (q t).accepted.length ≤ (q (t + d)).accepted.length := by
  induction d with
  | zero => exact ⟨⟨[], by simp⟩, Nat.le_refl _, Nat.le_refl _⟩
  | succ d ih =>
    obtain ⟨⟨l, h1⟩, h2, h3⟩ := ih
    have hst := h.next (t + d)
    rw [← Nat.add_assoc]
    split at hst
    · rw [hst]; exact ⟨⟨l, h1⟩, h2, h3⟩
    · obtain ⟨⟨l', e1⟩, e2, -⟩ := accepted_step hst
      refine ⟨⟨l ++ l', by rw [e1, h1, List.append_assoc]⟩, Nat.le_trans h2 ?_, Nat.le_trans h3 ?_⟩
      · rcases delivered_step hst with e | ⟨i, v, e, -⟩ <;> rw [e] <;> simp
      · rcases e2 with e | ⟨v, -, -, e⟩ <;> rw [e] <;> simp

/-- In a fair execution in which only `B` sockets can be open and spurious wake-ups come to an end, what is in the queue is delivered. -/
theorem delivered_more {cap n B : Nat} (hc : 0 < cap) (hn : 0 < n) {q : Nat → QSt} {lab : Nat → Option Act} (h : QEndless cap n q lab)
    (hf : QFair q lab) (hcalm : ∃ N, ∀ m, N ≤ m → ∀ i, lab m ≠ some (.spurious i))
    (hB : ∀ t, (pending (q t)).length + (q t).dropped.length + (q t).prod.hand.length ≤ B) {t : Nat}
    (ht : (q t).delivered.length < (q t).enqueued.length) : ∃ d, (q t).delivered.length < (q (t + d)).delivered.length := by
  by_contra hno
  have hD : ∀ d, (q (t + d)).delivered.length = (q t).delivered.length := by
    intro d
    have := (grows h t d).2.1
    have h2 : ¬ (q t).delivered.length < (q (t + d)).delivered.length := fun hlt => hno ⟨d, hlt⟩
    omega
  -- not more than `B` further sockets can be accepted
  have hacc : ∀ d, (q (t + d)).accepted.length ≤ (q t).delivered.length + B := by
    intro d
    have h1 := ((reach_at h (t + d)).ledger.split).length_eq
    have h2 := hB (t + d)
    have h3 := hD d
    have h4 : (pending (q (t + d))).length = (q (t + d)).enqueued.length - (q (t + d)).delivered.length := by simp [pending]
    simp only [List.length_append] at h1
    omega
  obtain ⟨N0, hcalm⟩ := hcalm
  obtain ⟨M, hM, hconst⟩ := eventually_const (fun m => (q t).delivered.length + B - (q m).accepted.length) _ (t + N0) (Nat.le_refl _)
    (fun m _ => by have := (grows h m 1).2.2; omega)
  obtain ⟨M', hM', hq⟩ := settles hc h hf (N := M) (by
    intro m hm a ha
    have hst := h.next m
    rw [ha] at hst
    cases a with
    | spurious i => exact absurd ha (hcalm m (by omega) i)
    | accept v b =>
      cases b with
      | false => exact Or.inr ⟨v, rfl⟩
      | true =>
        exfalso
        have e := ((accepted_step hst).2.2 v rfl).2
        have e1 := hconst m hm
        have e2 := hconst (m + 1) (by omega)
        have e3 := hacc (m + 1 - t)
        rw [show t + (m + 1 - t) = m + 1 by omega] at e3
        rw [e] at e2 e3
        simp only [List.length_append, List.length_singleton] at e2 e3
        omega
    | _ => exact Or.inl trivial)
  have hdr := (C53_drained cap n hc hn (q M') (reach_at h M') hq).1
  have h1 := congrArg List.length hdr
  rw [List.length_map] at h1
  have h2 := hD (M' - t)
  obtain ⟨⟨l, h3⟩, -⟩ := grows h t (M' - t)
  rw [show t + (M' - t) = M' by omega] at h2 h3
  rw [h3, List.length_append] at h1
  omega

/-- The socket at place `j` of the queue comes into the hands of a worker. -/
theorem gets_worker {cap n B : Nat} (hc : 0 < cap) (hn : 0 < n) {q : Nat → QSt} {lab : Nat → Option Act} (h : QEndless cap n q lab)
    (hf : QFair q lab) (hcalm : ∃ N, ∀ m, N ≤ m → ∀ i, lab m ≠ some (.spurious i))
    (hB : ∀ t, (pending (q t)).length + (q t).dropped.length + (q t).prod.hand.length ≤ B) {t j v : Nat}
    (hj : (q t).enqueued[j]? = some v) (hd : (q t).delivered.length ≤ j) :
    ∃ d i : Nat, (q (t + d)).workers[i]? = some (WPc.handle v) := by
  have hlt := lt_of_getElem?_some hj
  have hex : ∃ d, j < (q (t + d)).delivered.length := by
    have : ∀ k d, j + 1 - (q (t + d)).delivered.length ≤ k → ∃ d, j < (q (t + d)).delivered.length := by
      intro k
      induction k with
      | zero => intro d hk; exact ⟨d, by omega⟩
      | succ k ih =>
        intro d hk
        by_cases hj' : j < (q (t + d)).delivered.length
        · exact ⟨d, hj'⟩
        · obtain ⟨⟨l, hl⟩, -⟩ := grows h t d
          obtain ⟨d', hd'⟩ := delivered_more hc hn h hf hcalm hB (t := t + d) (by rw [hl, List.length_append]; omega)
          exact ih (d + d') (by rw [← Nat.add_assoc]; omega)
    exact this _ 0 (Nat.le_refl _)
  obtain ⟨d, hd1, hd2⟩ : ∃ d, j < (q (t + (d + 1))).delivered.length ∧ (q (t + d)).delivered.length ≤ j := by
    obtain ⟨e, he⟩ := hex
    induction e with
    | zero => rw [Nat.add_zero] at he; omega
    | succ e ih =>
      by_cases hx : j < (q (t + e)).delivered.length
      · exact ih hx
      · exact ⟨e, he, by omega⟩
  have hst := h.next (t + d)
  rw [← Nat.add_assoc] at hd1
  split at hst
  · rw [hst] at hd1; omega
  · rcases delivered_step hst with e | ⟨i, u, e, hi⟩
    · rw [e] at hd1; omega
    · refine ⟨d + 1, i, ?_⟩
      rw [← Nat.add_assoc, hi]
      obtain ⟨l, hl⟩ := (C52_fifo cap n hc _ (reach_at h (t + d + 1))).1
      obtain ⟨⟨l', hl'⟩, -⟩ := grows h t (d + 1)
      rw [← Nat.add_assoc] at hl'
      have h1 : (q (t + d + 1)).enqueued[j]? = some v := by
        rw [hl', List.getElem?_append_left hlt, hj]
      rw [e, List.length_append, List.length_singleton] at hd1
      have hjd : j = (q (t + d)).delivered.length := by omega
      rw [← hl, e, List.map_append, List.append_assoc, List.getElem?_append_right (by simp [hjd])] at h1
      simp [hjd] at h1
      rw [h1]

/-- The accepting thread gets rid of the socket it has accepted. -/
theorem leaves_hand {cap n : Nat} (hc : 0 < cap) (hn : 0 < n) {q : Nat → QSt} {lab : Nat → Option Act} (h : QEndless cap n q lab)
    (hf : QFair q lab) (hcalm : ∃ N, ∀ m, N ≤ m → ∀ i, lab m ≠ some (.spurious i)) (t : Nat) : ∃ d, (q (t + d)).prod.hand = [] := by
  by_contra hno
  obtain ⟨N0, hcalm⟩ := hcalm
  obtain ⟨M, hM, hq⟩ := settles hc h hf (N := t + N0) (by
    intro m hm a ha
    have hst := h.next m
    rw [ha] at hst
    cases a with
    | spurious i => exact absurd ha (hcalm m (by omega) i)
    | accept v b =>
      cases b with
      | false => exact Or.inr ⟨v, rfl⟩
      | true =>
        exfalso
        have e := ((accepted_step hst).2.2 v rfl).1
        exact hno ⟨m - t, by rw [show t + (m - t) = m by omega, e]; rfl⟩
    | _ => exact Or.inl trivial)
  refine hno ⟨M - t, ?_⟩
  rw [show t + (M - t) = M by omega]
  -- at rest nobody has the mutex, so the accepting thread could go on
  have hw := (C53_drained cap n hc hn (q M) (reach_at h M) hq).2
  have hinv := (reach_at h M).inv hc
  have hp := hq .prod trivial
  cases hprod : (q M).prod with
  | lock v =>
    have hown : (q M).owner = none := by
      cases ho : (q M).owner with
      | none => rfl
      | some o =>
        cases o with
        | prod => have := hinv.prodOwner ho; rw [hprod] at this; cases this
        | worker i =>
          cases hi : (q M).workers[i]? with
          | none =>
            obtain ⟨qq, f, r, -, hq⟩ := hinv.ring
            have := hq.phase
            unfold Phase at this
            rw [ho] at this
            simp only [hi] at this
          | some pc =>
            have := hinv.notHolder hi (by rw [hw pc (List.mem_of_getElem? hi)]; rfl)
            exact absurd ho this
    simp [step, prodStep, hprod, hown] at hp
  | test v =>
    simp only [step, prodStep, hprod] at hp
    split at hp <;> cases hp
  | _ => first | rfl | (simp [step, prodStep, hprod] at hp)

/-- A worker that handles a connection ends doing so. -/
theorem ends_handling {q : Nat → QSt} {lab : Nat → Option Act} {cap n : Nat} (h : QEndless cap n q lab) (hf : QFair q lab) {t i v : Nat}
    (hi : (q t).workers[i]? = some (.handle v)) : ∃ m, t ≤ m ∧ (q m).workers[i]? = some (WPc.handle v) ∧ lab m = some (.worker i) := by
  by_contra hno
  have hstay : ∀ d, (q (t + d)).workers[i]? = some (.handle v) := by
    intro d
    induction d with
    | zero => exact hi
    | succ d ih =>
      have hst := h.next (t + d)
      rw [← Nat.add_assoc]
      split at hst
      · rw [hst]; exact ih
      · rename_i a ha
        exact worker_stays hst ih (by simp) (by rintro rfl; exact hno ⟨t + d, by omega, ih, ha⟩)
  obtain ⟨m, a, hm, ha, hl⟩ := hf (.worker i) t (fun m hm => by
    have := hstay (m - t)
    rw [show t + (m - t) = m by omega] at this
    exact ⟨.worker i, rfl, by simp [step, workerStep, this]⟩)
  have hw := hstay (m - t)
  rw [show t + (m - t) = m by omega] at hw
  cases a with
  | worker j => cases ha; exact hno ⟨m, hm, hw, hl⟩
  | _ => exact ha.elim

end Wayuu.Queue
