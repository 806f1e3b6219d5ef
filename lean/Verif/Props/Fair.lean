import Verif.Lemmas.Fair
import Verif.Props.WholeApi
/-
C143: no client that was admitted waits for ever. The whole server, followed for ever, under every fair schedule.
-/
namespace Wayuu.Whole
open Wayuu C Wayuu.Spec Spec Wayuu.Queue Wayuu.Server

/-- C143 as claimed: if the threads are scheduled fairly, spurious wake-ups come to an end and the process does not end, every client that
was admitted is served at some time, however many others come. -/
def C143_statement : Prop :=
  ∀ (x : World) (cap n : Nat) (st : St) (w : Nat → WSt) (lab : Nat → Option Ev) (t k : Nat), 0 < cap → 0 < n →
    Endless x (initial cap n st) w lab → Fair x w lab → Calm lab → (∀ t, (w t).srv.stopped = false) → k ∈ (w t).admitted →
    ∃ m, t ≤ m ∧ k ∈ (w m).served.map Done.conn

/-! ### The whole and its queue -/

theorem runs_at {x : World} {w0 : WSt} {w : Nat → WSt} {lab : Nat → Option Ev} (h : Endless x w0 w lab) (t : Nat) :
    ∃ evs, Runs x w0 evs (w t) ∧ ∀ e ∈ evs, ∃ m, lab m = some e := by
  induction t with
  | zero => rw [h.start]; exact ⟨[], .nil _, by simp⟩
  | succ t ih =>
    obtain ⟨evs, h1, h2⟩ := ih
    have hst := h.next t
    split at hst
    · rw [hst]; exact ⟨evs, h1, h2⟩
    · rename_i e he
      refine ⟨evs ++ [e], h1.snoc hst, fun e' he' => ?_⟩
      rcases List.mem_append.mp he' with he' | he'
      · exact h2 e' he'
      · rw [List.mem_singleton.mp he']; exact ⟨t, he⟩

/-- What happens to the queue at each time. -/
def queueLab (w : Nat → WSt) (lab : Nat → Option Ev) (t : Nat) : Option Act :=
  match lab t with
  | some (.thread a) => some a
  | some (.connect v) => some (.accept v ((w (t + 1)).srv.q.prod != .accept))
  | _ => none

theorem queueLab_thread {w : Nat → WSt} {lab : Nat → Option Ev} {t : Nat} {a : Act} (h : lab t = some (.thread a)) :
    queueLab w lab t = some a := by
  simp [queueLab, h]

theorem lab_thread {w : Nat → WSt} {lab : Nat → Option Ev} {t : Nat} {a : Act} (ha : ∀ v b, a ≠ .accept v b)
    (h : queueLab w lab t = some a) : lab t = some (.thread a) := by
  unfold queueLab at h
  split at h
  · rename_i b hb; cases h; exact hb
  · cases h; exact absurd rfl (ha _ _)
  · cases h

theorem step_thread_none {x : World} {w : WSt} {a : Act} (hs : w.srv.stopped = false) (ha : Inner a) :
    step x w (.thread a) = none ↔ Queue.step w.srv.q a = none := by
  cases a with
  | accept v b => exact ha.elim
  | spurious i => exact ha.elim
  | _ => simp [step, Server.step, hs]

theorem queue_endless {x : World} {cap n : Nat} {st : St} {w : Nat → WSt} {lab : Nat → Option Ev}
    (h : Endless x (initial cap n st) w lab) (hs : ∀ t, (w t).srv.stopped = false) :
    QEndless cap n (fun t => (w t).srv.q) (queueLab w lab) := by
  refine ⟨by simp only [h.start]; rfl, fun t => ?_⟩
  have hst := h.next t
  cases hl : lab t with
  | none =>
    rw [hl] at hst
    simp only [queueLab, hl]
    simp only at hst
    rw [hst]
  | some e =>
    rw [hl] at hst
    simp only at hst
    cases e with
    | connect v =>
      obtain ⟨-, hp, ⟨hlim, he⟩ | ⟨hlim, hv, b, p, ha, he⟩⟩ := connect_ok hst
      · have := hs (t + 1)
        rw [he] at this
        cases this
      · simp only [queueLab, hl]
        rw [he]
        cases b with
        | true => simp [Queue.step, hp]
        | false => simp [Queue.step, hp]
    | error =>
      have := hs (t + 1)
      rw [(error_ok hst).2.2] at this
      cases this
    | thread a =>
      simp only [queueLab, hl]
      obtain ⟨srv, h1, h2⟩ := thread_ok hst
      have hq : (w (t + 1)).srv = srv := by
        rcases h2 with ⟨-, h2⟩ | ⟨v, st', ev, -, -, h2⟩ <;> rw [h2]
      rw [hq]
      simp only [Server.step, hs t, Bool.false_eq_true, if_false] at h1
      split at h1
      · cases h1
      · simp only [Option.map_eq_some_iff] at h1
        obtain ⟨c, hc, h1⟩ := h1
        obtain ⟨q, rfl, h1⟩ := bind_eq_ok.mp h1
        cases h1
        exact hc
    | files fs =>
      simp only [queueLab, hl]
      simp only [step, Option.some.injEq, ok.injEq] at hst
      rw [← hst]

theorem queue_fair {x : World} {w : Nat → WSt} {lab : Nat → Option Ev} (hf : Fair x w lab) (hs : ∀ t, (w t).srv.stopped = false) :
    QFair (fun t => (w t).srv.q) (queueLab w lab) := by
  intro th t hm
  obtain ⟨m, a, h1, h2, h3⟩ := hf th t (fun m hle => by
    obtain ⟨a, ha, hstep⟩ := hm m hle
    exact ⟨a, ha, fun hn => hstep ((step_thread_none (hs m) (acts_inner ha)).mp hn)⟩)
  exact ⟨m, a, h1, h2, queueLab_thread h3⟩

theorem queue_calm {w : Nat → WSt} {lab : Nat → Option Ev} (hc : Calm lab) :
    ∃ N, ∀ m, N ≤ m → ∀ i, queueLab w lab m ≠ some (.spurious i) := by
  obtain ⟨N, hN⟩ := hc
  exact ⟨N, fun m hm i h => hN m hm i (lab_thread (by simp) h)⟩

/-- Not more descriptors than the limit are open. -/
theorem fds_limit {x : World} {cap n : Nat} {st : St} {evs : List Ev} {w : WSt} (h : Runs x (initial cap n st) evs w) :
    w.srv.fds.length ≤ x.limit := by
  induction h with
  | nil => exact Nat.zero_le _
  | @snoc w1 w2 e evs' _ hst ih =>
    cases e with
    | connect v =>
      obtain ⟨hs, hp, ⟨hl, rfl⟩ | ⟨hl, hv, b, p, ha, rfl⟩⟩ := connect_ok hst
      · exact ih
      · cases b with
        | true => simp only [if_true, List.length_cons]; omega
        | false => exact ih
    | error => rw [(error_ok hst).2.2]; exact ih
    | thread a =>
      obtain ⟨srv, h1, ⟨hh, rfl⟩ | ⟨v, st', ev, hh, -, rfl⟩⟩ := thread_ok hst
      · have hf := fds_thread h1
        rw [hh] at hf
        simp only at hf ⊢
        rw [hf]; exact ih
      · have hf := fds_thread h1
        rw [hh] at hf
        simp only at hf ⊢
        rw [hf]
        exact Nat.le_trans List.length_erase_le ih
    | files fs => cases hst; exact ih

theorem open_limit {x : World} {cap n : Nat} (hc : 0 < cap) {st : St} {evs : List Ev} {w : WSt} (h : Runs x (initial cap n st) evs w) :
    (pending w.srv.q).length + w.srv.q.dropped.length + w.srv.q.prod.hand.length ≤ x.limit := by
  obtain ⟨evs', h'⟩ := srv_runs h
  have h1 := (fds_places hc h').1.length_eq
  have h2 := fds_limit h
  simp only [places, List.length_append] at h1
  omega

/-- A descriptor stands for its client until the client has been served. -/
theorem keeps_conn {x : World} {w0 : WSt} {w : Nat → WSt} {lab : Nat → Option Ev} (h : Endless x w0 w lab) {t v k : Nat}
    (hv : v ∈ (w t).srv.fds) (hk : (w t).conn v = k) (d : Nat) :
    k ∈ (w (t + d)).served.map Done.conn ∨ (v ∈ (w (t + d)).srv.fds ∧ (w (t + d)).conn v = k) := by
  induction d with
  | zero => exact Or.inr ⟨hv, hk⟩
  | succ d ih =>
    rw [← Nat.add_assoc]
    have hst := h.next (t + d)
    generalize w (t + d + 1) = w2 at *
    generalize w (t + d) = w1 at *
    split at hst
    · rw [hst]; exact ih
    · rename_i e he
      cases e with
      | connect u =>
        obtain ⟨hs, hp, ⟨hl, rfl⟩ | ⟨hl, hu, b, p, ha, rfl⟩⟩ := connect_ok hst
        · exact ih
        · rcases ih with ih | ⟨i1, i2⟩
          · exact Or.inl ih
          · refine Or.inr ⟨?_, ?_⟩
            · cases b
              · exact i1
              · exact List.mem_cons_of_mem _ i1
            · show (if v = u then _ else _) = k
              rw [if_neg (by rintro rfl; exact hu i1)]; exact i2
      | error => rw [(error_ok hst).2.2]; exact ih
      | thread a =>
        obtain ⟨srv, h1, ⟨hh, rfl⟩ | ⟨u, st', ev, hh, -, rfl⟩⟩ := thread_ok hst
        · have hf := fds_thread h1
          rw [hh] at hf
          simp only at hf ⊢
          rw [hf]; exact ih
        · have hf := fds_thread h1
          rw [hh] at hf
          simp only at hf ⊢
          rw [hf, List.map_append]
          rcases ih with ih | ⟨i1, i2⟩
          · exact Or.inl (List.mem_append_left _ ih)
          · by_cases hvu : v = u
            · subst hvu
              exact Or.inl (List.mem_append_right _ (by simp [i2]))
            · exact Or.inr ⟨(List.mem_erase_of_ne hvu).mpr i1, i2⟩
      | files fs => cases hst; exact ih

section
variable {x : World} {cap n : Nat} {st : St} {w : Nat → WSt} {lab : Nat → Option Ev}

/-- Who is in the hands of a worker is served. -/
theorem served_handled (h : Endless x (initial cap n st) w lab) (hf : Fair x w lab) (hs : ∀ t, (w t).srv.stopped = false) {t i v k : Nat}
    (hi : (w t).srv.q.workers[i]? = some (.handle v)) (hv : v ∈ (w t).srv.fds) (hk : (w t).conn v = k) :
    ∃ m, t ≤ m ∧ k ∈ (w m).served.map Done.conn := by
  obtain ⟨m, hm, hw, hl⟩ := ends_handling (queue_endless h hs) (queue_fair hf hs) hi
  have hl := lab_thread (by simp) hl
  have hst := h.next m
  rw [hl] at hst
  have hkeep := keeps_conn h hv hk (m - t)
  rw [show t + (m - t) = m by omega] at hkeep
  rcases hkeep with hkeep | ⟨-, hkeep⟩
  · exact ⟨m, hm, hkeep⟩
  · have hh : handles (w m) (.worker i) = some v := handles_eq.mpr ⟨i, rfl, hw⟩
    obtain ⟨srv, h1, ⟨hn, -⟩ | ⟨u, st', ev, hu, -, he⟩⟩ := thread_ok hst
    · rw [hh] at hn; cases hn
    · rw [hh] at hu
      cases hu
      exact ⟨m + 1, by omega, by rw [he]; simp [hkeep]⟩

/-- Who is in the queue is served. -/
theorem served_queued (hc : 0 < cap) (hn : 0 < n) (h : Endless x (initial cap n st) w lab) (hf : Fair x w lab) (hcalm : Calm lab)
    (hs : ∀ t, (w t).srv.stopped = false) {t v k : Nat} (hp : v ∈ pending (w t).srv.q) (hv : v ∈ (w t).srv.fds)
    (hk : (w t).conn v = k) : ∃ m, t ≤ m ∧ k ∈ (w m).served.map Done.conn := by
  obtain ⟨j, hj⟩ := List.getElem?_of_mem hp
  unfold pending at hj
  rw [List.getElem?_drop] at hj
  obtain ⟨d, i, hi⟩ := gets_worker hc hn (queue_endless h hs) (queue_fair hf hs) (queue_calm hcalm)
    (fun t => by obtain ⟨evs, he, -⟩ := runs_at h t; exact open_limit hc he) hj (by omega)
  rcases keeps_conn h hv hk d with hkeep | ⟨h1, h2⟩
  · exact ⟨t + d, by omega, hkeep⟩
  · obtain ⟨m, hm, hm'⟩ := served_handled h hf hs hi h1 h2
    exact ⟨m, by omega, hm'⟩

end

/-- C143, what holds: under every fair schedule, an admitted client is served at some time, or it was one that found the queue full. -/
theorem C143_partial (x : World) (cap n : Nat) (st : St) (w : Nat → WSt) (lab : Nat → Option Ev) (t k : Nat) (hc : 0 < cap) (hn : 0 < n)
    (h : Endless x (initial cap n st) w lab) (hf : Fair x w lab) (hcalm : Calm lab) (hs : ∀ t, (w t).srv.stopped = false)
    (hk : k ∈ (w t).admitted) :
    ∃ m, t ≤ m ∧ (k ∈ (w m).served.map Done.conn ∨ ∃ v ∈ (w m).srv.q.dropped, (w m).conn v = k) := by
  obtain ⟨evs, hr, -⟩ := runs_at h t
  rcases List.mem_append.mp ((books hc hr).each.mem_iff.mp hk) with hk | hk
  · exact ⟨t, Nat.le_refl _, Or.inl hk⟩
  obtain ⟨v, hv, hk⟩ := List.mem_map.mp hk
  have place : ∀ t, v ∈ (w t).srv.fds → v ∈ pending (w t).srv.q ∨ WPc.handle v ∈ (w t).srv.q.workers ∨ v ∈ (w t).srv.q.dropped ∨
      v ∈ (w t).srv.q.prod.hand := by
    intro t hv
    obtain ⟨evs, hr, -⟩ := runs_at h t
    obtain ⟨evs', hr'⟩ := srv_runs hr
    exact ((C79_apart x.limit cap n hc evs' _ hr').2.1 v).mp hv
  have settled : ∀ t, v ∈ (w t).srv.fds → (w t).conn v = k → v ∉ (w t).srv.q.prod.hand →
      ∃ m, t ≤ m ∧ (k ∈ (w m).served.map Done.conn ∨ ∃ v ∈ (w m).srv.q.dropped, (w m).conn v = k) := by
    intro t hv hk hh
    rcases place t hv with hp | hp | hp | hp
    · obtain ⟨m, hm, hm'⟩ := served_queued hc hn h hf hcalm hs hp hv hk
      exact ⟨m, hm, Or.inl hm'⟩
    · obtain ⟨i, hi⟩ := List.getElem?_of_mem hp
      obtain ⟨m, hm, hm'⟩ := served_handled h hf hs hi hv hk
      exact ⟨m, hm, Or.inl hm'⟩
    · exact ⟨t, Nat.le_refl _, Or.inr ⟨v, hp, hk⟩⟩
    · exact absurd hp hh
  obtain ⟨d, hd⟩ := leaves_hand hc hn (queue_endless h hs) (queue_fair hf hs) (queue_calm hcalm) t
  rcases keeps_conn h hv hk d with hkeep | ⟨h1, h2⟩
  · exact ⟨t + d, by omega, Or.inl hkeep⟩
  · obtain ⟨m, hm, hm'⟩ := settled (t + d) h1 h2 (by rw [hd]; simp)
    exact ⟨m, by omega, hm'⟩

/-- A socket is turned away when the accepting thread has it in its hands. -/
theorem dropped_hand {s s' : QSt} {a : Act} (h : Queue.step s a = some (ok s')) (hd : s'.dropped ≠ s.dropped) : s.prod.hand.length = 1 := by
  cases a with
  | accept v b =>
    simp only [Queue.step] at h
    split at h
    · split at h
      · cases h; exact absurd rfl hd
      · cases h; exact absurd rfl hd
    · cases h
  | prod =>
    simp only [Queue.step, prodStep] at h
    split at h
    · cases h
    · rename_i hp; rw [hp]; rfl
    · rename_i hp; rw [hp]; rfl
    · rename_i hp; rw [hp]; rfl
    · rename_i hp; rw [hp]; rfl
    · rename_i hp; rw [hp]; rfl
    · rename_i hp; rw [hp]; rfl
    · cases h; exact absurd rfl hd
    · cases h
  | signal w =>
    simp only [Queue.step] at h
    split at h
    · split at h
      · cases h
      · cases h; exact absurd rfl hd
    · split at h
      · cases h; exact absurd rfl hd
      · cases h
    · cases h
  | spurious i =>
    simp only [Queue.step] at h
    split at h
    · cases h; exact absurd rfl hd
    · cases h
  | worker i => exact absurd (worker_prod h).2 hd

/-- C143 when the process may not have more descriptors than the queue has places: nobody finds the queue full, and it is as claimed. -/
theorem C143_room (x : World) (cap n : Nat) (st : St) (w : Nat → WSt) (lab : Nat → Option Ev) (t k : Nat) (hc : 0 < cap) (hn : 0 < n)
    (hl : x.limit ≤ cap)
    (h : Endless x (initial cap n st) w lab) (hf : Fair x w lab) (hcalm : Calm lab) (hs : ∀ t, (w t).srv.stopped = false)
    (hk : k ∈ (w t).admitted) : ∃ m, t ≤ m ∧ k ∈ (w m).served.map Done.conn := by
  have hq := queue_endless h hs
  have hno : ∀ t, (w t).srv.q.dropped = [] := by
    intro t
    induction t with
    | zero => rw [h.start]; rfl
    | succ t ih =>
      have hst := hq.next t
      split at hst
      · rw [hst]; exact ih
      · by_contra hne
        obtain ⟨evs, hr, -⟩ := runs_at h t
        have h1 := open_limit hc hr
        have hd : (w (t + 1)).srv.q.dropped ≠ (w t).srv.q.dropped := by rw [ih]; exact hne
        have h2 := (C52_bounded cap n hc _ (reach_at hq t)).2.2 _ _ hst hd
        have h3 := dropped_hand hst hd
        omega
  obtain ⟨m, hm, hx | ⟨v, hv, -⟩⟩ := C143_partial x cap n st w lab t k hc hn h hf hcalm hs hk
  · exact ⟨m, hm, hx⟩
  · rw [hno m] at hv; cases hv

/-- C143 for a client that makes a call: its handler is run on its call, at some time, unless it found the queue full. -/
theorem C143_call (x : World) (cap n l : Nat) (st : St) (w : Nat → WSt) (lab : Nat → Option Ev) (t k : Nat) (c : Call) (f : Nat)
    (hc : 0 < cap) (hn : 0 < n) (hu : ∀ k, UserKeeps (x.env k)) (hl : st.live = List.replicate l ⟨0, [], []⟩)
    (h : Endless x (initial cap n st) w lab) (hf : Fair x w lab) (hcalm : Calm lab) (hs : ∀ t, (w t).srv.stopped = false)
    (hso : ∀ t, lab t ≠ some (.connect 0)) (hk : k ∈ (w t).admitted) (hv : Calls x st.live k c f) :
    ∃ m, t ≤ m ∧ ((∃ d e, d ∈ (w m).served ∧ d.conn = k ∧ d.events = [e] ∧ RunOn f c e) ∨
      ∃ v ∈ (w m).srv.q.dropped, (w m).conn v = k) := by
  obtain ⟨m, hm, hx | hx⟩ := C143_partial x cap n st w lab t k hc hn h hf hcalm hs hk
  · obtain ⟨d, hd, hdk⟩ := List.mem_map.mp hx
    obtain ⟨evs, hr, hevs⟩ := runs_at h m
    obtain ⟨e, h1, h2⟩ := (C142_partial x cap n l st evs (w m) k c f hc hu hl (fun hmem => by
      obtain ⟨m', hm'⟩ := hevs _ hmem
      exact hso m' hm') hr hv).1 d hd hdk
    exact ⟨m, hm, Or.inl ⟨d, e, hd, hdk, h1, h2⟩⟩
  · exact ⟨m, hm, Or.inr hx⟩

/-! ### examples -/

theorem run_split {x : World} : ∀ {a b : List Ev} {w w' : WSt}, run x w (a ++ b) = some w' → ∃ w1, run x w a = some w1 ∧ run x w1 b = some w' := by
  intro a
  induction a with
  | nil => intro b w w' h; exact ⟨w, rfl, h⟩
  | cons e a ih =>
    intro b w w' h
    simp only [List.cons_append, run] at h ⊢
    split at h
    · exact ih h
    · cases h

/-- A finite run that ends at rest, continued by doing nothing. -/
theorem endless_of_run {x : World} {w0 wf : WSt} {evs : List Ev} (h : run x w0 evs = some wf) (hs : wf.srv.stopped = false)
    (hq : Quiet wf.srv.q) :
    ∃ w lab, Endless x w0 w lab ∧ Fair x w lab ∧ Calm lab ∧ (∀ t, (w t).srv.stopped = false) ∧
      (∀ t, evs.length ≤ t → w t = wf) ∧ ∀ t, lab t = evs[t]? := by
  have htake : ∀ t, ∃ w', run x w0 (evs.take t) = some w' ∧ run x w' (evs.drop t) = some wf := by
    intro t
    rw [← List.take_append_drop t evs] at h
    exact run_split h
  choose w hw1 hw2 using htake
  have hend : ∀ t, evs.length ≤ t → w t = wf := by
    intro t ht
    have := hw2 t
    rw [List.drop_eq_nil_of_le ht] at this
    cases this; rfl
  refine ⟨w, fun t => evs[t]?, ⟨?_, fun t => ?_⟩, ?_, ⟨evs.length, fun m hm i => by
    simp only [List.getElem?_eq_none hm]; simp⟩, fun t => ?_, hend, fun _ => rfl⟩
  · have := hw1 0
    rw [List.take_zero] at this
    cases this; rfl
  · cases hl : evs[t]? with
    | none =>
      have ht := List.getElem?_eq_none_iff.mp hl
      simp only
      rw [hend t ht, hend (t + 1) (by omega)]
    | some e =>
      simp only
      have h1 := hw1 (t + 1)
      rw [List.take_add_one, hl, run_append _ (hw1 t)] at h1
      simp only [Option.toList_some, run] at h1
      split at h1
      · rename_i w' hw'
        cases h1
        exact hw'
      · cases h1
  · intro th t hm
    exfalso
    obtain ⟨a, ha, hstep⟩ := hm (t + evs.length) (by omega)
    rw [hend _ (by omega)] at hstep
    exact hstep ((step_thread_none hs (acts_inner ha)).mpr (hq a (acts_inner ha)))
  · cases hb : (w t).srv.stopped with
    | false => rfl
    | true =>
      have := (stopped_runs (runs_of_run (hw2 t)) hb).1
      rw [← this, hs] at hb
      cases hb

/-- C143 is false of the code: the third of three clients finds the queue full and waits for ever. -/
theorem C143_refuted : ¬ C143_statement := by
  intro h
  have e : (run sampleWorld (initial 2 1 openSt) crowd).map (fun w => (w.srv.q.prod, w.srv.q.workers, w.srv.stopped,
      w.served.map Done.conn, w.admitted)) = some (.accept, [.waiting], false, [0, 1], [0, 1, 2]) := by decide +kernel
  obtain ⟨wf, hw, hs⟩ := Option.map_eq_some_iff.mp e
  simp only [Prod.mk.injEq] at hs
  obtain ⟨h1, h2, h3, h4, h5⟩ := hs
  obtain ⟨w, lab, k1, k2, k3, k4, k5, -⟩ := endless_of_run hw h3 (quiet_of h1 h2)
  obtain ⟨m, hm, hx⟩ := h sampleWorld 2 1 openSt w lab crowd.length 2 (by decide) (by decide) k1 k2 k3 k4
    (by rw [k5 _ (Nat.le_refl _), h5]; simp)
  rw [k5 m hm, h4] at hx
  revert hx
  decide

/-- `C143_partial`, `C143_call`: two clients after each other; both calls are carried out. -/
example : ∃ w lab, Endless callWorld (initial 2 1 openSt) w lab ∧ Fair callWorld w lab ∧ Calm lab ∧
    ∀ k, k < 2 → ∃ m d e, d ∈ (w m).served ∧ d.conn = k ∧ d.events = [e] ∧ RunOn 1 (theCall k) e := by
  have e : (run callWorld (initial 2 1 openSt) twice).map (fun w => (w.srv.q.prod, w.srv.q.workers, w.srv.stopped,
      w.srv.q.dropped, w.admitted)) = some (.accept, [.waiting], false, [], [0, 1]) := by decide +kernel
  obtain ⟨wf, hw, hs⟩ := Option.map_eq_some_iff.mp e
  simp only [Prod.mk.injEq] at hs
  obtain ⟨h1, h2, h3, h4, h5⟩ := hs
  obtain ⟨w, lab, k1, k2, k3, k4, k5, k6⟩ := endless_of_run hw h3 (quiet_of h1 h2)
  refine ⟨w, lab, k1, k2, k3, fun k hk => ?_⟩
  have hso : ∀ t, lab t ≠ some (.connect 0) := by
    intro t ht
    rw [k6] at ht
    have : Ev.connect 0 ∈ twice := List.mem_of_getElem? ht
    simp [twice, putEvs, takeEvs] at this
  obtain ⟨m, hm, ⟨d, ev, hd⟩ | ⟨v, hv, -⟩⟩ := C143_call callWorld 2 1 1 openSt w lab twice.length k (theCall k) 1 (by decide) (by decide)
    callWorld_keeps rfl k1 k2 k3 k4 hso (by rw [k5 _ (Nat.le_refl _), h5]; simp; omega) (theCall_calls k)
  · exact ⟨m, d, ev, hd⟩
  · rw [k5 m hm, h4] at hv; cases hv

/-- `C143_room`: two descriptors and two places. -/
example : ∃ w lab, Endless { callWorld with limit := 2 } (initial 2 1 openSt) w lab ∧ Fair { callWorld with limit := 2 } w lab ∧
    ∃ m, 1 ∈ (w m).served.map Done.conn := by
  have e : (run { callWorld with limit := 2 } (initial 2 1 openSt) twice).map (fun w => (w.srv.q.prod, w.srv.q.workers, w.srv.stopped,
      w.admitted)) = some (.accept, [.waiting], false, [0, 1]) := by decide +kernel
  obtain ⟨wf, hw, hs⟩ := Option.map_eq_some_iff.mp e
  simp only [Prod.mk.injEq] at hs
  obtain ⟨h1, h2, h3, h5⟩ := hs
  obtain ⟨w, lab, k1, k2, k3, k4, k5, k6⟩ := endless_of_run hw h3 (quiet_of h1 h2)
  obtain ⟨m, -, hm⟩ := C143_room { callWorld with limit := 2 } 2 1 openSt w lab twice.length 1 (by decide) (by decide) (Nat.le_refl _) k1 k2 k3 k4
    (by rw [k5 _ (Nat.le_refl _), h5]; simp)
  exact ⟨w, lab, k1, k2, m, hm⟩

end Wayuu.Whole
