import Verif.Props.SharedMemory
/-
C131: nobody waits for `ws_mutex` for ever (ws.c:671-693, 792-806), on the threads of `Model/Shared.lean`.
-/
namespace Wayuu.Shared
open Spec

/-- C131: whenever a thread has the mutex, it gives it back after at most 13 steps of its own, none of which waits for anything. -/
def C131_statement : Prop :=
  ∀ (lvl n : Nat) (setup : Setup) (turns : List Turn) (jobs : Nat → List Job) (sched : List Nat) (s : Sys) (t : Nat),
    run (start (program lvl n setup turns jobs)) sched = some s → s.owner = some t →
    ∃ k s', k ≤ 13 ∧ run s (List.replicate k t) = some s' ∧ s'.owner = none

/-- What a thread still has to do, if it has the mutex and may make `some k` steps before it gives it back, or has not (`none`). -/
def Tidy : Option Nat → List Instr → Prop
  | none, [] => True
  | some _, [] => False
  | none, .lock :: r => Tidy (some 13) r
  | some _, .lock :: _ => False
  | none, .unlock :: _ => False
  | some k, .unlock :: r => 1 ≤ k ∧ Tidy none r
  | none, .openLog :: r => Tidy none r
  | some k, .openLog :: r => 2 ≤ k ∧ Tidy (some (k - 2)) r
  | none, .rd _ :: r => Tidy none r
  | none, .wr _ :: r => Tidy none r
  | none, .setLog :: r => Tidy none r
  | none, .spawn _ :: r => Tidy none r
  | some k, .rd _ :: r => 1 ≤ k ∧ Tidy (some (k - 1)) r
  | some k, .wr _ :: r => 1 ≤ k ∧ Tidy (some (k - 1)) r
  | some k, .setLog :: r => 1 ≤ k ∧ Tidy (some (k - 1)) r
  | some k, .spawn _ :: r => 1 ≤ k ∧ Tidy (some (k - 1)) r

/-- The state of the threads as far as the mutex goes. -/
structure Mutual (s : Sys) : Prop where
  alive : ∀ t, s.owner = some t → t ∈ s.running
  held : ∀ t, s.owner = some t → ∃ k, k ≤ 13 ∧ Tidy (some k) (s.left t)
  free : ∀ t, s.owner ≠ some t → Tidy none (s.left t)

/-- One step of a thread that does not wait: the thread that has the mutex has fewer steps left. -/
theorem step_held {s : Sys} {t k : Nat} (hm : t ∈ s.running) (ho : s.owner = some t) (hk : Tidy (some k) (s.left t)) :
    ∃ s', step s t = some s' ∧ t ∈ s'.running ∧ (∀ u, u ∈ s.running → u ∈ s'.running) ∧ (∀ u, u ≠ t → s'.left u = s.left u) ∧
      ((s'.owner = none ∧ 1 ≤ k ∧ Tidy none (s'.left t)) ∨ (s'.owner = some t ∧ ∃ j, j < k ∧ Tidy (some j) (s'.left t))) := by
  unfold step
  rw [if_pos hm]
  cases hl : s.left t with
  | nil => rw [hl] at hk; exact hk.elim
  | cons x r =>
    rw [hl] at hk
    cases x with
    | lock => exact hk.elim
    | unlock =>
      exact ⟨{ s.advance t .rel r with owner := none }, if_pos ho, hm, fun u hu => hu, fun u hu => by simp [Sys.advance, hu],
        .inl ⟨rfl, hk.1, by simpa [Sys.advance] using hk.2⟩⟩
    | rd l =>
      obtain ⟨h1, h2⟩ := hk
      exact ⟨_, rfl, hm, fun u hu => hu, fun u hu => by simp [Sys.advance, hu], .inr ⟨ho, k - 1, by omega, by simpa [Sys.advance] using h2⟩⟩
    | wr l =>
      obtain ⟨h1, h2⟩ := hk
      exact ⟨_, rfl, hm, fun u hu => hu, fun u hu => by simp [Sys.advance, hu], .inr ⟨ho, k - 1, by omega, by simpa [Sys.advance] using h2⟩⟩
    | spawn v =>
      obtain ⟨h1, h2⟩ := hk
      exact ⟨_, rfl, List.mem_cons_of_mem _ hm, fun u hu => List.mem_cons_of_mem _ hu, fun u hu => by simp [Sys.advance, hu],
        .inr ⟨ho, k - 1, by omega, by simpa [Sys.advance] using h2⟩⟩
    | setLog =>
      obtain ⟨h1, h2⟩ := hk
      exact ⟨_, rfl, hm, fun u hu => hu, fun u hu => by simp [Sys.advance, hu], .inr ⟨ho, k - 1, by omega, by simpa [Sys.advance] using h2⟩⟩
    | openLog =>
      obtain ⟨h1, h2⟩ := hk
      refine ⟨_, rfl, hm, fun u hu => hu, fun u hu => by simp [Sys.advance, hu], .inr ⟨ho, ?_⟩⟩
      cases s.logSet with
      | true => exact ⟨k - 2, by omega, by simpa [Sys.advance] using h2⟩
      | false => exact ⟨k - 1, by omega, by simp [Sys.advance, Tidy]; exact ⟨by omega, h2⟩⟩

/-- One step of a thread that has not the mutex: it can be made unless another one has it, and the thread takes it. -/
theorem step_free {s : Sys} {t : Nat} (hm : t ∈ s.running) (hk : Tidy none (s.left t)) (hne : s.left t ≠ []) :
    ((∃ u, s.owner = some u) ∧ step s t = none) ∨
    ∃ s', step s t = some s' ∧ t ∈ s'.running ∧ (∀ u, u ∈ s.running → u ∈ s'.running) ∧ (∀ u, u ≠ t → s'.left u = s.left u) ∧
      ((s'.owner = s.owner ∧ Tidy none (s'.left t)) ∨ (s.owner = none ∧ s'.owner = some t ∧ Tidy (some 13) (s'.left t))) := by
  unfold step
  rw [if_pos hm]
  cases hl : s.left t with
  | nil => exact absurd hl hne
  | cons x r =>
    rw [hl] at hk
    cases x with
    | lock =>
      cases hown : s.owner with
      | some u => exact .inl ⟨⟨u, rfl⟩, by simp⟩
      | none =>
        right
        refine ⟨{ s.advance t .acq r with owner := some t }, if_pos rfl, hm, fun u hu => hu, fun u hu => by simp [Sys.advance, hu], .inr ⟨rfl, rfl, ?_⟩⟩
        simp [Sys.advance]; exact hk
    | unlock => exact hk.elim
    | rd l => exact .inr ⟨_, rfl, hm, fun u hu => hu, fun u hu => by simp [Sys.advance, hu], .inl ⟨rfl, by simp [Sys.advance]; exact hk⟩⟩
    | wr l => exact .inr ⟨_, rfl, hm, fun u hu => hu, fun u hu => by simp [Sys.advance, hu], .inl ⟨rfl, by simp [Sys.advance]; exact hk⟩⟩
    | spawn v =>
      exact .inr ⟨_, rfl, List.mem_cons_of_mem _ hm, fun u hu => List.mem_cons_of_mem _ hu, fun u hu => by simp [Sys.advance, hu],
        .inl ⟨rfl, by simp [Sys.advance]; exact hk⟩⟩
    | setLog => exact .inr ⟨_, rfl, hm, fun u hu => hu, fun u hu => by simp [Sys.advance, hu], .inl ⟨rfl, by simp [Sys.advance]; exact hk⟩⟩
    | openLog =>
      refine .inr ⟨_, rfl, hm, fun u hu => hu, fun u hu => by simp [Sys.advance, hu], .inl ⟨rfl, ?_⟩⟩
      cases s.logSet <;> simpa [Sys.advance, Tidy] using hk

theorem step_running {s s' : Sys} {t : Nat} (h : step s t = some s') : t ∈ s.running ∧ s.left t ≠ [] := by
  unfold step at h
  split at h
  · rename_i hm
    refine ⟨hm, fun e => ?_⟩
    rw [e] at h
    cases h
  · cases h

theorem Mutual.step {s s' : Sys} {t : Nat} (h : Mutual s) (hs : Shared.step s t = some s') : Mutual s' := by
  obtain ⟨hm, hne⟩ := step_running hs
  by_cases ho : s.owner = some t
  · obtain ⟨k, hk, hk'⟩ := h.held t ho
    obtain ⟨s1, h1, h2, -, h3, h4⟩ := step_held hm ho hk'
    rw [hs] at h1
    cases h1
    rcases h4 with ⟨h4, -, h5⟩ | ⟨h4, j, hj, h5⟩
    · refine ⟨fun u hu => (by rw [h4] at hu; cases hu), fun u hu => (by rw [h4] at hu; cases hu), fun u _ => ?_⟩
      by_cases e : u = t
      · rw [e]; exact h5
      · rw [h3 u e]; exact h.free u (by rw [ho]; simpa using fun x => e x.symm)
    · refine ⟨fun u hu => ?_, fun u hu => ?_, fun u hu => ?_⟩
      · rw [h4] at hu; cases hu; exact h2
      · rw [h4] at hu; cases hu; exact ⟨j, by omega, h5⟩
      · have e : u ≠ t := fun e => hu (by rw [h4, e])
        rw [h3 u e]; exact h.free u (by rw [ho]; simpa using fun x => e x.symm)
  · rcases step_free hm (h.free t ho) hne with ⟨-, h1⟩ | ⟨s1, h1, h2, h3, h4, h5⟩
    · rw [hs] at h1; cases h1
    · rw [hs] at h1
      cases h1
      rcases h5 with ⟨h5, h6⟩ | ⟨h5, h6, h7⟩
      · refine ⟨fun u hu => h3 u (h.alive u (h5 ▸ hu)), fun u hu => ?_, fun u hu => ?_⟩
        · have e : u ≠ t := fun e => ho (by rw [← h5, hu, e])
          rw [h4 u e]; exact h.held u (h5 ▸ hu)
        · by_cases e : u = t
          · rw [e]; exact h6
          · rw [h4 u e]; exact h.free u (h5 ▸ hu)
      · refine ⟨fun u hu => ?_, fun u hu => ?_, fun u hu => ?_⟩
        · rw [h6] at hu; cases hu; exact h2
        · rw [h6] at hu; cases hu; exact ⟨13, by omega, h7⟩
        · have e : u ≠ t := fun e => hu (by rw [h6, e])
          rw [h4 u e]; exact h.free u (by rw [h5]; simp)

theorem Mutual.run {s' : Sys} : ∀ (sched : List Nat) {s : Sys}, Mutual s → Shared.run s sched = some s' → Mutual s'
  | [], s, h, hr => by cases hr; exact h
  | t :: ts, s, h, hr => by
    simp only [Shared.run] at hr
    cases hs : Shared.step s t with
    | none => rw [hs] at hr; cases hr
    | some s1 =>
      rw [hs] at hr
      exact Mutual.run ts (h.step hs) hr

/-- The thread that has the mutex gives it back. -/
theorem release {t : Nat} : ∀ (k : Nat) {s : Sys}, t ∈ s.running → s.owner = some t → Tidy (some k) (s.left t) →
    ∃ j s', 1 ≤ j ∧ j ≤ k ∧ run s (List.replicate j t) = some s' ∧ s'.owner = none ∧
      ∀ u, u ≠ t → s'.left u = s.left u ∧ (u ∈ s.running → u ∈ s'.running) := by
  intro k
  induction k using Nat.strongRecOn with
  | _ k ih =>
    intro s hm ho hk
    obtain ⟨s1, h1, h2, h3, h4, h5⟩ := step_held hm ho hk
    rcases h5 with ⟨h5, h7, -⟩ | ⟨h5, j, hj, h6⟩
    · exact ⟨1, s1, by omega, by omega, by simp [run, h1], h5, fun u hu => ⟨h4 u hu, h3 u⟩⟩
    · obtain ⟨i, s2, i1, i2, i3, i4, i5⟩ := ih j hj h2 h5 h6
      exact ⟨i + 1, s2, by omega, by omega, by rw [List.replicate_succ]; simp [run, h1, i3], i4,
        fun u hu => ⟨((i5 u hu).1).trans (h4 u hu), fun hx => (i5 u hu).2 (h3 u hx)⟩⟩

theorem Tidy.append : ∀ {p q : List Instr} {o : Option Nat}, Tidy o p → Tidy none q → Tidy o (p ++ q)
  | [], _, none, _, h => h
  | [], _, some _, h, _ => h.elim
  | .lock :: r, _, none, h1, h2 => Tidy.append (p := r) h1 h2
  | .lock :: _, _, some _, h1, _ => h1.elim
  | .unlock :: _, _, none, h1, _ => h1.elim
  | .unlock :: _, _, some _, h1, h2 => ⟨h1.1, Tidy.append h1.2 h2⟩
  | .openLog :: r, _, none, h1, h2 => Tidy.append (p := r) h1 h2
  | .openLog :: _, _, some _, h1, h2 => ⟨h1.1, Tidy.append h1.2 h2⟩
  | .rd _ :: r, _, none, h1, h2 => Tidy.append (p := r) h1 h2
  | .wr _ :: r, _, none, h1, h2 => Tidy.append (p := r) h1 h2
  | .setLog :: r, _, none, h1, h2 => Tidy.append (p := r) h1 h2
  | .spawn _ :: r, _, none, h1, h2 => Tidy.append (p := r) h1 h2
  | .rd _ :: _, _, some _, h1, h2 => ⟨h1.1, Tidy.append h1.2 h2⟩
  | .wr _ :: _, _, some _, h1, h2 => ⟨h1.1, Tidy.append h1.2 h2⟩
  | .setLog :: _, _, some _, h1, h2 => ⟨h1.1, Tidy.append h1.2 h2⟩
  | .spawn _ :: _, _, some _, h1, h2 => ⟨h1.1, Tidy.append h1.2 h2⟩

theorem Tidy.flatMap {α : Type} (f : α → List Instr) : ∀ (xs : List α), (∀ x ∈ xs, Tidy none (f x)) → Tidy none (xs.flatMap f)
  | [], _ => trivial
  | x :: xs, h => by
    rw [List.flatMap_cons]
    exact (h x (by simp)).append (Tidy.flatMap f xs (fun y hy => h y (by simp [hy])))

/-- Nothing but accesses and new threads. -/
theorem Tidy.plain : ∀ (p : List Instr), (∀ i ∈ p, i.plain ∨ ∃ u, i = .spawn u) → Tidy none p
  | [], _ => trivial
  | .lock :: _, h => by rcases h .lock (by simp) with h | ⟨u, h⟩ <;> cases h
  | .unlock :: _, h => by rcases h .unlock (by simp) with h | ⟨u, h⟩ <;> cases h
  | .openLog :: r, h => Tidy.plain r (fun i hi => h i (by simp [hi]))
  | .rd _ :: r, h => Tidy.plain r (fun i hi => h i (by simp [hi]))
  | .wr _ :: r, h => Tidy.plain r (fun i hi => h i (by simp [hi]))
  | .setLog :: r, h => Tidy.plain r (fun i hi => h i (by simp [hi]))
  | .spawn _ :: r, h => Tidy.plain r (fun i hi => h i (by simp [hi]))

theorem Tidy.bal : ∀ {p : List Instr} {o : Option Nat}, Tidy o p → Shared.bal o.isSome p = some false
  | [], none, _ => rfl
  | [], some _, h => h.elim
  | .lock :: r, none, h1 => Tidy.bal (p := r) h1
  | .lock :: _, some _, h1 => h1.elim
  | .unlock :: _, none, h1 => h1.elim
  | .unlock :: r, some _, h1 => Tidy.bal (p := r) h1.2
  | .openLog :: r, none, h1 => Tidy.bal (p := r) h1
  | .openLog :: r, some k, h1 => Tidy.bal (p := r) (o := some (k - 2)) h1.2
  | .rd _ :: r, none, h1 => Tidy.bal (p := r) h1
  | .wr _ :: r, none, h1 => Tidy.bal (p := r) h1
  | .setLog :: r, none, h1 => Tidy.bal (p := r) h1
  | .spawn _ :: r, none, h1 => Tidy.bal (p := r) h1
  | .rd _ :: r, some k, h1 => Tidy.bal (p := r) (o := some (k - 1)) h1.2
  | .wr _ :: r, some k, h1 => Tidy.bal (p := r) (o := some (k - 1)) h1.2
  | .setLog :: r, some k, h1 => Tidy.bal (p := r) (o := some (k - 1)) h1.2
  | .spawn _ :: r, some k, h1 => Tidy.bal (p := r) (o := some (k - 1)) h1.2

/-- What is in order with the mutex and without does not touch it. -/
theorem Tidy.both {a b : Bool} : ∀ {p : List Instr}, Ok True True false p a → Ok True True true p b → Tidy none p
  | [], _, _ => trivial
  | .lock :: _, _, h => by cases h.1
  | .unlock :: _, h, _ => by cases h.1
  | .openLog :: r, h1, h2 => Tidy.both (p := r) h1 h2
  | .rd _ :: r, h1, h2 => Tidy.both (p := r) h1.2.2 h2.2.2
  | .wr _ :: r, h1, h2 => Tidy.both (p := r) h1.2.2.2.2 h2.2.2.2.2
  | .setLog :: r, h1, h2 => Tidy.both (p := r) h1.2 h2.2
  | .spawn _ :: r, h1, h2 => Tidy.both (p := r) h1.2 h2.2

theorem tidy_message (lvl lv : Nat) : Tidy none (message lvl lv) := Tidy.both (ok_message false lvl lv) (ok_message true lvl lv)

/-- A message while the thread has the mutex takes 9 steps at most. -/
theorem tidy_held_message (lvl lv : Nat) {r : List Instr} (h : ∀ k, 1 ≤ k → Tidy (some k) r) : Tidy (some 10) (message lvl lv ++ r) := by
  unfold message timestamp
  split
  · exact ⟨by omega, h 9 (by omega)⟩
  · exact ⟨by omega, by omega, by omega, by omega, by omega, by omega, by omega, by omega, h 1 (by omega)⟩

theorem tidy_dequeue (waits : Nat) (wrap : Bool) : Tidy none (dequeue waits wrap) := by
  have h : ∀ (k n : Nat), 12 ≤ k → Tidy (some k) ((List.replicate n [Instr.rd .size, .unlock, .lock]).flatten ++
      ([.rd .size, .rd .elements, .rd .front, .rd .size, .rd .size, .wr .size, .rd .front, .wr .front, .rd .front, .rd .capacity] ++
      ((if wrap then [.wr .front] else []) ++ [.unlock]))) := by
    intro k n
    induction n generalizing k with
    | zero =>
      intro hk
      cases wrap <;> simp [Tidy] <;> omega
    | succ n ih =>
      intro hk
      rw [List.replicate_succ, List.flatten_cons]
      exact ⟨by omega, by omega, ih 13 (by omega)⟩
  have := h 12 waits (by omega)
  unfold dequeue
  simp only [List.append_assoc] at this ⊢
  exact ⟨by omega, this⟩

theorem tidy_job (lvl : Nat) (j : Job) : Tidy none (j.instrs lvl) :=
  ((tidy_dequeue j.waits j.wrap).append (q := [.rd .settings]) trivial).append (Tidy.both (ok_course false lvl j.course) (ok_course true lvl j.course))

theorem tidy_allowed (lvl : Nat) (first gone : Bool) : Tidy none (allowed lvl first gone) := by
  unfold allowed
  refine Tidy.append (Tidy.append (Tidy.append (p := .rd .lists :: _) ?_ trivial) ?_) trivial
  · cases first <;> trivial
  · cases gone
    · trivial
    · exact tidy_message lvl 4

theorem tidy_turn (lvl : Nat) (c : Turn) : Tidy none (c.instrs lvl) := by
  cases c with
  | denied first gone => exact (tidy_allowed lvl first gone).append (tidy_message lvl 1)
  | queued first gone wrap =>
    unfold Turn.instrs
    simp only [List.append_assoc]
    refine (tidy_allowed lvl first gone).append ?_
    cases wrap <;> simp [Tidy]
  | dropped first gone =>
    unfold Turn.instrs
    simp only [List.append_assoc]
    refine (tidy_allowed lvl first gone).append ?_
    exact ⟨by omega, by omega, by omega, tidy_held_message lvl 3 (fun k hk => ⟨hk, trivial⟩)⟩

theorem tidy_program (lvl n : Nat) (setup : Setup) (turns : List Turn) (jobs : Nat → List Job) (t : Nat) :
    Tidy none (program lvl n setup turns jobs t) := by
  unfold program
  split
  · refine Tidy.append (Tidy.append (Tidy.append ?_ ?_) (tidy_message lvl 2)) (Tidy.flatMap _ _ (fun x _ => tidy_turn lvl x))
    · exact Tidy.plain _ (fun i hi => .inl (plain_setup lvl setup i hi))
    · refine Tidy.plain _ (fun i hi => .inr ?_)
      obtain ⟨x, -, rfl⟩ := List.mem_map.1 hi
      exact ⟨_, rfl⟩
  · split
    · exact Tidy.flatMap _ _ (fun x _ => tidy_job lvl x)
    · trivial

theorem mutual_reached {lvl n : Nat} {setup : Setup} {turns : List Turn} {jobs : Nat → List Job} {sched : List Nat} {s : Sys}
    (hr : run (start (program lvl n setup turns jobs)) sched = some s) : Mutual s := by
  refine Mutual.run sched ⟨fun t h => ?_, fun t h => ?_, fun t _ => tidy_program lvl n setup turns jobs t⟩ hr
  · cases h
  · cases h

/-- C131: whoever has the mutex gives it back after at most 13 steps and waits for nothing before. -/
theorem C131_release : C131_statement := by
  intro lvl n setup turns jobs sched s t hr ho
  have h := mutual_reached hr
  obtain ⟨k, hk, hk'⟩ := h.held t ho
  obtain ⟨j, s', -, h2, h3, h4, -⟩ := release k (h.alive t ho) ho hk'
  exact ⟨j, s', by omega, h3, h4⟩

/-- C131: a thread that has something to do can go on after at most 13 steps of one thread (the one that has the mutex). -/
theorem C131_progress (lvl n : Nat) (setup : Setup) (turns : List Turn) (jobs : Nat → List Job) (sched : List Nat) (s : Sys) (t : Nat)
    (hr : run (start (program lvl n setup turns jobs)) sched = some s) (ht : t ∈ s.running) (hne : s.left t ≠ []) :
    ∃ u k s' s'', k ≤ 13 ∧ run s (List.replicate k u) = some s' ∧ step s' t = some s'' := by
  have h := mutual_reached hr
  by_cases ho : s.owner = some t
  · obtain ⟨k, -, hk⟩ := h.held t ho
    obtain ⟨s1, h1, -⟩ := step_held ht ho hk
    exact ⟨t, 0, s, s1, by omega, rfl, h1⟩
  · rcases step_free ht (h.free t ho) hne with ⟨⟨u, hu⟩, -⟩ | ⟨s1, h1, -⟩
    · obtain ⟨k, hk, hk'⟩ := h.held u hu
      obtain ⟨j, s', -, h2, h3, h4, h5⟩ := release k (h.alive u hu) hu hk'
      have hut : t ≠ u := fun e => ho (by rw [hu, e])
      obtain ⟨h6, h7⟩ := h5 t hut
      rcases step_free (h7 ht) (by rw [h6]; exact h.free t ho) (by rw [h6]; exact hne) with ⟨⟨w, hw⟩, -⟩ | ⟨s1, h1, -⟩
      · rw [h4] at hw; cases hw
      · exact ⟨u, j, s', s1, by omega, h3, h1⟩
    · exact ⟨t, 0, s, s1, by omega, rfl, h1⟩

/-- Threads that are there and have the mutex free get through their programs one after the other. -/
theorem finish : ∀ (ts : List Nat) (s : Sys), s.owner = none → (∀ t ∈ ts, t ∈ s.running) → (∀ t, Tidy none (s.left t)) →
    ∃ sched s', run s sched = some s' ∧ s'.owner = none ∧ (∀ t ∈ ts, s'.left t = []) ∧ (∀ t, t ∉ ts → s'.left t = s.left t) ∧
      ∀ t, t ∈ s.running → t ∈ s'.running
  | [], s, ho, _, _ => ⟨[], s, rfl, ho, by simp, fun _ _ => rfl, fun _ h => h⟩
  | t :: ts, s, ho, hr, hp => by
    obtain ⟨s1, h1, h2⟩ := solo t [] (s.left t) false false s (Tidy.bal (hp t)) (hr t (by simp)) (by simp) (by simpa using ho)
    have hp1 : ∀ u, Tidy none (s1.left u) := by
      intro u
      by_cases e : u = t
      · rw [e, h1.left]; trivial
      · rw [h1.others u e]; exact hp u
    obtain ⟨sched, s2, i1, i2, i3, i4, i5⟩ := finish ts s1 (by simpa using h2) (fun u hu => h1.kept u (hr u (by simp [hu]))) hp1
    obtain ⟨sc, hsc⟩ := h1.ran
    refine ⟨sc ++ sched, s2, by rw [run_append, hsc]; exact i1, i2, fun u hu => ?_, fun u hu => ?_, fun u hu => i5 u (h1.kept u hu)⟩
    · by_cases e : u ∈ ts
      · exact i3 u e
      · rcases List.mem_cons.1 hu with rfl | hu
        · rw [i4 u e, h1.left]
        · exact absurd hu e
    · simp at hu
      rw [i4 u hu.2, h1.others u hu.1]

/-- A step takes nothing from a thread but what it does, and threads are there if they have been created. -/
structure Begun (n : Nat) (s : Sys) : Prop where
  main : 0 ∈ s.running
  workers : ∀ t, 1 ≤ t → t ≤ n → t ∈ s.running ∨ Instr.spawn t ∈ s.left 0
  rest : ∀ t, n < t → s.left t = []

theorem Begun.step {n : Nat} {s s' : Sys} {t : Nat} (h : Begun n s) (hs : Shared.step s t = some s') :
    Begun n s' := by
  obtain ⟨hm, hne⟩ := step_running hs
  unfold Shared.step at hs
  rw [if_pos hm] at hs
  have htn : t ≤ n := by
    by_contra hc
    exact hne (h.rest t (by omega))
  have key : ∀ (x : Instr) (r r' : List Instr), s.left t = x :: r → (∀ u, Instr.spawn u ∈ r → Instr.spawn u ∈ r') →
      (∀ u, x = .spawn u → u ∈ s'.running) → (∀ u, u ∈ s.running → u ∈ s'.running) →
      (∀ u, s'.left u = if u = t then r' else s.left u) → Begun n s' := by
    intro x r r' hl h1 h2 h3 h4
    refine ⟨h3 0 h.main, fun u hu1 hu2 => ?_, fun u hu => ?_⟩
    · rcases h.workers u hu1 hu2 with h5 | h5
      · exact .inl (h3 u h5)
      · rw [h4]
        by_cases e : 0 = t
        · subst e
          rw [hl] at h5
          rcases List.mem_cons.1 h5 with h5 | h5
          · exact .inl (h2 u h5.symm)
          · right; rw [if_pos rfl]; exact h1 u h5
        · right; rw [if_neg e]; exact h5
    · rw [h4, if_neg (by omega)]; exact h.rest u hu
  cases hl : s.left t with
  | nil => exact absurd hl hne
  | cons x r =>
    rw [hl] at hs
    cases x with
    | rd l => cases hs; exact key _ r r hl (fun _ h => h) (fun _ h => by cases h) (fun _ h => h) (fun _ => rfl)
    | wr l => cases hs; exact key _ r r hl (fun _ h => h) (fun _ h => by cases h) (fun _ h => h) (fun _ => rfl)
    | setLog => cases hs; exact key _ r r hl (fun _ h => h) (fun _ h => by cases h) (fun _ h => h) (fun _ => rfl)
    | spawn v =>
      cases hs
      exact key _ r r hl (fun _ h => h) (fun _ h => by cases h; exact List.mem_cons_self) (fun _ h => List.mem_cons_of_mem _ h) (fun _ => rfl)
    | openLog =>
      cases hs
      refine key _ r _ hl ?_ (fun _ h => by cases h) (fun _ h => h) (fun _ => rfl)
      intro u hu
      cases s.logSet
      · exact List.mem_cons_of_mem _ hu
      · exact hu
    | lock =>
      dsimp only at hs
      split at hs
      · cases hs; exact key _ r r hl (fun _ h => h) (fun _ h => by cases h) (fun _ h => h) (fun _ => rfl)
      · cases hs
    | unlock =>
      dsimp only at hs
      split at hs
      · cases hs; exact key _ r r hl (fun _ h => h) (fun _ h => by cases h) (fun _ h => h) (fun _ => rfl)
      · cases hs

theorem Begun.run {n : Nat} {s' : Sys} : ∀ (sched : List Nat) {s : Sys}, Begun n s →
    Shared.run s sched = some s' → Begun n s'
  | [], s, h, hr => by cases hr; exact h
  | t :: ts, s, h, hr => by
    simp only [Shared.run] at hr
    cases hs : Shared.step s t with
    | none => rw [hs] at hr; cases hr
    | some s1 =>
      rw [hs] at hr
      exact Begun.run ts (h.step hs) hr

/-- C131: no state the threads can get to is a dead end: they can all be brought to the end of what they have to do. -/
theorem C131_end (lvl n : Nat) (setup : Setup) (turns : List Turn) (jobs : Nat → List Job) (sched : List Nat) (s : Sys)
    (hr : run (start (program lvl n setup turns jobs)) sched = some s) :
    ∃ more s', run s more = some s' ∧ ∀ t, s'.left t = [] := by
  have hm := mutual_reached hr
  have hb : Begun n s := by
    refine Begun.run sched ⟨by simp [start], fun t h1 h2 => .inr ?_, fun t ht => ?_⟩ hr
    · have : Instr.spawn t ∈ (List.range n).map (fun i => Instr.spawn (i + 1)) :=
        List.mem_map.2 ⟨t - 1, by simp; omega, by simp; omega⟩
      show _ ∈ program lvl n setup turns jobs 0
      unfold program
      rw [if_pos rfl]
      exact List.mem_append_left _ (List.mem_append_left _ (List.mem_append_right _ this))
    · show program lvl n setup turns jobs t = []
      unfold program
      rw [if_neg (by omega), if_neg (by omega)]
  -- whoever has the mutex gets through
  obtain ⟨m1, s1, a1, a2, a3, a4, a5⟩ : ∃ m s1, run s m = some s1 ∧ s1.owner = none ∧ (∀ t, Tidy none (s1.left t)) ∧
      (∀ t, t ∈ s.running → t ∈ s1.running) ∧ Begun n s1 := by
    cases ho : s.owner with
    | none => exact ⟨[], s, rfl, ho, fun t => hm.free t (by rw [ho]; simp), fun _ h => h, hb⟩
    | some u =>
      obtain ⟨k, -, hk⟩ := hm.held u ho
      obtain ⟨s1, h1, h2⟩ := solo u [] (s.left u) true false s (Tidy.bal hk) (hm.alive u ho) (by simp) (by simpa using ho)
      obtain ⟨m, hmm⟩ := h1.ran
      refine ⟨m, s1, hmm, by simpa using h2, fun t => ?_, h1.kept, hb.run m hmm⟩
      by_cases e : t = u
      · rw [e, h1.left]; trivial
      · rw [h1.others t e]; exact hm.free t (by rw [ho]; simpa using fun x => e x.symm)
  -- then the thread that accepts connections
  obtain ⟨m2, s2, b1, b2, b3, b4, b5⟩ := finish [0] s1 a2 (by simpa using a5.main) a3
  have hb2 := a5.run m2 b1
  have h0 : s2.left 0 = [] := b3 0 (by simp)
  have hp2 : ∀ t, Tidy none (s2.left t) := by
    intro t
    by_cases e : t = 0
    · rw [e, h0]; trivial
    · rw [b4 t (by simpa using e)]; exact a3 t
  -- and the workers
  obtain ⟨m3, s3, c1, c2, c3, c4, c5⟩ := finish ((List.range n).map (· + 1)) s2 b2 (fun t ht => by
    obtain ⟨i, hi, rfl⟩ := List.mem_map.1 ht
    have hi := List.mem_range.1 hi
    rcases hb2.workers (i + 1) (by omega) (by omega) with h | h
    · exact h
    · rw [h0] at h; cases h) hp2
  refine ⟨m1 ++ (m2 ++ m3), s3, by rw [run_append, a1]; show run s1 _ = _; rw [run_append, b1]; exact c1, fun t => ?_⟩
  by_cases h1 : t ∈ (List.range n).map (· + 1)
  · exact c3 t h1
  · rw [c4 t h1]
    by_cases e : t = 0
    · rw [e]; exact h0
    · exact hb2.rest t (by
        by_contra hc
        exact h1 (List.mem_map.2 ⟨t - 1, by simp; omega, by omega⟩))

/-- C131_release and C131_progress apply: there are executions in which a worker has the mutex and another one waits for it. -/
theorem held_reached (lvl : Nat) (setup : Setup) (j : Job) : ∃ sched s, run (start (program lvl 2 setup [] (fun _ => [j]))) sched = some s ∧
    s.owner = some 1 ∧ 2 ∈ s.running ∧ s.left 2 ≠ [] ∧ step s 2 = none := by
  obtain ⟨sched, s, h1, h2, h3, h4, -⟩ := finish [0] (start (program lvl 2 setup [] (fun _ => [j]))) rfl (by simp [start])
    (fun t => tidy_program lvl 2 setup [] (fun _ => [j]) t)
  have hb : Begun 2 s := by
    refine Begun.run sched ⟨by simp [start], fun t h1 h2 => .inr ?_, fun t ht => ?_⟩ h1
    · have : Instr.spawn t ∈ (List.range 2).map (fun i => Instr.spawn (i + 1)) :=
        List.mem_map.2 ⟨t - 1, by simp; omega, by simp; omega⟩
      show _ ∈ program lvl 2 setup [] (fun _ => [j]) 0
      unfold program
      rw [if_pos rfl]
      exact List.mem_append_left _ (List.mem_append_left _ (List.mem_append_right _ this))
    · show program lvl 2 setup [] (fun _ => [j]) t = []
      unfold program
      rw [if_neg (by omega), if_neg (by omega)]
  have h0 : s.left 0 = [] := h3 0 (by simp)
  have hl : ∀ t, t = 1 ∨ t = 2 → s.left t = [j].flatMap (Job.instrs lvl) := by
    intro t ht
    rw [h4 t (by simp; omega)]
    show program lvl 2 setup [] (fun _ => [j]) t = _
    unfold program
    rw [if_neg (by omega), if_pos (by omega)]
  have hrun : ∀ t, t = 1 ∨ t = 2 → t ∈ s.running := by
    intro t ht
    rcases hb.workers t (by omega) (by omega) with h | h
    · exact h
    · rw [h0] at h; cases h
  obtain ⟨r, hr⟩ : ∃ r, [j].flatMap (Job.instrs lvl) = .lock :: r := ⟨_, rfl⟩
  refine ⟨sched ++ [1], { s.advance 1 .acq r with owner := some 1 }, ?_, rfl, hrun 2 (by omega), ?_, ?_⟩
  · rw [run_append, h1]
    show run s [1] = _
    simp [run, step, hrun 1 (by omega), hl 1 (by omega), hr, h2]
  · show (if 2 = 1 then r else s.left 2) ≠ []
    rw [if_neg (by omega), hl 2 (by omega), hr]
    simp
  · unfold step
    rw [if_pos (show 2 ∈ ({ s.advance 1 .acq r with owner := some 1 } : Sys).running from hrun 2 (by omega))]
    have : ({ s.advance 1 .acq r with owner := some 1 } : Sys).left 2 = .lock :: r := by
      show (if 2 = 1 then r else s.left 2) = _
      rw [if_neg (by omega), hl 2 (by omega), hr]
    rw [this]
    rfl

/-- C131_release, C131_progress and C131_end at such a state. -/
example (j : Job) : ∃ sched s, run (start (program 2 2 usual [] (fun _ => [j]))) sched = some s ∧
    (∃ k s', k ≤ 13 ∧ run s (List.replicate k 1) = some s' ∧ s'.owner = none) ∧
    (∃ u k s' s'', k ≤ 13 ∧ run s (List.replicate k u) = some s' ∧ step s' 2 = some s'') ∧
    ∃ more s', run s more = some s' ∧ ∀ t, s'.left t = [] := by
  obtain ⟨sched, s, hr, ho, h2, hl, -⟩ := held_reached 2 usual j
  exact ⟨sched, s, hr, C131_release _ _ _ _ _ _ _ _ hr ho, C131_progress _ _ _ _ _ _ _ _ hr h2 hl, C131_end _ _ _ _ _ _ _ hr⟩

end Wayuu.Shared
