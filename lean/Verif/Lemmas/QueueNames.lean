import Verif.Lemmas.Queue
/-
The queue does not look at what is put into it: a run of the queue on descriptors is a run on the names of the clients.
-/
namespace Wayuu.Queue
open Wayuu C

/-- The worker with the names `d`. -/
def WPc.as (d : Nat → Nat) : WPc → WPc
  | .check v => .check (d v)
  | .dec v => .dec (d v)
  | .inc v => .inc (d v)
  | .wrap v => .wrap (d v)
  | .unlock v => .unlock (d v)
  | .handle v => .handle (d v)
  | pc => pc

/-- The accepting thread with the names `d`. -/
def PPc.as (d : Nat → Nat) : PPc → PPc
  | .lock v => .lock (d v)
  | .test v => .test (d v)
  | .incSize v => .incSize (d v)
  | .incRear v => .incRear (d v)
  | .wrap v => .wrap (d v)
  | .store v => .store (d v)
  | pc => pc

/-- The ring with the names `d`. -/
def Ring.as (d : Nat → Nat) (r : Ring) : Ring := { r with elements := r.elements.map (Option.map d) }

/-- The queue with the names `d`. -/
def QSt.as (d : Nat → Nat) (s : QSt) : QSt :=
  { ring := s.ring.as d, owner := s.owner, prod := s.prod.as d, workers := s.workers.map (WPc.as d), accepted := s.accepted.map d,
    enqueued := s.enqueued.map d, dropped := s.dropped.map d, closed := s.closed.map d,
    delivered := s.delivered.map fun p => (p.1, d p.2) }

/-- The choice with the names `d`. -/
def Act.as (d : Nat → Nat) : Act → Act
  | .accept v b => .accept (d v) b
  | a => a

/-- The outcome with the names `d`. -/
def asC (d : Nat → Nat) (c : C QSt) : C QSt := c.bind fun s => ok (s.as d)

theorem initial_as (d : Nat → Nat) (cap n : Nat) : (initial cap n).as d = initial cap n := by
  simp [initial, QSt.as, Ring.as, ws_create_queue, PPc.as, WPc.as]

theorem setW_as (d : Nat → Nat) (s : QSt) (i : Nat) (pc : WPc) : (setW s i pc).as d = setW (s.as d) i (pc.as d) := by
  simp [setW, QSt.as, List.map_set]

theorem loadElem_as (d : Nat → Nat) (r : Ring) (i : Int) : loadElem (r.as d) i = (loadElem r i).bind fun v => ok (d v) := by
  unfold loadElem
  split
  · rfl
  · simp only [Ring.as, List.getElem?_map]
    cases r.elements[i.toNat]? with
    | none => rfl
    | some y => cases y <;> rfl

theorem storeElem_as (d : Nat → Nat) (r : Ring) (i : Int) (v : Nat) :
    storeElem (r.as d) i (d v) = (storeElem r i v).bind fun r => ok (r.as d) := by
  unfold storeElem
  split
  · rfl
  · simp only [Ring.as, List.length_map]
    split
    · simp [C.bind, List.map_set]
    · rfl

theorem prodStep_as (d : Nat → Nat) (s : QSt) : prodStep (s.as d) = (prodStep s).map (asC d) := by
  unfold prodStep
  cases hp : s.prod with
  | lock v =>
    simp only [QSt.as, hp, PPc.as]
    split <;> simp [asC, C.bind, QSt.as, PPc.as]
  | test v =>
    simp only [QSt.as, hp, PPc.as, Ring.as]
    split <;> simp [asC, C.bind, QSt.as, PPc.as, Ring.as]
  | wrap v =>
    simp only [QSt.as, hp, PPc.as, Ring.as]
    split <;> simp [asC, C.bind, QSt.as, PPc.as, Ring.as]
  | store v =>
    simp only [QSt.as, hp, PPc.as, storeElem_as]
    show some _ = some _
    congr 1
    cases h : storeElem s.ring s.ring.rear v with
    | ub f => simp only [Ring.as, h]; rfl
    | ok r => simp only [Ring.as, h, C.bind, ok_bind, asC, QSt.as, PPc.as, List.map_append, List.map_cons, List.map_nil]
  | _ => simp [QSt.as, hp, PPc.as, asC, C.bind, Ring.as]

theorem workerStep_as (d : Nat → Nat) (s : QSt) (i : Nat) : workerStep (s.as d) i = (workerStep s i).map (asC d) := by
  unfold workerStep
  have hw : (s.as d).workers[i]? = s.workers[i]?.map (WPc.as d) := by simp [QSt.as]
  rw [hw]
  cases s.workers[i]? with
  | none => rfl
  | some pc =>
    cases pc with
    | lock =>
      simp only [Option.map_some, WPc.as]
      show (if s.owner = none then _ else _) = _
      split <;> simp [asC, C.bind, setW, List.map_set, WPc.as, QSt.as, QSt.as]
    | relock =>
      simp only [Option.map_some, WPc.as]
      show (if s.owner = none then _ else _) = _
      split <;> simp [asC, C.bind, setW, List.map_set, WPc.as, QSt.as, QSt.as]
    | test =>
      simp only [Option.map_some, WPc.as]
      show (if s.ring.size = 0 then _ else _) = _
      split <;> simp [asC, C.bind, setW, List.map_set, WPc.as, QSt.as, QSt.as]
    | read =>
      simp only [Option.map_some, WPc.as]
      show some (loadElem (s.ring.as d) s.ring.front >>= _) = _
      rw [loadElem_as]
      cases h : loadElem s.ring s.ring.front with
      | ub f => rfl
      | ok v => simp [asC, C.bind, setW, List.map_set, WPc.as, QSt.as, ok_bind]
    | check v =>
      simp only [Option.map_some, WPc.as]
      show (if s.ring.size ≠ 0 then _ else _) = _
      split <;> simp [asC, C.bind, setW, List.map_set, WPc.as, QSt.as]
    | wrap v =>
      simp only [Option.map_some, WPc.as, asC, C.bind, setW, QSt.as, Ring.as, List.map_set]
      by_cases h : s.ring.front = s.ring.capacity <;> simp [h]
    | _ => simp [WPc.as, asC, C.bind, setW, List.map_set, QSt.as, Ring.as]

/-- A step with the names `d` is the step. -/
theorem step_as (d : Nat → Nat) (s : QSt) (a : Act) : step (s.as d) (a.as d) = (step s a).map (asC d) := by
  cases a with
  | accept v b =>
    simp only [step, Act.as]
    cases hp : s.prod <;> simp only [QSt.as, hp, PPc.as] <;> try rfl
    split <;> simp [asC, C.bind, QSt.as, PPc.as]
  | prod => exact prodStep_as d s
  | worker i => exact workerStep_as d s i
  | signal w =>
    simp only [step, Act.as]
    have hw : ∀ i : Nat, ((s.as d).workers[i]? = some WPc.waiting ↔ s.workers[i]? = some WPc.waiting) := fun i => by
      simp only [QSt.as, List.getElem?_map]
      cases s.workers[i]? with
      | none => simp
      | some pc => cases pc <;> simp [WPc.as]
    have hm : (WPc.waiting ∈ (s.as d).workers ↔ WPc.waiting ∈ s.workers) := by
      simp only [List.mem_iff_getElem?, hw]
    have hs : (s.as d).prod = .signal ↔ s.prod = .signal := by
      simp only [QSt.as]
      cases s.prod <;> simp [PPc.as]
    by_cases hp : s.prod = .signal
    · rw [hs.mpr hp, hp]
      cases w with
      | none =>
        simp only [hm]
        split <;> simp [asC, C.bind, QSt.as, PPc.as]
      | some i =>
        simp only [hw]
        split <;> simp [asC, C.bind, setW, List.map_set, QSt.as, PPc.as, WPc.as]
    · have h1 : ∀ (u : QSt), u.prod ≠ .signal → step u (.signal w) = none := fun u hu => by
        simp only [step]
        split
        · exact absurd (by assumption) hu
        · exact absurd (by assumption) hu
        · rfl
      have := h1 _ (fun h => hp (hs.mp h))
      have h2 := h1 s hp
      simp only [step] at this h2
      rw [this, h2]
      rfl
  | spurious i =>
    simp only [step, Act.as]
    have hw : ((s.as d).workers[i]? = some WPc.waiting ↔ s.workers[i]? = some WPc.waiting) := by
      simp only [QSt.as, List.getElem?_map]
      cases s.workers[i]? with
      | none => simp
      | some pc => cases pc <;> simp [WPc.as]
    simp only [hw]
    split <;> simp [asC, C.bind, setW, List.map_set, WPc.as, QSt.as]

/-- What the queue does with names comes from what it does without. -/
theorem step_as_ok {d : Nat → Nat} {s q : QSt} {a : Act} (h : step (s.as d) (a.as d) = some (ok q)) :
    ∃ s', step s a = some (ok s') ∧ q = s'.as d := by
  rw [step_as] at h
  obtain ⟨c, h1, h2⟩ := Option.map_eq_some_iff.mp h
  cases c with
  | ub f => cases h2
  | ok s' => cases h2; exact ⟨s', h1, rfl⟩

end Wayuu.Queue
