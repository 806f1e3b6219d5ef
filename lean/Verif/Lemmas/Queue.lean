import Verif.Model.Queue
import Mathlib.Data.List.Basic
import Mathlib.Data.List.Perm.Basic
/-
Invariants of the connection queue, for every schedule.
-/
namespace Wayuu.Queue
open Wayuu C

/-- The worker holds the mutex at this point. -/
def WPc.holds : WPc → Bool
  | .test | .read | .check _ | .dec _ | .inc _ | .wrap _ | .unlock _ => true
  | _ => false

/-- The accepting thread holds the mutex at this point. -/
def PPc.holds : PPc → Bool
  | .test _ | .incSize _ | .incRear _ | .wrap _ | .store _ | .unlock => true
  | _ => false

/-- Fields of the ring between two critical sections: `f` is the front and `r` the slot after the rear. -/
def Settled (ring : Ring) (q : List Nat) (f r : Nat) : Prop :=
  ring.size = q.length ∧ ring.front = f ∧ ring.rear = (r : Int) - 1

/-- Fields of the ring, by what the holder of the mutex is doing. -/
def Phase (s : QSt) (q : List Nat) (f r cap : Nat) : Prop :=
  match s.owner with
  | none => Settled s.ring q f r
  | some .prod =>
    match s.prod with
    | .test _ => Settled s.ring q f r
    | .unlock => Settled s.ring q f r
    | .incSize _ => Settled s.ring q f r ∧ q.length < cap
    | .incRear _ => s.ring.size = q.length + 1 ∧ s.ring.front = f ∧ s.ring.rear = (r : Int) - 1 ∧ q.length < cap
    | .wrap _ => s.ring.size = q.length + 1 ∧ s.ring.front = f ∧ s.ring.rear = r ∧ q.length < cap
    | .store _ => s.ring.size = q.length + 1 ∧ s.ring.front = f ∧ s.ring.rear = (r % cap : Nat) ∧ q.length < cap
    | _ => False
  | some (.worker i) =>
    match s.workers[i]? with
    | some .test => Settled s.ring q f r
    | some .read => Settled s.ring q f r ∧ q ≠ []
    | some (.check v) => Settled s.ring q f r ∧ q.head? = some v
    | some (.dec v) => Settled s.ring q f r ∧ q.head? = some v
    | some (.inc v) => s.ring.size = (q.length : Int) - 1 ∧ s.ring.front = f ∧ s.ring.rear = (r : Int) - 1 ∧ q.head? = some v
    | some (.wrap v) => s.ring.size = (q.length : Int) - 1 ∧ s.ring.front = (f : Int) + 1 ∧ s.ring.rear = (r : Int) - 1 ∧ q.head? = some v
    | some (.unlock v) =>
      s.ring.size = (q.length : Int) - 1 ∧ s.ring.front = ((f + 1) % cap : Nat) ∧ s.ring.rear = (r : Int) - 1 ∧ q.head? = some v
    | _ => False

/-- The waiting sockets are in the ring. -/
structure Holds (s : QSt) (q : List Nat) (f r cap : Nat) : Prop where
  front_lt : f < cap
  len : s.ring.elements.length = cap
  capacity : s.ring.capacity = cap
  room : q.length ≤ cap
  rear_le : r ≤ cap
  rear_mod : r % cap = (f + q.length) % cap
  cells : ∀ k v, q[k]? = some v → s.ring.elements[(f + k) % cap]? = some (some v)
  phase : Phase s q f r cap

structure Inv (cap : Nat) (s : QSt) : Prop where
  mutexW : ∀ i pc, s.workers[i]? = some pc → pc.holds = true → s.owner = some (.worker i)
  mutexP : s.prod.holds = true → s.owner = some .prod
  ring : ∃ q f r, s.enqueued = s.delivered.map Prod.snd ++ q ∧ Holds s q f r cap

theorem Inv.init (cap n : Nat) (hc : 0 < cap) : Inv cap (initial cap n) := by
  refine ⟨?_, ?_, [], 0, 0, rfl, ⟨hc, ?_, rfl, by simp, by omega, by simp, by simp, ?_⟩⟩
  · intro i pc h hp
    simp only [initial, List.getElem?_replicate] at h
    split at h
    · cases h; cases hp
    · cases h
  · intro h; cases h
  · simp [initial, ws_create_queue]
  · exact ⟨rfl, rfl, rfl⟩

/-- The holder is a worker at one of the points inside the critical section. -/
theorem Inv.notHolder {cap : Nat} {s : QSt} (h : Inv cap s) {i : Nat} {pc : WPc} (hi : s.workers[i]? = some pc)
    (hp : pc.holds = false) : s.owner ≠ some (.worker i) := by
  intro ho
  obtain ⟨q, f, r, -, hq⟩ := h.ring
  have := hq.phase
  unfold Phase at this
  rw [ho] at this
  simp only [hi] at this
  cases pc <;> simp_all [WPc.holds]

theorem Inv.prodOwner {cap : Nat} {s : QSt} (h : Inv cap s) (ho : s.owner = some .prod) : s.prod.holds = true := by
  obtain ⟨q, f, r, -, hq⟩ := h.ring
  have := hq.phase
  unfold Phase at this
  rw [ho] at this
  cases hp : s.prod <;> simp_all [PPc.holds]

/-- Moving a worker that does not hold the mutex changes nothing. -/
theorem Holds.setW {s : QSt} {q : List Nat} {f r cap : Nat} (h : Holds s q f r cap) {i : Nat} (pc : WPc)
    (hi : s.owner ≠ some (.worker i)) : Holds (setW s i pc) q f r cap := by
  refine ⟨h.front_lt, h.len, h.capacity, h.room, h.rear_le, h.rear_mod, h.cells, ?_⟩
  have := h.phase
  unfold Phase Queue.setW at *
  simp only
  cases ho : s.owner with
  | none => rw [ho] at this; exact this
  | some o =>
    cases o with
    | prod => rw [ho] at this; exact this
    | worker k =>
      rw [ho] at this
      have hk : i ≠ k := by rintro rfl; exact hi ho
      simp only [List.getElem?_set_ne hk]
      exact this

theorem mutexW_setW {s : QSt} (h : ∀ i pc, s.workers[i]? = some pc → pc.holds = true → s.owner = some (.worker i))
    {i : Nat} {pc : WPc} (hp : pc.holds = true → s.owner = some (.worker i)) :
    ∀ k pc', (setW s i pc).workers[k]? = some pc' → pc'.holds = true → (setW s i pc).owner = some (.worker k) := by
  intro k pc' hk hp'
  simp only [Queue.setW, List.getElem?_set] at hk
  by_cases hik : i = k
  · subst hik
    simp only [if_true] at hk
    split at hk
    · cases hk; exact hp hp'
    · cases hk
  · simp only [hik, if_false] at hk
    exact h k pc' hk hp'

theorem Inv.setW {cap : Nat} {s : QSt} (h : Inv cap s) {i : Nat} {pc : WPc} (hp : pc.holds = false)
    (hi : s.owner ≠ some (.worker i)) : Inv cap (setW s i pc) := by
  refine ⟨mutexW_setW h.mutexW (by rw [hp]; intro h; cases h), h.mutexP, ?_⟩
  obtain ⟨q, f, r, he, hq⟩ := h.ring
  exact ⟨q, f, r, he, hq.setW pc hi⟩

theorem lt_of_getElem?_some {α} {l : List α} {i : Nat} {a : α} (h : l[i]? = some a) : i < l.length := by
  by_contra hc
  rw [List.getElem?_eq_none (by omega)] at h
  cases h

/-- A worker that holds the mutex moves inside its critical section. -/
theorem Inv.worker {cap : Nat} {s s' : QSt} (h : Inv cap s) {i : Nat} {pc pc' : WPc} (hi : s.workers[i]? = some pc)
    (hp : pc.holds = true) (hring : s'.workers = s.workers.set i pc') (ho : s'.owner = some (.worker i))
    (hprod : s'.prod = s.prod) (hr : ∃ q f r, s'.enqueued = s'.delivered.map Prod.snd ++ q ∧ Holds s' q f r cap) : Inv cap s' := by
  have hown := h.mutexW i pc hi hp
  refine ⟨?_, ?_, hr⟩
  · intro k pc2 hk hp2
    rw [hring, List.getElem?_set] at hk
    by_cases hik : i = k
    · subst hik; exact ho
    · simp only [hik, if_false] at hk
      have := h.mutexW k pc2 hk hp2
      rw [hown] at this
      simp only [Option.some.injEq, Owner.worker.injEq] at this
      exact absurd this hik
  · intro hp2
    rw [hprod] at hp2
    have := h.mutexP hp2
    rw [hown] at this
    cases this

theorem loadElem_front {ring : Ring} {f : Nat} {v : Nat} (h1 : ring.front = f) (h2 : ring.elements[f]? = some (some v)) :
    loadElem ring ring.front = ok v := by
  unfold loadElem
  rw [h1, if_neg (by omega)]
  simp [h2]

/-- Every step of a worker keeps the invariant and never leaves the ring. -/
theorem Inv.workerStep {cap : Nat} {s : QSt} (h : Inv cap s) {i : Nat} {c : C QSt} (hs : workerStep s i = some c) :
    ∃ s', c = ok s' ∧ Inv cap s' := by
  obtain ⟨q, f, r, he, hq⟩ := h.ring
  have hph := hq.phase
  unfold Queue.workerStep at hs
  cases hi : s.workers[i]? with
  | none => rw [hi] at hs; cases hs
  | some pc =>
    have hlt := lt_of_getElem?_some hi
    rw [hi] at hs
    cases pc with
    | lock =>
      simp only at hs
      by_cases ho : s.owner = none
      · rw [if_pos ho] at hs
        cases hs
        refine ⟨_, rfl, ?_, ?_, q, f, r, he, ⟨hq.front_lt, hq.len, hq.capacity, hq.room, hq.rear_le, hq.rear_mod, hq.cells, ?_⟩⟩
        · refine mutexW_setW (s := { s with owner := some (.worker i) }) ?_ (fun _ => rfl)
          intro k pc hk hp
          have := h.mutexW k pc hk hp
          rw [ho] at this; cases this
        · intro hp
          have := h.mutexP hp
          rw [ho] at this; cases this
        · unfold Phase at hph ⊢
          rw [ho] at hph
          simpa [Queue.setW, List.getElem?_set, hlt] using hph
      · rw [if_neg ho] at hs; cases hs
    | relock =>
      simp only at hs
      by_cases ho : s.owner = none
      · rw [if_pos ho] at hs
        cases hs
        refine ⟨_, rfl, ?_, ?_, q, f, r, he, ⟨hq.front_lt, hq.len, hq.capacity, hq.room, hq.rear_le, hq.rear_mod, hq.cells, ?_⟩⟩
        · refine mutexW_setW (s := { s with owner := some (.worker i) }) ?_ (fun _ => rfl)
          intro k pc hk hp
          have := h.mutexW k pc hk hp
          rw [ho] at this; cases this
        · intro hp
          have := h.mutexP hp
          rw [ho] at this; cases this
        · unfold Phase at hph ⊢
          rw [ho] at hph
          simpa [Queue.setW, List.getElem?_set, hlt] using hph
      · rw [if_neg ho] at hs; cases hs
    | waiting => cases hs
    | handle v =>
      cases hs
      exact ⟨_, rfl, h.setW rfl (h.notHolder hi rfl)⟩
    | test =>
      have ho := h.mutexW i _ hi rfl
      simp only at hs
      unfold Phase at hph
      rw [ho] at hph
      simp only [hi] at hph
      by_cases hz : s.ring.size = 0
      · rw [if_pos hz] at hs
        cases hs
        refine ⟨_, rfl, ?_, ?_, q, f, r, he, ⟨hq.front_lt, hq.len, hq.capacity, hq.room, hq.rear_le, hq.rear_mod, hq.cells, hph⟩⟩
        · intro k pc hk hp
          simp only [Queue.setW, List.getElem?_set] at hk
          by_cases hik : i = k
          · subst hik
            simp only [if_true, hlt] at hk
            cases hk; cases hp
          · simp only [hik, if_false] at hk
            have := h.mutexW k pc hk hp
            rw [ho] at this
            simp only [Option.some.injEq, Owner.worker.injEq] at this
            exact absurd this hik
        · intro hp
          have := h.mutexP hp
          rw [ho] at this; cases this
      · rw [if_neg hz] at hs
        cases hs
        refine ⟨_, rfl, h.worker hi rfl rfl ho rfl ⟨q, f, r, he, ⟨hq.front_lt, hq.len, hq.capacity, hq.room, hq.rear_le, hq.rear_mod, hq.cells, ?_⟩⟩⟩
        unfold Phase Queue.setW
        simp only [ho, List.getElem?_set, hlt, if_true]
        refine ⟨hph, ?_⟩
        rintro rfl
        exact hz hph.1
    | read =>
      have ho := h.mutexW i _ hi rfl
      simp only at hs
      unfold Phase at hph
      rw [ho] at hph
      simp only [hi] at hph
      obtain ⟨v, q, rfl⟩ := List.exists_cons_of_ne_nil hph.2
      have hcell := hq.cells 0 v rfl
      rw [Nat.add_zero, Nat.mod_eq_of_lt hq.front_lt] at hcell
      cases hs
      rw [loadElem_front hph.1.2.1 hcell]
      refine ⟨_, rfl, h.worker hi rfl rfl ho rfl ⟨v :: q, f, r, he, ⟨hq.front_lt, hq.len, hq.capacity, hq.room, hq.rear_le, hq.rear_mod, hq.cells, ?_⟩⟩⟩
      unfold Phase Queue.setW
      simp only [ho, List.getElem?_set, hlt, if_true]
      exact ⟨hph.1, rfl⟩
    | check v =>
      have ho := h.mutexW i _ hi rfl
      simp only at hs
      unfold Phase at hph
      rw [ho] at hph
      simp only [hi] at hph
      have hz : s.ring.size ≠ 0 := by
        rw [hph.1.1]
        cases q with
        | nil => cases hph.2
        | cons a q => simp; omega
      rw [if_pos hz] at hs
      cases hs
      refine ⟨_, rfl, h.worker hi rfl rfl ho rfl ⟨q, f, r, he, ⟨hq.front_lt, hq.len, hq.capacity, hq.room, hq.rear_le, hq.rear_mod, hq.cells, ?_⟩⟩⟩
      unfold Phase Queue.setW
      simp only [ho, List.getElem?_set, hlt, if_true]
      exact hph
    | dec v =>
      have ho := h.mutexW i _ hi rfl
      simp only at hs
      unfold Phase at hph
      rw [ho] at hph
      simp only [hi] at hph
      cases hs
      refine ⟨_, rfl, h.worker hi rfl rfl ho rfl ⟨q, f, r, he, ⟨hq.front_lt, hq.len, hq.capacity, hq.room, hq.rear_le, hq.rear_mod, hq.cells, ?_⟩⟩⟩
      unfold Phase Queue.setW
      simp only [ho, List.getElem?_set, hlt, if_true]
      exact ⟨by rw [hph.1.1], hph.1.2.1, hph.1.2.2, hph.2⟩
    | inc v =>
      have ho := h.mutexW i _ hi rfl
      simp only at hs
      unfold Phase at hph
      rw [ho] at hph
      simp only [hi] at hph
      cases hs
      refine ⟨_, rfl, h.worker hi rfl rfl ho rfl ⟨q, f, r, he, ⟨hq.front_lt, hq.len, hq.capacity, hq.room, hq.rear_le, hq.rear_mod, hq.cells, ?_⟩⟩⟩
      unfold Phase Queue.setW
      simp only [ho, List.getElem?_set, hlt, if_true]
      exact ⟨hph.1, by rw [hph.2.1], hph.2.2.1, hph.2.2.2⟩
    | wrap v =>
      have ho := h.mutexW i _ hi rfl
      simp only at hs
      unfold Phase at hph
      rw [ho] at hph
      simp only [hi] at hph
      cases hs
      refine ⟨_, rfl, h.worker hi rfl rfl ho rfl ⟨q, f, r, he, ?_⟩⟩
      have hf := hq.front_lt
      by_cases hw : s.ring.front = s.ring.capacity
      · rw [if_pos hw]
        refine ⟨hq.front_lt, hq.len, hq.capacity, hq.room, hq.rear_le, hq.rear_mod, hq.cells, ?_⟩
        unfold Phase Queue.setW
        simp only [ho, List.getElem?_set, hlt, if_true]
        refine ⟨hph.1, ?_, hph.2.2.1, hph.2.2.2⟩
        rw [hph.2.1, hq.capacity] at hw
        have : f + 1 = cap := by omega
        rw [this, Nat.mod_self]; rfl
      · rw [if_neg hw]
        refine ⟨hq.front_lt, hq.len, hq.capacity, hq.room, hq.rear_le, hq.rear_mod, hq.cells, ?_⟩
        unfold Phase Queue.setW
        simp only [ho, List.getElem?_set, hlt, if_true]
        refine ⟨hph.1, ?_, hph.2.2.1, hph.2.2.2⟩
        rw [hph.2.1, hq.capacity] at hw
        rw [hph.2.1, Nat.mod_eq_of_lt (by omega)]
        omega
    | unlock v =>
      have ho := h.mutexW i _ hi rfl
      simp only at hs
      unfold Phase at hph
      rw [ho] at hph
      simp only [hi] at hph
      cases hs
      obtain ⟨h1, h2, h3, h4⟩ := hph
      cases q with
      | nil => cases h4
      | cons a q =>
        simp only [List.head?_cons, Option.some.injEq] at h4
        subst h4
        have hf := hq.front_lt
        have hroom := hq.room
        simp only [List.length_cons] at hroom
        refine ⟨_, rfl, ?_, ?_, q, (f + 1) % cap, r, ?_, ⟨Nat.mod_lt _ (by omega), hq.len, hq.capacity, by omega, hq.rear_le, ?_, ?_, ?_⟩⟩
        · intro k pc hk hp
          simp only [Queue.setW, List.getElem?_set] at hk
          by_cases hik : i = k
          · subst hik
            simp only [if_true, hlt] at hk
            cases hk; cases hp
          · simp only [hik, if_false] at hk
            have := h.mutexW k pc hk hp
            rw [ho] at this
            simp only [Option.some.injEq, Owner.worker.injEq] at this
            exact absurd this hik
        · intro hp
          have := h.mutexP hp
          rw [ho] at this; cases this
        · show s.enqueued = (s.delivered ++ [(i, a)]).map Prod.snd ++ q
          rw [he]; simp
        · rw [hq.rear_mod, Nat.mod_add_mod]
          simp only [List.length_cons]
          congr 1; omega
        · intro k v hk
          have := hq.cells (k + 1) v (by simpa using hk)
          rw [Nat.mod_add_mod, show f + 1 + k = f + (k + 1) by omega]
          exact this
        · refine ⟨?_, h2, h3⟩
          show s.ring.size = _
          rw [h1]; simp

/-- The accepting thread moves inside its critical section. -/
theorem Inv.prod {cap : Nat} {s s' : QSt} (h : Inv cap s) (hp : s.prod.holds = true)
    (hw : s'.workers = s.workers) (ho : s'.owner = s.owner)
    (hr : ∃ q f r, s'.enqueued = s'.delivered.map Prod.snd ++ q ∧ Holds s' q f r cap) : Inv cap s' := by
  have hown := h.mutexP hp
  refine ⟨?_, fun _ => by rw [ho, hown], hr⟩
  intro k pc hk hp2
  rw [ho]
  rw [hw] at hk
  exact h.mutexW k pc hk hp2

theorem Inv.prodStep {cap : Nat} {s : QSt} (h : Inv cap s) {c : C QSt} (hs : prodStep s = some c) :
    ∃ s', c = ok s' ∧ Inv cap s' := by
  obtain ⟨q, f, r, he, hq⟩ := h.ring
  have hph := hq.phase
  unfold Queue.prodStep at hs
  cases hp : s.prod with
  | accept => rw [hp] at hs; cases hs
  | signal => rw [hp] at hs; cases hs
  | lock v =>
    rw [hp] at hs
    simp only at hs
    by_cases ho : s.owner = none
    · rw [if_pos ho] at hs
      cases hs
      refine ⟨_, rfl, ?_, fun _ => rfl, q, f, r, he, ⟨hq.front_lt, hq.len, hq.capacity, hq.room, hq.rear_le, hq.rear_mod, hq.cells, ?_⟩⟩
      · intro k pc hk hp
        have := h.mutexW k pc hk hp
        rw [ho] at this; cases this
      · unfold Phase at hph
        rw [ho] at hph
        exact hph
    · rw [if_neg ho] at hs; cases hs
  | test v =>
    have ho := h.mutexP (by rw [hp]; rfl)
    rw [hp] at hs
    simp only at hs
    unfold Phase at hph
    rw [ho] at hph
    simp only [hp] at hph
    by_cases hz : s.ring.size ≠ s.ring.capacity
    · rw [if_pos hz] at hs
      cases hs
      refine ⟨_, rfl, h.prod (by rw [hp]; rfl) rfl rfl ⟨q, f, r, he, ⟨hq.front_lt, hq.len, hq.capacity, hq.room, hq.rear_le, hq.rear_mod, hq.cells, ?_⟩⟩⟩
      unfold Phase
      simp only [ho]
      refine ⟨hph, ?_⟩
      have := hq.room
      rw [hph.1, hq.capacity] at hz
      omega
    · rw [if_neg hz] at hs
      cases hs
      refine ⟨_, rfl, h.prod (by rw [hp]; rfl) rfl rfl ⟨q, f, r, he, ⟨hq.front_lt, hq.len, hq.capacity, hq.room, hq.rear_le, hq.rear_mod, hq.cells, ?_⟩⟩⟩
      unfold Phase
      simp only [ho]
      exact hph
  | incSize v =>
    have ho := h.mutexP (by rw [hp]; rfl)
    rw [hp] at hs
    simp only at hs
    unfold Phase at hph
    rw [ho] at hph
    simp only [hp] at hph
    cases hs
    refine ⟨_, rfl, h.prod (by rw [hp]; rfl) rfl rfl ⟨q, f, r, he, ⟨hq.front_lt, hq.len, hq.capacity, hq.room, hq.rear_le, hq.rear_mod, hq.cells, ?_⟩⟩⟩
    unfold Phase
    simp only [ho]
    exact ⟨by rw [hph.1.1], hph.1.2.1, hph.1.2.2, hph.2⟩
  | incRear v =>
    have ho := h.mutexP (by rw [hp]; rfl)
    rw [hp] at hs
    simp only at hs
    unfold Phase at hph
    rw [ho] at hph
    simp only [hp] at hph
    cases hs
    refine ⟨_, rfl, h.prod (by rw [hp]; rfl) rfl rfl ⟨q, f, r, he, ⟨hq.front_lt, hq.len, hq.capacity, hq.room, hq.rear_le, hq.rear_mod, hq.cells, ?_⟩⟩⟩
    unfold Phase
    simp only [ho]
    exact ⟨hph.1, hph.2.1, by rw [hph.2.2.1]; omega, hph.2.2.2⟩
  | wrap v =>
    have ho := h.mutexP (by rw [hp]; rfl)
    rw [hp] at hs
    simp only at hs
    unfold Phase at hph
    rw [ho] at hph
    simp only [hp] at hph
    cases hs
    have hrl := hq.rear_le
    refine ⟨_, rfl, h.prod (by rw [hp]; rfl) rfl rfl ⟨q, f, r, he, ?_⟩⟩
    by_cases hw : s.ring.rear = s.ring.capacity
    · rw [if_pos hw]
      refine ⟨hq.front_lt, hq.len, hq.capacity, hq.room, hq.rear_le, hq.rear_mod, hq.cells, ?_⟩
      unfold Phase
      simp only [ho]
      refine ⟨hph.1, hph.2.1, ?_, hph.2.2.2⟩
      rw [hph.2.2.1, hq.capacity] at hw
      have : r = cap := by omega
      rw [this, Nat.mod_self]; rfl
    · rw [if_neg hw]
      refine ⟨hq.front_lt, hq.len, hq.capacity, hq.room, hq.rear_le, hq.rear_mod, hq.cells, ?_⟩
      unfold Phase
      simp only [ho]
      refine ⟨hph.1, hph.2.1, ?_, hph.2.2.2⟩
      rw [hph.2.2.1, hq.capacity] at hw
      rw [hph.2.2.1, Nat.mod_eq_of_lt (by omega)]
  | store v =>
    have ho := h.mutexP (by rw [hp]; rfl)
    rw [hp] at hs
    simp only at hs
    unfold Phase at hph
    rw [ho] at hph
    simp only [hp] at hph
    obtain ⟨h1, h2, h3, h4⟩ := hph
    have hf := hq.front_lt
    have hmod : r % cap < cap := Nat.mod_lt _ (by omega)
    have hst : storeElem s.ring s.ring.rear v = ok { s.ring with elements := s.ring.elements.set (r % cap) (some v) } := by
      unfold storeElem
      rw [h3, if_neg (by omega)]
      simp only [Int.toNat_natCast]
      rw [if_pos (by rw [hq.len]; exact hmod), h3]
    rw [hst] at hs
    cases hs
    refine ⟨_, rfl, h.prod (by rw [hp]; rfl) rfl rfl ⟨q ++ [v], f, r % cap + 1, by simp [he], ⟨hf, ?_, hq.capacity, by simp; omega, by omega, ?_, ?_, ?_⟩⟩⟩
    · simp [hq.len]
    · rw [hq.rear_mod]
      simp only [List.length_append, List.length_singleton]
      rw [Nat.mod_add_mod]; rfl
    · intro k w hk
      simp only
      rw [List.getElem?_append] at hk
      by_cases hkl : k < q.length
      · simp only [hkl, if_true] at hk
        have hne : r % cap ≠ (f + k) % cap := by
          rw [hq.rear_mod]
          intro e
          have e1 := Nat.mod_add_div (f + q.length) cap
          have e2 := Nat.mod_add_div (f + k) cap
          rw [e] at e1
          -- both differ by less than `cap`
          have hlt : (f + q.length) / cap = (f + k) / cap ∨ (f + k) / cap + 1 ≤ (f + q.length) / cap := by
            have : (f + k) / cap ≤ (f + q.length) / cap := Nat.div_le_div_right (by omega)
            omega
          rcases hlt with hd | hd
          · rw [hd] at e1; omega
          · have := Nat.mul_le_mul_left cap hd
            rw [Nat.mul_add] at this
            omega
        rw [List.getElem?_set_ne hne]
        exact hq.cells k w hk
      · simp only [hkl, if_false] at hk
        have hk0 : k = q.length := by
          by_contra hc
          rw [List.getElem?_eq_none (by simp; omega)] at hk
          cases hk
        subst hk0
        simp at hk
        subst hk
        rw [← hq.rear_mod, List.getElem?_set_self (by rw [hq.len]; exact hmod)]
    · unfold Phase
      simp only [ho]
      refine ⟨?_, h2, ?_⟩
      · simp [h1]
      · simp [h3]
  | unlock =>
    have ho := h.mutexP (by rw [hp]; rfl)
    rw [hp] at hs
    simp only at hs
    unfold Phase at hph
    rw [ho] at hph
    simp only [hp] at hph
    cases hs
    refine ⟨_, rfl, ?_, ?_, q, f, r, he, ⟨hq.front_lt, hq.len, hq.capacity, hq.room, hq.rear_le, hq.rear_mod, hq.cells, hph⟩⟩
    · intro k pc hk hp2
      have := h.mutexW k pc hk hp2
      rw [ho] at this; cases this
    · intro hp2; cases hp2

/-- Every step of every schedule keeps the invariant and stays inside the ring. -/
theorem Inv.step {cap : Nat} {s : QSt} (h : Inv cap s) {a : Act} {c : C QSt} (hs : step s a = some c) :
    ∃ s', c = ok s' ∧ Inv cap s' := by
  have hprod : ∀ p : PPc, p.holds = false → s.prod.holds = false →
      ∀ acc cl, Inv cap { s with prod := p, accepted := acc, closed := cl } := by
    intro p hp hsp acc cl
    obtain ⟨q, f, r, he, hq⟩ := h.ring
    have hno : p.holds = true → s.owner = some .prod := fun h => by rw [hp] at h; cases h
    refine ⟨h.mutexW, hno, q, f, r, he,
      ⟨hq.front_lt, hq.len, hq.capacity, hq.room, hq.rear_le, hq.rear_mod, hq.cells, ?_⟩⟩
    have hph := hq.phase
    unfold Phase at hph ⊢
    cases ho : s.owner with
    | none => rw [ho] at hph; exact hph
    | some o =>
      cases o with
      | prod => rw [h.prodOwner ho] at hsp; cases hsp
      | worker k => rw [ho] at hph; exact hph
  unfold Queue.step at hs
  cases a with
  | accept v allowed =>
    simp only at hs
    cases hp : s.prod with
    | accept =>
      rw [hp] at hs
      cases allowed with
      | true =>
        simp only [if_true] at hs
        cases hs
        exact ⟨_, rfl, hprod (.lock v) rfl (by rw [hp]; rfl) _ _⟩
      | false =>
        simp only [Bool.false_eq_true, if_false] at hs
        cases hs
        have := hprod .accept rfl (by rw [hp]; rfl) s.accepted (s.closed ++ [v])
        exact ⟨_, rfl, this⟩
    | _ => rw [hp] at hs; cases hs
  | prod => exact h.prodStep hs
  | worker i => exact h.workerStep hs
  | signal w =>
    simp only at hs
    cases hp : s.prod with
    | signal =>
      rw [hp] at hs
      have hacc := hprod .accept rfl (by rw [hp]; rfl) s.accepted s.closed
      cases w with
      | none =>
        simp only at hs
        split at hs
        · cases hs
        · cases hs; exact ⟨_, rfl, hacc⟩
      | some i =>
        simp only at hs
        split at hs
        · rename_i hw
          cases hs
          exact ⟨_, rfl, hacc.setW rfl (h.notHolder hw rfl)⟩
        · cases hs
    | _ => rw [hp] at hs; cases w <;> cases hs
  | spurious i =>
    simp only at hs
    split at hs
    · rename_i hw
      cases hs
      exact ⟨_, rfl, h.setW rfl (h.notHolder hw rfl)⟩
    · cases hs

theorem Reach.inv {cap n : Nat} {s : QSt} (hc : 0 < cap) (h : Reach cap n s) : Inv cap s := by
  induction h with
  | init => exact Inv.init cap n hc
  | step _ hs ih =>
    obtain ⟨s', e, hi⟩ := ih.step hs
    cases e
    exact hi

/-! ### Wake-ups -/

theorem countP_set {α} (p : α → Bool) {l : List α} {i : Nat} {a b : α} (h : l[i]? = some a) :
    (l.set i b).countP p + (p a).toNat = l.countP p + (p b).toNat := by
  induction l generalizing i with
  | nil => cases h
  | cons x l ih =>
    cases i with
    | zero =>
      simp at h
      subst h
      simp only [List.set_cons_zero, List.countP_cons]
      cases p x <;> cases p b <;> simp
    | succ i =>
      have := ih (i := i) (by simpa using h)
      simp only [List.set_cons_succ, List.countP_cons]
      omega

/-- Asleep in `pthread_cond_wait`. -/
def WPc.asleep : WPc → Bool
  | .waiting => true
  | _ => false

/-- Woken up or running, and going to take a socket if there is one. -/
def WPc.fetching : WPc → Bool
  | .relock | .test | .read | .check _ | .dec _ => true
  | _ => false

/-- The accepting thread has put a socket in and not signalled yet. -/
def PPc.owing : PPc → Bool
  | .incRear _ | .wrap _ | .store _ | .unlock | .signal => true
  | _ => false

/-- Sleepers imply that every waiting socket has a worker coming or a signal on its way. -/
def Woken (s : QSt) : Prop :=
  0 < s.workers.countP WPc.asleep →
    s.ring.size ≤ (s.workers.countP WPc.fetching : Nat) + s.prod.owing.toNat

theorem Woken.init (cap n : Nat) : Woken (initial cap n) := by
  intro h
  simp [initial, List.countP_replicate, WPc.asleep] at h

/-- A step of worker `i` from `a` to `b`. -/
theorem Woken.move {s s' : QSt} (h : Woken s) {i : Nat} {a b : WPc} (hi : s.workers[i]? = some a)
    (hw : s'.workers = s.workers.set i b)
    (hk : 0 < s'.workers.countP WPc.asleep → (b.asleep = false ∨ a.asleep = true ∨ s'.ring.size = 0) ∧
      s'.ring.size + a.fetching.toNat + s.prod.owing.toNat ≤
        s.ring.size + b.fetching.toNat + s'.prod.owing.toNat ∨ s'.ring.size = 0) :
    Woken s' := by
  intro hpos
  have c1 := countP_set WPc.asleep (b := b) hi
  have c2 := countP_set WPc.fetching (b := b) hi
  have hk := hk hpos
  rw [hw] at hpos ⊢
  rcases hk with ⟨h1, h2⟩ | h0
  · by_cases hz : s'.ring.size = 0
    · omega
    · have hw0 : 0 < s.workers.countP WPc.asleep := by
        rcases h1 with h1 | h1 | h1
        · rw [h1] at c1; simp at c1; omega
        · rw [h1] at c1
          by_contra hc
          have : 0 < s.workers.countP WPc.asleep := List.countP_pos_iff.2 ⟨a, List.mem_of_getElem? hi, h1⟩
          omega
        · exact absurd h1 hz
      have := h hw0
      omega
  · rw [h0]; omega

theorem Woken.step {cap : Nat} {s s' : QSt} (hinv : Inv cap s) (h : Woken s) {a : Act} (hs : step s a = some (ok s')) : Woken s' := by
  have keep : ∀ s' : QSt, s'.workers = s.workers → s'.ring.size = s.ring.size → (s.prod.owing = true → s'.prod.owing = true) → Woken s' := by
    intro s' hw hr hp hpos
    rw [hw] at hpos
    have := h hpos
    rw [hw, hr]
    by_cases ho : s.prod.owing = true
    · rw [ho] at this
      rw [hp ho]
      exact this
    · simp only [Bool.not_eq_true] at ho
      rw [ho] at this
      simp at this
      omega
  unfold Queue.step at hs
  cases a with
  | accept v allowed =>
    simp only at hs
    cases hp : s.prod with
    | accept =>
      rw [hp] at hs
      simp only at hs
      split at hs <;>
      · cases hs
        exact keep _ rfl rfl (by rw [hp]; intro h; cases h)
    | _ => rw [hp] at hs; cases hs
  | prod =>
    simp only at hs
    unfold prodStep at hs
    cases hp : s.prod with
    | accept => rw [hp] at hs; cases hs
    | signal => rw [hp] at hs; cases hs
    | lock v =>
      rw [hp] at hs
      simp only at hs
      split at hs
      · cases hs; exact keep _ rfl rfl (by rw [hp]; intro h; cases h)
      · cases hs
    | test v =>
      rw [hp] at hs
      simp only at hs
      split at hs <;>
      · cases hs; exact keep _ rfl rfl (by rw [hp]; intro h; cases h)
    | incSize v =>
      rw [hp] at hs
      simp only at hs
      cases hs
      intro hpos
      have := h hpos
      rw [hp] at this
      simp only [PPc.owing, Bool.toNat_false, Bool.toNat_true] at this ⊢
      omega
    | incRear v =>
      rw [hp] at hs
      cases hs
      exact keep _ rfl rfl (fun _ => rfl)
    | wrap v =>
      rw [hp] at hs
      simp only at hs
      cases hs
      refine keep _ rfl ?_ (fun _ => rfl)
      simp only
      split <;> rfl
    | store v =>
      rw [hp] at hs
      simp only [Option.some.injEq] at hs
      rw [bind_eq_ok] at hs
      obtain ⟨ring, h1, h2⟩ := hs
      cases h2
      refine keep _ rfl ?_ (fun _ => rfl)
      unfold storeElem at h1
      split at h1
      · cases h1
      · split at h1
        · cases h1; rfl
        · cases h1
    | unlock =>
      rw [hp] at hs
      cases hs
      exact keep _ rfl rfl (fun _ => rfl)
  | signal w =>
    simp only at hs
    cases hp : s.prod with
    | signal =>
      rw [hp] at hs
      cases w with
      | none =>
        simp only at hs
        split at hs
        · cases hs
        · rename_i hany
          cases hs
          intro hpos
          exfalso
          obtain ⟨a, ha, haw⟩ := List.countP_pos_iff.1 hpos
          cases a <;> first | (cases haw; done) | skip
          exact hany (by simpa using ha)
      | some i =>
        simp only at hs
        split at hs
        · rename_i hw
          cases hs
          refine h.move hw rfl (fun _ => .inl ⟨.inl rfl, ?_⟩)
          rw [hp]
          simp [setW, WPc.fetching, PPc.owing]
        · cases hs
    | _ => rw [hp] at hs; cases w <;> cases hs
  | spurious i =>
    simp only at hs
    split at hs
    · rename_i hw
      cases hs
      refine h.move hw rfl (fun _ => .inl ⟨.inl rfl, ?_⟩)
      simp [setW, WPc.fetching]
      omega
    · cases hs
  | worker i =>
    simp only at hs
    unfold workerStep at hs
    cases hi : s.workers[i]? with
    | none => rw [hi] at hs; cases hs
    | some pc =>
      rw [hi] at hs
      cases pc with
      | waiting => cases hs
      | lock =>
        simp only at hs
        split at hs
        · cases hs
          refine h.move hi rfl (fun _ => .inl ⟨.inl rfl, ?_⟩)
          simp [setW, WPc.fetching]
          omega
        · cases hs
      | relock =>
        simp only at hs
        split at hs
        · cases hs
          refine h.move hi rfl (fun _ => .inl ⟨.inl rfl, ?_⟩)
          simp [setW, WPc.fetching]
        · cases hs
      | handle v =>
        cases hs
        refine h.move hi rfl (fun _ => .inl ⟨.inl rfl, ?_⟩)
        simp [setW, WPc.fetching]
      | test =>
        simp only at hs
        split at hs
        · rename_i hz
          cases hs
          exact h.move hi rfl (fun _ => .inr hz)
        · cases hs
          refine h.move hi rfl (fun _ => .inl ⟨.inl rfl, ?_⟩)
          simp [setW, WPc.fetching]
      | read =>
        simp only [Option.some.injEq] at hs
        rw [bind_eq_ok] at hs
        obtain ⟨v, h1, h2⟩ := hs
        cases h2
        refine h.move hi rfl (fun _ => .inl ⟨.inl rfl, ?_⟩)
        simp [setW, WPc.fetching]
      | check v =>
        simp only at hs
        split at hs
        · cases hs
          refine h.move hi rfl (fun _ => .inl ⟨.inl rfl, ?_⟩)
          simp [setW, WPc.fetching]
        · rename_i hz
          cases hs
          exact h.move hi rfl (fun _ => .inr (by simpa [setW] using hz))
      | dec v =>
        cases hs
        refine h.move hi rfl (fun _ => .inl ⟨.inl rfl, ?_⟩)
        simp [setW, WPc.fetching]
      | inc v =>
        cases hs
        refine h.move hi rfl (fun _ => .inl ⟨.inl rfl, ?_⟩)
        simp [setW, WPc.fetching]
      | wrap v =>
        simp only at hs
        cases hs
        have : (if s.ring.front = s.ring.capacity then { s.ring with front := 0 } else s.ring : Ring).size = s.ring.size := by
          split <;> rfl
        refine h.move hi rfl (fun _ => .inl ⟨.inl rfl, ?_⟩)
        simp [setW, WPc.fetching, this]
      | unlock v =>
        cases hs
        refine h.move hi rfl (fun _ => .inl ⟨.inl rfl, ?_⟩)
        simp [setW, WPc.fetching]

theorem Reach.woken {cap n : Nat} {s : QSt} (hc : 0 < cap) (h : Reach cap n s) : Woken s := by
  induction h with
  | init => exact Woken.init cap n
  | step hr hs ih => exact Woken.step (hr.inv hc) ih hs

/-! ### Where every accepted socket goes -/

/-- The socket in the accepting thread's hands. -/
def PPc.hand : PPc → List Nat
  | .lock v | .test v | .incSize v | .incRear v | .wrap v | .store v => [v]
  | _ => []

structure Ledger (s : QSt) : Prop where
  order : ∃ before, s.enqueued.Sublist before ∧ s.accepted = before ++ s.prod.hand
  split : s.accepted.Perm (s.enqueued ++ s.dropped ++ s.prod.hand)

theorem Ledger.init (cap n : Nat) : Ledger (initial cap n) := ⟨⟨[], .slnil, rfl⟩, .refl _⟩

/-- Steps that leave the sockets where they are. -/
theorem Ledger.same {s s' : QSt} (h : Ledger s) (h1 : s'.accepted = s.accepted) (h2 : s'.enqueued = s.enqueued)
    (h3 : s'.dropped = s.dropped) (h4 : s'.prod.hand = s.prod.hand) : Ledger s' := by
  refine ⟨?_, ?_⟩
  · rw [h1, h2, h4]; exact h.order
  · rw [h1, h2, h3, h4]; exact h.split

theorem Ledger.step {s s' : QSt} (h : Ledger s) {a : Act} (hs : step s a = some (ok s')) : Ledger s' := by
  unfold Queue.step at hs
  cases a with
  | accept v allowed =>
    simp only at hs
    cases hp : s.prod with
    | accept =>
      rw [hp] at hs
      simp only at hs
      obtain ⟨b, hb, hacc⟩ := h.order
      have hsp := h.split
      rw [hp] at hacc hsp
      simp only [PPc.hand, List.append_nil] at hacc hsp
      split at hs
      · cases hs
        refine ⟨⟨b, hb, by simp [PPc.hand, hacc]⟩, ?_⟩
        simp only [PPc.hand]
        exact hsp.append_right _
      · cases hs
        exact h.same rfl rfl rfl (by rw [hp])
    | _ => rw [hp] at hs; cases hs
  | prod =>
    simp only at hs
    unfold prodStep at hs
    cases hp : s.prod with
    | accept => rw [hp] at hs; cases hs
    | signal => rw [hp] at hs; cases hs
    | lock v =>
      rw [hp] at hs
      simp only at hs
      split at hs
      · cases hs; exact h.same rfl rfl rfl (by rw [hp]; rfl)
      · cases hs
    | test v =>
      rw [hp] at hs
      simp only at hs
      split at hs
      · cases hs; exact h.same rfl rfl rfl (by rw [hp]; rfl)
      · cases hs
        obtain ⟨b, hb, hacc⟩ := h.order
        have hsp := h.split
        rw [hp] at hacc hsp
        simp only [PPc.hand] at hacc hsp
        refine ⟨⟨b ++ [v], hb.trans (List.sublist_append_left _ _), by simp [PPc.hand, hacc]⟩, ?_⟩
        simpa [PPc.hand] using hsp
    | incSize v =>
      rw [hp] at hs
      cases hs; exact h.same rfl rfl rfl (by rw [hp]; rfl)
    | incRear v =>
      rw [hp] at hs
      cases hs; exact h.same rfl rfl rfl (by rw [hp]; rfl)
    | wrap v =>
      rw [hp] at hs
      simp only at hs
      cases hs
      exact h.same rfl rfl rfl (by rw [hp]; rfl)
    | store v =>
      rw [hp] at hs
      simp only [Option.some.injEq] at hs
      rw [bind_eq_ok] at hs
      obtain ⟨ring, h1, h2⟩ := hs
      cases h2
      obtain ⟨b, hb, hacc⟩ := h.order
      have hsp := h.split
      rw [hp] at hacc hsp
      simp only [PPc.hand] at hacc hsp
      refine ⟨⟨b ++ [v], hb.append (.refl _), by simp [PPc.hand, hacc]⟩, ?_⟩
      simp only [PPc.hand, List.append_nil]
      refine hsp.trans ?_
      rw [List.append_assoc, List.append_assoc]
      exact List.perm_append_comm.append_left _
    | unlock =>
      rw [hp] at hs
      cases hs; exact h.same rfl rfl rfl (by rw [hp]; rfl)
  | signal w =>
    simp only at hs
    cases hp : s.prod with
    | signal =>
      rw [hp] at hs
      cases w with
      | none =>
        simp only at hs
        split at hs
        · cases hs
        · cases hs
          exact h.same rfl rfl rfl (by rw [hp]; rfl)
      | some i =>
        simp only at hs
        split at hs
        · cases hs
          exact h.same rfl rfl rfl (by rw [hp]; rfl)
        · cases hs
    | _ => rw [hp] at hs; cases w <;> cases hs
  | spurious i =>
    simp only at hs
    split at hs
    · cases hs
      exact h.same rfl rfl rfl rfl
    · cases hs
  | worker i =>
    simp only at hs
    unfold workerStep at hs
    cases hi : s.workers[i]? with
    | none => rw [hi] at hs; cases hs
    | some pc =>
      rw [hi] at hs
      cases pc with
      | waiting => cases hs
      | read =>
        simp only [Option.some.injEq] at hs
        rw [bind_eq_ok] at hs
        obtain ⟨v, h1, h2⟩ := hs
        cases h2
        exact h.same rfl rfl rfl rfl
      | lock => simp only at hs; split at hs <;> first | cases hs; done | (cases hs; exact h.same rfl rfl rfl rfl)
      | relock => simp only at hs; split at hs <;> first | cases hs; done | (cases hs; exact h.same rfl rfl rfl rfl)
      | test => simp only at hs; split at hs <;> (cases hs; exact h.same rfl rfl rfl rfl)
      | check v => simp only at hs; split at hs <;> (cases hs; exact h.same rfl rfl rfl rfl)
      | wrap v => simp only at hs; cases hs; exact h.same rfl rfl rfl rfl
      | _ => cases hs; exact h.same rfl rfl rfl rfl

theorem Reach.ledger {cap n : Nat} {s : QSt} (h : Reach cap n s) : Ledger s := by
  induction h with
  | init => exact Ledger.init cap n
  | step _ hs ih => exact ih.step hs

end Wayuu.Queue

namespace Wayuu.Queue
open Wayuu C

theorem Inv.size_nonneg {cap : Nat} {s : QSt} (h : Inv cap s) : 0 ≤ s.ring.size ∧ s.ring.size ≤ cap := by
  obtain ⟨q, f, r, -, hq⟩ := h.ring
  have hph := hq.phase
  have hroom := hq.room
  unfold Phase at hph
  have hhead : ∀ v, q.head? = some v → 1 ≤ q.length := by
    intro v hv; cases q with
    | nil => cases hv
    | cons a q => simp
  split at hph
  · rw [hph.1]; omega
  · split at hph
    · rw [hph.1]; omega
    · rw [hph.1]; omega
    · rw [hph.1.1]; omega
    · rw [hph.1]; omega
    · rw [hph.1]; omega
    · rw [hph.1]; omega
    · exact hph.elim
  · split at hph
    · rw [hph.1]; omega
    · rw [hph.1.1]; omega
    · rw [hph.1.1]; omega
    · rw [hph.1.1]; omega
    · have := hhead _ hph.2.2.2; rw [hph.1]; omega
    · have := hhead _ hph.2.2.2; rw [hph.1]; omega
    · have := hhead _ hph.2.2.2; rw [hph.1]; omega
    · exact hph.elim

/-- How far a worker is from sleeping, ignoring the sockets still in the queue. -/
def WPc.rank : WPc → Nat
  | .lock => 5 | .relock => 5 | .test => 4 | .read => 3 | .check _ => 2 | .dec _ => 1
  | .inc _ => 9 | .wrap _ => 8 | .unlock _ => 7 | .handle _ => 6 | .waiting => 0

def PPc.rank : PPc → Nat
  | .accept => 0 | .signal => 6 | .unlock => 7 | .store _ => 8 | .wrap _ => 9 | .incRear _ => 10
  | .incSize _ => 20 | .test _ => 21 | .lock _ => 22

/-- Bound on the number of steps before every thread waits. -/
def QSt.work (s : QSt) : Nat := 9 * s.ring.size.toNat + (s.workers.map WPc.rank).sum + s.prod.rank

theorem sum_map_set {α} (p : α → Nat) {l : List α} {i : Nat} {a b : α} (h : l[i]? = some a) :
    ((l.set i b).map p).sum + p a = (l.map p).sum + p b := by
  induction l generalizing i with
  | nil => cases h
  | cons x l ih =>
    cases i with
    | zero =>
      simp at h
      subst h
      simp only [List.set_cons_zero, List.map_cons, List.sum_cons]
      omega
    | succ i =>
      have := ih (i := i) (by simpa using h)
      simp only [List.set_cons_succ, List.map_cons, List.sum_cons]
      omega

/-- A worker's step makes progress. -/
theorem work_worker {cap : Nat} {s s' : QSt} (hinv : Inv cap s) {i : Nat} (hs : workerStep s i = some (ok s')) :
    s'.work < s.work := by
  have hsz := hinv.size_nonneg.1
  unfold workerStep at hs
  cases hi : s.workers[i]? with
  | none => rw [hi] at hs; cases hs
  | some pc =>
    rw [hi] at hs
    have key : ∀ (t : QSt) (b : WPc), t.workers = s.workers.set i b → t.prod = s.prod →
        9 * t.ring.size.toNat + b.rank < 9 * s.ring.size.toNat + pc.rank → t.work < s.work := by
      intro t b hw hp hk
      have := sum_map_set WPc.rank (b := b) hi
      unfold QSt.work
      rw [hw, hp]
      omega
    cases pc with
    | waiting => cases hs
    | lock =>
      simp only at hs
      split at hs
      · cases hs; exact key _ .test rfl rfl (by simp [setW, WPc.rank])
      · cases hs
    | relock =>
      simp only at hs
      split at hs
      · cases hs; exact key _ .test rfl rfl (by simp [setW, WPc.rank])
      · cases hs
    | test =>
      simp only at hs
      split at hs
      · cases hs; exact key _ .waiting rfl rfl (by simp [setW, WPc.rank])
      · cases hs; exact key _ .read rfl rfl (by simp [setW, WPc.rank])
    | read =>
      simp only [Option.some.injEq] at hs
      rw [bind_eq_ok] at hs
      obtain ⟨v, h1, h2⟩ := hs
      cases h2
      exact key _ (.check v) rfl rfl (by simp [setW, WPc.rank])
    | check v =>
      simp only at hs
      split at hs
      · cases hs; exact key _ (.dec v) rfl rfl (by simp [setW, WPc.rank])
      · rename_i hz
        exfalso
        obtain ⟨q, f, r, -, hq⟩ := hinv.ring
        have hph := hq.phase
        unfold Phase at hph
        rw [hinv.mutexW i _ hi rfl] at hph
        simp only [hi] at hph
        apply hz
        rw [hph.1.1]
        cases q with
        | nil => cases hph.2
        | cons a q => simp; omega
    | dec v =>
      obtain ⟨q, f, r, -, hq⟩ := hinv.ring
      have hph := hq.phase
      unfold Phase at hph
      rw [hinv.mutexW i _ hi rfl] at hph
      simp only [hi] at hph
      have hz : 1 ≤ s.ring.size := by
        rw [hph.1.1]
        cases q with
        | nil => cases hph.2
        | cons a q => simp; omega
      cases hs
      refine key _ (.inc v) rfl rfl ?_
      simp only [setW, WPc.rank]
      omega
    | inc v => cases hs; exact key _ (.wrap v) rfl rfl (by simp [setW, WPc.rank])
    | wrap v =>
      simp only at hs
      have hr : (if s.ring.front = s.ring.capacity then { s.ring with front := 0 } else s.ring : Ring).size = s.ring.size := by
        split <;> rfl
      cases hs; exact key _ (.unlock v) rfl rfl (by simp [setW, WPc.rank, hr])
    | unlock v => cases hs; exact key _ (.handle v) rfl rfl (by simp [setW, WPc.rank])
    | handle v => cases hs; exact key _ .lock rfl rfl (by simp [setW, WPc.rank])

theorem work_prod {cap : Nat} {s s' : QSt} (hinv : Inv cap s) (hs : prodStep s = some (ok s')) : s'.work < s.work := by
  have hsz := hinv.size_nonneg.1
  have key : ∀ (t : QSt), t.workers = s.workers →
      9 * t.ring.size.toNat + t.prod.rank < 9 * s.ring.size.toNat + s.prod.rank → t.work < s.work := by
    intro t hw hk
    unfold QSt.work
    rw [hw]
    omega
  unfold prodStep at hs
  cases hp : s.prod with
  | accept => rw [hp] at hs; cases hs
  | signal => rw [hp] at hs; cases hs
  | lock v =>
    rw [hp] at hs
    simp only at hs
    split at hs
    · cases hs; exact key _ rfl (by simp [hp, PPc.rank])
    · cases hs
  | test v =>
    rw [hp] at hs
    simp only at hs
    split at hs
    · cases hs; exact key _ rfl (by simp [hp, PPc.rank])
    · cases hs; exact key _ rfl (by simp [hp, PPc.rank])
  | incSize v =>
    rw [hp] at hs
    cases hs
    refine key _ rfl ?_
    simp only [hp, PPc.rank]
    omega
  | incRear v => rw [hp] at hs; cases hs; exact key _ rfl (by simp [hp, PPc.rank])
  | wrap v =>
    rw [hp] at hs
    simp only at hs
    have hr : (if s.ring.rear = s.ring.capacity then { s.ring with rear := 0 } else s.ring : Ring).size = s.ring.size := by
      split <;> rfl
    cases hs; exact key _ rfl (by simp [hp, PPc.rank, hr])
  | store v =>
    rw [hp] at hs
    simp only [Option.some.injEq] at hs
    rw [bind_eq_ok] at hs
    obtain ⟨ring, h1, h2⟩ := hs
    cases h2
    have hr : ring.size = s.ring.size := by
      unfold storeElem at h1
      split at h1
      · cases h1
      · split at h1
        · cases h1; rfl
        · cases h1
    exact key _ rfl (by simp [hp, PPc.rank, hr])
  | unlock => rw [hp] at hs; cases hs; exact key _ rfl (by simp [hp, PPc.rank])

theorem work_signal {s s' : QSt} {w : Option Nat} (hs : step s (.signal w) = some (ok s')) : s'.work < s.work := by
  simp only [step] at hs
  cases hp : s.prod with
  | signal =>
    rw [hp] at hs
    cases w with
    | none =>
      simp only at hs
      split at hs
      · cases hs
      · cases hs
        simp [QSt.work, hp, PPc.rank]
    | some i =>
      simp only at hs
      split at hs
      · rename_i hw
        cases hs
        have := sum_map_set WPc.rank (b := .relock) hw
        simp only [WPc.rank] at this
        simp only [QSt.work, setW, hp, PPc.rank]
        omega
      · cases hs
  | _ => rw [hp] at hs; cases w <;> cases hs

theorem Reach.workers_length {cap n : Nat} {s : QSt} (h : Reach cap n s) : s.workers.length = n := by
  induction h with
  | init => simp [initial]
  | @step s s' a _ hs ih =>
    rw [← ih]
    unfold Queue.step at hs
    cases a with
    | accept v b =>
      simp only at hs
      split at hs
      · split at hs <;> (cases hs; rfl)
      · cases hs
    | signal w =>
      simp only at hs
      split at hs
      · split at hs
        · cases hs
        · cases hs; rfl
      · split at hs
        · cases hs; simp [setW]
        · cases hs
      · cases hs
    | spurious i =>
      simp only at hs
      split at hs
      · cases hs; simp [setW]
      · cases hs
    | worker i =>
      simp only at hs
      unfold workerStep at hs
      split at hs
      · cases hs
      · split at hs
        · split at hs
          · cases hs; simp [setW]
          · cases hs
        · split at hs <;> (cases hs; simp [setW])
        · cases hs
        · split at hs
          · cases hs; simp [setW]
          · cases hs
        · simp only [Option.some.injEq] at hs
          rw [bind_eq_ok] at hs
          obtain ⟨v, -, h2⟩ := hs
          cases h2; simp [setW]
        · split at hs <;> (cases hs; simp [setW])
        · cases hs; simp [setW]
        · cases hs; simp [setW]
        · cases hs; simp [setW]
        · cases hs; simp [setW]
        · cases hs; simp [setW]
    | prod =>
      simp only at hs
      unfold prodStep at hs
      split at hs
      · cases hs
      · split at hs
        · cases hs; rfl
        · cases hs
      · split at hs <;> (cases hs; rfl)
      · cases hs; rfl
      · cases hs; rfl
      · cases hs; rfl
      · simp only [Option.some.injEq] at hs
        rw [bind_eq_ok] at hs
        obtain ⟨v, -, h2⟩ := hs
        cases h2; rfl
      · cases hs; rfl
      · cases hs

end Wayuu.Queue
