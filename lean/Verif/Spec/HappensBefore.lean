import Verif.Base
/-
Data races, as in C11 (5.1.2.4): two conflicting accesses of different threads that are not ordered by what happens before what.
One mutex, creation of threads. Nothing here refers to the model of the code.
-/
namespace Wayuu.Spec

/-- What a thread does that others can notice: `Loc` are the memory locations. -/
inductive Ev (Loc : Type) where
  | rd (l : Loc)
  | wr (l : Loc)
  /-- the mutex is taken -/
  | acq
  /-- the mutex is released -/
  | rel
  /-- thread `t` is created -/
  | spawn (t : Nat)
deriving DecidableEq

/-- An execution: what was done, by which thread, in this order. -/
abbrev Trace (Loc : Type) := List (Nat × Ev Loc)

/-- The event at position `i` happens before the one at position `j`: same thread; release and later acquisition of the mutex; creation of
a thread and what it does; and chains of these. -/
inductive HB {Loc : Type} (tr : Trace Loc) : Nat → Nat → Prop where
  | order {i j t a b} : i < j → tr[i]? = some (t, a) → tr[j]? = some (t, b) → HB tr i j
  | mutex {i j t u} : i < j → tr[i]? = some (t, .rel) → tr[j]? = some (u, .acq) → HB tr i j
  | create {i j t u b} : i < j → tr[i]? = some (t, .spawn u) → tr[j]? = some (u, b) → HB tr i j
  | trans {i j k} : HB tr i j → HB tr j k → HB tr i k

/-- The event is an access to `l`. -/
def Ev.touches {Loc : Type} (l : Loc) (e : Ev Loc) : Prop := e = .rd l ∨ e = .wr l

/-- A data race on `l`: two accesses of different threads, one of them a write, and neither happens before the other. (A later event never
happens before an earlier one.) -/
def Race {Loc : Type} (tr : Trace Loc) (l : Loc) : Prop :=
  ∃ i j t u a b, i < j ∧ tr[i]? = some (t, a) ∧ tr[j]? = some (u, b) ∧ t ≠ u ∧ a.touches l ∧ b.touches l ∧
    (a = .wr l ∨ b = .wr l) ∧ ¬ HB tr i j

end Wayuu.Spec
