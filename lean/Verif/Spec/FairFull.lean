import Verif.Spec.Fair
import Verif.Model.Full
/-
Endless executions and fairness of the server with its queue, its workers and requests that overlap, without reference to proofs.
-/
namespace Wayuu.Full
open Wayuu C Wayuu.Queue
open Spec

/-- The server with its clients, followed for ever, without undefined behaviour: at each time either something happens (`lab`) or not. -/
structure Endless (x : World) (w0 : FSt) (w : Nat → FSt) (lab : Nat → Option Ev) : Prop where
  start : w 0 = w0
  next : ∀ t, match lab t with
    | none => w (t + 1) = w t
    | some e => step x (w t) e = some (ok (w (t + 1)))

/-- Weakly fair: a thread that can go on at all times from some time on does go on. -/
def Fair (x : World) (w : Nat → FSt) (lab : Nat → Option Ev) : Prop :=
  ∀ (th : Thread) (t : Nat), (∀ m, t ≤ m → ∃ a, th.Acts a ∧ step x (w m) (.thread a) ≠ none) →
    ∃ m a, t ≤ m ∧ th.Acts a ∧ lab m = some (.thread a)

/-- Spurious wake-ups come to an end. -/
def Calm (lab : Nat → Option Ev) : Prop := ∃ N, ∀ m, N ≤ m → ∀ i, lab m ≠ some (.thread (.spurious i))

end Wayuu.Full
