import Verif.Model.Whole
/-
Endless executions and fairness: what is said about schedules that go on for ever, without reference to proofs.
-/
namespace Wayuu.Spec
open Wayuu C Wayuu.Queue

/-- The threads: the one that accepts connections, and the workers. -/
inductive Thread where
  | main
  | worker (i : Nat)

/-- The choice of the schedule that is a step of this thread. (A new connection and a spurious wake-up come from outside.) -/
def Thread.Acts : Thread → Act → Prop
  | .main, .prod => True
  | .main, .signal _ => True
  | .worker i, .worker j => i = j
  | _, _ => False

/-- The queue and its threads, followed for ever: at each time either something happens (`lab`) or not. -/
structure QEndless (cap n : Nat) (q : Nat → QSt) (lab : Nat → Option Act) : Prop where
  start : q 0 = Queue.initial cap n
  next : ∀ t, match lab t with
    | none => q (t + 1) = q t
    | some a => Queue.step (q t) a = some (ok (q (t + 1)))

/-- Weakly fair: a thread that can go on at all times from some time on does go on. -/
def QFair (q : Nat → QSt) (lab : Nat → Option Act) : Prop :=
  ∀ (th : Thread) (t : Nat), (∀ m, t ≤ m → ∃ a, th.Acts a ∧ Queue.step (q m) a ≠ none) →
    ∃ m a, t ≤ m ∧ th.Acts a ∧ lab m = some a

/-- The whole server with its clients, followed for ever, without undefined behaviour. -/
structure Endless (x : Whole.World) (w0 : Whole.WSt) (w : Nat → Whole.WSt) (lab : Nat → Option Whole.Ev) : Prop where
  start : w 0 = w0
  next : ∀ t, match lab t with
    | none => w (t + 1) = w t
    | some e => Whole.step x (w t) e = some (ok (w (t + 1)))

/-- Weakly fair: a thread that can go on at all times from some time on does go on. (For a worker that handles a connection this says
that the handling ends.) -/
def Fair (x : Whole.World) (w : Nat → Whole.WSt) (lab : Nat → Option Whole.Ev) : Prop :=
  ∀ (th : Thread) (t : Nat), (∀ m, t ≤ m → ∃ a, th.Acts a ∧ Whole.step x (w m) (.thread a) ≠ none) →
    ∃ m a, t ≤ m ∧ th.Acts a ∧ lab m = some (.thread a)

/-- Spurious wake-ups come to an end. -/
def Calm (lab : Nat → Option Whole.Ev) : Prop := ∃ N, ∀ m, N ≤ m → ∀ i, lab m ≠ some (.thread (.spurious i))

end Wayuu.Spec
