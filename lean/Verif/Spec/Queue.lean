import Verif.Model.Queue
/-
What is claimed about the connection queue, in terms of schedules and of the recorded traffic only.
-/
namespace Wayuu.Spec
open Wayuu C Wayuu.Queue

/-- `acts` can be executed one after another from `s`, without undefined behaviour, and leads to `s'`. -/
inductive QRuns : QSt → List Act → QSt → Prop where
  | nil (s : QSt) : QRuns s [] s
  | cons {s s' s'' : QSt} {a : Act} {acts : List Act} : step s a = some (ok s') → QRuns s' acts s'' → QRuns s (a :: acts) s''

/-- The scheduling choice needs nothing from outside: no new connection and no spurious wake-up. -/
def Inner : Act → Prop
  | .accept _ _ => False
  | .spurious _ => False
  | _ => True

/-- No thread can do anything until another connection comes in. -/
def Quiet (s : QSt) : Prop := ∀ a, Inner a → step s a = none

/-- Sockets stored in the queue and not yet handed to a worker. -/
def pending (s : QSt) : List Nat := s.enqueued.drop s.delivered.length

/-- The worker is between `pthread_mutex_lock` and `pthread_mutex_unlock` (and not asleep in between). -/
def Locked : WPc → Prop
  | .lock | .waiting | .relock | .handle _ => False
  | _ => True

/-- The accepting thread is between `pthread_mutex_lock` and `pthread_mutex_unlock`. -/
def ProdLocked : PPc → Prop
  | .accept | .lock _ | .signal => False
  | _ => True

/-- Execute a schedule. -/
def runActs : QSt → List Act → Option QSt
  | s, [] => some s
  | s, a :: acts =>
    match step s a with
    | some (ok s') => runActs s' acts
    | _ => none

theorem runs_of_runActs {s s' : QSt} {acts : List Act} (h : runActs s acts = some s') : QRuns s acts s' := by
  induction acts generalizing s with
  | nil => cases h; exact .nil _
  | cons a acts ih =>
    simp only [runActs] at h
    split at h
    · rename_i s1 hs; exact .cons hs (ih h)
    · cases h

end Wayuu.Spec
