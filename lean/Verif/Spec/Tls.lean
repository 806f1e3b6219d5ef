import Verif.Model.Tls
/-
What a visit of a client looks like to the client.
-/
namespace Wayuu.Spec
open Wayuu.Tls

/-- What was done for client `k`, in order. -/
def opsOf (ts : List Touch) (k : Nat) : List Op := (ts.filter (fun t => t.meant == k)).map (·.op)

/-- A visit from beginning to end: turned away at once, or served without TLS, or with TLS: one handshake, reads and writes, one shutdown;
and one close at the end in any case. -/
inductive Visit : Bool → List Op → Prop
  | denied (secure : Bool) : Visit secure [.close]
  | plain (n : Nat) : Visit false (List.replicate n .io ++ [.close])
  | secure (n : Nat) : Visit true (.handshake :: List.replicate n .io ++ [.shutdown, .close])

/-- Nobody is being looked after. -/
def Resting (s : S) : Prop := s.accepted = none ∧ s.queue = [] ∧ ∀ i, s.worker i = .idle

end Wayuu.Spec
