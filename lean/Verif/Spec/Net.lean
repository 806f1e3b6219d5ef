import Mathlib.Data.List.Forall2
import Verif.Libc
/-
Clients that go away.
-/
namespace Wayuu.Spec

/-- A blocking socket: each write is taken whole, or the client goes away before or during it, and then every later write
finds it gone. -/
def BlockingSocket (whole gone : Nat → Prop) : Prop := ∀ i, whole i ∨ ∀ j, i < j → gone j

/-- What a client got of an answer is the beginning of it. -/
def Beginnings : List (List Byte) → List (List Byte) → Prop := List.Forall₂ (· <+: ·)

end Wayuu.Spec
