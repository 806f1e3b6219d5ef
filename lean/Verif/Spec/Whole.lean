import Verif.Spec.Headers
import Verif.Spec.Request
/-
Requests that were sent completely. Nothing here refers to the model of the code.
-/
namespace Wayuu.Spec

/-- A complete header section: lines up to a blank one. -/
inductive Whole : List Byte → List (List Byte) → List Byte → Prop where
  | blank (input line rest : List Byte) : LineOf input 1023 line rest → line = [10] ∨ line = [13, 10] → Whole input [] rest
  | line (input line rest : List Byte) (lines : List (List Byte)) (rest' : List Byte) : LineOf input 1023 line rest →
      line ≠ [] → line ≠ [10] → line ≠ [13, 10] → Whole rest lines rest' → Whole input (line :: lines) rest'

/-- A complete request: a request line, a complete header section, and at least as many bytes as the last `Content-Length`
line says. -/
def Complete (input : List Byte) : Prop :=
  ∃ line rest lines body n, LineOf input 1023 line rest ∧ Whole rest lines body ∧ LengthOf lines n ∧
    n.getD 0 < 2 ^ 31 ∧ n.getD 0 ≤ body.length

end Wayuu.Spec
