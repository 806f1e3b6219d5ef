import Verif.Spec.Headers
/-
Header sections whose lines may come in any order. Nothing here refers to the model of the code.
-/
namespace Wayuu.Spec

/-- No two headers have the same name (up to case). -/
def DistinctNames (hs : List (List Byte × List Byte)) : Prop := hs.Pairwise (fun p q => ¬ CaseEq p.1 q.1)

/-- A header line as clients send it: it ends with a newline, has no NUL, and has a colon with a name before it. -/
def WholeLine (line : List Byte) : Prop := line.getLast? = some 10 ∧ (0 : Byte) ∉ line ∧ (58 : Byte) ∈ line

/-- A line that may bring the session. -/
def SessionLine (line : List Byte) : Prop :=
  CasePrefix b!"X-Session:" line ∨ CasePrefix b!"Authorization:" line ∨ CasePrefix b!"Cookie:" line

/-- A header as it is meant: a name without colon and white space, a value without line breaks and without white space at its
ends; no NUL. -/
def HeaderField (p : List Byte × List Byte) : Prop :=
  p.1 ≠ [] ∧ (∀ c ∈ p.1, c ≠ 58 ∧ c ≠ 0 ∧ ws c = false) ∧ p.2 ≠ [] ∧ (∀ c ∈ p.2, c ≠ 10 ∧ c ≠ 0) ∧ IsStrip p.2 p.2

/-- The line for it, with or without a blank. -/
def fieldLine (gap : List Byte) (p : List Byte × List Byte) : List Byte := p.1 ++ 58 :: (gap ++ p.2 ++ [13, 10])

end Wayuu.Spec
