import Verif.Base
/-
Vocabulary about text files. Nothing here refers to the model of the code.
-/
namespace Wayuu.Spec

/-- `n` occurs in `h`. -/
def Occurs (n h : List Byte) : Prop := ∃ a b, h = a ++ n ++ b

/-- `l` is one of the lines of `text`. -/
def LineIn (l text : List Byte) : Prop :=
  ∃ a b, text = a ++ l ++ b ∧ (a = [] ∨ a.getLast? = some 10) ∧ (b = [] ∨ b.head? = some 10) ∧ (10 : Byte) ∉ l

/-- `t` is the part of `s` before its first NUL (all of it if there is none). -/
def BeforeNul (s t : List Byte) : Prop := (∀ c ∈ t, c ≠ 0) ∧ (s = t ∨ ∃ r, s = t ++ 0 :: r)

end Wayuu.Spec
