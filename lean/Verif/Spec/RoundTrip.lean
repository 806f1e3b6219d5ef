import Verif.Spec.Strings
/-
Texts in which a byte separates elements: joining and splitting (string_utils.h:44-58).
-/
namespace Wayuu.Spec

/-- No separator is the first byte, the last byte or next to another one. -/
def Tidy (d : Byte) (s : List Byte) : Prop := ∀ a b, s = a ++ d :: b → a ≠ [] ∧ ∃ x r, b = x :: r ∧ x ≠ d

end Wayuu.Spec
