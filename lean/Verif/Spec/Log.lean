import Verif.Spec.Http
/-
Log lines. Nothing here refers to the model of the code.
-/
namespace Wayuu.Spec

/-- A line of the access log in the "combined" format, with the response time added. -/
def AccessLine (line ip ts request : List Byte) (status length : Nat) (referer ua rt : List Byte) : Prop :=
  ∃ code len, NatText code status ∧ NatText len length ∧
    line = ip ++ b!" - - [" ++ ts ++ b!"] \"" ++ request ++ b!"\" " ++ code ++ b!" " ++ len ++ b!" \"" ++ referer ++
      b!"\" \"" ++ ua ++ b!"\" " ++ rt ++ b!"\n"

/-- The text is one line. -/
def SingleLine (line : List Byte) : Prop := ∃ l, line = l ++ [10] ∧ (10 : Byte) ∉ l

end Wayuu.Spec
