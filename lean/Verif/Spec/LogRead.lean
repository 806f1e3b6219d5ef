import Verif.Spec.Log
/-
What a reader of the access log makes of a line. Nothing here refers to the model of the code.
-/
namespace Wayuu.Spec

/-- Reading a line of the access log: the request stands between the first two quotes, then come status, length and, again
between quotes, referer and user agent. -/
def Reads (line request : List Byte) (status length : Nat) (referer ua : List Byte) : Prop :=
  ∃ pre code len post, line = pre ++ b!"\"" ++ request ++ b!"\" " ++ code ++ b!" " ++ len ++ b!" \"" ++ referer ++ b!"\" \"" ++ ua ++
      b!"\"" ++ post ∧
    (34 : Byte) ∉ pre ∧ (34 : Byte) ∉ request ∧ (34 : Byte) ∉ referer ∧ (34 : Byte) ∉ ua ∧ NatText code status ∧ NatText len length

end Wayuu.Spec
