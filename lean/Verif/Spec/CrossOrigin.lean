import Verif.Spec.Http
/-
What a browser asks of a response before it hands it to a page of another origin.
-/
namespace Wayuu.Spec
open Wayuu

/-- Exactly one `Access-Control-Allow-Origin` field, and it admits every origin. -/
def CrossOrigin (fields : List (List Byte × List Byte)) : Prop :=
  ∃ a b, fields = a ++ (b!"Access-Control-Allow-Origin", b!"*") :: b ∧
    ∀ f ∈ a ++ b, ¬ CaseEq f.1 b!"Access-Control-Allow-Origin"

end Wayuu.Spec
