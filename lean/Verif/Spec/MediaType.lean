import Verif.Spec.Headers
/-
The media type of the body of a request. Nothing here refers to the model of the code.
-/
namespace Wayuu.Spec

/-- The media type in the value of a `Content-Type` header: what is before the parameters, without white space around it. -/
def MediaOf (value media : List Byte) : Prop :=
  ∃ a params, value = a ++ params ∧ (59 : Byte) ∉ a ∧ (params = [] ∨ ∃ r, params = 59 :: r) ∧ IsStrip a media

/-- The media type these lines announce: that of the last `Content-Type` header. -/
inductive TypeOf : List (List Byte) → Option (List Byte) → Prop where
  | none : TypeOf [] none
  | field (lines : List (List Byte)) (o : Option (List Byte)) (line text v m : List Byte) : TypeOf lines o → BeforeNul line text →
      FieldLine b!"Content-Type" text v → MediaOf v m → TypeOf (lines ++ [line]) (some m)
  | other (lines : List (List Byte)) (o : Option (List Byte)) (line text : List Byte) : TypeOf lines o → BeforeNul line text →
      (∀ v, ¬ FieldLine b!"Content-Type" text v) → TypeOf (lines ++ [line]) o

end Wayuu.Spec
