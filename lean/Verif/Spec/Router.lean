import Verif.Spec.Http
/-
Routing, as router.h documents it: templates, matching, first match. Nothing here refers to the model of
the code.
-/
namespace Wayuu.Spec

/-- What a programmer registers: a fixed `METHOD:PATH`, or `PREFIX{name}`. -/
inductive Template where
  | const (text : List Byte)
  | param (pre name : List Byte)
deriving DecidableEq

/-- The text passed to `router_add_route`. -/
def Template.text : Template → List Byte
  | .const t => t
  | .param pre name => pre ++ b!"{" ++ name ++ b!"}"

/-- Templates covered: no NULs, '{' only as the marker of the parameter, ASCII before it. -/
def Template.Valid : Template → Prop
  | .const t => (∀ c ∈ t, c ≠ 0) ∧ (123 : Byte) ∉ t
  | .param pre name => (∀ c ∈ pre, c ≠ 0 ∧ c ≠ 123 ∧ c < 128) ∧ ∀ c ∈ name, c ≠ 0

/-- The template fits the arrays of `route_matcher` (router.h:35-42). -/
def Template.Fits : Template → Prop
  | .const t => t.length < 256
  | .param pre name => pre.length < 256 ∧ name.length < 64

instance (t : Template) : Decidable t.Fits := by
  cases t <;> unfold Template.Fits <;> infer_instance

instance (t : Template) : Decidable t.Valid := by
  cases t <;> unfold Template.Valid <;> infer_instance

/-- The requests a template is meant for: the text itself, or the prefix followed by a value. -/
def Template.Selects : Template → List Byte → Prop
  | .const t, m => m = t
  | .param pre _, m => ∃ v, v ≠ [] ∧ m = pre ++ v

/-- A weaker notion of match: the prefix of a parameter template may be anywhere in the request. C28 is
about the difference. -/
def Template.Matches : Template → List Byte → Prop
  | .const t, m => m = t
  | .param pre _, m => (∃ x v, m = x ++ pre ++ v) ∧ m ≠ pre

/-- One call of `router_add_route`; `none` is a NULL pointer. -/
structure Registration where
  template : Template
  handler : Option Nat
  filter : Option Nat
deriving DecidableEq

/-- `r` is the earliest registration that matches. -/
def FirstMatch (regs : List Registration) (m : List Byte) (r : Registration) : Prop :=
  ∃ a b, regs = a ++ r :: b ∧ r.template.Matches m ∧ ∀ r' ∈ a, ¬ r'.template.Matches m

/-- Methods of the documentation (router.h) and ws.c:56. -/
def methods : List (List Byte) := [b!"GET", b!"POST", b!"PUT", b!"DELETE"]

end Wayuu.Spec
