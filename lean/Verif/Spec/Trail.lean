import Verif.Spec.Router
/-
What the server log says about the routing of a request, without reference to the model.
-/
namespace Wayuu.Spec
open Wayuu

/-- The text for the parameter of the registration that is taken, if it has one. -/
inductive ParamLine (regs : List Registration) (m : List Byte) : List (List Byte) → Prop where
  | bound (r : Registration) (pre name : List Byte) (hr : FirstMatch regs m r) (ht : r.template = .param pre name) :
      ParamLine regs m [b!"router_extract_param(path=" ++ m ++ b!",prefix=" ++ pre ++ b!",param=" ++ name ++ b!")"]
  | unbound (h : ∀ r pre name, FirstMatch regs m r → r.template ≠ .param pre name) : ParamLine regs m []

/-- The texts if there is no handler for the request. -/
inductive LostLines (regs : List Registration) (method path ip url : List Byte) : List (List Byte) → Prop where
  | found (r : Registration) (h : Nat) (hr : FirstMatch regs (method ++ b!":" ++ path) r) (hh : r.handler = some h) :
      LostLines regs method path ip url []
  | lost (h : ∀ r, FirstMatch regs (method ++ b!":" ++ path) r → r.handler = none) :
      LostLines regs method path ip url [b!"Unable to find matching route for method " ++ method ++ b!" and path " ++ path,
        b!"IP:" ++ ip ++ b!" Ignored API URL: " ++ url]

end Wayuu.Spec
