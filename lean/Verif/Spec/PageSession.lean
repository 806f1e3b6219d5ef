import Verif.Spec.Headers
/-
What an answer says about the session. Nothing here refers to the model of the code.
-/
namespace Wayuu.Spec

/-- The header lines that hand a session to the client: none if there is no session. -/
def sessionLines (s : List Byte) : List Byte :=
  if s = [] then [] else b!"X-Session: " ++ s ++ b!"\r\nSet-Cookie:WSSESSION=" ++ s ++ b!"\r\n"

/-- The answer with a page: a head without any cookie, the lines for the session `s`, the end of the head and the page. -/
def PageFor (reply s content : List Byte) : Prop :=
  ∃ head, reply = head ++ sessionLines s ++ b!"\r\n" ++ content ∧ ¬ b!"Set-Cookie" <:+: head

end Wayuu.Spec
