import Verif.Spec.Http
import Verif.Spec.Files
/-
HTTP requests as byte strings. Nothing here refers to the model of the code.
-/
namespace Wayuu.Spec

/-- White space as `isspace` has it in the C locale. -/
def White (c : Byte) : Prop := c = 32 ∨ (9 ≤ c.toNat ∧ c.toNat ≤ 13)

/-- A request line: method, white space, URL, white space (at least the end of the line) and anything. -/
def RequestLine (text method url : List Byte) : Prop :=
  ∃ gap w more, text = method ++ gap ++ url ++ w :: more ∧ (∀ c ∈ method, ¬ White c) ∧ gap ≠ [] ∧ (∀ c ∈ gap, White c) ∧
    url ≠ [] ∧ (∀ c ∈ url, ¬ White c) ∧ White w

/-- The methods the server supports. -/
def Supported (text : List Byte) : Prop :=
  ∃ m ∈ [b!"GET", b!"POST", b!"PUT", b!"DELETE"], CasePrefix m text

/-- The input begins with a request line whose method and URL fit their arrays; `rest` is what follows it. -/
def Begins (input line text method url rest : List Byte) : Prop :=
  LineOf input 1023 line rest ∧ BeforeNul line text ∧ RequestLine text method url ∧ method.length ≤ 254 ∧ url.length ≤ 254

/-- A header section: lines (as they are delivered, at most 1023 bytes each) up to a blank one or the end of
the input, and what follows. -/
inductive Section : List Byte → List (List Byte) → List Byte → Prop where
  | eof : Section [] [] []
  | blank (input line rest : List Byte) : LineOf input 1023 line rest → line = [10] ∨ line = [13, 10] →
      Section input [] rest
  | line (input line rest : List Byte) (lines : List (List Byte)) (rest' : List Byte) : LineOf input 1023 line rest →
      line ≠ [] → line ≠ [10] → line ≠ [13, 10] → Section rest lines rest' → Section input (line :: lines) rest'

end Wayuu.Spec
