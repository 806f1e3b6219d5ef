import Verif.Spec.Headers
/-
Requests whose length is not clear (RFC 9112, section 6.3). Nothing here refers to the model of the code.
-/
namespace Wayuu.Spec

/-- One of the lines is a field of this name with this value. -/
def HasField (lines : List (List Byte)) (name v : List Byte) : Prop :=
  ∃ line ∈ lines, ∃ text, BeforeNul line text ∧ FieldLine name text v

/-- A length as it has to be written: digits, a number the server can represent. -/
def GoodLength (v : List Byte) : Prop := v ≠ [] ∧ (∀ c ∈ v, digit c) ∧ decimal v < 2 ^ 31

/-- The end of the body is unclear: different lengths, a length that is not a number (or too large), or a transfer encoding. -/
def Unclear (lines : List (List Byte)) : Prop :=
  (∃ v w, HasField lines b!"Content-Length" v ∧ HasField lines b!"Content-Length" w ∧ v ≠ w) ∨
  (∃ v, HasField lines b!"Content-Length" v ∧ ¬ GoodLength v) ∨
  ∃ v, HasField lines b!"Transfer-Encoding" v

/-- What becomes of the number `n` in 64 bits, of which the lower 32 are used (two's complement): the result of `atoi`. -/
def narrowed (n : Int) : Int := Int.bmod (max (-(2 ^ 63)) (min (2 ^ 63 - 1) n)) (2 ^ 32)

end Wayuu.Spec
