import Verif.Spec.Request
import Verif.Spec.Strings
import Verif.Spec.Json
/-
Header sections as byte strings. Nothing here refers to the model of the code.
-/
namespace Wayuu.Spec

/-- A header line: name, colon, value; white space around name and value does not count. -/
def HeaderLine (text name value : List Byte) : Prop :=
  ∃ a b, text = a ++ 58 :: b ∧ (58 : Byte) ∉ a ∧ IsStrip a name ∧ IsStrip b value

/-- The names and values of those lines that have a colon, in order. (What follows a NUL in a line is ignored.) -/
inductive Named : List (List Byte) → List (List Byte × List Byte) → Prop where
  | nil : Named [] []
  | header (line text name value : List Byte) (lines : List (List Byte)) (hs : List (List Byte × List Byte)) :
      BeforeNul line text → HeaderLine text name value → Named lines hs → Named (line :: lines) ((name, value) :: hs)
  | other (line text : List Byte) (lines : List (List Byte)) (hs : List (List Byte × List Byte)) :
      BeforeNul line text → (58 : Byte) ∉ text → Named lines hs → Named (line :: lines) hs

/-- `rest` follows the first occurrence of `needle` (up to case). -/
def AfterCase (text needle rest : List Byte) : Prop :=
  ∃ p m, text = p ++ m ++ rest ∧ CaseEq m needle ∧ ∀ i, i < p.length → ¬ CasePrefix needle (text.drop i)

/-- A line that overruns the boundary array (100 bytes, "--" and the end of the line included) or the session array
(64 bytes, the end of the line included). -/
def Overrun (text : List Byte) : Prop :=
  (CasePrefix b!"Content-Type: multipart/form-data" text ∧ ∃ rest, AfterCase text b!"boundary=" rest ∧ 98 ≤ rest.length) ∨
  ((CasePrefix b!"X-Session:" text ∨ CasePrefix b!"Authorization:" text) ∧ 74 ≤ text.length)

/-- A line for the header `name` (up to case; no white space before the colon), with its value. -/
def FieldLine (name text value : List Byte) : Prop :=
  ∃ n b, text = n ++ 58 :: b ∧ CaseEq n name ∧ IsStrip b value

/-- The session token after these lines: the value of the last `X-Session` or `Authorization` header, or the
`WSSESSION` cookie if there is no token yet. -/
inductive SessionOf : List (List Byte) → List Byte → Prop where
  | none : SessionOf [] []
  | token (lines : List (List Byte)) (s line text v : List Byte) : SessionOf lines s → BeforeNul line text →
      FieldLine b!"X-Session" text v ∨ FieldLine b!"Authorization" text v → SessionOf (lines ++ [line]) v
  | cookie (lines : List (List Byte)) (line text t v : List Byte) : SessionOf lines [] → BeforeNul line text →
      text = b!"Cookie: WSSESSION=" ++ t → IsStrip t v → SessionOf (lines ++ [line]) v
  | kept (lines : List (List Byte)) (s line text : List Byte) : SessionOf lines s → BeforeNul line text →
      (∀ v, ¬ FieldLine b!"X-Session" text v ∧ ¬ FieldLine b!"Authorization" text v) →
      (b!"Cookie: WSSESSION=" <+: text → s ≠ []) → SessionOf (lines ++ [line]) s

/-- The content length announced by these lines. -/
inductive LengthOf : List (List Byte) → Option Nat → Prop where
  | none : LengthOf [] none
  | field (lines : List (List Byte)) (n : Option Nat) (line text v : List Byte) : LengthOf lines n → BeforeNul line text →
      FieldLine b!"Content-Length" text v → v ≠ [] → (∀ c ∈ v, digit c) → LengthOf (lines ++ [line]) (some (decimal v))
  | other (lines : List (List Byte)) (n : Option Nat) (line text : List Byte) : LengthOf lines n → BeforeNul line text →
      (∀ v, ¬ FieldLine b!"Content-Length" text v) → LengthOf (lines ++ [line]) n

end Wayuu.Spec
