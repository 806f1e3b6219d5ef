import Verif.Base
/-
Independent vocabulary about byte strings. Nothing here refers to the model of the code.
-/
namespace Wayuu.Spec

/-- The white space bytes of the "C" locale: TAB, LF, VT, FF, CR, space. -/
def ws (c : Byte) : Bool := [9, 10, 11, 12, 13, 32].contains c

/-- `t` is `s` without its surrounding white space. -/
def IsStrip (s t : List Byte) : Prop :=
  ∃ l r, s = l ++ t ++ r ∧ (∀ c ∈ l, ws c = true) ∧ (∀ c ∈ r, ws c = true) ∧
    (∀ c, t.head? = some c → ws c = false) ∧ (∀ c, t.getLast? = some c → ws c = false)

/-- ASCII lower case. -/
def lower (c : Byte) : Byte := if 65 ≤ c.toNat ∧ c.toNat ≤ 90 then UInt8.ofNat (c.toNat + 32) else c

/-- Equality up to ASCII case. -/
def CaseEq (s t : List Byte) : Prop := s.map lower = t.map lower

/-- `p` is a prefix of `s` up to ASCII case. -/
def CasePrefix (p s : List Byte) : Prop := ∃ a b, s = a ++ b ∧ CaseEq a p

/-- `i` is the first position `≥ start` and `< bound` at which `n` occurs in `h`. -/
def FirstOcc (h n : List Byte) (start bound i : Nat) : Prop :=
  start ≤ i ∧ i < bound ∧ n <+: h.drop i ∧ ∀ j, start ≤ j → j < i → ¬ n <+: h.drop j

/-- ASCII digits and letters. -/
def alnum (c : Byte) : Bool :=
  (b!"0123456789ABCDEFGHIJKLMNOPQRSTUVWXYZabcdefghijklmnopqrstuvwxyz").contains c

/-- `e0 delim e1 delim … e(n-1)`. -/
def sepBy (delim : List Byte) : List (List Byte) → List Byte
  | [] => []
  | [e] => e
  | e :: es => e ++ delim ++ sepBy delim es

/-- `ts` are exactly the non-empty maximal runs of bytes of `s` that are not in `delim`, in order:
`s` is a sequence of runs separated by at least one delimiter, with optional delimiters around. -/
inductive Runs (delim : List Byte) : List Byte → List (List Byte) → Prop where
  /-- only delimiters left -/
  | nil (d : List Byte) : (∀ c ∈ d, c ∈ delim) → Runs delim d []
  /-- delimiters, then a run that reaches the end -/
  | last (d t : List Byte) : (∀ c ∈ d, c ∈ delim) → t ≠ [] → (∀ c ∈ t, c ∉ delim) →
      Runs delim (d ++ t) [t]
  /-- delimiters, then a run stopped by a delimiter, then the rest -/
  | cons (d t : List Byte) (x : Byte) (s : List Byte) (ts : List (List Byte)) :
      (∀ c ∈ d, c ∈ delim) → t ≠ [] → (∀ c ∈ t, c ∉ delim) → x ∈ delim → Runs delim s ts →
      Runs delim (d ++ t ++ x :: s) (t :: ts)

/-- Two lowercase hexadecimal digits of a byte. -/
def hex2 (c : Byte) : List Byte :=
  [(b!"0123456789abcdef").getD (c.toNat / 16) 0, (b!"0123456789abcdef").getD (c.toNat % 16) 0]

/-- The hexadecimal text of a digest. -/
def hexText (ds : List Byte) : List Byte := ds.flatMap hex2

end Wayuu.Spec
