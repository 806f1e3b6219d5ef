import Verif.Spec.Strings
/-
JSON texts (RFC 8259) and the values they denote. Nothing here refers to the model of the code.
Bytes ≥ 128 are passed through inside strings: UTF-8 well-formedness is not examined.
-/
namespace Wayuu.Spec

/-- JSON values. Numbers with a fraction or an exponent are kept as text. -/
inductive Value where
  | null
  | bool (b : Bool)
  | int (n : Int)
  | frac (text : List Byte)
  | str (s : List Byte)
  | arr (vs : List Value)
  | obj (ms : List (List Byte × Value))

/-- JSON insignificant white space. -/
def JWs (s : List Byte) : Prop := ∀ c ∈ s, c = 32 ∨ c = 9 ∨ c = 10 ∨ c = 13

/-- The two-character escapes and the byte they denote. -/
def escapes : List (Byte × Byte) :=
  [(34, 34), (92, 92), (47, 47), (98, 8), (102, 12), (110, 10), (114, 13), (116, 9)]

/-- Value of a hexadecimal digit. -/
def hexVal (c : Byte) : Option Nat :=
  if 48 ≤ c.toNat ∧ c.toNat ≤ 57 then some (c.toNat - 48)
  else if 65 ≤ c.toNat ∧ c.toNat ≤ 70 then some (c.toNat - 55)
  else if 97 ≤ c.toNat ∧ c.toNat ≤ 102 then some (c.toNat - 87)
  else none

/-- Value of four hexadecimal digits. -/
def hex4 (a b c d : Byte) : Option Nat := do
  let a ← hexVal a
  let b ← hexVal b
  let c ← hexVal c
  let d ← hexVal d
  some (((a * 16 + b) * 16 + c) * 16 + d)

/-- UTF-8 encoding of a code point. -/
def utf8 (n : Nat) : List Byte :=
  if n < 0x80 then [UInt8.ofNat n]
  else if n < 0x800 then [UInt8.ofNat (0xC0 + n / 64), UInt8.ofNat (0x80 + n % 64)]
  else if n < 0x10000 then
    [UInt8.ofNat (0xE0 + n / 4096), UInt8.ofNat (0x80 + n / 64 % 64), UInt8.ofNat (0x80 + n % 64)]
  else
    [UInt8.ofNat (0xF0 + n / 262144), UInt8.ofNat (0x80 + n / 4096 % 64), UInt8.ofNat (0x80 + n / 64 % 64),
     UInt8.ofNat (0x80 + n % 64)]

/-- The characters between the quotes of a JSON string, and the bytes they denote. -/
inductive JChars : List Byte → List Byte → Prop where
  | nil : JChars [] []
  | plain (c : Byte) (s v : List Byte) : 32 ≤ c.toNat → c ≠ 34 → c ≠ 92 → JChars s v → JChars (c :: s) (c :: v)
  | esc (e b : Byte) (s v : List Byte) : (e, b) ∈ escapes → JChars s v → JChars (92 :: e :: s) (b :: v)
  | uni (a b c d : Byte) (n : Nat) (s v : List Byte) : hex4 a b c d = some n → ¬ (0xD800 ≤ n ∧ n ≤ 0xDFFF) →
      JChars s v → JChars (92 :: 117 :: a :: b :: c :: d :: s) (utf8 n ++ v)
  | pair (a b c d a' b' c' d' : Byte) (n m : Nat) (s v : List Byte) : hex4 a b c d = some n →
      hex4 a' b' c' d' = some m → 0xD800 ≤ n → n ≤ 0xDBFF → 0xDC00 ≤ m → m ≤ 0xDFFF → JChars s v →
      JChars (92 :: 117 :: a :: b :: c :: d :: 92 :: 117 :: a' :: b' :: c' :: d' :: s)
        (utf8 (0x10000 + (n - 0xD800) * 0x400 + (m - 0xDC00)) ++ v)

/-- A JSON string literal. -/
def StrLit (text value : List Byte) : Prop := ∃ body, text = 34 :: body ++ [34] ∧ JChars body value

/-- ASCII digits. -/
def digit (c : Byte) : Prop := 48 ≤ c.toNat ∧ c.toNat ≤ 57

/-- Value of a list of digits, most significant first. -/
def decimal (ds : List Byte) : Nat := ds.foldl (fun n c => 10 * n + (c.toNat - 48)) 0

/-- A natural number in JSON: digits, no superfluous leading zero. -/
def NatText (s : List Byte) (n : Nat) : Prop :=
  s ≠ [] ∧ (∀ c ∈ s, digit c) ∧ (1 < s.length → s.head? ≠ some 48) ∧ decimal s = n

/-- An integer in JSON. -/
def IntText (s : List Byte) (n : Int) : Prop :=
  (∃ m : Nat, NatText s m ∧ n = m) ∨ (∃ t, ∃ m : Nat, s = 45 :: t ∧ NatText t m ∧ n = -m)

/-- Optional sign of an exponent. -/
def ExpSign (s : List Byte) : Prop := s = [] ∨ s = [43] ∨ s = [45]

/-- Fraction and exponent parts. -/
def FracPart (s : List Byte) : Prop := ∃ d, s = 46 :: d ∧ d ≠ [] ∧ ∀ c ∈ d, digit c
/-- Exponent part. -/
def ExpPart (s : List Byte) : Prop :=
  ∃ e sg d, s = e :: (sg ++ d) ∧ (e = 101 ∨ e = 69) ∧ ExpSign sg ∧ d ≠ [] ∧ ∀ c ∈ d, digit c

/-- A number with a fraction, an exponent or both. -/
def FracText (s : List Byte) : Prop :=
  ∃ i n r, IntText i n ∧ s = i ++ r ∧ (FracPart r ∨ ExpPart r ∨ ∃ a b, r = a ++ b ∧ FracPart a ∧ ExpPart b)

/-- One member of an object, as text and as key and value. -/
structure Memb where
  w1 : List Byte
  keyText : List Byte
  key : List Byte
  w2 : List Byte
  valText : List Byte
  val : Value

/-- The text of a member. -/
def Memb.text (m : Memb) : List Byte := m.w1 ++ m.keyText ++ m.w2 ++ [58] ++ m.valText

/-- The text denotes the value. -/
inductive Json : List Byte → Value → Prop where
  | ws (l s r : List Byte) (v : Value) : JWs l → JWs r → Json s v → Json (l ++ s ++ r) v
  | null : Json b!"null" .null
  | tru : Json b!"true" (.bool true)
  | fls : Json b!"false" (.bool false)
  | int (s : List Byte) (n : Int) : IntText s n → Json s (.int n)
  | frac (s : List Byte) : FracText s → Json s (.frac s)
  | str (s v : List Byte) : StrLit s v → Json s (.str v)
  | arr0 (w : List Byte) : JWs w → Json (91 :: w ++ [93]) (.arr [])
  | arr (l : List (List Byte × Value)) : l ≠ [] → (∀ p ∈ l, Json p.1 p.2) →
      Json (91 :: sepBy [44] (l.map (·.1)) ++ [93]) (.arr (l.map (·.2)))
  | obj0 (w : List Byte) : JWs w → Json (123 :: w ++ [125]) (.obj [])
  | obj (l : List Memb) : l ≠ [] → (∀ m ∈ l, JWs m.w1 ∧ JWs m.w2 ∧ StrLit m.keyText m.key) →
      (∀ m ∈ l, Json m.valText m.val) →
      Json (123 :: sepBy [44] (l.map Memb.text) ++ [125]) (.obj (l.map fun m => (m.key, m.val)))

/-- The text is one member `"key": value` of an object. -/
def JsonMember (s key : List Byte) (v : Value) : Prop :=
  ∃ m : Memb, s = m.text ∧ m.key = key ∧ m.val = v ∧ JWs m.w1 ∧ JWs m.w2 ∧ StrLit m.keyText m.key ∧
    Json m.valText m.val

/-- Bytes that need no escaping inside a JSON string. -/
def Plain (s : List Byte) : Prop := ∀ c ∈ s, 32 ≤ c.toNat ∧ c ≠ 34 ∧ c ≠ 92

end Wayuu.Spec
