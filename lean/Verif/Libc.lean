import Verif.Base
/-
libc functions used by the repository (trusted semantics, no repository code).
-/
namespace Wayuu
open C

/-- `isspace` in the "C" locale. -/
def isSpace (c : Byte) : Bool := c == 32 || (9 ≤ c && c ≤ 13)

/-- `isdigit`. -/
def isDigit (c : Byte) : Bool := 48 ≤ c && c ≤ 57

/-- `isalnum` in the "C" locale. -/
def isAlnum (c : Byte) : Bool :=
  (48 ≤ c && c ≤ 57) || (65 ≤ c && c ≤ 90) || (97 ≤ c && c ≤ 122)

/-- `tolower` in the "C" locale. -/
def toLower (c : Byte) : Byte := if 65 ≤ c && c ≤ 90 then c + 32 else c

/-- The value of a `char` (signed on x86-64). -/
def schar (c : Byte) : Int := if c < 128 then (c.toNat : Int) else (c.toNat : Int) - 256

/-- `strcpy(dst + off, s)` / `sprintf(dst + off, "%s", s)`. -/
def strcpyAt (dst : Buf) (off : Nat) (s : Str) : C Buf := writeAt dst off (s ++ [0])

/-- `strcat(dst, s)`. -/
def strcat (dst : Buf) (s : Str) : C Buf := do
  let d ← cstr dst
  strcpyAt dst d.length s

/-- `strncpy(dst + off, s, n)`: at most `n` bytes, zero padded, not terminated if `s` has `n` or
more bytes. -/
def strncpyAt (dst : Buf) (off : Nat) (s : Str) (n : Nat) : C Buf :=
  writeAt dst off (s.take n ++ List.replicate (n - s.length) 0)

/-- `sprintf`/`strcpy` of the text `s` into a fresh block of `cap` bytes; the result is the C string
it then holds. -/
def fmtInto (cap : Nat) (s : Str) : C Str :=
  if s.length + 1 ≤ cap then ok s else ub .oob

/-- `strcmp(a,b) == 0`. -/
def strEq (a b : Str) : Bool := a == b

/-- `strncasecmp(a,b,n) == 0`. -/
def strncaseEq : Str → Str → Nat → Bool
  | _, _, 0 => true
  | [], [], _ + 1 => true
  | [], _ :: _, _ + 1 => false
  | _ :: _, [], _ + 1 => false
  | x :: xs, y :: ys, n + 1 => toLower x == toLower y && strncaseEq xs ys n

/-- `strcasecmp(a,b) == 0`. -/
def strcaseEq : Str → Str → Bool
  | [], [] => true
  | x :: xs, y :: ys => toLower x == toLower y && strcaseEq xs ys
  | _, _ => false

/-- `strstr(h, n)`: the suffix of `h` starting at the first occurrence of `n`. -/
def strstr (h n : Str) : Option Str :=
  if n.isPrefixOf h then some h else
  match h with
  | [] => none
  | _ :: t => strstr t n

/-- `strcasestr(h, n)`. -/
def strcasestr (h n : Str) : Option Str :=
  if strncaseEq h n n.length then some h else
  match h with
  | [] => none
  | _ :: t => strcasestr t n

/-- `strchr(s, c) != NULL` for `c ≠ 0`. -/
def strchr (s : Str) (c : Byte) : Bool := s.contains c

/-- `strrchr(s, c)`: offset of the last occurrence of `c`. -/
def strrchr : Str → Byte → Option Nat
  | [], _ => none
  | x :: xs, c =>
    match strrchr xs c with
    | some i => some (i + 1)
    | none => if x == c then some 0 else none

/-- One `strtok` call on the pending text: skip delimiters, then the token extends to the next
delimiter (which is consumed) or to the end. Returns the token and the new pending text, or
`none` when only delimiters are left. -/
def strtok (s delim : Str) : Option (Str × Str) :=
  let s := s.dropWhile (delim.contains ·)
  match s with
  | [] => none
  | _ => some (s.takeWhile (!delim.contains ·), (s.dropWhile (!delim.contains ·)).drop 1)

/-- Decimal digits of a natural number (fuel = the number itself is enough). -/
def decAux : Nat → Nat → Str → Str
  | 0, _, acc => acc
  | fuel + 1, n, acc =>
    let acc := (48 + UInt8.ofNat (n % 10)) :: acc
    if n / 10 = 0 then acc else decAux fuel (n / 10) acc

/-- `%u` / `%zu`. -/
def fmtNat (n : Nat) : Str := decAux (n + 1) n []

/-- `%d`. -/
def fmtInt (n : Int) : Str := if n < 0 then 45 :: fmtNat n.natAbs else fmtNat n.natAbs

/-- One hexadecimal digit, lowercase. -/
def hexDigit (n : Nat) : Byte := if n < 10 then 48 + UInt8.ofNat n else 87 + UInt8.ofNat n

/-- `%02x` of one byte. -/
def fmtHex2 (b : Byte) : Str := [hexDigit (b.toNat / 16), hexDigit (b.toNat % 16)]

/-- Digits scanned by `strtol` in base 10. -/
def digitsVal : Str → Nat → Nat
  | [], acc => acc
  | c :: r, acc => if isDigit c then digitsVal r (acc * 10 + (c.toNat - 48)) else acc

/-- Conversion of a `long` to `int` (two's complement). -/
def toInt32 (n : Int) : Int := Int.bmod n (2 ^ 32)

/-- `atoi`: `(int) strtol(s, NULL, 10)`: skip white space, optional sign, digits, saturating at the
`long` range, truncated to `int`. -/
def atoi (s : Str) : Int :=
  let s := s.dropWhile isSpace
  let (neg, s) := match s with
    | 45 :: r => (true, r)
    | 43 :: r => (false, r)
    | _ => (false, s)
  let v : Int := digitsVal s 0
  let v := if neg then -v else v
  toInt32 (max (-(2 ^ 63)) (min (2 ^ 63 - 1) v))

/-- `fgets(line, size, f)` on the pending file contents: at most `size - 1` bytes, up to and
including the first newline; `none` at end of file. -/
def fgetsAux : Nat → Str → Str × Str
  | 0, s => ([], s)
  | _, [] => ([], [])
  | n + 1, c :: s =>
    if c = 10 then ([c], s) else
    let (l, r) := fgetsAux n s
    (c :: l, r)

def fgets (size : Nat) (s : Str) : Option (Str × Str) :=
  match s with
  | [] => none
  | _ => some (fgetsAux (size - 1) s)

/-- `getline`: the pending text up to and including the first newline; `none` at end of file. -/
def getlineAux : Str → Str × Str
  | [] => ([], [])
  | c :: s => if c = 10 then ([c], s) else let (l, r) := getlineAux s; (c :: l, r)

def getline (s : Str) : Option (Str × Str) :=
  match s with
  | [] => none
  | _ => some (getlineAux s)

/-- The C string read from raw bytes followed by a terminator: it ends at the first NUL. -/
def untilNul (s : List Byte) : Str := s.takeWhile (· != 0)

end Wayuu
