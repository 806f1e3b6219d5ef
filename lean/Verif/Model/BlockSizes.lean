import Verif.Model.JsonUtils
/-
string_utils.c:136-169 and json_utils.c:33-86 once more, with the `int` variables `str_len` and
`string_size` as the 32-bit integers they are (Model/StringUtils.lean and Model/JsonUtils.lean take
them as unbounded). Everything else is the same.
-/
namespace Wayuu
open C

/-- `n += k` for an `int n` and a `size_t k`: the sum is taken modulo 2^64 and converted back to `int`,
which keeps the low 32 bits. -/
def addSize (n : Int) (k : Nat) : Int := toInt32 (n + k)

/-- `calloc(n, 1)` of an `int n`, followed by a write to the block: a negative `n` becomes a `size_t`
of at least 2^63, for which `calloc` returns NULL. The result is the size of the block. -/
def callocInt (n : Int) : C Nat := if n < 0 then ub .null else ok n.toNat

/-- string_utils.c:147-151 and json_utils.c:41-45, the loop that adds up the lengths. First argument:
iterations left. -/
def joinLenI (array : List (Option Str)) : Nat → Nat → Int → C Int
  | 0, _, str_len => ok str_len
  | n + 1, i, str_len => do
    let p ← elemAt array i
    match p with
    | some s => joinLenI array n (i + 1) (addSize str_len s.length)
    | none => joinLenI array n (i + 1) str_len

/-- string_utils.c:136-169 `join`, `str_len` an `int` (146-152). -/
def joinI (array : Option (List (Option Str))) (size : Int) (delim : Str) : C HStr :=
  match array with
  | none => ok ⟨false, []⟩
  | some a =>
    if size ≤ 0 then ok ⟨false, []⟩ else do
    let p0 ← elemAt a 0
    match p0 with
    | none => ok ⟨false, []⟩
    | some s0 =>
      if size = 1 then ok ⟨true, s0⟩ else do
      let n := size.toNat
      let str_len ← joinLenI a n 0 0
      let str_len := addSize str_len (n * delim.length + 1)
      let cap ← callocInt str_len
      let acc ← joinFill a delim cap (n - 1) 0 []
      let last ← elemAt a (n - 1)
      match last with
      | none => ub .null
      | some s => do
        let acc ← fmtInto cap (acc ++ s)
        ok ⟨true, acc⟩

/-- json_utils.c:33-54 `json_array_of_strings`, `string_size` an `int` (40-45). -/
def json_array_of_stringsI (array : Option (List (Option Str))) (size : Int) : C Str :=
  match array with
  | none => ok b!"[]"
  | some a =>
    if size < 1 then ok b!"[]" else do
    let n := size.toNat
    let string_size := addSize 0 (JSON_ARRAY_STR_BEGIN.length + JSON_ARRAY_STR_END.length
      + n * JSON_ARRAY_STR_SEP.length + 2)
    let string_size ← joinLenI a n 0 string_size
    let cap ← callocInt string_size
    let json ← fmtInto cap JSON_ARRAY_STR_BEGIN
    let joined ← joinI array size JSON_ARRAY_STR_SEP
    let json ← fmtInto cap (json ++ joined.s)
    let json ← fmtInto cap (json ++ JSON_ARRAY_STR_END)
    freeStr joined
    ok json

/-- json_utils.c:56-86 `json_array_of_entities` on that `join`. Its own block size (73) is a `size_t`. -/
def json_array_of_entitiesI {α : Type} (ser : α → C (Option Str)) (elements : List α) : C Str :=
  if elements.length = 0 then
    fmtInto (JSON_ARRAY_BEGIN.length + JSON_ARRAY_END.length + 2) (JSON_ARRAY_BEGIN ++ JSON_ARRAY_END)
  else do
  let ents ← serializeAll ser elements
  let joined ← joinI (some ents) elements.length b!","
  let cap := joined.s.length + elements.length + JSON_ARRAY_BEGIN.length + JSON_ARRAY_END.length + 2
  let json ← fmtInto cap JSON_ARRAY_BEGIN
  let json ← fmtInto cap (json ++ joined.s)
  let json ← fmtInto cap (json ++ JSON_ARRAY_END)
  if joined.s ≠ [] then freeStr joined else ok ()
  ok json

end Wayuu
