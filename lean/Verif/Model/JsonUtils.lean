import Verif.Model.StringUtils
/-
Model of /repo/json_utils.c.
-/
namespace Wayuu
open C

/-- string_utils.h:26 `MAX_INT_STR`. -/
abbrev MAX_INT_STR : Nat := 32
/-- json_utils.c:31 `MAX_INT_STRING_LEN`. -/
abbrev MAX_INT_STRING_LEN : Nat := 32

/-- json_utils.c:25 -/
def JSON_ARRAY_BEGIN : Str := b!"["
/-- json_utils.c:26 -/
def JSON_ARRAY_STR_BEGIN : Str := b!"[\""
/-- json_utils.c:27 -/
def JSON_ARRAY_END : Str := b!"]"
/-- json_utils.c:28 -/
def JSON_ARRAY_STR_END : Str := b!"\"]"
/-- json_utils.c:29 -/
def JSON_ARRAY_STR_SEP : Str := b!"\",\""

/-- `free(p)`: undefined for a string literal. -/
def freeStr (p : HStr) : C Unit := if p.heap then ok () else ub .badFree

/-- json_utils.c:33-54 `json_array_of_strings`. -/
def json_array_of_strings (array : Option (List (Option Str))) (size : Int) : C Str :=
  match array with
  | none => ok b!"[]"
  | some a =>
    if size < 1 then ok b!"[]" else do
    let n := size.toNat
    let lens ← joinLen a n 0
    let cap := JSON_ARRAY_STR_BEGIN.length + JSON_ARRAY_STR_END.length
      + n * JSON_ARRAY_STR_SEP.length + 2 + lens
    let json ← fmtInto cap JSON_ARRAY_STR_BEGIN
    let joined ← join array size JSON_ARRAY_STR_SEP
    let json ← fmtInto cap (json ++ joined.s)
    let json ← fmtInto cap (json ++ JSON_ARRAY_STR_END)
    freeStr joined
    ok json

/-- json_utils.c:65-69, the serialisation loop of `json_array_of_entities`; `ser` is the
user-supplied serialiser (a NULL result is `none`). -/
def serializeAll {α : Type} (ser : α → C (Option Str)) : List α → C (List (Option Str))
  | [] => ok []
  | x :: xs => do
    let s ← ser x
    let r ← serializeAll ser xs
    ok (s :: r)

/-- json_utils.c:56-86 `json_array_of_entities`; `elements` are the `list.size ≥ 0` elements. The
serialiser's results are heap strings (they are freed at the end). -/
def json_array_of_entities {α : Type} (ser : α → C (Option Str)) (elements : List α) : C Str :=
  if elements.length = 0 then
    fmtInto (JSON_ARRAY_BEGIN.length + JSON_ARRAY_END.length + 2) (JSON_ARRAY_BEGIN ++ JSON_ARRAY_END)
  else do
  let ents ← serializeAll ser elements
  let joined ← join (some ents) elements.length b!","
  let cap := joined.s.length + elements.length + JSON_ARRAY_BEGIN.length + JSON_ARRAY_END.length + 2
  let json ← fmtInto cap JSON_ARRAY_BEGIN
  let json ← fmtInto cap (json ++ joined.s)
  let json ← fmtInto cap (json ++ JSON_ARRAY_END)
  if joined.s ≠ [] then freeStr joined else ok ()
  ok json

/-- json_utils.c:88-93 `json_key_value`; a NULL value is `none` (`strlen(value)` comes first). -/
def json_key_value (key : Str) (value : Option Str) : C Str :=
  match value with
  | none => ub .null
  | some v => fmtInto (key.length + v.length + 15) (b!"\"" ++ key ++ b!"\":\"" ++ v ++ b!"\"")

/-- json_utils.c:95-100 `json_key_value_int`. -/
def json_key_value_int (key : Str) (value : Int) : C Str :=
  fmtInto (key.length + MAX_INT_STR + 15) (b!"\"" ++ key ++ b!"\":" ++ fmtInt value)

/-- json_utils.c:102-107 `json_key_value_bool`. -/
def json_key_value_bool (key : Str) (value : Bool) : C Str :=
  fmtInto (key.length + MAX_INT_STR + 15)
    (b!"\"" ++ key ++ b!"\":" ++ (if value then b!"true" else b!"false"))

/-- json_utils.c:109-114 `json_key_value_uint32_t`. -/
def json_key_value_uint32_t (key : Str) (value : UInt32) : C Str :=
  fmtInto (key.length + MAX_INT_STR + 15) (b!"\"" ++ key ++ b!"\":" ++ fmtNat value.toNat)

/-- json_utils.c:125-136, the loop of `json_array_of_ints`. First argument: iterations left. -/
def intsLoop (array : List Int) (size cap : Nat) : Nat → Nat → Str → C Str
  | 0, _, json => ok json
  | n + 1, i, json =>
    match array[i]? with
    | none => ub .oob
    | some v => do
      let int_str ← fmtInto (MAX_INT_STRING_LEN + 1) (fmtInt v)
      let json ← fmtInto cap (json ++ int_str)
      let json ← if i + 1 < size then fmtInto cap (json ++ b!",") else ok json
      intsLoop array size cap n (i + 1) json

/-- json_utils.c:116-140 `json_array_of_ints`. -/
def json_array_of_ints (array : Option (List Int)) (size : Int) : C Str :=
  match array with
  | none => ok b!"[]"
  | some a =>
    if size < 1 then ok b!"[]" else do
    let n := size.toNat
    let cap := n * (MAX_INT_STRING_LEN + 2)
    let json ← fmtInto cap JSON_ARRAY_BEGIN
    let json ← intsLoop a n cap n 0 json
    fmtInto cap (json ++ JSON_ARRAY_END)

end Wayuu
