import Verif.Model.JsonUtils
import Verif.Model.Fs
/-
Model of /repo/conf_parser.c.
-/
namespace Wayuu
open C

/-- conf_parser.h:22 `_CONF_MAX_MULTI_ELEMENTS`. -/
abbrev CONF_MAX_MULTI_ELEMENTS : Nat := 20
/-- conf_parser.h:24 `_CONF_MAX_ITEMS`. -/
abbrev CONF_MAX_ITEMS : Nat := 20
/-- conf_parser.h:29 `MAX_LINE_LEN`. -/
abbrev MAX_LINE_LEN : Nat := 512

/-- conf_parser.h:34-40 `conf_item`. `multi` are the first `n_multivalues` elements of
`multivalue`; they are always heap strings. -/
structure ConfItem where
  key : HStr
  value : HStr
  multi : List Str
deriving DecidableEq, Repr

/-- conf_parser.h:52-62 `key_flag` table (`flags.size` entries). -/
abbrev KeyFlags := List (Str × Bool)

/-- conf_parser.c:171-178 `new_conf_item`: both strings are the literal "". -/
def new_conf_item : ConfItem := ⟨⟨false, []⟩, ⟨false, []⟩, []⟩

/-- conf_parser.c:47-56, the loop of `conf_parse_multi`, entered with `tmp_value != NULL`. First
argument: iterations left (`_CONF_MAX_MULTI_ELEMENTS - i`). When the loop ends because of the
element limit, `tmp_value` still points into `value` and line 59 frees it. -/
def multiLoop : Nat → Nat → Str → List Str → C (List Str)
  | 0, _, _, _ => ub .badFree
  | n + 1, i, rest, acc =>
    match strtok rest b!"," with
    | none => ok acc
    | some (tok, rest) =>
      if CONF_MAX_MULTI_ELEMENTS ≤ i + 1 then ub .oob else do
      let t ← trimStr tok
      multiLoop n (i + 1) rest (acc ++ [t])

/-- conf_parser.c:36-61 `conf_parse_multi`. -/
def conf_parse_multi (item : ConfItem) : C ConfItem :=
  match strtok item.value.s b!"," with
  | none => ok { item with multi := [] }
  | some (tok, rest) => do
    let t ← trimStr tok
    let m ← multiLoop CONF_MAX_MULTI_ELEMENTS 0 rest [t]
    ok { item with multi := m }

/-- conf_parser.c:69-107 `conf_parse_first_pass`; NULL result is `none`. -/
def conf_parse_first_pass (line : Str) : C (Option ConfItem) :=
  match strstr line b!"=" with
  | none => ok none
  | some _ => do
    let line_copy ← trimStr line
    match strtok line_copy b!"=" with
    | none => ub .null                                   -- strdup(NULL), line 82
    | some (key, rest) => do
      let key ← trimStr key
      match strtok rest b!"=" with
      | none => ok (some ⟨⟨true, key⟩, ⟨false, []⟩, []⟩)
      | some (value, _) => do
        let value ← trimStr value
        let value ← trimStr value
        ok (some ⟨⟨true, key⟩, ⟨true, value⟩, []⟩)

/-- conf_parser.c:109-117 `conf_parse_line`. -/
def conf_parse_line (line : Str) (is_multi : Bool) : C (Option ConfItem) := do
  let result ← conf_parse_first_pass line
  if is_multi then
    match result with
    | none => ub .null
    | some item => do
      let item ← conf_parse_multi item
      ok (some item)
  else ok result

/-- conf_parser.c:157-169 `get_key_flag`; `none` is the flag `{NULL, false}`. -/
def get_key_flag (key : Str) : KeyFlags → Option (Str × Bool)
  | [] => none
  | f :: r => if strEq f.1 key then some f else get_key_flag key r

/-- conf_parser.c:201-216 `free_conf_item`. -/
def free_conf_item (item : ConfItem) : C Unit := do
  if item.key.s ≠ [] then freeStr item.key else ok ()
  if item.value.s ≠ [] then freeStr item.value else ok ()

/-- conf_parser.c:130-152, the line loop of `parse`; `calls` are the items handed to the handler so
far. First argument: fuel (number of bytes left + 1). -/
def parseLoop (path : Str) (flags : KeyFlags) : Nat → Str → List ConfItem → C (Int × List ConfItem)
  | 0, _, calls => ok (0, calls)
  | n + 1, s, calls =>
    match fgets MAX_LINE_LEN s with
    | none => ok (0, calls)
    | some (line, rest) => do
      let item ← conf_parse_first_pass (untilNul line)
      match item with
      | none => do
        let _ ← fmtInto 120 (b!"Entity in invalid format, path: " ++ path ++ b!"\n")
        ok (-1, calls)
      | some item =>
        match get_key_flag item.key.s flags with
        | some flag => do
          let item ← if flag.2 then conf_parse_multi item else ok item
          free_conf_item item
          parseLoop path flags n rest (calls ++ [item])
        | none => do
          free_conf_item item
          parseLoop path flags n rest calls

/-- conf_parser.c:119-155 `parse`: return value and the items passed to the handler, in order. -/
def parse (fs : FS) (path : Str) (flags : KeyFlags) : C (Int × List ConfItem) :=
  match fs.fopenRead path with
  | none => do
    let _ ← fmtInto 120 (b!"Unable to open path: " ++ path)
    ok (-1, [])
  | some content => parseLoop path flags (content.length + 1) content []

/-- conf_parser.c:180-196 `new_conf_item_with_values`. -/
def new_conf_item_with_values (key value : Str) (multivalue : List Str) : C ConfItem :=
  if CONF_MAX_MULTI_ELEMENTS < multivalue.length then ub .oob else
  ok ⟨⟨true, key⟩, if value ≠ [] then ⟨true, value⟩ else ⟨false, []⟩, multivalue⟩

/-- conf_parser.c:238-248 `copy_conf_item`, into a fresh `new_conf_item()`. -/
def copy_conf_item (dest src : ConfItem) : C ConfItem :=
  if CONF_MAX_MULTI_ELEMENTS < src.multi.length then ub .oob else
  ok ⟨⟨true, src.key.s⟩, if src.value.s ≠ [] then ⟨true, src.value.s⟩ else dest.value, src.multi⟩

/-- conf_parser.c:218-236 `conf_item_to_string`. -/
def conf_item_to_string (item : ConfItem) : C Str :=
  if item.multi.length = 0 then
    fmtInto (item.key.s.length + item.value.s.length + 2) (item.key.s ++ b!"=" ++ item.value.s)
  else do
    let m ← join (some (item.multi.map some)) item.multi.length b!","
    let r ← fmtInto (m.s.length + item.key.s.length + 20) (item.key.s ++ b!"=" ++ m.s)
    freeStr m
    ok r

/-- conf_parser.h:45-50 `serializable`. -/
structure Serializable where
  path : HStr
  items : List ConfItem
deriving DecidableEq, Repr

/-- conf_parser.c:277-282, the loop of `new_serializable`. First argument: items left. -/
def serItems : List ConfItem → Nat → C (List ConfItem)
  | [], _ => ok []
  | it :: r, i => do
    if CONF_MAX_ITEMS ≤ i then ub .oob else do
    let c ← copy_conf_item new_conf_item it
    free_conf_item it
    let cs ← serItems r (i + 1)
    ok (c :: cs)

/-- conf_parser.c:272-284 `new_serializable`; takes ownership of `path` and of the items. -/
def new_serializable (path : HStr) (items : List ConfItem) : C Serializable := do
  let cs ← serItems items 0
  ok ⟨path, cs⟩

/-- conf_parser.c:302-305 -/
def freeItems : List ConfItem → C Unit
  | [] => ok ()
  | it :: r => do
    free_conf_item it
    freeItems r

/-- conf_parser.c:299-307 `free_serializable`. -/
def free_serializable (s : Serializable) : C Unit := do
  freeStr s.path
  freeItems s.items

/-- conf_parser.c:261-266, the text written by `write_conf`. -/
def confText : List ConfItem → C Str
  | [] => ok []
  | it :: r => do
    let l ← conf_item_to_string it
    let t ← confText r
    ok (l ++ b!"\n" ++ t)

/-- conf_parser.c:250-270 `write_conf`, after the user's serialiser has returned `s`. -/
def write_conf (fs : FS) (s : Serializable) : C (Int × FS) :=
  match fs.openWrite s.path.s with
  | none => do
    let _ ← fmtInto 120 (b!"Unable to open file " ++ s.path.s ++ b!" for writing")
    ok (-1, fs)
  | some p => do
    let text ← confText s.items
    free_serializable s
    ok (0, fs.update p (some (.file text)))

/-- conf_parser.c:290-294, the loop of `serializable_to_string` in its block of 1024 bytes. -/
def serStrLoop : List ConfItem → Str → C Str
  | [], acc => ok acc
  | it :: r, acc => do
    let acc ← fmtInto 1024 (acc ++ b!",")
    let s ← conf_item_to_string it
    let acc ← fmtInto 1024 (acc ++ s)
    serStrLoop r acc

/-- conf_parser.c:286-297 `serializable_to_string`. -/
def serializable_to_string (s : Serializable) : C Str := do
  let acc ← fmtInto 1024 (b!"[path=" ++ s.path.s ++ b!",n_items=" ++ fmtNat s.items.length)
  let acc ← serStrLoop s.items acc
  fmtInto 1024 (acc ++ b!"]")

end Wayuu
