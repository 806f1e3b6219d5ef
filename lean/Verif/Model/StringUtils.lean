import Verif.Libc
/-
Model of /repo/string_utils.c.
-/
namespace Wayuu
open C

/-- string_utils.h:30 `MAX_SPLIT_STR` (line 30 of the header: 50 declared slots). -/
abbrev MAX_SPLIT_STR : Nat := 50
/-- string_utils.h:31 `MAX_SPLIT_STR_LEN`. -/
abbrev MAX_SPLIT_STR_LEN : Nat := 1024

/-- string_utils.c:31-38, the loop of `chop_string`; first argument: iterations left (`len - i`). -/
def chopLoop (b : Buf) : Nat → Nat → C Buf
  | 0, _ => ok b
  | n + 1, i => do
    let c ← b.load i
    if schar c ≤ 34 then b.store i 0 else chopLoop b n (i + 1)

/-- string_utils.c:28-39 `chop_string`. `char` is signed, so bytes ≥ 128 compare as negative. -/
def chop_string (data : Buf) : C Buf := do
  let s ← cstr data
  chopLoop data s.length 0

/-- string_utils.c:47-49, left scan of `trim`: first index of a non-space, at most `len`;
first argument: iterations left. -/
def trimLeftScan (b : Buf) : Nat → Nat → C Nat
  | 0, i => ok i
  | n + 1, i => do
    let c ← b.load i
    if isSpace c then trimLeftScan b n (i + 1) else ok i

/-- string_utils.c:56-58, right scan of `trim`. The argument is `i + 1` of the C loop (it counts
down from `len`); the result is `i + 1` at loop exit. -/
def trimRightScan (b : Buf) : Nat → C Nat
  | 0 => ok 0
  | n + 1 => do
    let c ← b.load n
    if isSpace c then trimRightScan b n else ok (n + 1)

/-- string_utils.c:50-54: move the text to the front if there is leading white space. -/
def trimShift (str : Buf) (i : Nat) : C Buf :=
  if i ≠ 0 then do
    let m := (← strAt str i).length
    let str ← copyCells str 0 str i m
    let k := (← strAt str i).length
    str.store k 0
  else ok str

/-- string_utils.c:41-60 `trim`, on the block that holds the string. -/
def trim (str : Buf) : C Buf := do
  let len := (← cstr str).length
  let i ← trimLeftScan str len 0
  let str ← trimShift str i
  let len := (← cstr str).length
  let e ← trimRightScan str len
  str.store e 0

/-- `trim` applied to a heap or stack copy of `s`, result read back as a string. -/
def trimStr (s : Str) : C Str := do
  let b ← trim (strdup s)
  cstr b

/-- string_utils.c:68-74, the loop of `rtrim` (bound `strlen(str2)` re-evaluated each time).
First argument: fuel, `strlen(str) + 1` iterations suffice. -/
def rtrimLoop (sep : Byte) : Nat → Buf → Nat → C Buf
  | 0, b, _ => ok b
  | n + 1, b, i => do
    let len := (← cstr b).length
    if i < len then do
      let c ← b.load i
      let b ← if c = sep then b.store i 0 else ok b
      rtrimLoop sep n b (i + 1)
    else ok b

/-- string_utils.c:65-76 `rtrim`; returns the string held by the returned block. -/
def rtrim (str : Str) (sep : Byte) : C Str := do
  let b ← rtrimLoop sep (str.length + 1) (strdup str) 0
  cstr b

/-- string_utils.c:84-90, the loop of `ltrim`. -/
def ltrimLoop (str : Buf) (sep : Byte) : Nat → Nat → C Str
  | 0, _ => cstr str
  | n + 1, i => do
    let c ← str.load i
    if c = sep then strAt str (i + 1) else ltrimLoop str sep n (i + 1)

/-- string_utils.c:81-92 `ltrim`. -/
def ltrim (str : Str) (sep : Byte) : C Str :=
  ltrimLoop (strdup str) sep str.length 0

/-- Read `n` determinate bytes at offset `off` (the data handed to `EVP_DigestUpdate`, `fwrite`, …). -/
def readBytes (b : Buf) (off : Nat) : Nat → C (List Byte)
  | 0 => ok []
  | n + 1 => do
    let c ← b.load off
    let r ← readBytes b (off + 1) n
    ok (c :: r)

/-- string_utils.c:108-120, the update loop of `md5sum`; returns the bytes fed to the digest.
First argument: fuel (`len` iterations suffice). The pointer increment past the end of the
data after the last chunk is not treated as an access. -/
def md5Feed (data : Buf) : Nat → Nat → Int → C (List Byte)
  | 0, _, _ => ok []
  | n + 1, off, len =>
    if 0 < len then do
      let chunk ← if 512 < len then readBytes data off 512 else readBytes data off len.toNat
      let rest ← md5Feed data n (off + 512) (len - 512)
      ok (chunk ++ rest)
    else ok []

/-- string_utils.c:125-126, the formatting loop of `md5sum`: two hex digits and a NUL per byte. -/
def md5Hex (md5 : Buf) : List Byte → Nat → C Buf
  | [], _ => ok md5
  | d :: ds, i => do
    let md5 ← writeAt md5 (2 * i) (fmtHex2 d ++ [0])
    md5Hex md5 ds (i + 1)

/-- string_utils.c:94-131 `md5sum(out, data + off, len)`. `digest` is the MD5 function of OpenSSL
(a parameter) and `evpMax` is `EVP_MAX_MD_SIZE` (64 in OpenSSL). -/
def md5sum (digest : List Byte → List Byte) (evpMax : Nat) (out data : Buf) (off : Nat) (len : Int) :
    C Buf := do
  let md5 ← (malloc (evpMax * 2 + 1)).store 0 0
  let bytes ← md5Feed data len.toNat off len
  let md5 ← md5Hex md5 (digest bytes) 0
  let out ← copyCells out 0 md5 0 (evpMax * 2)
  out.store (evpMax * 2) 0

/-- A `char *` result together with its ownership: heap block or string literal. -/
structure HStr where
  heap : Bool
  s : Str
deriving DecidableEq, Repr

/-- Element `array[i]` of an array of string pointers (`none` = NULL pointer). -/
def elemAt (array : List (Option Str)) (i : Nat) : C (Option Str) :=
  match array[i]? with
  | none => ub .oob
  | some p => ok p

/-- string_utils.c:147-151, total length of the non-NULL elements. First argument: iterations left. -/
def joinLen (array : List (Option Str)) : Nat → Nat → C Nat
  | 0, _ => ok 0
  | n + 1, i => do
    let p ← elemAt array i
    let r ← joinLen array n (i + 1)
    match p with
    | some s => ok (s.length + r)
    | none => ok r

/-- string_utils.c:155-164, appending elements `0 .. size-2`, each followed by the delimiter, to the
block of `cap` bytes that holds `acc`. -/
def joinFill (array : List (Option Str)) (delim : Str) (cap : Nat) : Nat → Nat → Str → C Str
  | 0, _, acc => ok acc
  | n + 1, i, acc => do
    let p ← elemAt array i
    match p with
    | some s => do
      let acc ← fmtInto cap (acc ++ s)
      let acc ← fmtInto cap (acc ++ delim)
      joinFill array delim cap n (i + 1) acc
    | none => joinFill array delim cap n (i + 1) acc

/-- string_utils.c:136-169 `join`. A NULL `array` is `none`. -/
def join (array : Option (List (Option Str))) (size : Int) (delim : Str) : C HStr :=
  match array with
  | none => ok ⟨false, []⟩
  | some a =>
    if size ≤ 0 then ok ⟨false, []⟩ else do
    let p0 ← elemAt a 0
    match p0 with
    | none => ok ⟨false, []⟩
    | some s0 =>
      if size = 1 then ok ⟨true, s0⟩ else do
      let n := size.toNat
      let total ← joinLen a n 0
      let cap := total + (n * delim.length + 1)
      let acc ← joinFill a delim cap (n - 1) 0 []
      let last ← elemAt a (n - 1)
      match last with
      | none => ub .null
      | some s => do
        let acc ← fmtInto cap (acc ++ s)
        ok ⟨true, acc⟩

/-- string_utils.c:178-185, the token loop of `split`; `acc` are the blocks stored so far.
First argument: fuel (`strlen(str) + 1` iterations suffice). The declared array has
`MAX_SPLIT_STR` slots; writing past it is UB (the heap block behind it is larger). -/
def splitLoop (delim : Str) : Nat → Str → List Buf → C (List Buf)
  | 0, _, acc => ok acc
  | n + 1, s, acc =>
    match strtok s delim with
    | none => ok acc
    | some (token, rest) => do
      if MAX_SPLIT_STR ≤ acc.length then ub .oob else do
      let b ← strncpyAt (malloc MAX_SPLIT_STR_LEN) 0 token (MAX_SPLIT_STR_LEN - 1)
      splitLoop delim n rest (acc ++ [b])

/-- string_utils.c:171-191 `split`; the result is the list of the `n_str` blocks.
(`free(token)` at the end frees NULL.) -/
def split (str delim : Str) : C (List Buf) := splitLoop delim (str.length + 1) str []

/-- string_utils.c:193-217 `split_once`; `delim` is not used by the code. -/
def split_once (str _delim : Str) : C (List Buf) := do
  let first ← rtrim str 58
  let first ← trimStr first
  let b0 ← strncpyAt (malloc MAX_SPLIT_STR_LEN) 0 first (MAX_SPLIT_STR_LEN - 1)
  let second ← ltrim str 58
  if second.length < str.length then do
    let second ← trimStr second
    let b1 ← strncpyAt (malloc MAX_SPLIT_STR_LEN) 0 second (MAX_SPLIT_STR_LEN - 1)
    ok [b0, b1]
  else ok [b0]

/-- string_utils.c:231-234 `startswith`. -/
def startswith (str pre : Str) : Bool := strncaseEq str pre pre.length

/-- string_utils.c:243-257 `startswithany`; `none` in the list is a NULL element. Running past the
end of the list is an out-of-bounds read. -/
def startswithany (str : Str) : List (Option Str) → C Bool
  | [] => ub .oob
  | none :: _ => ok false
  | some [] :: _ => ok false
  | some p :: r => if startswith str p then ok true else startswithany str r

/-- string_utils.c:269-276, the comparison loop of `text_find_after` at haystack position `i`. -/
def matchAt (hay : Buf) (i : Nat) : Str → C Bool
  | [] => ok true
  | c :: r => do
    let h ← hay.load i
    if h ≠ c then ok false else matchAt hay (i + 1) r

/-- string_utils.c:266-279, the outer loop; first argument: iterations left (`bytes - i`). -/
def findLoop (hay : Buf) (needle : Str) : Nat → Nat → C Int
  | 0, _ => ok (-1)
  | n + 1, i => do
    let found ← matchAt hay i needle
    if found then ok ((i : Int) + needle.length) else findLoop hay needle n (i + 1)

/-- string_utils.c:262-282 `text_find_after`. All callers pass non-negative `start` and `bytes`. -/
def text_find_after (hay : Buf) (needle : Str) (start bytes : Nat) : C Int :=
  findLoop hay needle (bytes - start) start

/-- string_utils.c:290-292, the loop of `string_isalnum`. -/
def alnumLoop (b : Buf) : Nat → Nat → C Bool
  | 0, _ => ok true
  | n + 1, i => do
    let c ← b.load i
    if isAlnum c then alnumLoop b n (i + 1) else ok false

/-- string_utils.c:284-295 `string_isalnum`. -/
def string_isalnum (data : Buf) : C Bool := do
  let c0 ← data.load 0
  if c0 = 0 then ok false else do
  let s ← cstr data
  alnumLoop data s.length 0

end Wayuu
