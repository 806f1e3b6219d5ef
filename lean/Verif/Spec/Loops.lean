import Verif.Model.Ws
import Verif.Model.ConfParser
/-
Loops as in C, without a limit on the number of rounds. `Model` limits the rounds of every loop; the theorems of C81
say that these loops end by themselves, with the result of the model.
-/
namespace Wayuu.Spec
open Wayuu C

/-- `while (true) body`: each round goes on with new values of the variables, leaves the loop, or is undefined. `Ends
body s r`: started with `s`, the loop ends after finitely many rounds with result `r`. -/
inductive Ends {σ ρ : Type} (body : σ → C (σ ⊕ ρ)) : σ → C ρ → Prop where
  | fault {s : σ} {f : Fault} : body s = ub f → Ends body s (ub f)
  | leave {s : σ} {r : ρ} : body s = ok (.inr r) → Ends body s (ok r)
  | again {s s' : σ} {r : C ρ} : body s = ok (.inl s') → Ends body s' r → Ends body s r

/-- One round of the header loop, ws.c:560-620; variables: result of the last `get_line`, and the others. -/
def headerRound : Nat × HdrSt → C ((Nat × HdrSt) ⊕ HdrSt)
  | (numchars, h) => do
    let line ← cstr h.buf
    if 0 < numchars ∧ line ≠ b!"\n" ∧ line ≠ b!"\r\n" then do
      let h ← headerStep h
      let (k, buf, inp) ← get_line h.input h.buf 1024
      ok (.inl (k, { h with buf := buf, input := inp }))
    else ok (.inr h)

/-- One round of the loop of `multipart_parse`, ws.c:254-271; variables: `ptr`, `tmppart`, `tmpfields`, files. -/
def partRound (env : Env) (form : Buf) (boundary : Str) (content_length : Nat) :
    Nat × Buf × Buf × FS → C ((Nat × Buf × Buf × FS) ⊕ (Buf × FS))
  | (ptr, tmppart, tmpfields, fs) =>
    if content_length ≤ ptr then ok (.inr (tmpfields, fs)) else do
    let part_start ← text_find_after form boundary ptr content_length
    if part_start < 0 then ok (.inr (tmpfields, fs)) else do
    let part_end ← text_find_after form boundary part_start.toNat content_length
    if part_end < 0 then ok (.inr (tmpfields, fs)) else do
    let tmppart ← memcpyI tmppart form part_start.toNat (part_end - part_start - boundary.length)
    let (tmpfields, fs) ← part_parse env fs tmpfields tmppart (part_end - part_start - boundary.length)
    let tmppart ← trim tmppart
    ok (.inl (part_start.toNat + 1, tmppart, tmpfields, fs))

/-- One round of `send_stream`, http_utils.c:224-229. -/
def streamRound : St × Int × Str → C ((St × Int × Str) ⊕ (Int × St))
  | (st, len, content) =>
    match fgets 1023 content with
    | none => ok (.inr (len, st))
    | some (line, rest) => do
      let s := untilNul line
      let len ← addInt len s.length
      let st ← http_print st s s.length
      ok (.inl (st, len, rest))

/-- One round of `parse`, conf_parser.c:130-152. -/
def confRound (path : Str) (flags : KeyFlags) : Str × List ConfItem → C ((Str × List ConfItem) ⊕ (Int × List ConfItem))
  | (s, calls) =>
    match fgets MAX_LINE_LEN s with
    | none => ok (.inr (0, calls))
    | some (line, rest) => do
      let item ← conf_parse_first_pass (untilNul line)
      match item with
      | none => do
        let _ ← fmtInto 120 (b!"Entity in invalid format, path: " ++ path ++ b!"\n")
        ok (.inr (-1, calls))
      | some item =>
        match get_key_flag item.key.s flags with
        | some flag => do
          let item ← if flag.2 then conf_parse_multi item else ok item
          free_conf_item item
          ok (.inl (rest, calls ++ [item]))
        | none => do
          free_conf_item item
          ok (.inl (rest, calls))

/-- One round of the token loop of `load_limits`, ws.c:859-872. -/
def fieldRound : PathLimit × Str × Nat → C ((PathLimit × Str × Nat) ⊕ (PathLimit × Nat))
  | (r, rest, i) =>
    match strtok rest b!"," with
    | none => ok (.inr (r, i))
    | some (token, rest) =>
      let r := if i = 1 then { r with max_connections := atoi token } else r
      let r := if i = 2 then { r with max_connections_per_ip := atoi token } else r
      let r := if i = 3 then { r with max_seconds := atoi token } else r
      if 4 ≤ i + 1 then ok (.inr (r, i + 1)) else ok (.inl (r, rest, i + 1))

/-- One round of the line loop of `load_limits`, ws.c:849-886. -/
def limitRound : Str × List PathLimit × PathLimit → C ((Str × List PathLimit × PathLimit) ⊕ List PathLimit)
  | (s, acc, cur) =>
    match getline s with
    | none => ok (.inr acc)
    | some (line, rest) =>
      let line := untilNul line
      if line.head? = some 47 then
        match strtok line b!"," with
        | none => ub .null
        | some (token, more) => do
          let path ← fmtInto HTTP_MAX_PATH token
          let (cur, i) := limitFields 4 { cur with path := path } more 1
          if 3 ≤ i then
            if MAX_LIMIT_RULES ≤ acc.length + 1 then ok (.inr (acc ++ [cur]))
            else ok (.inl (rest, acc ++ [cur], ⟨[], 0, 0, 0⟩))
          else ok (.inl (rest, acc, { cur with path := [] }))
      else ok (.inl (rest, acc, cur))

/-- One round of `split`, string_utils.c:178-185. -/
def splitRound (delim : Str) : Str × List Buf → C ((Str × List Buf) ⊕ List Buf)
  | (s, acc) =>
    match strtok s delim with
    | none => ok (.inr acc)
    | some (token, rest) => do
      if MAX_SPLIT_STR ≤ acc.length then ub .oob else do
      let b ← strncpyAt (malloc MAX_SPLIT_STR_LEN) 0 token (MAX_SPLIT_STR_LEN - 1)
      ok (.inl (rest, acc ++ [b]))

/-- One round of `rtrim`, string_utils.c:68-74. -/
def rtrimRound (sep : Byte) : Buf × Nat → C ((Buf × Nat) ⊕ Buf)
  | (b, i) => do
    let len := (← cstr b).length
    if i < len then do
      let c ← b.load i
      let b ← if c = sep then b.store i 0 else ok b
      ok (.inl (b, i + 1))
    else ok (.inr b)

/-- One round of `router_resolve_route`, router.c:69-73. -/
def resolveRound (b : Buf) (i : Nat) : C (Nat ⊕ Nat) := do
  let c ← b.load i
  if 0 < schar c ∧ c ≠ 123 then ok (.inl (i + 1)) else ok (.inr i)

/-- One round of the loop over white space, ws.c:526-529. -/
def spaceRound (b : Buf) (j : Nat) : C (Nat ⊕ Nat) := do
  let c ← b.load j
  if isSpace c ∧ j < b.length then ok (.inl (j + 1)) else ok (.inr j)

/-- One round of `md5sum`, string_utils.c:108-120; variables: bytes passed on so far, offset, bytes left. -/
def md5Round (data : Buf) : List Byte × Nat × Int → C ((List Byte × Nat × Int) ⊕ List Byte)
  | (fed, off, len) =>
    if 0 < len then do
      let chunk ← if 512 < len then readBytes data off 512 else readBytes data off len.toNat
      ok (.inl (fed ++ chunk, off + 512, len - 512))
    else ok (.inr fed)

end Wayuu.Spec
