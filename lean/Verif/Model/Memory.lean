import Verif.Model.Ws
/-
Allocation and release of memory while a request is handled (ws.c:463-656 and what it calls). Only block
identities are kept: what the blocks hold is in Ws.lean, HttpUtils.lean and StringUtils.lean. The parts
of the request that decide which blocks are allocated are parameters (`Course`), so the results hold for
every combination. Blocks owned by OpenSSL, stdio and user handlers are not modelled.
-/
namespace Wayuu.Mem
open C

/-- A `char *`: a string literal, the beginning of a heap block, or an address inside a block. -/
inductive Ptr where
  | lit
  | blk (id : Nat)
  | inside (id : Nat)
deriving DecidableEq, Repr

/-- The live blocks, the most recent first; identities from `next` on have never been used. -/
structure Heap where
  next : Nat
  live : List Nat
deriving DecidableEq, Repr

/-- `malloc`, `calloc`, `strdup`, `asprintf`. -/
def Heap.alloc (h : Heap) : Ptr × Heap := (.blk h.next, ⟨h.next + 1, h.next :: h.live⟩)

/-- `free`: undefined unless the argument is the beginning of a live block. -/
def Heap.free (h : Heap) : Ptr → C Heap
  | .blk i => if i ∈ h.live then ok { h with live := h.live.erase i } else ub .badFree
  | _ => ub .badFree

/-- Consecutive `free` calls. -/
def freeAll : Heap → List Ptr → C Heap
  | h, [] => ok h
  | h, p :: r => do
    let h ← h.free p
    freeAll h r

/-- string_utils.c:178-185: one block per token. -/
def tokensMem : Nat → Heap → List Ptr × Heap
  | 0, h => ([], h)
  | n + 1, h =>
    let (p, h) := h.alloc
    let (ps, h) := tokensMem n h
    (p :: ps, h)

/-- string_utils.c:171-191 `split` with `n` tokens: the copy, the list, the tokens. -/
def splitMem (n : Nat) (h : Heap) : C (Ptr × List Ptr × Heap) := do
  let (copy, h) := h.alloc
  let (list, h) := h.alloc
  let (toks, h) := tokensMem n h
  let h ← h.free copy
  ok (list, toks, h)

/-- string_utils.c:193-217 `split_once`; `two`: the line has a separator. -/
def splitOnceMem (two : Bool) (h : Heap) : C (Ptr × List Ptr × Heap) := do
  let (list, h) := h.alloc
  let (s0, h) := h.alloc
  let (first, h) := h.alloc
  let (second, h) := h.alloc
  if two then do
    let (s1, h) := h.alloc
    let h ← freeAll h [first, second]
    ok (list, [s0, s1], h)
  else do
    let h ← freeAll h [first, second]
    ok (list, [s0], h)

/-- string_utils.c:219-226 `free_str_list_t`. -/
def freeStrList (list : Ptr) (strings : List Ptr) (h : Heap) : C Heap := do
  let h ← freeAll h strings
  h.free list

/-- http_utils.c:519-530: what `http_get_header` returns is a copy or the literal "". -/
def headerPtr (r : HStr) (h : Heap) : Ptr × Heap := if r.heap then h.alloc else (.lit, h)

/-- wayuu_log.c:54-57: released unless empty. -/
def freeText (r : HStr) (p : Ptr) (h : Heap) : C Heap := if 0 < r.s.length then h.free p else ok h

/-- wayuu_log.c:37-58 `log_access`. -/
def logMem (req : Req) (h : Heap) : C Heap := do
  let (ts, h) := h.alloc
  let referer ← http_get_header req b!"Referer"
  let (pr, h) := headerPtr referer h
  let ua ← http_get_header req b!"User-Agent"
  let (pu, h) := headerPtr ua h
  let h ← h.free ts
  let h ← freeText referer pr h
  freeText ua pu h

/-- ws.c:561-575: the line is split unless the table is full. -/
def storeMem (stored : Nat) (two : Bool) (h : Heap) : C Heap :=
  if stored < HTTP_MAX_HEADERS then do
    let (list, strings, h) ← splitOnceMem two h
    freeStrList list strings h
  else ok h

/-- ws.c:561-604, one header line: `stored` is `headers_idx`, `ip` is `req->IP`. -/
def headerMem (stored : Nat) (line : Str) (ip : Ptr) (h : Heap) : C (Nat × Ptr × Heap) := do
  let nv ← split_once line b!":"
  let h1 ← storeMem stored (nv.length == 2) h
  let stored := if stored < HTTP_MAX_HEADERS ∧ nv.length = 2 then stored + 1 else stored
  -- ws.c:576-579: `rtrim` returns a copy, an earlier one is forgotten
  let h2 := if startswith line b!"Content-Type:" then h1.alloc.2 else h1
  -- ws.c:598-604
  if startswith line b!"X-Real-IP:" then do
    let h3 ← h2.free ip
    let (ip, h4) := h3.alloc
    ok (stored, ip, h4)
  else ok (stored, ip, h2)

/-- ws.c:560-620, all header lines. -/
def headersMem : Nat → List Str → Ptr → Heap → C (Ptr × Heap)
  | _, [], ip, h => ok (ip, h)
  | stored, line :: r, ip, h => do
    let (stored, ip, h) ← headerMem stored line ip h
    headersMem stored r ip h

/-- http_utils.c:450-470 `get_path_and_query_string` for a URL of `n` tokens: (object, path, query). -/
def pathQueryMem (n : Nat) (h : Heap) : C (Ptr × Ptr × Ptr × Heap) := do
  let (pq, h) := h.alloc
  let (list, toks, h) ← splitMem n h
  if n = 0 then ub .uninit else do
  let (path, h) := h.alloc
  let (query, h) := if 1 < n then h.alloc else (.lit, h)
  let h ← freeStrList list toks h
  ok (pq, path, query, h)

/-- http_utils.c:472-480 `free_path_and_query_t`; the query is not empty iff there are two tokens (tokens
are never empty). -/
def freePathQuery (n : Nat) (pq path query : Ptr) (h : Heap) : C Heap := do
  let h ← h.free path
  let h ← if 1 < n then h.free query else ok h
  h.free pq

/-- http_utils.c:201-213 `direct_file`: is it a file, can it be opened. -/
def fileMem (isFile opened : Bool) (req : Req) (h : Heap) : C Heap :=
  if isFile then do
    let (ct, h) := h.alloc
    let h ← h.free ct
    if opened then do
      let (src, h) := h.alloc
      let h ← h.free src
      logMem req h
    else logMem req h
  else ok h

/-- ws.c:165-210 `part_parse` (and string_utils.c:94-131 `md5sum`): is there a name, is there data (then
one more block is used, for the value or for the digest of a file). -/
def partMem (name data : Bool) (h : Heap) : C Heap :=
  if name then do
    let (field, h) := h.alloc
    let h ← if data then do
        let (block, h) := h.alloc
        let h ← h.free block
        ok h
      else ok h
    h.free field
  else ok h

/-- ws.c:254-271 -/
def partsMem : List (Bool × Bool) → Heap → C Heap
  | [], h => ok h
  | (a, b) :: r, h => do
    let h ← partMem a b h
    partsMem r h

/-- ws.c:244-277 `multipart_parse`. -/
def multipartMem (parts : List (Bool × Bool)) (h : Heap) : C Heap := do
  let (tmppart, h) := h.alloc
  let (tmpfields, h) := h.alloc
  let h ← partsMem parts h
  freeAll h [tmpfields, tmppart]

/-- What becomes of an API request in router.c:118-178. -/
inductive Routed where
  /-- no route: a response is sent by `bad_request` -/
  | rejected
  /-- a constant route -/
  | constant
  /-- a parameter route; is the form empty? -/
  | param (formEmpty : Bool)

/-- router.c:118-178 (`router_extract_param` is router.c:81-90). The filter and the handler are user code. -/
def routerMem (req : Req) (h : Heap) : Routed → C Heap
  | .rejected => logMem req h
  | .constant => ok h
  | .param formEmpty => do
    let (tmp, h) := h.alloc
    let (qs, h) := h.alloc
    let h ← h.free tmp
    if formEmpty then do
      let (_, h) := h.alloc
      h.free qs
    else do
      let (param, h) := h.alloc
      let h ← h.free param
      h.free qs

/-- ws.c:631-652: what a request is used for. -/
inductive Use where
  /-- not an API URL, not GET -/
  | notGet
  /-- a static file: is the path replaced (ws.c:321-339), is the file (and then the index) there and
  readable -/
  | static (rewrite : Bool) (isFile opened indexIs indexOpened : Bool)
  /-- an API request: is there a body, is it parsed as multipart, where is it routed -/
  | api (body : Bool) (parts : Option (List (Bool × Bool))) (r : Routed)

/-- ws.c:321-339: `path` is released and replaced. -/
def rewriteMem (rewrite : Bool) (path : Ptr) (h : Heap) : C Heap :=
  if rewrite then do
    let h ← h.free path
    ok h.alloc.2
  else ok h

/-- ws.c:630-652. -/
def useMem (req : Req) (h : Heap) : Use → C Heap
  | .notGet => do
    let (_, h) := h.alloc
    logMem req h
  | .static rewrite isFile opened indexIs indexOpened => do
    let (path, h) := h.alloc
    let h ← rewriteMem rewrite path h
    let h ← fileMem isFile opened req h
    if isFile then ok h else fileMem indexIs indexOpened req h
  | .api body parts r => do
    let (_, h) := h.alloc
    if body then do
      let (_, h) := h.alloc
      match parts with
      | some ps => do
        let h ← multipartMem ps h
        routerMem req h r
      | none => routerMem req h r
    else routerMem req h r

/-- The course a request takes through `accept_request`. -/
inductive Course where
  /-- ws.c:515-522 -/
  | badMethod
  /-- ws.c:543-549 -/
  | refused
  /-- ws.c:551-655: the header lines, the number of tokens of the URL, the use -/
  | served (lines : List Str) (tokens : Nat) (u : Use)

/-- ws.c:463-656 `accept_request`. `req` is the request as it is when a response is logged. -/
def requestMem (req : Req) (h : Heap) : Course → C Heap
  | .badMethod => do
    let (base, h) := h.alloc
    let (_, h) := h.alloc
    let (_, h) := h.alloc
    let h ← logMem req h
    h.free base
  | .refused => do
    let (base, h) := h.alloc
    let (_, h) := h.alloc
    let (_, h) := h.alloc
    let (_, h) := h.alloc
    let h ← logMem req h
    h.free base
  | .served lines n u => do
    let (base, h) := h.alloc
    let (ip, h) := h.alloc
    let (_, h) := h.alloc -- request line
    let (_, h) := h.alloc -- url
    let (_, h) := h.alloc -- session
    let (_, h) ← headersMem 0 lines ip h
    let (pq, path, query, h) ← pathQueryMem n h
    let (_, h) := h.alloc -- query string
    let h ← useMem req h u
    let h ← freePathQuery n pq path query h
    h.free base

/-- Requests one after another. -/
def requestsMem : List (Req × Course) → Heap → C Heap
  | [], h => ok h
  | (req, c) :: r, h => do
    let h ← requestMem req h c
    requestsMem r h

end Wayuu.Mem
