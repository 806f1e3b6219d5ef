import Verif.Model.Ws
/-
ws.c again, with `malloc` and `calloc` that may fail for the blocks whose size the client chooses (ws.c:247, 248, 295). The code
does not look at their results. A null pointer is a block without cells: every access to it is UB. The other blocks of a
request are small and granted, as in the rest of the model.
-/
namespace Wayuu.Scarce
open C

/-- Which blocks are granted: by the order in which they are asked for (0: ws.c:295, 1: ws.c:247, 2: ws.c:248) and size. -/
abbrev Grant := Nat → Nat → Bool

/-- `malloc(n)`. -/
def mallocG (g : Grant) (k n : Nat) : Buf := if g k n then malloc n else []
/-- `calloc(n, 1)`. -/
def callocG (g : Grant) (k n : Nat) : Buf := if g k n then calloc n else []

/-- ws.c:244-277 `multipart_parse`. -/
def multipart_parse (g : Grant) (env : Env) (fs : FS) (form : Buf) (boundary : Str) (content_length : Nat) : C (Buf × FS) := do
  let (tmpfields, fs) ← partsLoop env form boundary content_length (content_length + 1) 0
    (callocG g 1 (content_length + 1)) (callocG g 2 (content_length + 1)) fs
  let t ← cstr tmpfields
  let form ← strcpyAt form 0 t
  ok (form, fs)

/-- ws.c:292-308. -/
def readForm (g : Grant) (env : Env) (st : St) (content_length : Int) (boundary : Str) : C St :=
  if 0 < content_length then do
    let n := content_length.toNat
    let (form, inp) ← bodyLoop n st.input 0 (mallocG g 0 (n + 1)) 0
    let (form, fs) ← if 2 ≤ boundary.length then multipart_parse g env st.fs form boundary n
      else ok (form, st.fs)
    ok { st with input := inp, fs := fs, req := { st.req with form := form } }
  else ok st

/-- ws.c:279-311 `handle_api_request`. -/
def handle_api_request (g : Grant) (env : Env) (st : St) (content_length : Int) (boundary : Str) : C (St × List Event) := do
  let st ← readForm g env st content_length boundary
  router_handle_request env st

/-- ws.c:624-652. -/
def dispatch (g : Grant) (env : Env) (st : St) (url : Str) (content_length : Int) (boundary : Str) : C (St × List Event) := do
  let (path, query) ← get_path_and_query_string url
  let st := { st with req := { st.req with query_string := query } }
  if !startswith url API_MOUNT then do
    let st := { st with req := { st.req with path := path } }
    let st ← if strcaseEq st.req.method b!"GET" then handle_static_routes env st else bad_request env st
    ok (st, [])
  else do
    let p ← strAt (strdup path) API_MOUNT.length
    let st := { st with req := { st.req with path := p } }
    handle_api_request g env st content_length boundary

/-- ws.c:463-656 `accept_request`. -/
def accept_request (g : Grant) (env : Env) (st : St) (socket : Nat) (peer : Str) : C (St × List Event) := do
  let ip ← fmtInto 24 peer
  let st := { st with req := api_request_new socket ip }
  let (buf, inp, rl, method, j) ← readRequestLine st.input
  let st := { st with input := inp, req := { st.req with request_line := rl, method := method } }
  let allowed ← startswithany method ALLOWED_HTTP_METHODS
  if !allowed then do
    let st ← bad_request env st
    ok (connection_close st, [])
  else do
  let url ← readUrl buf j
  let st := { st with req := { st.req with url := url } }
  let (added, live) ← connection_add env.limits st.live socket st.req.IP url
  let st := { st with live := live }
  if !added then do
    let st ← too_many_connections env st
    ok (connection_close st, [])
  else do
  let h ← parseHeaders buf st.input st.req.IP
  let st := { st with
    input := h.input,
    req := { st.req with headers := h.headers, n_headers := h.headers.length,
                         content_type := h.content_type, IP := h.IP, session := h.session } }
  let (st, ev) ← dispatch g env st url h.content_length h.boundary
  ok (connection_close st, ev)

end Wayuu.Scarce
