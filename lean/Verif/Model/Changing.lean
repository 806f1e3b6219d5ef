import Verif.Model.Ws
/-
http_utils.c and ws.c again, the delivery of static files, with a tree that others change meanwhile: each call of the system sees
the tree as it is at that moment. A file that was opened stays the same file whatever happens to its name; its bytes may change.
-/
namespace Wayuu.Changing
open C

/-- The tree when a file is looked for (file_utils.c:67) and when it is opened (http_utils.c:180), and what a file of given bytes at its opening
has become when its length is taken (http_utils.c:184-185) and when it is read (http_utils.c:191). -/
structure Moments where
  stat : FS
  open_ : FS
  tell : List Byte → List Byte
  read : List Byte → List Byte

/-- http_utils.c:184-192: a block of zeros for the length of the file, into which that many bytes are read, if there are as many. (The five bytes more
are not sent.) -/
def block (m : Moments) (content : List Byte) : List Byte :=
  let length := (m.tell content).length
  (m.read content).take length ++ List.replicate (length - ((m.read content).take length).length) 0

/-- http_utils.c:174-199 `return_file`. A folder can be opened for reading; what its length is depends on the file system, and is
the largest `long` on ext4, for which line 187 overflows. -/
def return_file (m : Moments) (st : St) (path : Str) : C (Int × St) :=
  if m.open_.lookup path = some .dir then ub .overflow else
  match m.open_.openRead path with
  | some content => do
    let src := block m content
    let st ← http_print st src src.length
    ok (toInt32 src.length, st)
  | none => ok (0, st)

/-- http_utils.c:203-215 `direct_file`. -/
def direct_file (m : Moments) (env : Env) (st : St) (filename : Str) : C (Int × St) :=
  if !is_file m.stat filename then ok (-1, st) else do
  let (hl, st) ← return_headers st filename
  let (fl, st) ← return_file m st filename
  let length ← addInt hl fl
  let st := { st with req := { st.req with response_length := toUInt32 length } }
  let st ← log_access env st 200
  ok (0, st)

/-- ws.c:313-350 `handle_static_routes`; `m1` for the file of the path, `m2` for the index. -/
def handle_static_routes (m1 m2 : Moments) (env : Env) (st : St) : C St := do
  let p ← rewritePath env st.req.path
  let st := { st with req := { st.req with path := p } }
  let path ← fmtInto 1024 (env.staticRoot ++ b!"/" ++ st.req.path)
  let (r, st) ← direct_file m1 env st path
  if r < 0 then do
    let path ← fmtInto 1024 (env.staticRoot ++ b!"/" ++ env.wwwIndex)
    let (_, st) ← direct_file m2 env st path
    ok st
  else ok st

/-- ws.c:624-652. -/
def dispatch (m1 m2 : Moments) (env : Env) (st : St) (url : Str) (content_length : Int) (boundary : Str) :
    C (St × List Event) := do
  let (path, query) ← get_path_and_query_string url
  let st := { st with req := { st.req with query_string := query } }
  if !startswith url API_MOUNT then do
    let st := { st with req := { st.req with path := path } }
    let st ← if strcaseEq st.req.method b!"GET" then handle_static_routes m1 m2 env st else bad_request env st
    ok (st, [])
  else do
    let p ← strAt (strdup path) API_MOUNT.length
    let st := { st with req := { st.req with path := p } }
    handle_api_request env st content_length boundary

/-- ws.c:463-656 `accept_request`. -/
def accept_request (m1 m2 : Moments) (env : Env) (st : St) (socket : Nat) (peer : Str) : C (St × List Event) := do
  let ip ← fmtInto 24 peer
  let st := { st with req := api_request_new socket ip }
  let (buf, inp, rl, method, j) ← readRequestLine st.input
  let st := { st with input := inp, req := { st.req with request_line := rl, method := method } }
  let allowed ← startswithany method ALLOWED_HTTP_METHODS
  if !allowed then do
    let st ← bad_request env st
    ok (connection_close st, [])
  else do
  let url ← readUrl buf j
  let st := { st with req := { st.req with url := url } }
  let (added, live) ← connection_add env.limits st.live socket st.req.IP url
  let st := { st with live := live }
  if !added then do
    let st ← too_many_connections env st
    ok (connection_close st, [])
  else do
  let h ← parseHeaders buf st.input st.req.IP
  let st := { st with
    input := h.input,
    req := { st.req with headers := h.headers, n_headers := h.headers.length,
                         content_type := h.content_type, IP := h.IP, session := h.session } }
  let (st, ev) ← dispatch m1 m2 env st url h.content_length h.boundary
  ok (connection_close st, ev)

end Wayuu.Changing
