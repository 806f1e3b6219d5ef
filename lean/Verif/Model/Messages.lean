import Verif.Model.Ws
/-
The messages a request gives rise to in the server log: the calls of `log_trace`, `log_debug`, `log_warn` and `log_error`
on the way of a request through ws.c, router.c, http_utils.c and file_utils.c. Only the messages are computed here; what
the functions do otherwise is in Model/Ws.lean and the modules it imports, whose functions are used for the values
printed. Messages of user code (handlers and filters) are not included. Numbers printed with `%d` are left out of the
model where they are all a message contains besides fixed text.
-/
namespace Wayuu
open C

/-- A call of `__logger` (log.c:63-92): level (log.h: trace 0, debug 1, info 2, warn 3, error 4, fatal 5) and text. -/
structure Msg where
  level : Nat
  text : Str
deriving DecidableEq, Repr

/-- log.c:65-68: the messages that are written, with `LEVEL` set to `level`. -/
def written (level : Nat) (ms : List Msg) : List Msg := ms.filter fun m => decide (level ≤ m.level)

/-- log.c:34, the level unless `-d` is given: `LOG_INFO`. -/
abbrev DEFAULT_LEVEL : Nat := 2
/-- main.c:66-67, the level with `-d`: `LOG_DEBUG`. -/
abbrev DEBUG_LEVEL : Nat := 1

/-- http_utils.c:205-209, the message of `direct_file`. -/
def direct_file_msgs (fs : FS) (filename : Str) : List Msg :=
  if !is_file fs filename then [⟨3, b!"File not found: " ++ filename⟩] else []

/-- ws.c:313-350, the messages of `handle_static_routes`. -/
def static_msgs (env : Env) (st : St) : C (List Msg) := do
  let p ← rewritePath env st.req.path
  let path ← fmtInto 1024 (env.staticRoot ++ b!"/" ++ p)
  let first := [⟨1, b!"Handle static route: " ++ st.req.path⟩,
    ⟨1, b!"IP:" ++ st.req.IP ++ b!" GET: " ++ p ++ b!", PATH: " ++ path⟩] ++ direct_file_msgs st.fs path
  if !is_file st.fs path then do
    let index ← fmtInto 1024 (env.staticRoot ++ b!"/" ++ env.wwwIndex)
    ok (first ++ direct_file_msgs st.fs index)
  else ok first

/-- router.c:83, the message of `router_extract_param` for the route taken, if any. -/
def param_msgs (matcher : Str) : List Route → List Msg
  | [] => []
  | r :: rs =>
    if !r.isParam && strEq r.pre matcher then []
    else if r.isParam && (strstr matcher r.pre).isSome && !strEq r.pre matcher then
      [⟨1, b!"router_extract_param(path=" ++ matcher ++ b!",prefix=" ++ r.pre ++ b!",param=" ++ r.param ++ b!")"⟩]
    else param_msgs matcher rs

/-- router.c:113-179, the messages of `router_handle_request` and `reject_routing_request`. -/
def router_msgs (env : Env) (req : Req) : C (List Msg) := do
  let matcher ← fmtInto 255 (req.method ++ b!":" ++ req.path)
  let (handler, _, _) ← routeLoop matcher env.routes req.form
  let first := ⟨1, b!"Router handle request " ++ req.method ++ b!":" ++ req.path⟩ :: param_msgs matcher env.routes
  match handler with
  | none => ok (first ++ [⟨1, b!"Unable to find matching route for method " ++ req.method ++ b!" and path " ++ req.path⟩,
      ⟨1, b!"IP:" ++ req.IP ++ b!" Ignored API URL: " ++ req.url⟩])
  | some _ => ok first

/-- ws.c:216-242 and file_utils.c:107-126, the messages of `save_tmp_file` and `write_file`. -/
def save_msgs (env : Env) (fs : FS) (tmpdata : Buf) (start_file data_start : Nat) (actuallength : Int) : C (List Msg) := do
  let s ← strAt tmpdata start_file
  let orig ← strncpyAt (malloc MAX_ORIG_FILENAME) 0 s MAX_ORIG_FILENAME
  let orig ← orig.store (MAX_ORIG_FILENAME - 1) 0
  let orig ← chop_string orig
  let orig ← cstr orig
  let made := if !is_dir fs FILE_DOWNLOAD_TMP_DIR then
      [⟨1, b!"Creating FILE_DOWNLOAD_TMP_DIR: " ++ FILE_DOWNLOAD_TMP_DIR⟩] else []
  let fs := if !is_dir fs FILE_DOWNLOAD_TMP_DIR then (check_createdir fs FILE_DOWNLOAD_TMP_DIR).2 else fs
  let md5 ← md5sum env.digest env.evpMax (malloc 36) tmpdata data_start (actuallength - data_start - 2)
  let md5 ← cstr md5
  let tmpfilepath := FILE_DOWNLOAD_TMP_DIR ++ b!"/" ++ (env.tid ++ b!"-" ++ md5)
  let fs := if is_file fs tmpfilepath then fs.remove tmpfilepath else fs
  let failed := if fs.openWrite tmpfilepath = none then [⟨4, b!"There was an error opening file: " ++ tmpfilepath⟩] else []
  ok ([⟨1, b!"save_tmp_file"⟩, ⟨1, b!"Original filename " ++ orig ++ b!"\n"⟩] ++ made ++
    [⟨1, b!"write_file(filename=" ++ tmpfilepath ++ b!")"⟩] ++ failed)

/-- ws.c:165-210, the messages of `part_parse`. -/
def part_msgs (env : Env) (fs : FS) (ip : Str) (tmpdata : Buf) (length : Int) : C (List Msg) := do
  let text ← cstr tmpdata
  let start ← text_find_after tmpdata b!"form-data; name=\"" 0 text.length
  if start < 1 then ok [⟨3, b!"IP:" ++ ip ++ b!" Multipart error: Form-data not found "⟩] else do
  let tail ← strAt tmpdata start.toNat
  if tail.length = 0 then ok [] else do
  let data_start ← text_find_after tmpdata b!"\r\n\r\n" 0 length.toNat
  let start_file ← text_find_after tmpdata b!"; filename=\"" 0 text.length
  if 0 < data_start ∧ 0 < start_file then save_msgs env fs tmpdata start_file.toNat data_start.toNat length else ok []

/-- ws.c:254-271, the messages of the loop of `multipart_parse`; the arguments are those of `partsLoop`. -/
def partsMsgs (env : Env) (ip : Str) (form : Buf) (boundary : Str) (content_length : Nat) :
    Nat → Nat → Buf → Buf → FS → C (List Msg)
  | 0, _, _, _, _ => ok []
  | n + 1, ptr, tmppart, tmpfields, fs =>
    if content_length ≤ ptr then ok [] else do
    let part_start ← text_find_after form boundary ptr content_length
    if part_start < 0 then ok [] else do
    let part_end ← text_find_after form boundary part_start.toNat content_length
    if part_end < 0 then ok [] else do
    let tmppart_len := part_end - part_start - boundary.length
    let tmppart ← memcpyI tmppart form part_start.toNat tmppart_len
    let ms ← part_msgs env fs ip tmppart tmppart_len
    let (tmpfields, fs) ← part_parse env fs tmpfields tmppart tmppart_len
    let tmppart ← trim tmppart
    let more ← partsMsgs env ip form boundary content_length n (part_start.toNat + 1) tmppart tmpfields fs
    ok (ms ++ more)

/-- ws.c:292-308, the messages while the body is read. -/
def form_msgs (env : Env) (st : St) (content_length : Int) (boundary : Str) : C (List Msg) :=
  if 0 < content_length then do
    let n := content_length.toNat
    let (form, _) ← bodyLoop n st.input 0 (malloc (n + 1)) 0
    if 2 ≤ boundary.length then partsMsgs env st.req.IP form boundary n (n + 1) 0 (calloc (n + 1)) (calloc (n + 1)) st.fs
    else ok []
  else ok []

/-- ws.c:279-311, the messages of `handle_api_request`. (`log_level_is_enabled` is the test `__logger` makes as well.) -/
def api_msgs (env : Env) (st : St) (content_length : Int) (boundary : Str) : C (List Msg) := do
  let session ← cstr st.req.session
  let first : List Msg := [⟨1, b!"IP:" ++ st.req.IP ++ b!", URL:" ++ st.req.url ++ b!", METHOD:" ++ st.req.method ++ b!", PATH:" ++
    st.req.path ++ b!", SESSION:" ++ session ++ b!" "⟩]
  let query : List Msg := if st.req.query_string ≠ [] then [⟨1, b!"IP: " ++ st.req.IP ++ b!" PARAMETERS: " ++ st.req.query_string⟩] else []
  let ms ← form_msgs env st content_length boundary
  let st ← readForm env st content_length boundary
  let rs ← router_msgs env st.req
  ok (first ++ query ++ ms ++ rs)

/-- ws.c:624-652, the messages after the header section. -/
def dispatch_msgs (env : Env) (st : St) (url : Str) (content_length : Int) (boundary : Str) : C (List Msg) := do
  let (path, query) ← get_path_and_query_string url
  let st := { st with req := { st.req with query_string := query } }
  if !startswith url API_MOUNT then do
    let st := { st with req := { st.req with path := path } }
    if strcaseEq st.req.method b!"GET" then static_msgs env st else ok []
  else do
    let p ← strAt (strdup path) API_MOUNT.length
    let st := { st with req := { st.req with path := p } }
    api_msgs env st content_length boundary

/-- ws.c:385-409, the message of `connection_validate`. -/
def validate_msgs (live : List Conn) (ip path : Str) : Nat → List PathLimit → List Msg
  | 0, _ => []
  | _, [] => []
  | n + 1, l :: r =>
    if l.path = [] then [] else
    if startswith path l.path then
      let (total, by_ip) := get_live_stats l.path ip live
      if (total : Int) > l.max_connections then [⟨1, b!"IP:" ++ ip ++ b!" denied, max_connections exceeded for " ++ l.path⟩]
      else if (by_ip : Int) > l.max_connections_per_ip then
        [⟨1, b!"IP:" ++ ip ++ b!" denied, max_connections_per_ip exceeded for " ++ l.path⟩]
      else validate_msgs live ip path n r
    else validate_msgs live ip path n r

/-- ws.c:438-456, the messages of `connection_add`. -/
def add_msgs (limits : List PathLimit) (live : List Conn) (ip path : Str) : List Msg :=
  validate_msgs live ip path MAX_LIMIT_RULES limits ++
    if connection_validate limits live ip path && (addSlot 1 ip path live).isNone then [⟨1, b!"WS_MAX_CONNECTIONS reached"⟩] else []

/-- ws.c:563-570, the message for a header line (before the value is trimmed). -/
def header_msgs (headers : List Header) (line : Str) : C (List Msg) :=
  if headers.length < HTTP_MAX_HEADERS then do
    let nv ← split_once line b!":"
    match nv with
    | [n, v] => do
      let name ← cstr n
      let value ← cstr v
      ok [⟨0, b!"Found header: " ++ name ++ b!", " ++ value⟩]
    | _ => ok []
  else ok []

/-- ws.c:557 and 560-620, the messages of the header loop; the arguments are those of `headerLoop`. -/
def headerLoopMsgs : Nat → Nat → HdrSt → C (List Msg)
  | 0, _, _ => ok []
  | n + 1, numchars, h => do
    let line ← cstr h.buf
    if 0 < numchars ∧ line ≠ b!"\n" ∧ line ≠ b!"\r\n" then do
      let ms ← header_msgs h.headers line
      let h ← headerStep h
      let (k, buf, inp) ← get_line h.input h.buf 1024
      let more ← headerLoopMsgs n k { h with buf := buf, input := inp }
      ok (ms ++ more)
    else ok []

/-- ws.c:551-620, the messages while the header section is read. -/
def section_msgs (buf : Buf) (input : List Byte) (ip : Str) : C (List Msg) := do
  let buf ← buf.store 0 65
  let buf ← buf.store 1 0
  let (k, buf, inp) ← get_line input buf 1024
  headerLoopMsgs (input.length + 1) k
    { buf := buf, input := inp, headers := [], content_type := none, boundary := [],
      content_length := -1, IP := ip, session := calloc MAX_SESSION }

/-- ws.c:480-492, the message of `accept_request` when the TLS handshake fails. (Nothing can be read then, and the request
line that is missing is written to before its start: `readRequestLine_short`.) -/
def handshake_msgs (peer : Str) : C (List Msg) := do
  let ip ← fmtInto 24 peer
  ok [⟨3, b!"SSL connection failed from IP: " ++ ip ++ b!"\n"⟩]

/-- ws.c:463-656, the messages of `accept_request` (after the handshake). -/
def accept_msgs (env : Env) (st : St) (socket : Nat) (peer : Str) : C (List Msg) := do
  let ip ← fmtInto 24 peer
  let st := { st with req := api_request_new socket ip }
  let (buf, inp, rl, method, j) ← readRequestLine st.input
  let line ← cstr buf
  let m2 : List Msg := [⟨0, b!"IP: " ++ ip ++ b!", Request: " ++ line⟩]
  let st := { st with input := inp, req := { st.req with request_line := rl, method := method } }
  let allowed ← startswithany method ALLOWED_HTTP_METHODS
  if !allowed then ok m2 else do
  let url ← readUrl buf j
  let st := { st with req := { st.req with url := url } }
  let m3 := add_msgs env.limits st.live st.req.IP url
  let (added, live) ← connection_add env.limits st.live socket st.req.IP url
  let st := { st with live := live }
  if !added then ok (m2 ++ m3) else do
  let m4 ← section_msgs buf st.input st.req.IP
  let h ← parseHeaders buf st.input st.req.IP
  let st := { st with
    input := h.input,
    req := { st.req with headers := h.headers, n_headers := h.headers.length,
                         content_type := h.content_type, IP := h.IP, session := h.session } }
  let m5 ← dispatch_msgs env st url h.content_length h.boundary
  ok (m2 ++ m3 ++ m4 ++ m5)

end Wayuu
