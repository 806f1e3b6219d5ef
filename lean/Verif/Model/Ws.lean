import Verif.Model.Router
import Verif.Model.FileUtils
/-
Model of /repo/ws.c (request handling; the thread queue is in Queue.lean, the unsynchronised uses of
shared data in Races.lean).
-/
namespace Wayuu
open C

/-- ws.h:29 -/
abbrev MAX_ORIG_FILENAME : Nat := 256
/-- ws.h:31 -/
def FILE_DOWNLOAD_TMP_DIR : Str := b!"/tmp/wayuu"
/-- ws.h:36 -/
abbrev WS_MAX_CONNECTIONS : Nat := 1024
/-- ws.h:45 -/
abbrev ROOT_PATH_MAX : Nat := 256
/-- ws.h:46 -/
abbrev MAX_LIMIT_RULES : Nat := 64
/-- ws.h:61 -/
def API_MOUNT : Str := b!"/api"
/-- ws.h:67 -/
abbrev MAX_SESSION : Nat := 64
/-- ws.c:53 -/
def COOKIE_HEADERS : List (Option Str) := [some b!"X-Session:", some b!"Authorization:", some []]
/-- ws.c:56 -/
def ALLOWED_HTTP_METHODS : List (Option Str) :=
  [some b!"GET", some b!"POST", some b!"PUT", some b!"DELETE", none]

/-- ws.c:49-50: the global path buffers `WAYUU_WS_ALLOW` and `WAYUU_WS_DENY`. -/
structure AccessPaths where
  allow : Str
  deny : Str
deriving DecidableEq, Repr

/-- ws.c:70-88 `allowed_address`. -/
def allowed_address (fs : FS) (wsRoot : Str) (paths : AccessPaths) (ip : Str) :
    C (Bool × AccessPaths) := do
  let paths ← if paths.allow.length = 0 then do
      let a ← fmtInto (ROOT_PATH_MAX + 32) (wsRoot ++ b!"/etc/allow")
      let d ← fmtInto (ROOT_PATH_MAX + 32) (wsRoot ++ b!"/etc/deny")
      ok (AccessPaths.mk a d)
    else ok paths
  let denied ← find_in_file fs paths.deny ip
  if denied then ok (false, paths) else
  if !is_file fs paths.allow then ok (true, paths) else do
  let found ← find_in_file fs paths.allow ip
  ok (found, paths)

/-- ws.c:97-110, the loop of `get_line`. First argument: iterations left (`size - 1 - i`). The input
is what the peer sends before closing; after that every read fails. Result: (i, buf, rest of the
input). -/
def getLineLoop : Nat → List Byte → Buf → Nat → C (Nat × Buf × List Byte)
  | 0, inp, buf, i => ok (i, buf, inp)
  | _ + 1, [], buf, i => ok (i, buf, [])
  | n + 1, c :: inp, buf, i => do
    let buf ← buf.store i c
    if c = 10 then ok (i + 1, buf, inp) else getLineLoop n inp buf (i + 1)

/-- ws.c:90-114 `get_line`. -/
def get_line (inp : List Byte) (buf : Buf) (size : Nat) : C (Nat × Buf × List Byte) := do
  let (i, buf, inp) ← getLineLoop (size - 1) inp buf 0
  let buf ← buf.store i 0
  ok (i, buf, inp)

/-- `memcpy(dst, src + soff, n)` with a possibly negative `n` (a huge `size_t`). -/
def memcpyI (dst : Buf) (src : Buf) (soff : Nat) (n : Int) : C Buf :=
  if n < 0 then ub .oob else copyCells dst 0 src soff n.toNat

/-- `sprintf(dst + strlen(dst), "%s", s)`. -/
def appendStr (dst : Buf) (s : Str) : C Buf := strcat dst s

/-- ws.c:216-242 `save_tmp_file`; returns `tmpfields` and the file system. -/
def save_tmp_file (env : Env) (fs : FS) (tmpfields : Buf) (field : Str) (start_file : Nat)
    (tmpdata : Buf) (data_start : Nat) (actuallength : Int) : C (Buf × FS) := do
  let s ← strAt tmpdata start_file
  let orig ← strncpyAt (malloc MAX_ORIG_FILENAME) 0 s MAX_ORIG_FILENAME
  let orig ← orig.store (MAX_ORIG_FILENAME - 1) 0
  let orig ← chop_string orig
  let fs := if !is_dir fs FILE_DOWNLOAD_TMP_DIR then (check_createdir fs FILE_DOWNLOAD_TMP_DIR).2 else fs
  let md5 ← md5sum env.digest env.evpMax (malloc 36) tmpdata data_start (actuallength - data_start - 2)
  let md5 ← cstr md5
  let tmpfile ← fmtInto 256 (env.tid ++ b!"-" ++ md5)
  let tmpfilepath ← fmtInto (FILE_DOWNLOAD_TMP_DIR.length + 264) (FILE_DOWNLOAD_TMP_DIR ++ b!"/" ++ tmpfile)
  let fs ← write_file fs tmpfilepath tmpdata data_start (actuallength - data_start - 2)
  let orig ← cstr orig
  let tmpfields ← appendStr tmpfields (field ++ b!"=" ++ orig ++ b!"&tmpfile=" ++ tmpfile)
  ok (tmpfields, fs)

/-- ws.c:165-210 `part_parse`; returns `tmpfields` and the file system. -/
def part_parse (env : Env) (fs : FS) (tmpfields tmpdata : Buf) (length : Int) : C (Buf × FS) := do
  let text ← cstr tmpdata
  let start ← text_find_after tmpdata b!"form-data; name=\"" 0 text.length
  if start < 1 then ok (tmpfields, fs) else do
  let tail ← strAt tmpdata start.toNat
  if tail.length = 0 then ok (tmpfields, fs) else do
  if length + 1 < 0 then ub .oob else do
  let field := calloc (length + 1).toNat
  let bytes := length - start
  let field ← memcpyI field tmpdata start.toNat bytes
  let field ← field.storeI bytes 0
  let field ← chop_string field
  let data_start ← text_find_after tmpdata b!"\r\n\r\n" 0 length.toNat
  let f ← cstr tmpfields
  let tmpfields ← if 0 < f.length then appendStr tmpfields b!"&" else ok tmpfields
  let start_file ← text_find_after tmpdata b!"; filename=\"" 0 text.length
  if 0 < data_start then
    if 0 < start_file then do
      let field ← cstr field
      save_tmp_file env fs tmpfields field start_file.toNat tmpdata data_start.toNat length
    else do
      let value ← memcpyI (calloc (length + 1).toNat) tmpdata data_start.toNat (length - data_start - 2)
      let field ← cstr field
      let value ← cstr value
      let tmpfields ← appendStr tmpfields (field ++ b!"=" ++ value)
      ok (tmpfields, fs)
  else ok (tmpfields, fs)

/-- ws.c:254-271, the loop of `multipart_parse`. First argument: fuel (`content_length + 1`
iterations suffice because `ptr` grows). Returns `tmpfields` and the file system. -/
def partsLoop (env : Env) (form : Buf) (boundary : Str) (content_length : Nat) :
    Nat → Nat → Buf → Buf → FS → C (Buf × FS)
  | 0, _, _, tmpfields, fs => ok (tmpfields, fs)
  | n + 1, ptr, tmppart, tmpfields, fs =>
    if content_length ≤ ptr then ok (tmpfields, fs) else do
    let part_start ← text_find_after form boundary ptr content_length
    if part_start < 0 then ok (tmpfields, fs) else do
    let part_end ← text_find_after form boundary part_start.toNat content_length
    if part_end < 0 then ok (tmpfields, fs) else do
    let tmppart_len := part_end - part_start - boundary.length
    let tmppart ← memcpyI tmppart form part_start.toNat tmppart_len
    let (tmpfields, fs) ← part_parse env fs tmpfields tmppart tmppart_len
    let tmppart ← trim tmppart
    partsLoop env form boundary content_length n (part_start.toNat + 1) tmppart tmpfields fs

/-- ws.c:244-277 `multipart_parse`; returns `form` and the file system. -/
def multipart_parse (env : Env) (fs : FS) (form : Buf) (boundary : Str) (content_length : Nat) :
    C (Buf × FS) := do
  let (tmpfields, fs) ← partsLoop env form boundary content_length (content_length + 1) 0
    (calloc (content_length + 1)) (calloc (content_length + 1)) fs
  let t ← cstr tmpfields
  let form ← strcpyAt form 0 t
  ok (form, fs)

/-- ws.c:297-302, reading the body; `c` keeps its last value when nothing can be read. First argument:
iterations left. Result: form and rest of the input. -/
def bodyLoop : Nat → List Byte → Byte → Buf → Nat → C (Buf × List Byte)
  | 0, inp, _, form, _ => ok (form, inp)
  | n + 1, inp, c, form, i => do
    let (c, inp) := match inp with
      | [] => (c, [])
      | x :: r => (x, r)
    let form ← form.store i c
    let form ← form.store (i + 1) 0
    bodyLoop n inp c form (i + 1)

/-- ws.c:292-308: the body is read and, if there is a boundary, parsed. -/
def readForm (env : Env) (st : St) (content_length : Int) (boundary : Str) : C St :=
  if 0 < content_length then do
    let n := content_length.toNat
    let (form, inp) ← bodyLoop n st.input 0 (malloc (n + 1)) 0
    let (form, fs) ← if 2 ≤ boundary.length then multipart_parse env st.fs form boundary n
      else ok (form, st.fs)
    ok { st with input := inp, fs := fs, req := { st.req with form := form } }
  else ok st

/-- ws.c:279-311 `handle_api_request` (the messages of lines 283-288: Model/Messages.lean). -/
def handle_api_request (env : Env) (st : St) (content_length : Int) (boundary : Str) :
    C (St × List Event) := do
  let st ← readForm env st content_length boundary
  router_handle_request env st

/-- ws.c:316-339, the choice of the file: `path` is not initialised when its length and last byte are
inspected, so they depend on `env.junk` (modelled as arbitrary bytes; not finding a NUL in the
array, or indexing it at -1, is UB). -/
def rewritePath (env : Env) (reqPath : Str) : C Str := do
  let s ← cstr (env.junk.map some)
  if strEq reqPath b!"/" || strEq reqPath b!"/index.html" then ok env.wwwIndex
  else if strEq reqPath b!"/favicon.ico" then ok env.favicon
  else do
    let last ← Buf.loadI (env.junk.map some) ((s.length : Int) - 1)
    if last = 47 then fmtInto 1024 (reqPath ++ b!"index.html") else ok reqPath

/-- ws.c:313-350 `handle_static_routes`. -/
def handle_static_routes (env : Env) (st : St) : C St := do
  let p ← rewritePath env st.req.path
  let st := { st with req := { st.req with path := p } }
  let path ← fmtInto 1024 (env.staticRoot ++ b!"/" ++ st.req.path)
  let (r, st) ← direct_file env st path
  if r < 0 then do
    let path ← fmtInto 1024 (env.staticRoot ++ b!"/" ++ env.wwwIndex)
    let (_, st) ← direct_file env st path
    ok st
  else ok st

/-- ws.c:368-382 `get_live_stats`: (total, by_ip). -/
def get_live_stats (path ip : Str) : List Conn → Nat × Nat
  | [] => (0, 0)
  | c :: r =>
    let (total, by_ip) := get_live_stats path ip r
    if c.socket ≠ 0 then
      if startswith c.path path then
        (total + 1, if strEq ip c.IP then by_ip + 1 else by_ip)
      else (total, by_ip)
    else (total, by_ip)

/-- ws.c:385-409 `connection_validate`; first argument: iterations left of the 64. -/
def validateLoop (live : List Conn) (ip path : Str) : Nat → List PathLimit → Bool
  | 0, _ => true
  | _, [] => true
  | n + 1, l :: r =>
    if l.path = [] then true else
    if startswith path l.path then
      let (total, by_ip) := get_live_stats l.path ip live
      if (total : Int) > l.max_connections then false
      else if (by_ip : Int) > l.max_connections_per_ip then false
      else validateLoop live ip path n r
    else validateLoop live ip path n r

def connection_validate (limits : List PathLimit) (live : List Conn) (ip path : Str) : Bool :=
  validateLoop live ip path MAX_LIMIT_RULES limits

/-- ws.c:423-435 `connection_del`. -/
def connection_del (socket : Nat) : List Conn → List Conn
  | [] => []
  | c :: r => if c.socket = socket then ⟨0, [], []⟩ :: r else c :: connection_del socket r

/-- ws.c:443-452, the slot search of `connection_add`; `none` if the table is full. -/
def addSlot (socket : Nat) (ip path : Str) : List Conn → Option (List Conn)
  | [] => none
  | c :: r =>
    if c.socket = 0 then some (⟨socket, path, ip⟩ :: r)
    else (addSlot socket ip path r).map (c :: ·)

/-- ws.c:438-456 `connection_add`. -/
def connection_add (limits : List PathLimit) (live : List Conn) (socket : Nat) (ip path : Str) :
    C (Bool × List Conn) :=
  if !connection_validate limits live ip path then ok (false, live) else
  match addSlot socket ip path live with
  | none => ok (false, live)
  | some live' => do
    let _ ← fmtInto HTTP_MAX_PATH path
    let _ ← fmtInto HTTP_MAX_IP ip
    ok (true, live')

/-- ws.c:411-420 `connection_close`. -/
def connection_close (st : St) : St :=
  { st with closed := st.closed ++ [st.req.socket], live := connection_del st.req.socket st.live }

/-- ws.c:352-365 `api_request_new` and ws.c:474-478: the fresh request, with the peer's address. -/
def api_request_new (socket : Nat) (ip : Str) : Req :=
  { socket := socket, n_headers := 0, headers := [], content_type := none, form := strdup [],
    method := [], url := [], path := [], query_string := [], IP := ip, session := strdup [],
    request_line := [], response_length := 0 }

/-- ws.c:505-510 and 531-536: copy bytes that are not white space. First argument: iterations left
(`254 - i`); result: bytes copied (NULs included) and `j`. The element is read before the limits
are checked, so the test `j < sizeof(buf)` of line 531 can never be the one that stops the loop. -/
def scanWord (buf : Buf) : Nat → Nat → C (List Byte × Nat)
  | 0, j => do
    let _ ← buf.load j
    ok ([], j)
  | n + 1, j => do
    let c ← buf.load j
    if isSpace c then ok ([], j) else do
    let (r, j) ← scanWord buf n (j + 1)
    ok (c :: r, j)

/-- ws.c:526-529: skip white space; `buf[j]` is read before `j` is checked. First argument: fuel. -/
def skipSpaces (buf : Buf) : Nat → Nat → C Nat
  | 0, j => ok j
  | n + 1, j => do
    let c ← buf.load j
    if isSpace c ∧ j < buf.length then skipSpaces buf n (j + 1) else ok j

/-- Local variables of the header loop of `accept_request` (ws.c:552-559). -/
structure HdrSt where
  buf : Buf
  input : List Byte
  headers : List Header
  content_type : Option Str
  boundary : Str
  content_length : Int
  IP : Str
  session : Buf
deriving DecidableEq, Repr

/-- ws.c:563-575: store one header. `headers.length` is `headers_idx`. -/
def storeHeader (headers : List Header) (line : Str) : C (List Header) :=
  if headers.length < HTTP_MAX_HEADERS then do
    let nv ← split_once line b!":"
    match nv with
    | [n, v] => do
      let name ← cstr n
      let name ← strncpyAt (calloc HTTP_MAX_HEADER_NAME) 0 name HTTP_MAX_HEADER_NAME
      let v ← trim v
      let value ← cstr v
      let value ← strncpyAt (calloc HTTP_MAX_HEADER_VALUE) 0 value HTTP_MAX_HEADER_VALUE
      ok (headers ++ [⟨name, value⟩])
    | _ => ok headers
  else ok headers

/-- ws.c:576-589: content type and multipart boundary. -/
def hdrContentType (h : HdrSt) (line : Str) : C HdrSt := do
  let h ← if startswith line b!"Content-Type:" then do
      let s ← strAt h.buf 14
      let ct ← rtrim s 59
      ok { h with content_type := some ct }
    else ok h
  if startswith line b!"Content-Type: multipart/form-data" then
    match strcasestr line b!"boundary=" with
    | some b => do
      let mb ← fmtInto 100 (b!"--" ++ b.drop 9)
      let mb ← trimStr mb
      ok { h with boundary := mb }
    | none => ok h
  else ok h

/-- ws.c:592-604: content length and address behind a proxy. -/
def hdrLengthIP (h : HdrSt) (line : Str) : C HdrSt := do
  let h ← if startswith line b!"Content-Length:" then do
      let s ← strAt h.buf 16
      ok { h with content_length := atoi s }
    else ok h
  if startswith line b!"X-Real-IP:" then do
    let buf ← trim h.buf
    let s ← strAt buf 11
    ok { h with buf := buf, IP := s.take 24 }
  else ok h

/-- ws.c:607-617: the session. -/
def hdrSession (h : HdrSt) : C HdrSt := do
  let line ← cstr h.buf
  let isSess ← startswithany line COOKIE_HEADERS
  let h ← if isSess then do
      let s ← strAt h.buf 10
      let session ← strncpyAt h.session 0 s MAX_SESSION
      let session ← trim session
      ok { h with session := session }
    else ok h
  if startswith line b!"Cookie:" then do
    let c ← h.session.load 0
    if c = 0 then do
      let s ← strAt h.buf 18
      if s.length < MAX_SESSION then do
        let session ← strcpyAt h.session 0 s
        ok { h with session := session }
      else ok h
    else ok h
  else ok h

/-- ws.c:561-617, the body of the header loop up to the next `get_line`. -/
def headerStep (h : HdrSt) : C HdrSt := do
  let line ← cstr h.buf
  let headers ← storeHeader h.headers line
  let h ← hdrContentType { h with headers := headers } line
  let h ← hdrLengthIP h line
  hdrSession h

/-- ws.c:557 and 560-620, the header loop, with `numchars` the result of the last `get_line`. First
argument: fuel (bytes of input + 1). -/
def headerLoop : Nat → Nat → HdrSt → C HdrSt
  | 0, _, h => ok h
  | n + 1, numchars, h => do
    let line ← cstr h.buf
    if 0 < numchars ∧ line ≠ b!"\n" ∧ line ≠ b!"\r\n" then do
      let h ← headerStep h
      let (k, buf, inp) ← get_line h.input h.buf 1024
      headerLoop n k { h with buf := buf, input := inp }
    else ok h

/-- ws.c:551-620: parse the header section. -/
def parseHeaders (buf : Buf) (input : List Byte) (ip : Str) : C HdrSt := do
  let buf ← buf.store 0 65
  let buf ← buf.store 1 0
  let (k, buf, inp) ← get_line input buf 1024
  headerLoop (input.length + 1) k
    { buf := buf, input := inp, headers := [], content_type := none, boundary := [],
      content_length := -1, IP := ip, session := calloc MAX_SESSION }

/-- ws.c:624-652: routing between static files and the API, after the header section. `url` is the
local array, as a string. -/
def dispatch (env : Env) (st : St) (url : Str) (content_length : Int) (boundary : Str) :
    C (St × List Event) := do
  let (path, query) ← get_path_and_query_string url
  let st := { st with req := { st.req with query_string := query } }
  if !startswith url API_MOUNT then do
    let st := { st with req := { st.req with path := path } }
    let st ← if strcaseEq st.req.method b!"GET" then handle_static_routes env st else bad_request env st
    ok (st, [])
  else do
    let p ← strAt (strdup path) API_MOUNT.length
    let st := { st with req := { st.req with path := p } }
    handle_api_request env st content_length boundary

/-- ws.c:494-511: the request line. Result: buffer, rest of the input, request line, method and `j`. -/
def readRequestLine (input : List Byte) : C (Buf × List Byte × Str × Str × Nat) := do
  let (_, buf, inp) ← get_line input (calloc 1024) 1024
  let line ← cstr buf
  let rl ← (strdup line).storeI ((line.length : Int) - 2) 0
  let rl ← cstr rl
  let (m, j) ← scanWord buf 254 0
  ok (buf, inp, rl, untilNul m, j)

/-- ws.c:525-538: the URL. -/
def readUrl (buf : Buf) (j : Nat) : C Str := do
  let j ← skipSpaces buf (buf.length + 1) j
  let (u, _) ← scanWord buf 254 j
  ok (untilNul u)

/-- ws.c:463-656 `accept_request`, starting from the socket input `st.input`; `peer` is the address of
the TCP peer. The request in `st` on entry is ignored. Returns the final state and the user code
that was run. A failed TLS handshake is an empty input. -/
def accept_request (env : Env) (st : St) (socket : Nat) (peer : Str) : C (St × List Event) := do
  let ip ← fmtInto 24 peer
  let st := { st with req := api_request_new socket ip }
  let (buf, inp, rl, method, j) ← readRequestLine st.input
  let st := { st with input := inp, req := { st.req with request_line := rl, method := method } }
  let allowed ← startswithany method ALLOWED_HTTP_METHODS
  if !allowed then do
    let st ← bad_request env st
    ok (connection_close st, [])
  else do
  let url ← readUrl buf j
  let st := { st with req := { st.req with url := url } }
  let (added, live) ← connection_add env.limits st.live socket st.req.IP url
  let st := { st with live := live }
  if !added then do
    let st ← too_many_connections env st
    ok (connection_close st, [])
  else do
  let h ← parseHeaders buf st.input st.req.IP
  let st := { st with
    input := h.input,
    req := { st.req with headers := h.headers, n_headers := h.headers.length,
                         content_type := h.content_type, IP := h.IP, session := h.session } }
  let (st, ev) ← dispatch env st url h.content_length h.boundary
  ok (connection_close st, ev)

/-- ws.c:859-872, the token loop of `load_limits`, from the second token on. First argument: fuel
(at most 3 iterations happen). Result: the record and `i`. -/
def limitFields : Nat → PathLimit → Str → Nat → PathLimit × Nat
  | 0, r, _, i => (r, i)
  | n + 1, r, rest, i =>
    match strtok rest b!"," with
    | none => (r, i)
    | some (token, rest) =>
      let r := if i = 1 then { r with max_connections := atoi token } else r
      let r := if i = 2 then { r with max_connections_per_ip := atoi token } else r
      let r := if i = 3 then { r with max_seconds := atoi token } else r
      if 4 ≤ i + 1 then (r, i + 1) else limitFields n r rest (i + 1)

/-- ws.c:849-886, the line loop of `load_limits`. `acc` are the completed rules and `cur` the record
`out[path_rules]`, which may hold values of a discarded line. First argument: fuel. -/
def limitsLoop : Nat → Str → List PathLimit → PathLimit → C (List PathLimit)
  | 0, _, acc, _ => ok acc
  | n + 1, s, acc, cur =>
    match getline s with
    | none => ok acc
    | some (line, rest) =>
      let line := untilNul line
      if line.head? = some 47 then
        match strtok line b!"," with
        | none => ub .null
        | some (token, more) => do
          let path ← fmtInto HTTP_MAX_PATH token
          let (cur, i) := limitFields 4 { cur with path := path } more 1
          if 3 ≤ i then
            if MAX_LIMIT_RULES ≤ acc.length + 1 then ok (acc ++ [cur])
            else limitsLoop n rest (acc ++ [cur]) ⟨[], 0, 0, 0⟩
          else limitsLoop n rest acc { cur with path := [] }
      else limitsLoop n rest acc cur

/-- ws.c:833-893 `load_limits`: the rules before the first empty record. -/
def load_limits (fs : FS) (wsRoot : Str) : C (List PathLimit) := do
  let path ← fmtInto (ROOT_PATH_MAX + 32) (wsRoot ++ b!"/etc/limits")
  match fs.openRead path with
  | none => ok []
  | some content => limitsLoop (content.length + 1) content [] ⟨[], 0, 0, 0⟩

end Wayuu
