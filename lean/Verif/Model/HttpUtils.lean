import Verif.Model.State
import Verif.Model.JsonUtils
/-
Model of /repo/http_utils.c and /repo/wayuu_log.c.
-/
namespace Wayuu
open C

/-- http_utils.h:33-62, the protocol strings. -/
def CRLF : Str := b!"\r\n"
def WAYUU_HTTP_SERVER_STRING : Str := b!"Server: WAYUU/1.5.0\r\n"
def HTTP_OK_START : Str := b!"HTTP/1.1 200 OK\r\n"
def HTTP_CREATED_START : Str := b!"HTTP/1.1 201 CREATED\r\n"
def HTTP_BAD_REQUEST_START : Str := b!"HTTP/1.1 400 Bad Request\r\n"
def HTTP_FORBIDDEN_START : Str := b!"HTTP/1.1 403 Forbidden\r\n"
def HTTP_UNAUTHORIZED_START : Str := b!"HTTP/1.1 401 UNAUTHORIZED\r\n"
def HTTP_NOT_FOUND_START : Str := b!"HTTP/1.1 404 NOT FOUND\r\n"
def HTTP_TOO_MANY_CONNECTIONS : Str := b!"HTTP/1.1 429 Too many connections\r\n"
def HTTP_INTERNAL_ERROR_START : Str := b!"HTTP/1.1 500 Internal Server Error\r\n"
def HTTP_CONTENT_LENGTH_ZERO : Str := b!"Content-Length: 0\r\n"
def CONTENT_TYPE_JSON : Str := b!"Content-Type: application/json\r\n"
def CONTENT_TYPE_TEXT_HTML : Str := b!"Content-Type: text/html\r\n"
def CONTENT_TYPE_IMAGE_PNG : Str := b!"Content-Type: image/png\r\n"
def CONTENT_TYPE_IMAGE_JPEG : Str := b!"Content-Type: image/jpeg\r\n"
def CONTENT_TYPE_ZIP : Str := b!"Content-Type: application/zip\r\n"
def CONTENT_TYPE_CSS : Str := b!"Content-Type: text/css\r\n"
def CONTENT_TYPE_SVG : Str := b!"Content-Type: image/svg+xml\r\n"
def CONTENT_TYPE_ICON : Str := b!"Content-Type: image/vnd.microsoft.icon\r\n"
def CONTENT_TYPE_TEXT_PLAIN : Str := b!"Content-Type: text/plain\r\n"
def CONTENT_TYPE_TEXT_CSV : Str := b!"Content-Type: text/csv\r\n"
def CONTENT_TYPE_YAML : Str := b!"Content-Type: text/yaml\r\n"
def CONTENT_TYPE_OCTET_STREAM : Str := b!"Content-Type: application/octet-stream\r\n"
def HTTP_ACCESS_CONTROL : Str :=
  b!"Access-Control-Allow-Origin: *\r\nAccess-Control-Allow-Methods: GET, POST, DELETE, PUT\r\nAccess-Control-Allow-Headers: Content-Type\r\n"

/-- http_utils.c:59-69 `HTTP_ERROR_STATUS` paired with `HTTP_ERROR_STARTS`. -/
def HTTP_STATUS_TABLE : List (Int × Str) :=
  [(200, HTTP_OK_START), (201, HTTP_CREATED_START), (400, HTTP_BAD_REQUEST_START),
   (401, HTTP_UNAUTHORIZED_START), (403, HTTP_FORBIDDEN_START), (404, HTTP_NOT_FOUND_START),
   (429, HTTP_TOO_MANY_CONNECTIONS), (500, HTTP_INTERNAL_ERROR_START)]

/-- http_utils.c:73-85 `_find_http_status_index`, returning the status line found at that index
(`none` for -1). -/
def findStatus (status : Int) : List (Int × Str) → Option Str
  | [] => none
  | (c, l) :: r => if status = c then some l else findStatus status r

/-- `a + b` on `int`. -/
def addInt (a b : Int) : C Int :=
  if -(2 ^ 31) ≤ a + b ∧ a + b < 2 ^ 31 then ok (a + b) else ub .overflow

/-- Conversion to `uint32_t`. -/
def toUInt32 (n : Int) : Nat := (n % 2 ^ 32).toNat

/-- http_utils.c:251-261 `http_print`: hand `length` bytes of `data` to the socket (SSL or plain). The
parameter is an `int`: a longer length is truncated by the call, and a negative one reaches `send` as
a huge `size_t`. -/
def http_print (st : St) (data : List Byte) (length : Int) : C St :=
  let n := toInt32 length
  if n < 0 ∨ (data.length : Int) < n then ub .oob
  else ok { st with out := st.out ++ [data.take n.toNat] }

/-- http_utils.c:266-269 `http_print_str`. -/
def http_print_str (st : St) (data : Str) : C St := http_print st data data.length

/-- `strcmp(buf, s) == 0` where `buf` is a character array that may lack a terminator: bytes are
compared until the first difference. -/
def strcmpBuf : Buf → Str → C Bool
  | [], _ => ub .oob
  | none :: _, _ => ub .uninit
  | some c :: _, [] => ok (c == 0)
  | some c :: r, x :: xs => if c = x then strcmpBuf r xs else ok false

/-- http_utils.c:520-530 `http_get_header`. -/
def getHeaderLoop (headers : List Header) (name : Str) : Nat → Nat → C HStr
  | 0, _ => ok ⟨false, []⟩
  | n + 1, i =>
    match headers[i]? with
    | none => ub .oob
    | some h => do
      let eq ← strcmpBuf h.name name
      if eq then do
        let v ← cstr h.value
        ok ⟨true, v⟩
      else getHeaderLoop headers name n (i + 1)

def http_get_header (req : Req) (name : Str) : C HStr := getHeaderLoop req.headers name req.n_headers 0

/-- wayuu_log.c:49, the line written by `log_access`. -/
def accessLine (env : Env) (req : Req) (status : Int) (referer ua : Str) : Str :=
  req.IP ++ b!" - - [" ++ env.ts ++ b!"] \"" ++ req.request_line ++ b!"\" " ++ fmtInt status ++ b!" "
    ++ fmtNat req.response_length ++ b!" \"" ++ referer ++ b!"\" \"" ++ ua ++ b!"\" " ++ env.rt ++ b!"\n"

/-- wayuu_log.c:45-50: append to the log file, if it can be opened. -/
def appendLog (env : Env) (st : St) (line : Str) : St :=
  if env.logOk then { st with log := st.log ++ [line] } else st

/-- wayuu_log.c:51-56: `if (strlen(s) > 0) free(s)`. -/
def freeHeader (s : HStr) : C Unit := if 0 < s.s.length then freeStr s else ok ()

/-- wayuu_log.c:38-57 `log_access`. -/
def log_access (env : Env) (st : St) (status : Int) : C St := do
  let referer ← http_get_header st.req b!"Referer"
  let ua ← http_get_header st.req b!"User-Agent"
  let st := appendLog env st (accessLine env st.req status referer.s ua.s)
  freeHeader referer
  freeHeader ua
  ok st

/-- http_utils.c:112-144 `get_content_type` (line 134 tests `strcmp(ext, ".csv")` without `== 0`). -/
def get_content_type (filename : Str) : Str :=
  match strrchr filename 46 with
  | none => CONTENT_TYPE_TEXT_HTML
  | some i =>
    if i = 0 then CONTENT_TYPE_TEXT_HTML else
    let ext := filename.drop i
    if strEq ext b!".html" || strEq ext b!".js" then CONTENT_TYPE_TEXT_HTML
    else if strEq ext b!".png" then CONTENT_TYPE_IMAGE_PNG
    else if strEq ext b!".jpg" || strEq ext b!".jpeg" then CONTENT_TYPE_IMAGE_JPEG
    else if strEq ext b!".zip" then CONTENT_TYPE_ZIP
    else if strEq ext b!".css" then CONTENT_TYPE_CSS
    else if strEq ext b!".svg" then CONTENT_TYPE_SVG
    else if strEq ext b!".ico" then CONTENT_TYPE_ICON
    else if strEq ext b!".txt" then CONTENT_TYPE_TEXT_PLAIN
    else if !strEq ext b!".csv" then CONTENT_TYPE_TEXT_CSV
    else if strEq ext b!".yaml" then CONTENT_TYPE_YAML
    else CONTENT_TYPE_OCTET_STREAM

/-- http_utils.c:146-172 `get_content_type_for_mime` (line 162 has the same inverted test). -/
def get_content_type_for_mime (mime : Str) : Str :=
  if strEq mime b!"text/html" then CONTENT_TYPE_TEXT_HTML
  else if strEq mime b!"image/png" then CONTENT_TYPE_IMAGE_PNG
  else if strEq mime b!"image/jpeg" then CONTENT_TYPE_IMAGE_JPEG
  else if strEq mime b!"application/zip" then CONTENT_TYPE_ZIP
  else if strEq mime b!"text/css" then CONTENT_TYPE_CSS
  else if strEq mime b!"text/plain" then CONTENT_TYPE_TEXT_PLAIN
  else if !strEq mime b!"text/csv" then CONTENT_TYPE_TEXT_CSV
  else if strEq mime b!"text/yaml" then CONTENT_TYPE_YAML
  else CONTENT_TYPE_OCTET_STREAM

/-- http_utils.c:100-105: the session headers. -/
def sessionHeaders (st : St) (len : Nat) (session : Str) : C (Nat × St) :=
  if 0 < session.length then do
    let buf ← fmtInto 1024 (b!"X-Session: " ++ session ++ b!"\r\nSet-Cookie:WSSESSION=" ++ session ++ b!"\r\n")
    let st ← http_print st buf buf.length
    ok (len + buf.length, st)
  else ok (len, st)

/-- http_utils.c:87-110 `return_headers`. The same `buf` is printed (line 93), extended with the
content type (line 95) and printed again (line 98). -/
def return_headers (st : St) (filename : Str) : C (Nat × St) := do
  let buf ← fmtInto 1024 (HTTP_OK_START ++ WAYUU_HTTP_SERVER_STRING)
  let len := buf.length
  let st ← http_print st buf len
  let buf ← fmtInto 1024 (buf ++ get_content_type filename)
  let len := len + buf.length
  let st ← http_print st buf buf.length
  let session ← cstr st.req.session
  let (len, st) ← sessionHeaders st len session
  let st ← http_print st CRLF CRLF.length
  ok (len + CRLF.length, st)

/-- http_utils.c:174-199 `return_file`; the result is `length` converted to `int`. -/
def return_file (st : St) (path : Str) : C (Int × St) :=
  match st.fs.openRead path with
  | some content => do
    let st ← http_print st content content.length
    ok (toInt32 content.length, st)
  | none => ok (0, st)

/-- http_utils.c:203-215 `direct_file`. -/
def direct_file (env : Env) (st : St) (filename : Str) : C (Int × St) :=
  if !is_file st.fs filename then ok (-1, st) else do
  let (hl, st) ← return_headers st filename
  let (fl, st) ← return_file st filename
  let length ← addInt hl fl
  let st := { st with req := { st.req with response_length := toUInt32 length } }
  let st ← log_access env st 200
  ok (0, st)

/-- http_utils.c:224-229, the loop of `send_stream`; each chunk is printed up to its first NUL.
First argument: fuel (number of bytes left + 1). -/
def streamLoop : Nat → St → Int → Str → C (Int × St)
  | 0, st, len, _ => ok (len, st)
  | n + 1, st, len, content =>
    match fgets 1023 content with
    | none => ok (len, st)
    | some (line, rest) => do
      let s := untilNul line
      let len ← addInt len s.length
      let st ← http_print st s s.length
      streamLoop n st len rest

/-- http_utils.c:220-234 `send_stream`. -/
def send_stream (st : St) (content : Str) : C (Int × St) := do
  let (len, st) ← streamLoop (content.length + 1) st 0 content
  let st ← http_print st CRLF CRLF.length
  let len ← addInt len CRLF.length
  ok (len, st)

/-- http_utils.c:236-241 `send_empty_line`. -/
def send_empty_line (st : St) : C St := http_print st CRLF CRLF.length

/-- http_utils.c:292-305 `return_json_headers`. -/
def return_json_headers (st : St) (status : Int) : C (Nat × St) :=
  match findStatus status HTTP_STATUS_TABLE with
  | none => ok (0, st)
  | some start => do
    let buf ← fmtInto 1024 (start ++ WAYUU_HTTP_SERVER_STRING ++ HTTP_ACCESS_CONTROL ++ CONTENT_TYPE_JSON)
    let st ← http_print st buf buf.length
    ok (buf.length, st)

/-- http_utils.c:307-319 `return_headers_with_mime`. -/
def return_headers_with_mime (st : St) (status : Int) (mime : Str) : C (Nat × St) :=
  match findStatus status HTTP_STATUS_TABLE with
  | none => ok (0, st)
  | some start => do
    let buf ← fmtInto 1024
      (start ++ WAYUU_HTTP_SERVER_STRING ++ HTTP_ACCESS_CONTROL ++ get_content_type_for_mime mime)
    let st ← http_print st buf buf.length
    ok (buf.length, st)

/-- http_utils.c:321-330 `return_json_stream`. -/
def return_json_stream (env : Env) (st : St) (status : Int) (content : Str) : C St := do
  let (len, st) ← return_json_headers st status
  let st ← http_print st CRLF CRLF.length
  let (sl, st) ← send_stream st content
  let len ← addInt len sl
  let len ← addInt len 2
  let st := { st with req := { st.req with response_length := toUInt32 len } }
  log_access env st status

/-- http_utils.c:332-347 `return_json_with_status`. -/
def return_json_with_status (env : Env) (st : St) (status : Int) (data : Str) : C St := do
  let (len, st) ← return_json_headers st status
  let buf ← fmtInto 1024 (b!"Content-Length: " ++ fmtNat (data.length + 2) ++ b!"\r\n\r\n")
  let st ← http_print_str st buf
  let st ← http_print_str st data
  let len := len + (buf.length + data.length + 2)
  let st ← http_print_str st CRLF
  let st := { st with req := { st.req with response_length := toUInt32 len } }
  log_access env st status

/-- http_utils.c:271-274 `return_json`. -/
def return_json (env : Env) (st : St) (data : Str) : C St := return_json_with_status env st 200 data

/-- http_utils.c:276-287 `return_json_list`. -/
def return_json_list {α : Type} (env : Env) (st : St) (ser : α → C (Option Str)) (elements : List α) :
    C St := do
  let json ← json_array_of_entities ser elements
  return_json env st json

/-- http_utils.c:427-437: length header and message. -/
def statusBody (buf message : Str) : C Str :=
  if message ≠ [] then do
    let cl ← fmtInto 100 (b!"Content-Length: " ++ fmtNat (message.length + 2) ++ CRLF ++ CRLF)
    let buf ← fmtInto 1024 (buf ++ cl)
    fmtInto 1024 (buf ++ message)
  else fmtInto 1024 (buf ++ HTTP_CONTENT_LENGTH_ZERO)

/-- http_utils.c:414-444 `send_http_status`. -/
def send_http_status (env : Env) (st : St) (status : Int) (message : Str) : C St :=
  match findStatus status HTTP_STATUS_TABLE with
  | none => ok st
  | some start => do
    let buf ← fmtInto 1024 start
    let buf ← fmtInto 1024 (buf ++ WAYUU_HTTP_SERVER_STRING)
    let buf ← statusBody buf message
    let st ← http_print_str st buf
    let st := { st with req := { st.req with
                  response_length := toUInt32 (st.req.response_length + buf.length) } }
    let st ← http_print_str st CRLF
    let st := { st with req := { st.req with
                  response_length := toUInt32 (st.req.response_length + CRLF.length) } }
    log_access env st status

/-- http_utils.c:349-352 -/
def not_found (env : Env) (st : St) : C St := send_http_status env st 404 []
/-- http_utils.c:354-357 -/
def too_many_connections (env : Env) (st : St) : C St := send_http_status env st 429 []
/-- http_utils.c:359-362 -/
def not_authenticated (env : Env) (st : St) : C St := send_http_status env st 401 []
/-- http_utils.c:364-367 -/
def bad_request (env : Env) (st : St) : C St := send_http_status env st 400 []
/-- http_utils.c:376-379 -/
def forbidden (env : Env) (st : St) : C St := send_http_status env st 403 []
/-- http_utils.c:388-391 (the C function is called `ok`) -/
def ok_ (env : Env) (st : St) : C St := send_http_status env st 200 []
/-- http_utils.c:393-396 -/
def created (env : Env) (st : St) : C St := send_http_status env st 201 []
/-- http_utils.c:398-401 -/
def created_with_json (env : Env) (st : St) (data : Str) : C St := return_json_with_status env st 201 data
/-- http_utils.c:403-406 -/
def internal_server_error (env : Env) (st : St) : C St := send_http_status env st 500 []

/-- http_utils.h:95-99 `wayuu_error_t`. -/
structure WayuuError where
  code : Buf
  message : Buf
deriving DecidableEq, Repr

/-- http_utils.h:64-65 -/
abbrev HTTP_MAX_ERROR_CODE_LEN : Nat := 64
abbrev HTTP_MAX_ERROR_MSG_LEN : Nat := 1024

/-- http_utils.c:500-506 `new_error_with_values`. -/
def new_error_with_values (code message : Str) : C WayuuError := do
  let c ← strcpyAt (malloc HTTP_MAX_ERROR_CODE_LEN) 0 code
  let m ← strcpyAt (malloc HTTP_MAX_ERROR_MSG_LEN) 0 message
  ok ⟨c, m⟩

/-- http_utils.c:482-498 `wayuu_error_t_json_serializer`; also returns the error, whose code may have
been overwritten. -/
def wayuu_error_t_json_serializer (e : WayuuError) : C (Str × WayuuError) := do
  let c ← cstr e.code
  let e ← if c.length = 0 then do
      let code ← strcpyAt e.code 0 b!"UNKNOWN"
      ok { e with code := code }
    else ok e
  let c ← cstr e.code
  let code_json ← json_key_value b!"code" (some c)
  let m ← cstr e.message
  let message_json ← json_key_value b!"message" (some m)
  let json ← fmtInto (code_json.length + message_json.length + 25)
    (b!"{" ++ code_json ++ b!"," ++ message_json ++ b!"}")
  ok (json, e)

/-- http_utils.c:369-374 -/
def bad_request_with_error (env : Env) (st : St) (e : WayuuError) : C St := do
  let (j, _) ← wayuu_error_t_json_serializer e
  return_json_with_status env st 400 j
/-- http_utils.c:381-386 -/
def forbidden_with_error (env : Env) (st : St) (e : WayuuError) : C St := do
  let (j, _) ← wayuu_error_t_json_serializer e
  return_json_with_status env st 403 j
/-- http_utils.c:408-412 -/
def internal_server_error_with_error (env : Env) (st : St) (e : WayuuError) : C St := do
  let (j, _) ← wayuu_error_t_json_serializer e
  return_json_with_status env st 500 j

/-- Read `list->strings[i]`: slots past `n_str` hold indeterminate pointers. -/
def strSlot (l : List Buf) (i : Nat) : C Str :=
  match l[i]? with
  | none => ub .uninit
  | some b => cstr b

/-- http_utils.c:450-470 `get_path_and_query_string`: (path, query). -/
def get_path_and_query_string (url : Str) : C (Str × Str) := do
  let list ← split url b!"?"
  let path ← strSlot list 0
  if 1 < list.length then do
    let q ← strSlot list 1
    ok (path, q)
  else ok (path, [])

/-- http_utils.h:221-226 `call_response_t`. -/
structure CallResponse where
  status : Int
  text : Buf
  description : Buf
  additional_info : Option Str
deriving DecidableEq, Repr

/-- Use of a pointer variable that may never have been assigned. -/
def assigned (p : Option Str) : C Str :=
  match p with
  | none => ub .uninit
  | some s => ok s

/-- http_utils.c:532-573 `return_response`. Pointers left unassigned (`aux_err`, `aux_txt`,
`aux_description`) are `none`; lines 558 and 560-570 use them unconditionally. -/
def return_response (rsp : CallResponse) : C Str := do
  let aux_err : Option Str :=
    if rsp.status = -1 then some b!"\"RSP\":\"FAIL\""
    else if rsp.status = 0 then some b!"\"RSP\":\"OK\""
    else if rsp.status = 1 then some b!"\"RSP\":\"ERROR\""
    else if rsp.status = 2 then some b!"\"RSP\":\"WARNING\""
    else none
  let text ← cstr rsp.text
  let aux_txt : Option Str :=
    if text.length ≠ 0 then some (b!", \"info\":\"" ++ text ++ b!"\"") else none
  let description ← cstr rsp.description
  let aux_description : Option Str :=
    if description.length ≠ 0 then some (b!", \"description\":\"" ++ description ++ b!"\"") else none
  let aux_additional_info := match rsp.additional_info with
    | some i => b!",\"data\":" ++ i
    | none => b!",\"data\":\"\""
  let e ← assigned aux_err
  let t ← assigned aux_txt
  let d ← assigned aux_description
  ok (b!"{" ++ e ++ t ++ d ++ aux_additional_info ++ b!"}")

end Wayuu
