import Verif.Model.FileUtils
/-
The data shared by the request-handling code: `api_request`, the table of live connections, rules,
routes, and the observable effects of handling a request.
-/
namespace Wayuu
open C

/-- http_utils.h:67-73 -/
abbrev HTTP_MAX_HEADER_NAME : Nat := 64
abbrev HTTP_MAX_HEADER_VALUE : Nat := 256
abbrev HTTP_MAX_HEADERS : Nat := 20
abbrev HTTP_MAX_PATH : Nat := 512
abbrev HTTP_MAX_IP : Nat := 16

/-- http_utils.h:101-105 `header_t`: two character arrays of 64 and 256 bytes. -/
structure Header where
  name : Buf
  value : Buf
deriving DecidableEq, Repr

/-- http_utils.h:110-128 `api_request`. `headers` are the entries of the array written so far
(`n_headers` of them are visible). Pointers to strings that are never written through after being
set are modelled as `Str`; `form` and `session` are modelled as blocks because the code appends to
them or may leave them unterminated. `ssl`, `username` and `request_start` are not modelled. -/
structure Req where
  socket : Nat
  n_headers : Nat
  headers : List Header
  content_type : Option Str
  form : Buf
  method : Str
  url : Str
  path : Str
  query_string : Str
  IP : Str
  session : Buf
  request_line : Str
  response_length : Nat
deriving DecidableEq, Repr

/-- http_utils.h:132-138 `connections`: one slot of the table of live connections (free iff
`socket = 0`). `unix_time` is never used by the code. -/
structure Conn where
  socket : Nat
  path : Str
  IP : Str
deriving DecidableEq, Repr

/-- http_utils.h:142-148 `path_limits`. -/
structure PathLimit where
  path : Str
  max_connections : Int
  max_connections_per_ip : Int
  max_seconds : Int
deriving DecidableEq, Repr

/-- Everything a request can read or change while it is handled. -/
structure St where
  req : Req
  /-- socket input not yet read -/
  input : List Byte
  /-- data handed to the socket, one element per write -/
  out : List (List Byte)
  /-- lines appended to the access log -/
  log : List Str
  fs : FS
  /-- table of live connections -/
  live : List Conn
  /-- sockets passed to `close`, in order -/
  closed : List Nat

/-- router.h:42-46 and router.c:39-51: one entry of the routing table. Handlers and filters are
identified by number; `none` is a NULL pointer. -/
structure Route where
  isParam : Bool
  pre : Str
  param : Str
  handler : Option Nat
  filter : Option Nat
deriving DecidableEq, Repr

/-- User code invoked by the router, with the request it is given. -/
inductive Event where
  | filter (id : Nat) (req : Req)
  | handler (id : Nat) (req : Req)
deriving DecidableEq, Repr

/-- Configuration and environment of the server while handling one request. -/
structure Env where
  /-- `WAYUU_STATIC_ROOT`, `WWW_INDEX`, `FAVICON_URL` -/
  staticRoot : Str
  wwwIndex : Str
  favicon : Str
  /-- the rules returned by `load_limits` -/
  limits : List PathLimit
  routes : List Route
  /-- user-supplied handlers and filters -/
  handle : Nat → St → C St
  filt : Nat → St → C (St × Bool)
  /-- MD5, `EVP_MAX_MD_SIZE` and the decimal representation of `pthread_self()` -/
  digest : List Byte → List Byte
  evpMax : Nat
  tid : Str
  /-- formatted time stamp and response time of the access log, and whether it can be opened -/
  ts : Str
  rt : Str
  logOk : Bool
  /-- previous stack contents under `char path[1024]` of `handle_static_routes` -/
  junk : List Byte

/-- All bytes handed to the socket so far. -/
def St.sent (st : St) : List Byte := st.out.flatten

end Wayuu
