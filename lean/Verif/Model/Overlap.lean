import Verif.Model.Ws
/-
Requests that overlap in time. `accept_request` (ws.c:463-656) is taken apart at the places where it touches what the threads share: the
table of connections, the files, the access log and the descriptors. Between two of these steps anything may happen in other requests.
Steps are: reading the request line; `connection_add`; reading the header section; finding the route and running what belongs to it;
`close`; `connection_del`. What is smaller than a step is not taken apart here: two threads within `connection_add` at the same time (or
one in it and one in `connection_del`), within `strtok` or within `gmtime` are the subject of Model/Races.lean, Model/Reuse.lean,
Model/Shared.lean and Model/Time.lean. The queue and the number of threads are left out (Model/Whole.lean): any request whose connection
has been accepted may be taken up.
-/
namespace Wayuu.Overlap
open Wayuu C

/-- How far a request has come. -/
inductive Pc where
  /-- nothing has been read -/
  | arrived
  /-- method and URL have been read (ws.c:543) -/
  | named (st : St) (buf : Buf) (url : Str)
  /-- the connection is in the table (ws.c:551) -/
  | listed (st : St) (buf : Buf) (url : Str)
  /-- the header section has been read (ws.c:624) -/
  | parsed (st : St) (url : Str) (content_length : Int) (boundary : Str)
  /-- answered, the connection is still open (ws.c:411) -/
  | answered (st : St) (events : List Event)
  /-- the socket is closed, the entry is still in the table (ws.c:419) -/
  | closed (st : St) (events : List Event)
  /-- all done -/
  | gone (st : St) (events : List Event)

/-- ws.c:466-541: request line, method and URL. -/
def readLine (env : Env) (st : St) (socket : Nat) (peer : Str) : C Pc := do
  let ip ← fmtInto 24 peer
  let st := { st with req := api_request_new socket ip }
  let (buf, inp, rl, method, j) ← readRequestLine st.input
  let st := { st with input := inp, req := { st.req with request_line := rl, method := method } }
  let allowed ← startswithany method ALLOWED_HTTP_METHODS
  if !allowed then do
    let st ← bad_request env st
    ok (.answered st [])
  else do
  let url ← readUrl buf j
  ok (.named { st with req := { st.req with url := url } } buf url)

/-- ws.c:544-549: the limits and the table. -/
def enter (env : Env) (st : St) (buf : Buf) (url : Str) : C Pc := do
  let (added, live) ← connection_add env.limits st.live st.req.socket st.req.IP url
  let st := { st with live := live }
  if !added then do
    let st ← too_many_connections env st
    ok (.answered st [])
  else ok (.listed st buf url)

/-- ws.c:551-622: the header section. -/
def readHeaders (st : St) (buf : Buf) (url : Str) : C Pc := do
  let h ← parseHeaders buf st.input st.req.IP
  ok (.parsed { st with
    input := h.input,
    req := { st.req with headers := h.headers, n_headers := h.headers.length,
                         content_type := h.content_type, IP := h.IP, session := h.session } } url h.content_length h.boundary)

/-- ws.c:624-652: page or API. -/
def act (env : Env) (st : St) (url : Str) (content_length : Int) (boundary : Str) : C Pc := do
  let (st, ev) ← dispatch env st url content_length boundary
  ok (.answered st ev)

/-- The next step of a request, on the state `fresh st` of what is shared. -/
def next (env : Env) (socket : Nat) (peer : Str) (first : St) (fresh : St → St) : Pc → Option (C Pc)
  | .arrived => some (readLine env first socket peer)
  | .named st buf url => some (enter env (fresh st) buf url)
  | .listed st buf url => some (readHeaders (fresh st) buf url)
  | .parsed st url n b => some (act env (fresh st) url n b)
  | .answered st ev => some (ok (.closed { fresh st with closed := st.closed ++ [st.req.socket] } ev))
  | .closed st ev => some (ok (.gone { fresh st with live := connection_del st.req.socket (fresh st).live } ev))
  | .gone _ _ => none

/-- The state a request has left behind. -/
def Pc.st? : Pc → Option St
  | .arrived => none
  | .named st _ _ | .listed st _ _ | .parsed st _ _ _ | .answered st _ | .closed st _ | .gone st _ => some st

/-- A request that was taken up: its socket and how far it has come. -/
structure Task where
  socket : Nat
  pc : Pc

/-- What the threads share, and the requests by number. -/
structure Sys where
  live : List Conn
  fs : FS
  log : List Str
  fds : List Nat
  task : Nat → Option Task

/-- The clients: address, what they send, and what is found (clock, thread number, user code) when their request is handled. -/
structure World where
  peer : Nat → Str
  input : Nat → List Byte
  env : Nat → Env

/-- What a request finds. -/
def Sys.fresh (w : Sys) (st : St) : St := { st with live := w.live, fs := w.fs, log := w.log }

/-- The beginning of a request: the socket holds what the client sends. -/
def Sys.first (w : Sys) (input : List Byte) : St :=
  { req := api_request_new 0 [], input := input, out := [], log := w.log, fs := w.fs, live := w.live, closed := [] }

/-- What can happen next. -/
inductive Ev where
  /-- the connection of client `k` is accepted and gets descriptor `v` -/
  | accept (k v : Nat)
  /-- the request of client `k` goes one step further -/
  | step (k : Nat)
  /-- somebody else changes the files -/
  | files (fs : FS)

/-- Request `k` is at `pc` now. -/
def Sys.put (w : Sys) (k v : Nat) (pc : Pc) : Sys :=
  let w := { w with
    task := fun i => if i = k then some ⟨v, pc⟩ else w.task i
    fds := match pc with
      | .closed _ _ => w.fds.erase v
      | _ => w.fds }
  match pc.st? with
  | none => w
  | some st => { w with live := st.live, fs := st.fs, log := st.log }

/-- One step; `none` if it is not possible. -/
def step (x : World) (w : Sys) : Ev → Option (C Sys)
  | .accept k v =>
    if w.task k ≠ none ∨ v = 0 ∨ v ∈ w.fds then none
    else some (ok { w with fds := v :: w.fds, task := fun i => if i = k then some ⟨v, .arrived⟩ else w.task i })
  | .step k =>
    match w.task k with
    | none => none
    | some t => (next (x.env k) t.socket (x.peer k) (w.first (x.input k)) w.fresh t.pc).map fun c => c.bind fun pc => ok (w.put k t.socket pc)
  | .files fs => some (ok { w with fs := fs })

/-- The server with nothing to do. -/
def initial (live : List Conn) (fs : FS) : Sys := { live := live, fs := fs, log := [], fds := [], task := fun _ => none }

/-- `evs` can happen one after the other and lead from `w` to `w'`, without undefined behaviour. -/
inductive Runs (x : World) : Sys → List Ev → Sys → Prop where
  | nil (w : Sys) : Runs x w [] w
  | snoc {w w' w'' : Sys} {e : Ev} {evs : List Ev} : Runs x w evs w' → step x w' e = some (ok w'') → Runs x w (evs ++ [e]) w''

end Wayuu.Overlap
