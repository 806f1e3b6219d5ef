import Verif.Model.Listen
/-
Start-up: /repo/main.c:114-115 and /repo/ws.c:707-775, from the end of the option loop to the accept loop. What the
operating system and OpenSSL decide is a parameter. Log lines are modelled without time stamp, thread and place.
-/
namespace Wayuu.Startup
open Wayuu C Listen

/-- The system the program starts on. -/
structure Sys where
  os : Os
  /-- whether a file can be opened with mode a+ -/
  append : Str → Bool
  /-- whether `SSL_CTX_new` succeeds -/
  context : Bool
  /-- contents OpenSSL accepts as a chain of certificates -/
  certOk : Str → Bool
  /-- contents OpenSSL accepts as a private key for the context -/
  keyOk : Str → Bool
  /-- whether `socket` succeeds -/
  socket : Bool
  /-- whether `setsockopt(SO_REUSEADDR)` succeeds -/
  reuse : Bool
  /-- whether `listen` succeeds -/
  listens : Bool
  /-- whether the `i`-th `pthread_create` succeeds -/
  thread : Nat → Bool

/-- Where start-up ends: in the accept loop, with so many threads in the pool; in the accept loop without a socket (only if the log
level is above `LOG_FATAL`); or with `exit`. -/
inductive Result where
  | accepting (addr port : Nat) (ssl : Bool) (rules : List PathLimit) (fs : FS) (workers : Nat)
  | deaf
  | exit (e : Exit)

/-- ws.h:66 -/
def WAYUU_LOGFILE : Str := b!"/var/log/wayuu.log"

/-- A message at the given level (log.c:63-92). -/
def say (st : LogSt) (level : Int) (msg : Str) : C (LogSt × Exit) := logger st level [] [] [] msg

/-- `SSL_CTX_use_..._file(ctx, path)` -/
def loads (fs : FS) (path : Str) (good : Str → Bool) : Bool :=
  match fs.openRead path with
  | some content => good content
  | none => false

/-- ws.c:143-163 `configure_context`; `false` if it ended in `wayuu_failed` (ws.c:64-68). -/
def configure_context (w : Sys) (fs : FS) (c : Cfg) (st : LogSt) : C (LogSt × Bool) := do
  let cert ← certPath c
  let key ← keyPath c
  if !loads fs cert w.certOk then do
    let (st, _) ← say st LOG_ERROR (b!"Failed to use certificate in " ++ cert)
    ok (st, false)
  else if !loads fs key w.keyOk then do
    let (st, _) ← say st LOG_ERROR (b!"Failed to open private_key in " ++ key)
    ok (st, false)
  else ok (st, true)

/-- ws.c:720-726: `create_context` (ws.c:127-141) and `configure_context`. -/
def sslSetup (w : Sys) (fs : FS) (c : Cfg) (st : LogSt) : C (LogSt × Bool) :=
  if c.ssl then
    if !w.context then do
      let (st, _) ← say st LOG_ERROR b!"Unable to create SSL context"
      ok (st, false)
    else configure_context w fs c st
  else ok (st, true)

/-- A call that is followed by `if (failed) log_…(msg)`. -/
def check (good : Bool) (st : LogSt) (level : Int) (msg : Str) : C (LogSt × Exit) :=
  if good then ok (st, .returns) else say st level msg

/-- ws.h:34 -/
def WS_THREAD_POOL_SIZE : Nat := 200

/-- ws.c:763-764: the result of `pthread_create` is not looked at. The number of threads there are afterwards. -/
def pool (w : Sys) : Nat := ((List.range WS_THREAD_POOL_SIZE).filter w.thread).length

/-- ws.c:738-775: the socket, the threads, and the messages around them. Calls on the socket -1 fail; a socket that is not bound is
bound to all addresses and a free port by `listen`. -/
def serve (w : Sys) (fs : FS) (c : Cfg) (rules : List PathLimit) (st : LogSt) : C (LogSt × Result) := do
  let p := (c.port % 65536).toNat
  let a := inet_addr c.bindAddr
  let (st, e) ← check w.socket st LOG_FATAL b!"Unable to obtain socket handle"
  if e ≠ .returns then ok (st, .exit e) else do
  let (st, _) ← say st LOG_INFO (b!"WAYUU binding to address: " ++ c.bindAddr)
  let (st, _) ← say st LOG_INFO (b!"WAYUU starting on port " ++ fmtInt c.port)
  let (st, _) ← check (w.socket && w.reuse) st LOG_ERROR b!"setsockopt(SO_REUSEADDR) failed"
  let (st, e) ← check (w.socket && w.os.bind a p) st LOG_FATAL (b!"Unable to bind to port " ++ fmtInt c.port)
  if e ≠ .returns then ok (st, .exit e) else do
  let (st, e) ← check (w.socket && w.listens) st LOG_FATAL b!"Error while listening to socket"
  if e ≠ .returns then ok (st, .exit e) else do
  let (st, _) ← say st LOG_INFO (b!"WAYUU WS running on port " ++ fmtInt c.port)
  if !(w.socket && w.listens) then ok (st, .deaf)
  else if w.os.bind a p then ok (st, .accepting a (if p = 0 then w.os.free else p) c.ssl rules fs (pool w))
  else ok (st, .accepting 0 w.os.free c.ssl rules fs (pool w))

/-- ws.c:707-775 `ws_launch` up to the accept loop. -/
def ws_launch (w : Sys) (fs : FS) (c : Cfg) (st : LogSt) : C (LogSt × Result) := do
  let (made, fs) := check_createdir fs FILE_DOWNLOAD_TMP_DIR
  if !made then do
    let (st, e) ← say st LOG_FATAL (b!"Cannot create path " ++ FILE_DOWNLOAD_TMP_DIR)
    if e = .returns then do
      let (st, good) ← sslSetup w fs c st
      if !good then ok (st, .exit .failure) else do
      let rules ← load_limits fs c.wsRoot
      serve w fs c rules st
    else ok (st, .exit e)
  else do
    let (st, good) ← sslSetup w fs c st
    if !good then ok (st, .exit .failure) else do
    let rules ← load_limits fs c.wsRoot
    serve w fs c rules st

/-- main.c:114-115: the log file (log.c:104-112), then `ws_launch`. -/
def launch (w : Sys) (fs : FS) (c : Cfg) : C (LogSt × Result) :=
  if !w.append WAYUU_LOGFILE then
    ok (⟨c.logLevel, [b!"ERROR SETTING LOG FILE: " ++ WAYUU_LOGFILE ++ b!"\n"]⟩, .exit .failure)
  else ws_launch w fs c ⟨c.logLevel, []⟩

/-- The program, from its options to the accept loop. -/
def run (w : Sys) (fs : FS) (opts : List Opt) : C (LogSt × Result) := do
  match ← main fs opts with
  | .exit e => ok (⟨LOG_INFO, []⟩, .exit e)
  | .launch c => launch w fs c

end Wayuu.Startup
