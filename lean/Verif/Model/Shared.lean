import Verif.Spec.HappensBefore
import Verif.Model.Ws
/-
Accesses of the threads of the server to memory that more than one of them can get at, and what the threads do about it: `ws_mutex` and the
order in which things are set up. Values are left out (they are in the other models), except whether `LOG_FILE` is set; what depends on
values is a parameter ("course"). Left out, too: memory of a single request, and what libc and OpenSSL guard themselves (the heap, streams,
the buffer of `inet_ntoa`, which is one per thread in glibc).
-/
namespace Wayuu.Shared
open Spec

/-- Memory that is not of one thread only. -/
inductive Loc where
  /-- the fields of `*ws_threads_queue` (ws.h:69-76) -/
  | size | front | rear | capacity | elements
  /-- `live_connections[i]` (ws.c:40) -/
  | sock (i : Nat) | path (i : Nat) | ip (i : Nat)
  /-- `limits` (ws.c:41) -/
  | limits
  /-- `WAYUU_WS_ROOT`, `WWW_INDEX`, `FAVICON_URL`, `WAYUU_STATIC_ROOT`, `WAYUU_SSL_ON`, `ctx`, `socket_handler` and the pointers
  `ws_threads_queue`, `live_connections`, `limits` (ws.c:38-61, http_utils.c:40) -/
  | settings
  /-- `WAYUU_WS_ALLOW`, `WAYUU_WS_DENY` (ws.c:49-50) -/
  | lists
  /-- `LEVEL`, `LOG_FILE` (log.c:34-37) -/
  | level | logFile
  /-- the result of `gmtime` (log.c:45 and 58) -/
  | tm
  /-- the position saved by `strtok` (string_utils.c:176 and 183, ws.c:856 and 861) -/
  | tok
  /-- `routing_table` (router.c:55) -/
  | routes
deriving DecidableEq

/-- What a thread does next. -/
inductive Instr where
  | rd (l : Loc)
  | wr (l : Loc)
  | lock
  | unlock
  | spawn (t : Nat)
  /-- log.c:70 `if (LOG_FILE == NULL)` -/
  | openLog
  /-- log.c:72 `LOG_FILE = stderr`, log.c:106 -/
  | setLog
deriving DecidableEq

/-- The threads: 0 is the one that starts the server and accepts connections. -/
structure Sys where
  owner : Option Nat
  /-- `LOG_FILE` is not NULL -/
  logSet : Bool
  running : List Nat
  /-- what each thread still has to do -/
  left : Nat → List Instr
  trace : Trace Loc

/-- Thread `t` has done its next step, event `e`; `r` remains. -/
def Sys.advance (s : Sys) (t : Nat) (e : Ev Loc) (r : List Instr) : Sys :=
  { s with left := fun u => if u = t then r else s.left u, trace := s.trace ++ [(t, e)] }

/-- One step of thread `t`, if it can make one. -/
def step (s : Sys) (t : Nat) : Option Sys :=
  if t ∈ s.running then
    match s.left t with
    | [] => none
    | .rd l :: r => some (s.advance t (.rd l) r)
    | .wr l :: r => some (s.advance t (.wr l) r)
    | .lock :: r => if s.owner = none then some { s.advance t .acq r with owner := some t } else none
    | .unlock :: r => if s.owner = some t then some { s.advance t .rel r with owner := none } else none
    | .spawn u :: r => some { s.advance t (.spawn u) r with running := u :: s.running }
    | .openLog :: r => some (s.advance t (.rd .logFile) (if s.logSet then r else .setLog :: r))
    | .setLog :: r => some { s.advance t (.wr .logFile) r with logSet := true }
  else none

/-- The threads take turns as `sched` says. -/
def run (s : Sys) : List Nat → Option Sys
  | [] => some s
  | t :: ts => (step s t).bind (fun s => run s ts)

/-- log.c:39-48, 53-61 `format_timestamp`, `format_ts_common_log`. -/
def timestamp : List Instr := [.wr .tm, .rd .tm]

/-- log.c:63-92 `__logger` for a message of level `lv` if `LEVEL` is `lvl`. -/
def message (lvl lv : Nat) : List Instr :=
  .rd .level :: (if lv < lvl then [] else .openLog :: (timestamp ++ [.rd .logFile, .rd .logFile, .rd .logFile, .rd .logFile]))

/-- A response: http_utils.c:251-261 `http_print` looks at `WAYUU_SSL_ON`; wayuu_log.c:38-57 `log_access` writes a time stamp. -/
def respond : List Instr := .rd .settings :: timestamp

/-- string_utils.c:171-191 `split` if there are `n` tokens. -/
def split (n : Nat) : List Instr := .wr .tok :: (List.replicate n [Instr.rd .tok, .wr .tok]).flatten

/-- ws.c:368-382 `get_live_stats`; `depths`: how many fields of each entry are looked at after its socket. -/
def stats (depths : List Nat) : List Instr :=
  depths.zipIdx.flatMap (fun p => .rd (.sock p.2) :: (if 1 ≤ p.1 then [.rd (.path p.2)] else []) ++ (if 2 ≤ p.1 then [.rd (.ip p.2)] else []))

/-- ws.c:385-409 `connection_validate`: the rules looked at, with the entries if the rule is for the path. -/
def validate (rules : List (Option (List Nat))) : List Instr :=
  rules.flatMap (fun r => .rd .limits :: (match r with | none => [] | some d => stats d))

/-- ws.c:443-445, 425-427: sockets of the entries up to number `k` are looked at. -/
def scan (k : Nat) : List Instr := (List.range (k + 1)).map (fun i => .rd (.sock i))

/-- ws.c:447-449, 429-431. -/
def setEntry (k : Nat) : List Instr := [.wr (.sock k), .wr (.path k), .wr (.ip k)]

/-- ws.c:423-435 `connection_del`: the number of the entry, if there is one. -/
def del : Option Nat → List Instr
  | some k => scan k ++ setEntry k
  | none => scan (WS_MAX_CONNECTIONS - 1)

/-- What handlers and filters of a program call. -/
inductive Call where
  | message (lv : Nat)
  | respond
  | split (n : Nat)

def Call.instrs (lvl : Nat) : Call → List Instr
  | .message lv => Shared.message lvl lv
  | .respond => Shared.respond
  | .split n => Shared.split n

/-- What an admitted request leads to. -/
inductive Rest where
  /-- ws.c:632-639 and 313-350: a file; `missing`: the site index is sent instead -/
  | file (missing : Bool)
  /-- ws.c:640-643: not GET -/
  | notGet
  /-- ws.c:647-652 and 279-311: messages (their levels) while the body is read, then router.c:113-173 and what the user code does (`none`:
  no route, router.c:155-163 and 175-179) -/
  | api (messages : List Nat) (user : Option (List Call))

def Rest.instrs (lvl : Nat) : Rest → List Instr
  | .file missing => message lvl 1 ++ [.rd .settings] ++ message lvl 1 ++ (if missing then message lvl 3 ++ [.rd .settings] else []) ++ respond
  | .notGet => respond
  | .api ms user => .rd .level :: ms.flatMap (message lvl) ++ message lvl 1 ++ [.rd .routes] ++
      (match user with | none => message lvl 1 ++ message lvl 1 ++ respond | some cs => message lvl 1 ++ cs.flatMap (Call.instrs lvl))

/-- What becomes of a connection. -/
inductive Outcome where
  /-- ws.c:516-522 -/
  | unsupported
  /-- ws.c:385-409 and 543-549: refused by a rule -/
  | denied (rules : List (Option (List Nat)))
  /-- ws.c:438-456 and 543-549: the table is full -/
  | full (rules : List (Option (List Nat)))
  /-- ws.c:543-655: entry `slot`; `headers` lines; `tokens` of the URL -/
  | served (rules : List (Option (List Nat))) (slot headers tokens : Nat) (rest : Rest)

def Outcome.instrs (lvl : Nat) : Outcome → List Instr
  | .unsupported => respond
  | .denied rules => validate rules ++ message lvl 1 ++ respond
  | .full rules => validate rules ++ scan (WS_MAX_CONNECTIONS - 1) ++ message lvl 1 ++ respond
  | .served rules slot headers tokens rest => validate rules ++ scan slot ++ setEntry slot ++
      (List.replicate headers (Instr.rd .settings :: message lvl 0)).flatten ++ split tokens ++ rest.instrs lvl

/-- One connection: ws.c:463-656 `accept_request`. `noTls`: the handshake failed; `entry`: what `connection_del` finds. -/
structure Course where
  noTls : Bool
  outcome : Outcome
  entry : Option Nat

def Course.instrs (lvl : Nat) (c : Course) : List Instr :=
  .rd .settings :: (if c.noTls then message lvl 3 else []) ++ [.rd .settings] ++ message lvl 0 ++ c.outcome.instrs lvl ++ [.rd .settings] ++ del c.entry

/-- ws.c:671-693 `ws_queue_get`: `waits` times nothing is there, and `pthread_cond_wait` releases the mutex and takes it again; `wrap`: `front`
is set to 0. -/
def dequeue (waits : Nat) (wrap : Bool) : List Instr :=
  [.lock, .rd .settings] ++ (List.replicate waits [Instr.rd .size, .unlock, .lock]).flatten ++
    [.rd .size, .rd .elements, .rd .front, .rd .size, .rd .size, .wr .size, .rd .front, .wr .front, .rd .front, .rd .capacity] ++
    (if wrap then [.wr .front] else []) ++ [.unlock]

/-- ws.c:695-705, one turn of a worker. -/
structure Job where
  waits : Nat
  wrap : Bool
  course : Course

def Job.instrs (lvl : Nat) (j : Job) : List Instr := dequeue j.waits j.wrap ++ [.rd .settings] ++ j.course.instrs lvl

/-- ws.c:773-808, one turn of the accept loop. -/
inductive Turn where
  /-- lines 783-787; `first`: the names of the lists are put together (ws.c:72-76); `gone`: file_utils.c:80-84 -/
  | denied (first gone : Bool)
  /-- lines 792-800 and 805 -/
  | queued (first gone wrap : Bool)
  /-- lines 792-793 and 801-805 -/
  | dropped (first gone : Bool)

/-- ws.c:70-88 `allowed_address`. -/
def allowed (lvl : Nat) (first gone : Bool) : List Instr :=
  .rd .lists :: (if first then [.rd .settings, .wr .lists] else []) ++ [.rd .lists] ++ (if gone then message lvl 4 else []) ++ [.rd .lists]

def Turn.instrs (lvl : Nat) : Turn → List Instr
  | .denied first gone => allowed lvl first gone ++ message lvl 1
  | .queued first gone wrap => allowed lvl first gone ++
      [.lock, .rd .settings, .rd .size, .rd .capacity, .rd .size, .wr .size, .rd .rear, .wr .rear, .rd .rear, .rd .capacity] ++
      (if wrap then [.wr .rear] else []) ++ [.rd .rear, .wr .elements, .unlock]
  | .dropped first gone => allowed lvl first gone ++ [.lock, .rd .settings, .rd .size, .rd .capacity] ++ message lvl 3 ++ [.unlock]

/-- What is done before the workers are there. -/
structure Setup where
  /-- options `-r`, each of which writes a message at the level set at first (main.c:86-88) -/
  roots : Nat
  /-- `log_set_file` was called (log.c:104-112) -/
  file : Bool
  /-- calls of `router_add_route` (router.c:92-111) -/
  routes : Nat
  /-- lines of the limits file (ws.c:833-893) -/
  lines : Nat
  /-- ws.c:756-757: `setsockopt` failed -/
  sockopt : Bool

/-- main.c:45-109 or the program that embeds the server; then ws.c:707-763 up to the first `pthread_create`. -/
def Setup.instrs (lvl : Nat) (c : Setup) : List Instr :=
  [.wr .settings] ++ (List.replicate c.roots (Instr.wr .settings :: message 2 2)).flatten ++ [.wr .level] ++ (if c.file then [.setLog] else []) ++ (List.replicate c.routes (message lvl 1 ++ [.wr .routes])).flatten ++
  [.wr .settings] ++ (List.range WS_MAX_CONNECTIONS).flatMap setEntry ++
  (List.replicate c.lines (split 3 ++ [.wr .limits] ++ message lvl 1)).flatten ++ [.wr .settings, .wr .size, .wr .capacity, .wr .front, .wr .rear] ++
  message lvl 2 ++ message lvl 2 ++ (if c.sockopt then message lvl 4 else [])

/-- What the threads do: `n` workers, the connections as they come, and what each worker does with the ones it gets. -/
def program (lvl n : Nat) (setup : Setup) (turns : List Turn) (jobs : Nat → List Job) (t : Nat) : List Instr :=
  if t = 0 then setup.instrs lvl ++ (List.range n).map (fun i => .spawn (i + 1)) ++ message lvl 2 ++ turns.flatMap (Turn.instrs lvl)
  else if t ≤ n then (jobs t).flatMap (Job.instrs lvl) else []

/-- The beginning: one thread, `LOG_FILE` is NULL, nobody has the mutex. -/
def start (prog : Nat → List Instr) : Sys := ⟨none, false, [0], prog, []⟩

end Wayuu.Shared
