import Verif.Model.Queue
import Verif.Model.Overlap
/-
The server with its queue, its workers and requests that overlap: the accept loop with the address filter (ws.c:773-808 and 70-88), the
queue (Model/Queue.lean), and the workers (ws.c:694-705), each of which takes a connection from the queue and goes through the steps of
its request (Model/Overlap.lean) before it comes back for the next one. Between two steps of a thread any other thread may run.
-/
namespace Wayuu.Full
open Wayuu C Wayuu.Queue

/-- What is around the server: how many descriptors it may have, its root folder (`WAYUU_WS_ROOT`), the descriptor that `accept` returns for
each client, and what the clients are and send. -/
structure World where
  limit : Nat
  root : Str
  desc : Nat → Nat
  over : Overlap.World

/-- The process. `sys` is what the threads share, with the requests and how far they have come. The other fields record which client has a
descriptor, which one a worker is serving, how many have connected, which of them passed the address filter, and who (second) has been
taken up by which worker (first). -/
structure FSt where
  q : QSt
  sys : Overlap.Sys
  paths : AccessPaths
  stopped : Bool
  arrived : Nat
  admitted : List Nat
  conn : Nat → Nat
  serving : Nat → Nat
  taken : List (Nat × Nat)

/-- What can happen next. -/
inductive Ev where
  /-- the next client connects -/
  | connect
  /-- `accept` reports an error -/
  | error
  /-- a thread executes its next statement -/
  | thread (a : Act)
  /-- somebody else changes the file system -/
  | files (fs : FS)

/-- The process after `ws_launch` has created the queue, the table of connections and `n` threads (ws.c:731-764). -/
def initial (cap n : Nat) (live : List Conn) (fs : FS) : FSt :=
  { q := Queue.initial cap n, sys := Overlap.initial live fs, paths := ⟨[], []⟩, stopped := false, arrived := 0, admitted := [],
    conn := fun _ => 0, serving := fun _ => 0, taken := [] }

/-- ws.c:776-807, up to the queue: `accept`, the address filter, and `close` for who does not pass it. `accept` fails if there is no
descriptor left, and `log_fatal` then ends the process. -/
def connect (x : World) (w : FSt) : Option (C FSt) :=
  let v := x.desc w.arrived
  if w.stopped then none else
  if w.q.prod ≠ .accept then none else
  if x.limit ≤ w.sys.fds.length then some (ok { w with stopped := true }) else
  if v = 0 ∨ v ∈ w.sys.fds then none else some (do
    let (allowed, paths) ← allowed_address w.sys.fs x.root w.paths (x.over.peer w.arrived)
    let q ← (Queue.step w.q (.accept v allowed)).getD (ok w.q)
    let sys ← (if allowed then Overlap.step x.over w.sys (.accept w.arrived v) else none).getD (ok w.sys)
    ok { w with
      q := q, sys := sys, paths := paths, arrived := w.arrived + 1,
      admitted := if allowed then w.admitted ++ [w.arrived] else w.admitted,
      conn := fun u => if u = v then w.arrived else w.conn u })

/-- ws.c:694-705 `ws_connection_handler`, one step of worker `i`: in `socket_handler` (line 702) it is the next step of its request; when there is
none left it goes back to the queue. Elsewhere it is a statement of `ws_queue_get`, whose last one gives it a connection. -/
def work (x : World) (w : FSt) (i : Nat) : Option (C FSt) :=
  match w.q.workers[i]? with
  | some (.handle _) =>
    match Overlap.step x.over w.sys (.step (w.serving i)) with
    | some c => some (c.bind fun sys => ok { w with sys := sys })
    | none => (Queue.step w.q (.worker i)).map fun c => c.bind fun q => ok { w with q := q }
  | some (.unlock v) => (Queue.step w.q (.worker i)).map fun c => c.bind fun q =>
      ok { w with
        q := q, serving := fun j => if j = i then w.conn v else w.serving j
        taken := w.taken ++ [(i, w.conn v)] }
  | _ => (Queue.step w.q (.worker i)).map fun c => c.bind fun q => ok { w with q := q }

/-- One step; `none` if it is not possible in this state. -/
def step (x : World) (w : FSt) : Ev → Option (C FSt)
  | .connect => connect x w
  | .error => if w.stopped = false ∧ w.q.prod = .accept then some (ok { w with stopped := true }) else none
  | .thread a =>
    if w.stopped then none else
    match a with
    | .accept _ _ => none
    | .worker i => work x w i
    | a => (Queue.step w.q a).map fun c => c.bind fun q => ok { w with q := q }
  | .files fs => some (ok { w with sys := { w.sys with fs := fs } })

/-- `evs` can happen one after the other and lead from `w` to `w'`, without undefined behaviour. -/
inductive Runs (x : World) : FSt → List Ev → FSt → Prop where
  | nil (w : FSt) : Runs x w [] w
  | snoc {w w' w'' : FSt} {e : Ev} {evs : List Ev} : Runs x w evs w' → step x w' e = some (ok w'') → Runs x w (evs ++ [e]) w''

end Wayuu.Full
