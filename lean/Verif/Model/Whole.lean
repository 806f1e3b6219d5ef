import Verif.Model.Server
import Verif.Model.Ws
/-
The server with its clients: the accept loop with the address filter (ws.c:773-808 and 70-88), the queue and its workers
(Model/Queue.lean, Model/Server.lean), descriptors that are used again, and the handling of each connection (`accept_request`,
Model/Ws.lean). A connection is handled in one step, so requests are taken one after another here; what happens if they overlap is the
subject of Model/Races.lean, Model/Reuse.lean and Model/Shared.lean.
-/
namespace Wayuu.Whole
open Wayuu C Wayuu.Queue Wayuu.Server

/-- A client: its address as `inet_ntoa` (ws.c:781) and `getpeername` (ws.c:467-471) report it, and what it sends. -/
structure Client where
  peer : Str
  input : List Byte

/-- What is around the server: how many descriptors it may have, its root folder (`WAYUU_WS_ROOT`), the client of each connection, and
what a worker finds (clock, thread number, user code) when it handles that connection. -/
structure World where
  limit : Nat
  root : Str
  client : Nat → Client
  env : Nat → Env

/-- A connection that was handled: its number, what was sent, the user code that was run. -/
structure Done where
  conn : Nat
  sent : List Byte
  events : List Event

/-- The process and what the threads share. The last four fields only record what happened: how many clients have connected (they are
numbered in this order), which of them passed the address filter, which one has a descriptor, and what was done for them. -/
structure WSt where
  srv : SSt
  st : St
  paths : AccessPaths
  arrived : Nat
  admitted : List Nat
  conn : Nat → Nat
  served : List Done

/-- What can happen next. -/
inductive Ev where
  /-- the next client connects, `v` is the descriptor it gets -/
  | connect (v : Nat)
  /-- `accept` reports an error -/
  | error
  /-- a thread executes its next statement -/
  | thread (a : Act)
  /-- somebody else changes the file system -/
  | files (fs : FS)

/-- The process after `ws_launch` has created the queue and `n` threads. -/
def initial (cap n : Nat) (st : St) : WSt :=
  { srv := Server.initial cap n, st := st, paths := ⟨[], []⟩, arrived := 0, admitted := [], conn := fun _ => 0, served := [] }

/-- ws.c:776-807, up to the queue: `accept`, the address filter, and `close` for who does not pass it. (After the tests the step of
Model/Server.lean is possible whatever the filter says.) -/
def connect (x : World) (w : WSt) (v : Nat) : Option (C WSt) :=
  if w.srv.stopped then none else
  if w.srv.q.prod ≠ .accept then none else
  if x.limit ≤ w.srv.fds.length then some (ok { w with srv := { w.srv with stopped := true } }) else
  if v ∈ w.srv.fds then none else some (do
    let (allowed, paths) ← allowed_address w.st.fs x.root w.paths (x.client w.arrived).peer
    let srv ← (Server.step x.limit w.srv (.connect v allowed)).getD (ok w.srv)
    ok { w with
      srv := srv, paths := paths, arrived := w.arrived + 1,
      admitted := if allowed then w.admitted ++ [w.arrived] else w.admitted,
      conn := fun u => if u = v then w.arrived else w.conn u })

/-- The socket that a step of a thread hands to `socket_handler` (ws.c:702). -/
def handles (w : WSt) : Act → Option Nat
  | .worker i =>
    match w.srv.q.workers[i]? with
    | some (.handle v) => some v
    | _ => none
  | _ => none

/-- ws.c:463-656, the worker that has descriptor `v` handles the connection. -/
def serve (x : World) (w : WSt) (v : Nat) : C WSt := do
  let k := w.conn v
  let (st, ev) ← accept_request (x.env k) { w.st with input := (x.client k).input, out := [] } v (x.client k).peer
  ok { w with st := st, served := w.served ++ [⟨k, st.sent, ev⟩] }

/-- One step; `none` if it is not possible in this state. -/
def step (x : World) (w : WSt) : Ev → Option (C WSt)
  | .connect v => connect x w v
  | .error => (Server.step x.limit w.srv .error).map fun c => c.bind fun srv => ok { w with srv := srv }
  | .thread a =>
    (Server.step x.limit w.srv (.thread a)).map fun c => c.bind fun srv => do
      let w' ← (handles w a).elim (ok w) (serve x w)
      ok { w' with srv := srv }
  | .files fs => some (ok { w with st := { w.st with fs := fs } })

/-- `evs` can happen one after the other and lead from `w` to `w'`, without undefined behaviour. -/
inductive Runs (x : World) : WSt → List Ev → WSt → Prop where
  | nil (w : WSt) : Runs x w [] w
  | snoc {w w' w'' : WSt} {e : Ev} {evs : List Ev} : Runs x w evs w' → step x w' e = some (ok w'') → Runs x w (evs ++ [e]) w''

end Wayuu.Whole
