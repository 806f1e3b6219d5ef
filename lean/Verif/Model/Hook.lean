import Verif.Model.Queue
/-
`ws_launch` with a socket handler of the application (ws.h:89-95, ws.c:59-61, 694-705 and 727-728): the accept loop, the queue and the
workers, which call the handler. What the handler does with the connection is up to the application; it may close the descriptor it was
given while it runs or later.
-/
namespace Wayuu.Hook
open Wayuu C Wayuu.Queue

/-- The functions `socket_handler` (ws.c:61) may point to: `accept_request` or the one the application has passed. -/
inductive Fn where
  | http
  | own (f : Nat)
deriving DecidableEq, Repr

/-- ws.c:61 and 727-728: the value of `socket_handler` when the workers are created. `none` is NULL. -/
def chosen (handler : Option Nat) : Fn :=
  let socket_handler := Fn.http
  match handler with
  | some f => .own f
  | none => socket_handler

/-- What is around the server: how many descriptors it may have, the descriptor `accept` returns for each client, what the address filter
says about the client, and the argument of `ws_launch`. -/
structure World where
  limit : Nat
  desc : Nat → Nat
  passes : Nat → Bool
  handler : Option Nat

/-- A call of `socket_handler`: the function, the worker, the client and the argument. -/
structure Call where
  fn : Fn
  worker : Nat
  conn : Nat
  socket : Nat
deriving DecidableEq, Repr

/-- The process: queue and threads, open descriptors of clients, and whether it has ended. The other fields record how many clients have
connected, which of them passed the address filter, who has a descriptor, the calls of the handler, and whose connection it has closed. -/
structure HSt where
  q : QSt
  fds : List Nat
  stopped : Bool
  arrived : Nat
  admitted : List Nat
  conn : Nat → Nat
  calls : List Call
  ended : List Nat

/-- What can happen next. -/
inductive Ev where
  /-- the next client connects -/
  | connect
  /-- `accept` reports an error -/
  | error
  /-- a thread executes its next statement -/
  | thread (a : Act)
  /-- the application closes a descriptor it was given -/
  | close (v : Nat)
deriving DecidableEq, Repr

/-- The process after `ws_launch` has created the queue and `n` threads (ws.c:730-764). -/
def initial (cap n : Nat) : HSt :=
  { q := Queue.initial cap n, fds := [], stopped := false, arrived := 0, admitted := [], conn := fun _ => 0, calls := [], ended := [] }

/-- ws.c:776-807, up to the queue: `accept`, the address filter, and `close` for who does not pass it. -/
def connect (x : World) (w : HSt) : Option (C HSt) :=
  let v := x.desc w.arrived
  if w.stopped then none else
  if w.q.prod ≠ .accept then none else
  if x.limit ≤ w.fds.length then some (ok { w with stopped := true }) else
  if v ∈ w.fds then none else (Queue.step w.q (.accept v (x.passes w.arrived))).map fun c => c.bind fun q =>
    ok { w with
      q := q, arrived := w.arrived + 1,
      fds := if x.passes w.arrived then v :: w.fds else w.fds,
      admitted := if x.passes w.arrived then w.admitted ++ [w.arrived] else w.admitted,
      conn := fun u => if u = v then w.arrived else w.conn u }

/-- ws.c:694-705 `ws_connection_handler`, one step of worker `i`: `ws_queue_get`, after which the handler is called (line 702), and its
return. `accept_request` has closed the descriptor by then. -/
def work (x : World) (w : HSt) (i : Nat) : Option (C HSt) :=
  (Queue.step w.q (.worker i)).map fun c => c.bind fun q =>
    match w.q.workers[i]? with
    | some (.unlock v) => ok { w with q := q, calls := w.calls ++ [⟨chosen x.handler, i, w.conn v, v⟩] }
    | some (.handle v) =>
      if chosen x.handler = .http then ok { w with q := q, fds := w.fds.erase v, ended := w.ended ++ [w.conn v] }
      else ok { w with q := q }
    | _ => ok { w with q := q }

/-- One step; `none` if it is not possible in this state. -/
def step (x : World) (w : HSt) : Ev → Option (C HSt)
  | .connect => connect x w
  | .error => if w.stopped = false ∧ w.q.prod = .accept then some (ok { w with stopped := true }) else none
  | .thread a =>
    if w.stopped then none else
    match a with
    | .accept _ _ => none
    | .worker i => work x w i
    | a => (Queue.step w.q a).map fun c => c.bind fun q => ok { w with q := q }
  | .close v =>
    if w.stopped = false ∧ chosen x.handler ≠ .http ∧ v ∈ w.fds ∧ w.conn v ∈ w.calls.map Call.conn then
      some (ok { w with fds := w.fds.erase v, ended := w.ended ++ [w.conn v] })
    else none

/-- `evs` can happen one after the other and lead from `w` to `w'`, without undefined behaviour. -/
inductive Runs (x : World) : HSt → List Ev → HSt → Prop where
  | nil (w : HSt) : Runs x w [] w
  | snoc {w w' w'' : HSt} {e : Ev} {evs : List Ev} : Runs x w evs w' → step x w' e = some (ok w'') → Runs x w (evs ++ [e]) w''

end Wayuu.Hook
