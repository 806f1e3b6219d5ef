import Verif.Model.Queue
/-
The server process and its descriptors: the queue and threads of Model/Queue.lean, the operating system's limit on
open descriptors, and the end of the process when `accept` fails (ws.c:776-778, `log_fatal` calls `exit`).
-/
namespace Wayuu.Server
open Wayuu C Wayuu.Queue

/-- The process: threads and queue, open client sockets, and whether it has exited. -/
structure SSt where
  q : QSt
  fds : List Nat
  stopped : Bool
deriving DecidableEq, Repr

/-- What can happen next. -/
inductive Ev where
  /-- a client connects and `accept` is called; `v` is an unused descriptor -/
  | connect (v : Nat) (allowed : Bool)
  /-- `accept` reports another error, e.g. that the client is gone already (ECONNABORTED) -/
  | error
  /-- a thread executes its next statement -/
  | thread (a : Act)
deriving DecidableEq, Repr

/-- The process after `ws_launch` has created the queue and `n` threads. -/
def initial (cap n : Nat) : SSt := ⟨Queue.initial cap n, [], false⟩

/-- The open descriptors after a step of a thread: `socket_handler` (ws.c:702) closes its socket. -/
def closes (s : SSt) : Act → List Nat
  | .worker i =>
    match s.q.workers[i]? with
    | some (.handle v) => s.fds.erase v
    | _ => s.fds
  | _ => s.fds

/-- One step; `limit` is the number of descriptors the process may have open for clients. A socket that is denied is
closed at once (ws.c:786), one that finds the queue full is not (ws.c:801-804). -/
def step (limit : Nat) (s : SSt) (e : Ev) : Option (C SSt) :=
  if s.stopped then none else
  match e with
  | .connect v allowed =>
    match s.q.prod with
    | .accept =>
      if limit ≤ s.fds.length then some (ok { s with stopped := true })
      else if v ∈ s.fds then none
      else (Queue.step s.q (.accept v allowed)).map fun c => c.bind fun q =>
        ok { s with q := q, fds := if allowed then v :: s.fds else s.fds }
    | _ => none
  | .error =>
    match s.q.prod with
    | .accept => some (ok { s with stopped := true })
    | _ => none
  | .thread a =>
    match a with
    | .accept _ _ => none
    | a => (Queue.step s.q a).map fun c => c.bind fun q => ok { s with q := q, fds := closes s a }

end Wayuu.Server
