import Verif.Model.Ws
/-
The table of connections over the life of the server (ws.c:411-456, 462-549, 654 and 774-800): workers take accepted
connections, register them, serve them, close the descriptor and remove the entry.

`connection_close` closes the descriptor first (ws.c:418) and removes the entry afterwards (ws.c:419). From the
`close` on the number is free, and the operating system may give it to the next connection.

Simplified: `connection_add` and `connection_del` are one step each, so that what goes wrong here has nothing to do with two
workers in `connection_add` at once (that is Model/Races.lean, C50). The queue between the accepting thread and the
workers is not represented: a connection waiting in the queue is a worker in the phase `accepted`, and there are as many
workers as wanted.
-/
namespace Wayuu.Reuse
open C

/-- Where a worker is with its connection. `closed` is between ws.c:418 and ws.c:419. The argument of `closed` says
nothing to the code: it has no such variable. It is there to state properties. -/
inductive Phase
  | idle
  | accepted
  | serving
  | refused
  | closed (registered : Bool)
deriving DecidableEq, Repr

/-- A worker and the connection it has: descriptor number, path asked for and address of the peer. -/
structure Worker where
  phase : Phase
  conn : Conn
deriving DecidableEq

/-- The table `live_connections` (ws.c:40) and the workers. -/
structure S where
  live : List Conn
  workers : List Worker
deriving DecidableEq

/-- What can happen next. -/
inductive Ev
  /-- ws.c:776: `accept` returns; the connection is given to worker `i`. -/
  | accept (i : Nat) (c : Conn)
  /-- ws.c:543: worker `i` calls `connection_add`. -/
  | add (i : Nat)
  /-- ws.c:516-520: worker `i` turns down an unsupported method, without `connection_add`. -/
  | reject (i : Nat)
  /-- ws.c:418 -/
  | close (i : Nat)
  /-- ws.c:419 -/
  | del (i : Nat)
deriving DecidableEq

/-- The descriptor of the worker's connection is open. -/
def Worker.isOpen (w : Worker) : Bool :=
  match w.phase with
  | .accepted | .serving | .refused => true
  | _ => false

/-- One step; `none` if it cannot happen now. The operating system gives `accept` a number above 0 that is not open (accept(2)). -/
def step (limits : List PathLimit) (s : S) : Ev → Option S
  | .accept i c =>
    match s.workers[i]? with
    | some w =>
      if w.phase = .idle ∧ c.socket ≠ 0 ∧ s.workers.all (fun v => !(v.isOpen && v.conn.socket == c.socket)) then
        some { s with workers := s.workers.set i ⟨.accepted, c⟩ }
      else none
    | none => none
  | .add i =>
    match s.workers[i]? with
    | some w =>
      if w.phase = .accepted then
        match connection_add limits s.live w.conn.socket w.conn.IP w.conn.path with
        | .ok (true, live') => some ⟨live', s.workers.set i { w with phase := .serving }⟩
        | .ok (false, live') => some ⟨live', s.workers.set i { w with phase := .refused }⟩
        | .ub _ => none
      else none
    | none => none
  | .reject i =>
    match s.workers[i]? with
    | some w => if w.phase = .accepted then some { s with workers := s.workers.set i { w with phase := .refused } } else none
    | none => none
  | .close i =>
    match s.workers[i]? with
    | some w =>
      match w.phase with
      | .serving => some { s with workers := s.workers.set i { w with phase := .closed true } }
      | .refused => some { s with workers := s.workers.set i { w with phase := .closed false } }
      | _ => none
    | none => none
  | .del i =>
    match s.workers[i]? with
    | some w =>
      match w.phase with
      | .closed _ => some ⟨connection_del w.conn.socket s.live, s.workers.set i { w with phase := .idle }⟩
      | _ => none
    | none => none

/-- A run of the server. -/
def run (limits : List PathLimit) : S → List Ev → Option S
  | s, [] => some s
  | s, e :: es => (step limits s e).bind (fun s' => run limits s' es)

/-- The server has just started: an empty table of `slots` entries (1024 in the code, ws.h:36) and `n` idle workers. -/
def start (slots n : Nat) : S := ⟨List.replicate slots ⟨0, [], []⟩, List.replicate n ⟨.idle, ⟨0, [], []⟩⟩⟩

end Wayuu.Reuse
