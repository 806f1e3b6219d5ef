import Verif.Model.Ws
/-
One worker thread serving connections one after another (ws.c:693-703 `ws_connection_handler`).
-/
namespace Wayuu
open C

/-- A connection taken from the queue: socket, address of the peer, what the peer sends, and what the stack of the
worker holds when it is served (earlier calls leave it; `handle_static_routes` reads it, ws.c:313-337). -/
structure Job where
  socket : Nat
  peer : Str
  input : List Byte
  junk : List Byte

/-- ws.c:699-701, one turn of the loop: the handler is `accept_request`. -/
def serve (env : Env) (st : St) (j : Job) : C (St × List Event) :=
  accept_request { env with junk := j.junk } { st with input := j.input } j.socket j.peer

/-- ws.c:693-703 `ws_connection_handler`, for the connections it takes from the queue, in that order. Returns the user
code that was run as well. -/
def worker (env : Env) : List Job → St → C (St × List Event)
  | [], st => ok (st, [])
  | j :: js, st => do
    let (st, ev) ← serve env st j
    let (st, evs) ← worker env js st
    ok (st, ev ++ evs)

end Wayuu
