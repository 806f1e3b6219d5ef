import Verif.Model.Address
/-
Whose address a request is handled with (ws.c:473-478).
-/
namespace Wayuu.Peer
open C

/-- A client: the address it connected from, and whether it has reset the connection by the time a worker takes its
socket from the queue. What it sent before is still in the socket's buffer. -/
structure Client where
  addr : Addr
  gone : Bool
deriving DecidableEq, Repr

/-- `getpeername`: -1 (ENOTCONN) for a connection that was reset; `addr` is left as it is then. -/
def getpeername (c : Client) (addr : Addr) : Int × Addr := if c.gone then (-1, addr) else (0, c.addr)

/-- ws.c:464-478 and the rest of `accept_request`: `struct sockaddr_in addr` is a local variable that is not
initialised; `stack` is what the stack of the worker holds there, e.g. the address of the client it served before. (Reading
an uninitialised variable whose address was taken yields an unspecified value, not undefined behaviour: `unsigned char`
based, no trap representations.) The result of `getpeername` is not looked at. -/
def handleConnection (env : Env) (st : St) (socket : Nat) (c : Client) (stack : Addr) : C (St × List Event) := do
  let (_, addr) := getpeername c stack
  let ip ← clientAddress 24 addr
  accept_request env st socket ip

end Wayuu.Peer
