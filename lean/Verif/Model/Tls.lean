import Verif.Base
/-
The descriptors and TLS objects of the clients (ws.c:411-420, 463-492, 654, 692-705, 773-808; http_utils.c:45-58, 252-262): what every read,
write, shutdown and close reaches, when any number of workers and the accepting thread run at once and the operating system and the
allocator use descriptor numbers and addresses again.

Left out: what is read and written (that is `accept_request`), the mutex of the queue (Model/Queue.lean), the capacity of the queue
(every accepted connection may be dropped), the number of workers, the TLS protocol. A handshake may fail: the code goes on as if it had not
(ws.c:487-491).
-/
namespace Wayuu.Tls
open C

/-- What is done to a connection. -/
inductive Op
  /-- ws.c:487 `SSL_accept` -/
  | handshake
  /-- http_utils.c:50, 54 and 255, 259: `SSL_read`, `recv`, `SSL_write`, `send` -/
  | io
  /-- ws.c:415 `SSL_shutdown` -/
  | shutdown
  /-- ws.c:418, 786 `close` -/
  | close
deriving DecidableEq, Repr

/-- Something done for the client `meant`, and the client whose connection it was done to: `none` if there was none. -/
structure Touch where
  op : Op
  meant : Nat
  reached : Option Nat
deriving DecidableEq, Repr

/-- Where a worker is with its connection: `fd` is `req->socket`, `o` is `req->ssl`. The client `k` is not in the code; it says who
was at the other end of `fd` when the descriptor was accepted. -/
inductive Phase
  /-- ws.c:699 `ws_queue_get` -/
  | idle
  /-- ws.c:463-483 -/
  | taken (fd k : Nat)
  /-- after ws.c:484 -/
  | made (fd k o : Nat)
  /-- after ws.c:485 -/
  | bound (fd k o : Nat)
  /-- after ws.c:491; no object if the server runs without TLS -/
  | serving (fd k : Nat) (o : Option Nat)
  /-- after ws.c:415 -/
  | ended (fd k o : Nat)
  /-- after ws.c:416 -/
  | freed (fd k : Nat)
  /-- after ws.c:418 -/
  | closed (fd : Nat)
deriving DecidableEq, Repr

structure S where
  /-- the open descriptors of connections, and who is at the other end -/
  conn : Nat → Option Nat
  /-- clients so far -/
  next : Nat
  /-- the descriptor the accepting thread has in `client_sock` -/
  accepted : Option (Nat × Nat)
  /-- the descriptors in the queue -/
  queue : List (Nat × Nat)
  /-- the TLS objects that were not freed, and the descriptor they were given -/
  obj : Nat → Option (Option Nat)
  worker : Nat → Phase
  /-- everything that was done to connections -/
  touched : List Touch

inductive Ev
  /-- ws.c:776; the descriptor is any number that is not open -/
  | accept (fd : Nat)
  /-- ws.c:783-787 -/
  | deny
  /-- ws.c:793-800 -/
  | put
  /-- ws.c:801-804: the queue is full -/
  | drop
  /-- ws.c:699-700: worker `i` gets a descriptor -/
  | take (i : Nat)
  /-- ws.c:481: no TLS -/
  | plain (i : Nat)
  /-- ws.c:484 `SSL_new`; the address is any that is not in use -/
  | new (i o : Nat)
  /-- ws.c:485 `SSL_set_fd` -/
  | setFd (i : Nat)
  /-- ws.c:487 -/
  | handshake (i : Nat)
  | io (i : Nat)
  /-- ws.c:415 -/
  | shutdown (i : Nat)
  /-- ws.c:416 `SSL_free`; it does not close the descriptor (`SSL_set_fd` sets `BIO_NOCLOSE`) -/
  | free (i : Nat)
  /-- ws.c:418 -/
  | close (i : Nat)
  /-- ws.c:419 -/
  | del (i : Nat)
deriving DecidableEq, Repr

def set {α : Type} (f : Nat → α) (i : Nat) (a : α) : Nat → α := fun j => if j = i then a else f j

/-- http_utils.c:48-55, 253-260: whom a read or write reaches, through the object if there is one. The use of an object that was
freed is undefined. -/
def reach (s : S) (fd : Nat) : Option Nat → C (Option Nat)
  | none => ok (s.conn fd)
  | some o =>
    match s.obj o with
    | none => ub .oob
    | some none => ok none
    | some (some fd') => ok (s.conn fd')

/-- One step; `none` if it cannot happen now. `secure` is `WAYUU_SSL_ON`. -/
def step (secure : Bool) (s : S) : Ev → Option (C S)
  | .accept fd =>
    match s.accepted, s.conn fd with
    | none, none => some (ok { s with conn := set s.conn fd (some s.next), next := s.next + 1, accepted := some (fd, s.next) })
    | _, _ => none
  | .deny =>
    match s.accepted with
    | some (fd, k) => some (ok { s with
        conn := set s.conn fd none
        accepted := none
        touched := s.touched ++ [⟨.close, k, s.conn fd⟩] })
    | none => none
  | .put =>
    match s.accepted with
    | some p => some (ok { s with accepted := none, queue := s.queue ++ [p] })
    | none => none
  | .drop =>
    match s.accepted with
    | some _ => some (ok { s with accepted := none })
    | none => none
  | .take i =>
    match s.worker i, s.queue with
    | .idle, p :: q => some (ok { s with queue := q, worker := set s.worker i (.taken p.1 p.2) })
    | _, _ => none
  | .plain i =>
    match s.worker i with
    | .taken fd k => if secure then none else some (ok { s with worker := set s.worker i (.serving fd k none) })
    | _ => none
  | .new i o =>
    match s.worker i, s.obj o with
    | .taken fd k, none =>
      if secure then some (ok { s with obj := set s.obj o (some none), worker := set s.worker i (.made fd k o) }) else none
    | _, _ => none
  | .setFd i =>
    match s.worker i with
    | .made fd k o =>
      match s.obj o with
      | none => some (ub .oob)
      | some _ => some (ok { s with obj := set s.obj o (some (some fd)), worker := set s.worker i (.bound fd k o) })
    | _ => none
  | .handshake i =>
    match s.worker i with
    | .bound fd k o => some (do
        let r ← reach s fd (some o)
        ok { s with
          worker := set s.worker i (.serving fd k (some o))
          touched := s.touched ++ [⟨.handshake, k, r⟩] })
    | _ => none
  | .io i =>
    match s.worker i with
    | .serving fd k o => some (do
        let r ← reach s fd o
        ok { s with touched := s.touched ++ [⟨.io, k, r⟩] })
    | _ => none
  | .shutdown i =>
    match s.worker i with
    | .serving fd k (some o) => some (do
        let r ← reach s fd (some o)
        ok { s with
          worker := set s.worker i (.ended fd k o)
          touched := s.touched ++ [⟨.shutdown, k, r⟩] })
    | _ => none
  | .free i =>
    match s.worker i with
    | .ended fd k o =>
      match s.obj o with
      | none => some (ub .badFree)
      | some _ => some (ok { s with obj := set s.obj o none, worker := set s.worker i (.freed fd k) })
    | _ => none
  | .close i =>
    match s.worker i with
    | .serving fd k none | .freed fd k => some (ok { s with
        conn := set s.conn fd none
        worker := set s.worker i (.closed fd)
        touched := s.touched ++ [⟨.close, k, s.conn fd⟩] })
    | _ => none
  | .del i =>
    match s.worker i with
    | .closed _ => some (ok { s with worker := set s.worker i .idle })
    | _ => none

/-- The server has just been started. -/
def start : S := ⟨fun _ => none, 0, none, [], fun _ => none, fun _ => .idle, []⟩

/-- The states that can be reached. -/
inductive Runs (secure : Bool) : List Ev → S → Prop
  | nil : Runs secure [] start
  | snoc {evs : List Ev} {s s' : S} {e : Ev} (h : Runs secure evs s) (hs : step secure s e = some (ok s')) : Runs secure (evs ++ [e]) s'

end Wayuu.Tls
