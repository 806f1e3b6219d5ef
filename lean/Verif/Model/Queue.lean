import Verif.Base
/-
Model of the connection queue of /repo/ws.c (lines 658-705 and 773-808) with one accepting thread and
any number of workers: a small-step semantics in which every C statement on the shared queue is one
step, plus the mutex and the condition variable.
-/
namespace Wayuu.Queue
open Wayuu C

/-- Program counter of a worker (ws.c:671-705). The number is the socket held in `val`. -/
inductive WPc where
  /-- before `pthread_mutex_lock`, line 674 -/
  | lock
  /-- loop test `size == 0`, line 676 -/
  | test
  /-- blocked in `pthread_cond_wait`, line 678 (mutex released) -/
  | waiting
  /-- woken up, `pthread_cond_wait` has to get the mutex back -/
  | relock
  /-- line 682: `val = elements[front]` -/
  | read
  /-- line 683: `if (size != 0)` -/
  | check (v : Nat)
  /-- line 685: `size--` -/
  | dec (v : Nat)
  /-- line 686: `front++` -/
  | inc (v : Nat)
  /-- lines 687-688: wrap `front` -/
  | wrap (v : Nat)
  /-- line 691: `pthread_mutex_unlock` and return `val` -/
  | unlock (v : Nat)
  /-- line 702: `socket_handler(socket)` -/
  | handle (v : Nat)
deriving DecidableEq, Repr

/-- Program counter of the accepting thread (ws.c:773-808). -/
inductive PPc where
  /-- lines 776-787: `accept`, address filter -/
  | accept
  /-- line 792: `pthread_mutex_lock` -/
  | lock (s : Nat)
  /-- line 793: `if (size != capacity)` -/
  | test (s : Nat)
  /-- line 795: `size++` -/
  | incSize (s : Nat)
  /-- line 796: `rear = rear + 1` -/
  | incRear (s : Nat)
  /-- lines 797-798: wrap `rear` -/
  | wrap (s : Nat)
  /-- line 799: `elements[rear] = client_sock` -/
  | store (s : Nat)
  /-- line 805: `pthread_mutex_unlock` -/
  | unlock
  /-- line 806: `pthread_cond_signal` -/
  | signal
deriving DecidableEq, Repr

/-- Who holds `ws_mutex`. -/
inductive Owner where
  | prod
  | worker (i : Nat)
deriving DecidableEq, Repr

/-- ws.h:69-76 `ws_queue`. -/
structure Ring where
  capacity : Int
  size : Int
  front : Int
  rear : Int
  elements : List (Option Nat)
deriving DecidableEq, Repr

/-- State of the queue, its lock and its threads. The lists at the end only record what happened. -/
structure QSt where
  ring : Ring
  owner : Option Owner
  prod : PPc
  workers : List WPc
  /-- sockets that passed the address filter, in order of `accept` -/
  accepted : List Nat
  /-- sockets stored in the queue, in order -/
  enqueued : List Nat
  /-- sockets for which there was no room -/
  dropped : List Nat
  /-- sockets closed by the accepting thread -/
  closed : List Nat
  /-- results of `ws_queue_get`: (worker, socket), in order -/
  delivered : List (Nat × Nat)
deriving DecidableEq, Repr

/-- ws.c:658-669 `ws_create_queue`. -/
def ws_create_queue (maxElements : Nat) : Ring :=
  { elements := List.replicate maxElements none, size := 0, capacity := maxElements, front := 0, rear := -1 }

/-- ws.c:734-764: the state when `n` workers have been created. -/
def initial (capacity n : Nat) : QSt :=
  { ring := ws_create_queue capacity, owner := none, prod := .accept,
    workers := List.replicate n .lock, accepted := [], enqueued := [], dropped := [], closed := [],
    delivered := [] }

/-- A scheduling choice. -/
inductive Act where
  /-- `accept` returns socket `s`; `allowed` is the result of `allowed_address` -/
  | accept (s : Nat) (allowed : Bool)
  /-- the accepting thread executes its next statement -/
  | prod
  /-- `pthread_cond_signal` wakes worker `w` (`none` if nobody waits) -/
  | signal (w : Option Nat)
  /-- worker `i` executes its next statement -/
  | worker (i : Nat)
  /-- spurious wake-up of worker `i` -/
  | spurious (i : Nat)
deriving DecidableEq, Repr

def loadElem (r : Ring) (i : Int) : C Nat :=
  if i < 0 then ub .oob else
  match r.elements[i.toNat]? with
  | none => ub .oob
  | some none => ub .uninit
  | some (some v) => ok v

def storeElem (r : Ring) (i : Int) (v : Nat) : C Ring :=
  if i < 0 then ub .oob else
  if i.toNat < r.elements.length then ok { r with elements := r.elements.set i.toNat (some v) }
  else ub .oob

/-- Next statement of the accepting thread; `none`: it cannot run (blocked or waiting for input). -/
def prodStep (s : QSt) : Option (C QSt) :=
  match s.prod with
  | .accept => none
  | .lock v => if s.owner = none then some (ok { s with owner := some .prod, prod := .test v }) else none
  | .test v =>
    if s.ring.size ≠ s.ring.capacity then some (ok { s with prod := .incSize v })
    else some (ok { s with prod := .unlock, dropped := s.dropped ++ [v] })
  | .incSize v => some (ok { s with ring := { s.ring with size := s.ring.size + 1 }, prod := .incRear v })
  | .incRear v => some (ok { s with ring := { s.ring with rear := s.ring.rear + 1 }, prod := .wrap v })
  | .wrap v =>
    let ring := if s.ring.rear = s.ring.capacity then { s.ring with rear := 0 } else s.ring
    some (ok { s with ring := ring, prod := .store v })
  | .store v => some (do
      let ring ← storeElem s.ring s.ring.rear v
      ok { s with ring := ring, prod := .unlock, enqueued := s.enqueued ++ [v] })
  | .unlock => some (ok { s with owner := none, prod := .signal })
  | .signal => none

/-- Move worker `i` to `pc`. -/
def setW (s : QSt) (i : Nat) (pc : WPc) : QSt := { s with workers := s.workers.set i pc }

/-- Next statement of worker `i`. -/
def workerStep (s : QSt) (i : Nat) : Option (C QSt) :=
  match s.workers[i]? with
  | none => none
  | some pc =>
    match pc with
    | .lock => if s.owner = none then some (ok (setW { s with owner := some (.worker i) } i .test)) else none
    | .test =>
      if s.ring.size = 0 then some (ok (setW { s with owner := none } i .waiting))
      else some (ok (setW s i .read))
    | .waiting => none
    | .relock => if s.owner = none then some (ok (setW { s with owner := some (.worker i) } i .test)) else none
    | .read => some (do
        let v ← loadElem s.ring s.ring.front
        ok (setW s i (.check v)))
    | .check v =>
      if s.ring.size ≠ 0 then some (ok (setW s i (.dec v))) else some (ok (setW s i (.unlock v)))
    | .dec v => some (ok (setW { s with ring := { s.ring with size := s.ring.size - 1 } } i (.inc v)))
    | .inc v => some (ok (setW { s with ring := { s.ring with front := s.ring.front + 1 } } i (.wrap v)))
    | .wrap v =>
      let ring := if s.ring.front = s.ring.capacity then { s.ring with front := 0 } else s.ring
      some (ok (setW { s with ring := ring } i (.unlock v)))
    | .unlock v =>
      some (ok (setW { s with owner := none, delivered := s.delivered ++ [(i, v)] } i (.handle v)))
    | .handle _ => some (ok (setW s i .lock))

/-- One step of the system; `none` if the choice is not possible in this state. -/
def step (s : QSt) : Act → Option (C QSt)
  | .accept v allowed =>
    match s.prod with
    | .accept =>
      if allowed then some (ok { s with prod := .lock v, accepted := s.accepted ++ [v] })
      else some (ok { s with closed := s.closed ++ [v] })
    | _ => none
  | .prod => prodStep s
  | .signal w =>
    match s.prod, w with
    | .signal, none =>
      if .waiting ∈ s.workers then none else some (ok { s with prod := .accept })
    | .signal, some i =>
      if s.workers[i]? = some .waiting then some (ok (setW { s with prod := .accept } i .relock)) else none
    | _, _ => none
  | .worker i => workerStep s i
  | .spurious i =>
    if s.workers[i]? = some .waiting then some (ok (setW s i .relock)) else none

/-- States reachable under some schedule. -/
inductive Reach (capacity n : Nat) : QSt → Prop where
  | init : Reach capacity n (initial capacity n)
  | step {s s' : QSt} {a : Act} : Reach capacity n s → step s a = some (ok s') → Reach capacity n s'

end Wayuu.Queue
