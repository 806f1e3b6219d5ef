import Verif.Model.Memory
/-
Allocation and release of memory by the accept loop (ws.c:774-808) and the address filter it calls (ws.c:70-88,
file_utils.c:25-43 and 73-105), with the requests of Memory.lean. The loop and the workers are different threads, but
neither touches a block of the other; connections are taken one after another here.
-/
namespace Wayuu.Mem
open C

/-- file_utils.c:73-105 `read_file`: one block if the file can be opened. -/
def readFileMem (opened : Bool) (h : Heap) : C Heap :=
  if opened then do
    let (src, h) := h.alloc
    h.free src
  else ok h

/-- file_utils.c:25-43 `find_in_file`. -/
def findMem (isFile opened : Bool) (h : Heap) : C Heap :=
  if isFile then do
    let (haystack, h) := h.alloc
    let h ← readFileMem opened h
    h.free haystack
  else ok h

/-- What the two lists are: is the file there, can it be opened. -/
structure Lists where
  deny : Bool × Bool
  allow : Bool × Bool

/-- ws.c:70-88 `allowed_address`; `denied`: the address is in the deny file (then the allow file is not read). -/
def allowedMem (l : Lists) (denied : Bool) (h : Heap) : C Heap := do
  let h ← findMem l.deny.1 l.deny.2 h
  if denied then ok h else findMem l.allow.1 l.allow.2 h

/-- What becomes of a connection. -/
inductive Arrival where
  /-- its address is in the deny file (ws.c:75-78, 783-787) -/
  | denied
  /-- its address is not in the allow file (ws.c:84, 783-787) -/
  | unlisted
  /-- the queue is full (ws.c:801-804) -/
  | dropped
  /-- it is queued (ws.c:793-799), and a worker handles a request -/
  | handled (req : Req) (c : Course)

/-- ws.c:780-807, one turn of the loop, and what the worker does with the connection. The block of line 780 is used for the
filter and two log messages; no line releases it. -/
def arrivalMem (l : Lists) (h : Heap) (a : Arrival) : C Heap := do
  let (_, h) := h.alloc
  match a with
  | .denied => allowedMem l true h
  | .unlisted | .dropped => allowedMem l false h
  | .handled req c => do
    let h ← allowedMem l false h
    requestMem req h c

/-- Connections one after another. -/
def arrivalsMem (l : Lists) : List Arrival → Heap → C Heap
  | [], h => ok h
  | a :: r, h => do
    let h ← arrivalMem l h a
    arrivalsMem l r h

end Wayuu.Mem
