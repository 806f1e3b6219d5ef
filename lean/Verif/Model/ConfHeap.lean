import Verif.Model.ConfParser
/-
Block identities for the objects of conf_parser.c: which pointer each item holds and what
`free_conf_item` releases. The strings themselves are computed by Model/ConfParser.lean; here every
heap string is given the identity of its block.
-/
namespace Wayuu
namespace ConfHeap
open C

/-- A `char *` or `conf_item *`: a string literal or a heap block. -/
inductive Ptr where
  | lit
  | blk (id : Nat)
deriving DecidableEq, Repr

/-- Identities `≥ next` have never been used. -/
structure Heap where
  next : Nat
  live : Nat → Bool

/-- `malloc`/`strdup`: a fresh block. -/
def Heap.alloc (h : Heap) : Ptr × Heap :=
  (.blk h.next, ⟨h.next + 1, fun i => i == h.next || h.live i⟩)

/-- `free`: undefined for literals and for blocks that are not live. -/
def Heap.free (h : Heap) : Ptr → C Heap
  | .lit => ub .badFree
  | .blk i => if h.live i then ok ⟨h.next, fun j => j != i && h.live j⟩ else ub .badFree

/-- A `conf_item` object: contents and the pointers it holds. -/
structure PItem where
  item : ConfItem
  base : Ptr
  key : Ptr
  value : Ptr
  multi : List Ptr

/-- The pointer behind a string: the literal "" or a fresh copy. -/
def strPtr (h : Heap) (s : HStr) : Ptr × Heap := if s.heap then h.alloc else (.lit, h)

/-- conf_parser.c:50-55, :192, :246: one `strdup` per multi-value. -/
def strPtrs : Heap → List Str → List Ptr × Heap
  | h, [] => ([], h)
  | h, _ :: r =>
    let (p, h) := h.alloc
    let (ps, h) := strPtrs h r
    (p :: ps, h)

/-- An item as the constructors and the parser build it: `new_conf_item` allocates the object
(conf_parser.c:173), then key, value and multi-values are copies or the literal "". -/
def build (h : Heap) (it : ConfItem) : PItem × Heap :=
  let (b, h) := h.alloc
  let (k, h) := strPtr h it.key
  let (v, h) := strPtr h it.value
  let (ms, h) := strPtrs h it.multi
  (⟨it, b, k, v, ms⟩, h)

/-- conf_parser.c:201-216: the pointers `free_conf_item` passes to `free`, in order. -/
def freed (p : PItem) : List Ptr :=
  (if p.item.key.s ≠ [] then [p.key] else []) ++ (if p.item.value.s ≠ [] then [p.value] else []) ++
    p.multi ++ [p.base]

/-- A sequence of `free` calls. -/
def freeAll : Heap → List Ptr → C Heap
  | h, [] => ok h
  | h, p :: r => do
    let h ← h.free p
    freeAll h r

/-- What a client of conf_parser.h can do; `i` is the index of one of its items. -/
inductive Op where
  /-- `conf_parse_line(line, multi)` -/
  | parse (line : Str) (multi : Bool)
  /-- `new_conf_item()` -/
  | new
  /-- `new_conf_item_with_values(key, value, multi, n)` -/
  | values (key value : Str) (multi : List Str)
  /-- `copy_conf_item(new_conf_item(), item i)` -/
  | copy (i : Nat)
  /-- `free(conf_item_to_string(item i))` -/
  | show_ (i : Nat)
  /-- `free_conf_item(item i)`; the client forgets the item -/
  | free (i : Nat)

structure State where
  heap : Heap
  items : List PItem

def State.init : State := ⟨⟨0, fun _ => false⟩, []⟩

def State.add (s : State) (it : ConfItem) : State :=
  let (p, h) := build s.heap it
  ⟨h, s.items ++ [p]⟩

/-- One client call. Calls naming an item the client does not have do nothing. -/
def step (s : State) : Op → C State
  | .parse line multi => do
    match ← conf_parse_line line multi with
    | none => ok s
    | some it => ok (s.add it)
  | .new => ok (s.add new_conf_item)
  | .values k v ms => do
    let it ← new_conf_item_with_values k v ms
    ok (s.add it)
  | .copy i =>
    match s.items[i]? with
    | none => ok s
    | some p => do
      let it ← copy_conf_item new_conf_item p.item
      ok (s.add it)
  | .show_ i =>
    match s.items[i]? with
    | none => ok s
    | some p => do
      let _ ← conf_item_to_string p.item
      ok s
  | .free i =>
    match s.items[i]? with
    | none => ok s
    | some p => do
      let h ← freeAll s.heap (freed p)
      ok ⟨h, s.items.eraseIdx i⟩

/-- A sequence of client calls. -/
def run : State → List Op → C State
  | s, [] => ok s
  | s, o :: r => do
    let s ← step s o
    run s r

end ConfHeap
end Wayuu
