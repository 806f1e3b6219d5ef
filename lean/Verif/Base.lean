/-
Bytes, memory blocks and undefined behaviour.

This file contains no code of the repository: it fixes the C execution environment the model is
written against (x86-64 Linux, see DESIGN.md §2).
-/
namespace Wayuu

/-- A C `char`, as its bit pattern. -/
abbrev Byte := UInt8

/-- The contents of a C string, without the terminating NUL. -/
abbrev Str := List Byte

/-- `b!"..."`: the bytes of an ASCII literal, expanded at elaboration time to a list of numerals. -/
syntax:max "b!" noWs str : term
open Lean in
macro_rules
  | `(b!$s:str) => do
    let bs := s.getString.toUTF8.toList
    let elems : Array (TSyntax `term) :=
      (bs.map fun b => Syntax.mkNumLit (toString b.toNat)).toArray
    `(([$elems,*] : List UInt8))

/-- Kinds of undefined behaviour that the model distinguishes. -/
inductive Fault where
  /-- access outside a block (or past a declared array) -/
  | oob
  /-- use of an indeterminate value -/
  | uninit
  /-- null pointer dereference -/
  | null
  /-- `free` of something that is not an allocated block -/
  | badFree
  /-- signed integer overflow -/
  | overflow
deriving DecidableEq, Repr

/-- The outcome of running C code: a result, or undefined behaviour. -/
inductive C (α : Type) where
  | ok (a : α)
  | ub (f : Fault)
deriving DecidableEq, Repr

namespace C

protected def bind {α β : Type} (x : C α) (f : α → C β) : C β :=
  match x with
  | ok a => f a
  | ub e => ub e

instance : Monad C where
  pure := ok
  bind := C.bind

@[simp] theorem pure_eq {α : Type} (a : α) : (pure a : C α) = ok a := rfl
@[simp] theorem ok_bind {α β : Type} (a : α) (f : α → C β) : (ok a >>= f) = f a := Eq.trans rfl rfl
@[simp] theorem ub_bind {α β : Type} (e : Fault) (f : α → C β) : (ub e >>= f) = ub e := rfl
@[simp] theorem map_ok {α β : Type} (a : α) (f : α → β) : f <$> (ok a : C α) = ok (f a) := rfl
@[simp] theorem map_ub {α β : Type} (e : Fault) (f : α → β) : f <$> (ub e : C α) = ub e := rfl

instance : LawfulMonad C := LawfulMonad.mk'
  (id_map := by intro α x; cases x <;> rfl)
  (pure_bind := by intros; rfl)
  (bind_assoc := by intro α β γ x f g; cases x <;> rfl)

theorem bind_eq_ok {α β : Type} {x : C α} {f : α → C β} {b : β} :
    (x >>= f) = ok b ↔ ∃ a, x = ok a ∧ f a = ok b := by
  cases x <;> simp

/-- The run does not hit undefined behaviour. -/
def IsOk {α : Type} (x : C α) : Prop := ∃ a, x = ok a

end C

open C

/-- One byte of memory; `none` is indeterminate. -/
abbrev Cell := Option Byte

/-- A block of memory; its length is its allocated size. -/
abbrev Buf := List Cell

/-- `malloc(n)` or an uninitialised local array: indeterminate contents. -/
def malloc (n : Nat) : Buf := List.replicate n none

/-- `calloc(n,1)`: zeroed contents. -/
def calloc (n : Nat) : Buf := List.replicate n (some 0)

/-- `strdup(s)`: a fresh block holding `s` and its terminator. -/
def strdup (s : Str) : Buf := s.map some ++ [some 0]

/-- `b[i]` as an rvalue. -/
def Buf.load (b : Buf) (i : Nat) : C Byte :=
  match b[i]? with
  | none => ub .oob
  | some none => ub .uninit
  | some (some v) => ok v

/-- `b[i] = v`. -/
def Buf.store (b : Buf) (i : Nat) (v : Byte) : C Buf :=
  if i < b.length then ok (b.set i (some v)) else ub .oob

/-- `b[i]` for a possibly negative index. -/
def Buf.loadI (b : Buf) (i : Int) : C Byte :=
  if i < 0 then ub .oob else b.load i.toNat

/-- `b[i] = v` for a possibly negative index. -/
def Buf.storeI (b : Buf) (i : Int) (v : Byte) : C Buf :=
  if i < 0 then ub .oob else b.store i.toNat v

/-- The C string starting at the beginning of the block: the bytes up to the first NUL.
Running off the block or into indeterminate memory is undefined. -/
def cstr : Buf → C Str
  | [] => ub .oob
  | none :: _ => ub .uninit
  | some c :: r => if c = 0 then ok [] else (c :: ·) <$> cstr r

/-- The C string at offset `off` of a block. -/
def strAt (b : Buf) (off : Nat) : C Str :=
  if off ≤ b.length then cstr (b.drop off) else ub .oob

/-- Store the bytes `bs` at offset `off`. -/
def writeAt (b : Buf) (off : Nat) (bs : List Byte) : C Buf :=
  if off + bs.length ≤ b.length then
    ok (b.take off ++ bs.map some ++ b.drop (off + bs.length))
  else ub .oob

/-- `memcpy`/`memmove(dst + doff, src + soff, n)`; cells are copied, indeterminate ones included.
(`memmove` within one block passes the same block twice.) -/
def copyCells (dst : Buf) (doff : Nat) (src : Buf) (soff n : Nat) : C Buf :=
  if doff + n ≤ dst.length ∧ soff + n ≤ src.length then
    ok (dst.take doff ++ (src.drop soff).take n ++ dst.drop (doff + n))
  else ub .oob

end Wayuu
