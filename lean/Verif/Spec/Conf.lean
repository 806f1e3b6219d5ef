import Verif.Spec.Strings
import Mathlib.Data.List.Forall2
/-
Configuration files: what a line, a multi-valued entry and a file mean. Nothing here refers to the
model of the code.
-/
namespace Wayuu.Spec

/-- The line is `key=value` with optional white space around both parts. -/
def ConfLine (line key value : List Byte) : Prop :=
  ∃ k v, line = k ++ 61 :: v ∧ (61 : Byte) ∉ k ∧ (61 : Byte) ∉ v ∧ IsStrip k key ∧ IsStrip v value ∧ key ≠ []

/-- `ms` are the comma separated elements of `value`, trimmed, in order. -/
def Elements (value : List Byte) (ms : List (List Byte)) : Prop :=
  ∃ ts, Runs [44] value ts ∧ List.Forall₂ IsStrip ts ms

/-- One line of a file and its meaning. -/
structure Entry where
  line : List Byte
  key : List Byte
  value : List Byte
  elems : List (List Byte)

/-- The entry describes its line; the line fits the reader's buffer. -/
def Entry.Good (e : Entry) : Prop :=
  ConfLine e.line e.key e.value ∧ Elements e.value e.elems ∧ (0 : Byte) ∉ e.line ∧ (10 : Byte) ∉ e.line ∧
    e.line.length ≤ 510

/-- The file consists of entries; the flag is `false` if they are followed by a line without `=`. -/
inductive ConfFile : List Byte → List Entry → Bool → Prop where
  | eof : ConfFile [] [] true
  | last (e : Entry) : e.Good → ConfFile e.line [e] true
  | line (e : Entry) (s : List Byte) (es : List Entry) (r : Bool) : e.Good → ConfFile s es r →
      ConfFile (e.line ++ 10 :: s) (e :: es) r
  | bad (b s : List Byte) : (61 : Byte) ∉ b → (10 : Byte) ∉ b → b.length ≤ 510 → ConfFile (b ++ 10 :: s) [] false
  | badLast (b : List Byte) : b ≠ [] → (61 : Byte) ∉ b → (10 : Byte) ∉ b → b.length ≤ 510 → ConfFile b [] false

/-- What the handler should receive: for each entry with a registered key, its key, its value and, if
the (first) flag for that key says so, its elements. -/
def expectedCalls (flags : List (List Byte × Bool)) (es : List Entry) :
    List (List Byte × List Byte × List (List Byte)) :=
  es.filterMap fun e =>
    (flags.find? fun f => f.1 = e.key).map fun f => (e.key, e.value, if f.2 then e.elems else [])

/-- No outer white space, no `=`, no NUL, no newline. -/
def Clean (s : List Byte) : Prop :=
  IsStrip s s ∧ (61 : Byte) ∉ s ∧ (0 : Byte) ∉ s ∧ (10 : Byte) ∉ s

/-- An item that can be written to a file: key, value and elements. Without elements the value is any
clean string; with elements it is their comma separated list. -/
def CleanItem (key value : List Byte) (ms : List (List Byte)) : Prop :=
  Clean key ∧ key ≠ [] ∧ Clean value ∧ ms.length ≤ 20 ∧
    (ms ≠ [] → value = sepBy [44] ms ∧ ∀ m ∈ ms, Clean m ∧ m ≠ [] ∧ (44 : Byte) ∉ m)

end Wayuu.Spec
