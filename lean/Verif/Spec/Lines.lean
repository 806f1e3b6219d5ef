import Verif.Spec.Headers
/-
Lines and headers as a client sends them. Nothing here refers to the model of the code.
-/
namespace Wayuu.Spec

/-- Looking up a header, the case of its name being ignored: `v` is the value of the earliest one, or there is
none. -/
def FirstHeaderAnyCase (hs : List (List Byte × List Byte)) (name : List Byte) (v : Option (List Byte)) : Prop :=
  match v with
  | none => ∀ p ∈ hs, ¬ CaseEq p.1 name
  | some v => ∃ a n b, hs = a ++ (n, v) :: b ∧ CaseEq n name ∧ ∀ p ∈ a, ¬ CaseEq p.1 name

/-- One line as it is sent, whatever its length: up to the first newline (included) or the end of the input. -/
def WireLine (input line rest : List Byte) : Prop :=
  input = line ++ rest ∧ (10 : Byte) ∉ line.dropLast ∧ (line.getLast? = some 10 ∨ rest = [])

/-- A header section as it is sent: lines up to a blank one or the end of the input, and what follows. -/
inductive WireSection : List Byte → List (List Byte) → List Byte → Prop where
  | eof : WireSection [] [] []
  | blank (input line rest : List Byte) : WireLine input line rest → line = [10] ∨ line = [13, 10] →
      WireSection input [] rest
  | line (input line rest : List Byte) (lines : List (List Byte)) (rest' : List Byte) : WireLine input line rest →
      line ≠ [] → line ≠ [10] → line ≠ [13, 10] → WireSection rest lines rest' → WireSection input (line :: lines) rest'

/-- `text` is the line without its end. -/
def LineText (line text : List Byte) : Prop :=
  (line = text ++ [13, 10]) ∨ (line = text ++ [10] ∧ text.getLast? ≠ some 13)

end Wayuu.Spec
