import Verif.Spec.Conf
import Verif.Spec.Files
/-
Configuration files without any condition on them: how every text is cut into pieces, what every piece stands for, and
where reading stops or fails. Nothing here refers to the model of the code.
-/
namespace Wayuu.Spec

/-- The first piece of a text: up to its first newline (included), or 511 bytes, or all of it. -/
def Piece511 (text piece rest : List Byte) : Prop :=
  text = piece ++ rest ∧ piece ≠ [] ∧ (10 : Byte) ∉ piece.dropLast ∧ piece.length ≤ 511 ∧
    (piece.getLast? = some 10 ∨ piece.length = 511 ∨ rest = [])

/-- What any text with `=` stands for, `=` being a mere separator: the first two runs of other bytes, trimmed. -/
def TwoParts (text key value : List Byte) : Prop :=
  ∃ t k more, IsStrip text t ∧ Runs [61] t (k :: more) ∧ IsStrip k key ∧
    ((more = [] ∧ value = []) ∨ ∃ v more', more = v :: more' ∧ IsStrip v value)

/-- A text with `=` that has no key: apart from blanks at its ends it consists of `=`. -/
def Hollow (text : List Byte) : Prop := ∃ t, IsStrip text t ∧ t ≠ [] ∧ ∀ c ∈ t, c = 61

/-- How a file is read: the items handed over (key, value, elements) and the result; no result if the program fails. -/
inductive ConfReads (flags : List (List Byte × Bool)) :
    List Byte → List (List Byte × List Byte × List (List Byte)) → Option Int → Prop where
  /-- the end of the file -/
  | eof : ConfReads flags [] [] (some 0)
  /-- a piece without `=` ends the reading -/
  | bad (text piece rest t : List Byte) : Piece511 text piece rest → BeforeNul piece t → (61 : Byte) ∉ t →
      ConfReads flags text [] (some (-1))
  /-- a piece without a key -/
  | hollow (text piece rest t : List Byte) : Piece511 text piece rest → BeforeNul piece t → Hollow t → ConfReads flags text [] none
  /-- a key that is not registered -/
  | other (text piece rest t key value : List Byte) (calls : List (List Byte × List Byte × List (List Byte))) (r : Option Int) :
      Piece511 text piece rest → BeforeNul piece t → (61 : Byte) ∈ t → TwoParts t key value →
      flags.find? (fun f => f.1 = key) = none → ConfReads flags rest calls r → ConfReads flags text calls r
  /-- a key registered for one value -/
  | single (text piece rest t key value key' : List Byte) (calls : List (List Byte × List Byte × List (List Byte))) (r : Option Int) :
      Piece511 text piece rest → BeforeNul piece t → (61 : Byte) ∈ t → TwoParts t key value →
      flags.find? (fun f => f.1 = key) = some (key', false) → ConfReads flags rest calls r →
      ConfReads flags text ((key, value, []) :: calls) r
  /-- a key registered for a list of values -/
  | multi (text piece rest t key value key' : List Byte) (elems : List (List Byte))
      (calls : List (List Byte × List Byte × List (List Byte))) (r : Option Int) :
      Piece511 text piece rest → BeforeNul piece t → (61 : Byte) ∈ t → TwoParts t key value →
      flags.find? (fun f => f.1 = key) = some (key', true) → Elements value elems → elems.length ≤ 20 →
      ConfReads flags rest calls r → ConfReads flags text ((key, value, elems) :: calls) r
  /-- too long a list of values -/
  | many (text piece rest t key value key' : List Byte) (elems : List (List Byte)) :
      Piece511 text piece rest → BeforeNul piece t → (61 : Byte) ∈ t → TwoParts t key value →
      flags.find? (fun f => f.1 = key) = some (key', true) → Elements value elems → 20 < elems.length →
      ConfReads flags text [] none

end Wayuu.Spec
