import Verif.Spec.Harmless
import Verif.Spec.PartsFit
import Verif.Spec.Smuggling
/-
Specification: what the header lines announce about the body, whatever their bytes, and the requests that are handled without
leaving defined behaviour. All lines are read into one array of 1024 bytes, and a number that is missing in a line is looked for
behind it.
-/
namespace Wayuu.Spec

/-- The text begins with the word (up to case). -/
def starts (word text : List Byte) : Bool := decide ((text.take word.length).map lower = word.map lower)

/-- What follows the first occurrence of the word (up to case). -/
def afterWord (word : List Byte) : List Byte → Option (List Byte)
  | [] => none
  | c :: text => if starts word (c :: text) then some ((c :: text).drop word.length) else afterWord word text

/-- The number at the beginning of a text, after white space and a sign; 0 if there is none. -/
def numberAt (s : List Byte) : Int :=
  let t := s.dropWhile ws
  let digits := (if t.head? = some 45 ∨ t.head? = some 43 then t.drop 1 else t).takeWhile fun c => 48 ≤ c.toNat && c.toNat ≤ 57
  narrowed (if t.head? = some 45 then -(decimal digits : Int) else decimal digits)

/-- What is known about the body, and the array of the lines. -/
structure Noted where
  array : List Byte
  boundary : List Byte
  length : Int

/-- One line: it is laid over the array. -/
def Noted.line (s : Noted) (line : List Byte) : Noted :=
  let array := line ++ 0 :: s.array.drop (line.length + 1)
  let text := uptoNul line
  { array := if starts b!"X-Real-IP:" text then trimmedArray array.dropLast ++ [0] else array
    boundary :=
      if starts b!"Content-Type: multipart/form-data" text then
        match afterWord b!"boundary=" text with
        | some rest => (b!"--" ++ rest).rdropWhile ws
        | none => s.boundary
      else s.boundary
    length := if starts b!"Content-Length:" text then numberAt (uptoNul (array.drop 16)) else s.length }

/-- All lines; before them the request line was in the array, and an `A` and a NUL were put over its beginning. -/
def noted (line : List Byte) (lines : List (List Byte)) : Noted :=
  lines.foldl Noted.line ⟨b!"A" ++ 0 :: (padded line).drop 2, [], -1⟩

/-- The contents of the array of the form when the request is routed: nothing if no body was announced; the body; or, if a boundary
was announced, the form its parts give, followed by a NUL and what is left of the body. -/
def StoredForm (boundary : List Byte) (n : Int) (body form : List Byte) : Prop :=
  (n ≤ 0 ∧ form = []) ∨
  (0 < n ∧ boundary = [] ∧ form = bodyKept n.toNat body) ∨
  (0 < n ∧ boundary ≠ [] ∧ ∃ f, FormOf boundary (bodyKept n.toNat body) (some f) ∧
    form = (f ++ 0 :: (bodyKept n.toNat body).drop (f.length + 1)).take n.toNat)

/-- What is required of an admitted request. -/
def Fits (regs : List Registration) (method url line : List Byte) (lines : List (List Byte)) (hs : List (List Byte × List Byte))
    (body : List Byte) : Prop :=
  (∀ l ∈ lines, ∀ t, BeforeNul l t → ¬ Overrun t) ∧ FitsLog (hs.take 20) ∧
  ∀ pieces, Runs b!"?" url pieces → pieces ≠ [] ∧ pieces.length ≤ 50 ∧
    (CasePrefix b!"/api" url → ∃ form, StoredForm (noted line lines).boundary (noted line lines).length body form ∧
      ∀ mount path, pieces.head? = some (mount ++ path) → mount.length = 4 → PathFits regs method path form)

/-- What is required of the bytes a client sends. -/
def Bearable (limits : List PathLimit) (live : List Conn) (peer : List Byte) (regs : List Registration) (input : List Byte) : Prop :=
  ∀ line rest lines body hs, LineOf input 1023 line rest → Section rest lines body → Named lines hs →
    (∀ text, BeforeNul line text → 2 ≤ text.length) ∧
    ∀ method url after, Words line method url after → Supported method →
      after ≠ [] ∧ (Admits limits live peer url → Fits regs method url line lines hs body)

end Wayuu.Spec
