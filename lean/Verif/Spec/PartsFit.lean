import Verif.Spec.Multipart
import Mathlib.Data.List.DropRight
/-
Specification: what becomes of a body of type multipart/form-data, whatever its bytes. All parts are copied to the beginning of one
array that is as long as the body (and ends with a NUL); what a longer part before has left there is not erased. Nothing here
refers to the model of the code.
-/
namespace Wayuu.Spec

/-- The first place from `i` on and before `n` where the word stands in the text. -/
def firstAt (word text : List Byte) (i n : Nat) : Option Nat := (List.range' i (n - i)).find? fun k => decide (word <+: text.drop k)

/-- The text up to its first NUL. -/
def uptoNul (s : List Byte) : List Byte := s.takeWhile (· ≠ 0)

/-- The bytes '#' (35) to 127 at the beginning. -/
def cutName (s : List Byte) : List Byte := s.takeWhile fun c => 35 ≤ c.toNat && c.toNat ≤ 127

/-- The array after white space around the text in it was removed: the text moved to the front and a NUL set behind it, then another
NUL behind the last byte that is not white. (The NUL at the end of the array is not counted.) -/
def trimmedArray (d : List Byte) : List Byte :=
  let text := uptoNul d
  let moved := text.dropWhile ws
  let core := moved.rdropWhile ws
  let d1 := if moved.length = text.length then d ++ [0] else moved ++ 0 :: (d ++ [0]).drop (moved.length + 1)
  (core ++ 0 :: d1.drop (core.length + 1)).dropLast

/-- A '&' behind the fields gathered so far, if there are any. -/
def joined (form : List Byte) : List Byte := if form = [] then [] else form ++ b!"&"

/-- What one part adds to the fields, `none` if that is not defined. `n` is the length of the body, `array` what is in the array: the
part and what was left behind it. -/
def takePart (n : Nat) (form part array : List Byte) : Option (List Byte) :=
  let text := uptoNul array
  match firstAt b!"form-data; name=\"" text 0 text.length with
  | none => some form
  | some k =>
    if text.length ≤ k + 17 then some form
    else if part.length < k + 17 then none
    else if n < (joined form).length then none
    else match firstAt b!"\r\n\r\n" array 0 part.length with
      | none => some (joined form)
      | some j =>
        if (firstAt b!"; filename=\"" text 0 text.length).isSome then none
        else if part.length < j + 6 then none
        else
          let form' := joined form ++ cutName (uptoNul (part.drop (k + 17))) ++ b!"=" ++ uptoNul ((array.take (part.length - 2)).drop (j + 4))
          if n < form'.length then none else some form'

/-- The next part of the body from `ptr` on: what stands between two delimiters. It begins at `start`. -/
def NextPart (delim body : List Byte) (ptr start : Nat) (part : List Byte) : Prop :=
  ∃ i j, FirstOcc body delim ptr body.length i ∧ start = i + delim.length ∧ FirstOcc body delim start body.length j ∧
    part = (body.take j).drop start

/-- Going through the parts from `ptr` on, with this array and these fields: the fields in the end, `none` if undefined. -/
inductive Gathers (delim body : List Byte) : Nat → List Byte → List Byte → Option (List Byte) → Prop where
  | last {ptr array form} : (∀ start part, ¬ NextPart delim body ptr start part) → Gathers delim body ptr array form (some form)
  | fault {ptr array form start part} : NextPart delim body ptr start part →
      takePart body.length form part (part ++ array.drop part.length) = none → Gathers delim body ptr array form none
  | part {ptr array form start part form' r} : NextPart delim body ptr start part →
      takePart body.length form part (part ++ array.drop part.length) = some form' →
      Gathers delim body (start + 1) (trimmedArray (part ++ array.drop part.length)) form' r → Gathers delim body ptr array form r

/-- What becomes of a body: the form it gives, `none` if that is undefined. -/
def FormOf (delim body : List Byte) (r : Option (List Byte)) : Prop :=
  Gathers delim body 0 (List.replicate body.length 0) [] r

end Wayuu.Spec
