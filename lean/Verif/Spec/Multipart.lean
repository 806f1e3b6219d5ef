import Verif.Spec.Strings
import Verif.Spec.Headers
/-
Bodies of type multipart/form-data (RFC 2046, RFC 7578). Nothing here refers to the model of the code.
-/
namespace Wayuu.Spec

/-- A header line of a part. -/
def PartLine (l : List Byte) : Prop := l ≠ [] ∧ ∀ c ∈ l, c ≠ 0 ∧ c ≠ 10 ∧ c ≠ 13

/-- What stands between two delimiters: header lines, one of which names the field, an empty line, the content. `params` is what
follows the name on its line. -/
def partText (before after : List (List Byte)) (name params content : List Byte) : List Byte :=
  b!"\r\n" ++ before.flatMap (· ++ b!"\r\n") ++ b!"Content-Disposition: form-data; name=\"" ++ name ++ b!"\"" ++ params ++
    after.flatMap (b!"\r\n" ++ ·) ++ b!"\r\n\r\n" ++ content ++ b!"\r\n"

/-- The text is a part carrying a field. -/
def FieldPart (name value text : List Byte) : Prop :=
  ∃ before after, (∀ l ∈ before, PartLine l ∧ ¬ b!"form-data; name=\"" <:+: l) ∧ (∀ l ∈ after, PartLine l) ∧
    (∀ c ∈ name, c ≠ 0 ∧ c ≠ 10 ∧ c ≠ 13 ∧ c ≠ 34) ∧ text = partText before after name [] value

/-- The text is a part carrying a file. -/
def FilePart (name orig content text : List Byte) : Prop :=
  ∃ before after, (∀ l ∈ before, PartLine l ∧ ¬ b!"form-data; name=\"" <:+: l ∧ ¬ b!"; filename=\"" <:+: l) ∧ (∀ l ∈ after, PartLine l) ∧
    (∀ c ∈ name, c ≠ 0 ∧ c ≠ 10 ∧ c ≠ 13 ∧ c ≠ 34) ∧ (∀ c ∈ orig, c ≠ 0 ∧ c ≠ 10 ∧ c ≠ 13 ∧ c ≠ 34) ∧
    text = partText before after name (b!"; filename=\"" ++ orig ++ b!"\"") content

/-- A form with fields and files. -/
inductive Item where
  | field (name value : List Byte)
  | file (name orig content : List Byte)

def ItemPart : Item → List Byte → Prop
  | .field n v, t => FieldPart n v t
  | .file n o c, t => FilePart n o c t

/-- Parts of a given kind up to the closing delimiter. `delim` is "--" and the boundary. -/
inductive Parts {α : Type} (Part : α → List Byte → Prop) (delim : List Byte) : List α → List Byte → Prop where
  | last (tail : List Byte) : ¬ delim <:+: tail → Parts Part delim [] tail
  | part (f : α) (fs : List α) (text tail : List Byte) : Part f text → ¬ delim <:+: text →
      Parts Part delim fs tail → Parts Part delim (f :: fs) (text ++ delim ++ tail)

/-- Parts of a given kind, each followed by a delimiter: the beginning of what follows the first delimiter. -/
inductive Leading {α : Type} (Part : α → List Byte → Prop) (delim : List Byte) : List α → List Byte → Prop where
  | nil : Leading Part delim [] []
  | part (f : α) (fs : List α) (text mid : List Byte) : Part f text → ¬ delim <:+: text →
      Leading Part delim fs mid → Leading Part delim (f :: fs) (text ++ delim ++ mid)

/-- A whole body: possibly some lines before the first delimiter, the parts, something behind. -/
def Multipart {α : Type} (Part : α → List Byte → Prop) (delim : List Byte) (fields : List α) (body : List Byte) : Prop :=
  ∃ pre tail, body = pre ++ delim ++ tail ∧ ¬ delim <:+: pre ∧ (pre = [] ∨ pre.getLast? = some 10) ∧ Parts Part delim fields tail

/-- A part of a body that need not be well-formed: a field, or some lines that name no field. -/
structure Piece where
  text : List Byte
  field : Option (List Byte × List Byte)

def PiecePart (p : Piece) (text : List Byte) : Prop :=
  text = p.text ∧ ¬ b!"; filename=\"" <:+: text ∧
    match p.field with
    | some f => FieldPart f.1 f.2 text
    | none => text.getLast? = some 10 ∧ ¬ b!"form-data; name=\"" <:+: text

/-- name1=value1&name2=value2… -/
def formText (fields : List (List Byte × List Byte)) : List Byte := sepBy b!"&" (fields.map fun f => f.1 ++ b!"=" ++ f.2)

/-- The longest beginning of a name that consists of the bytes '#' (35) to 127. -/
def Cut (name cut : List Byte) : Prop :=
  ∃ more, name = cut ++ more ∧ (∀ c ∈ cut, 35 ≤ c.toNat ∧ c.toNat ≤ 127) ∧ ∀ c, more.head? = some c → c.toNat < 35 ∨ 127 < c.toNat

/-- What can be a delimiter: a line without NUL bytes starting with "--". -/
def Delimiter (d : List Byte) : Prop := b!"--" <+: d ∧ ∀ c ∈ d, c ≠ 0 ∧ c ≠ 10

/-- The header line announces a multipart body with this boundary: as it is, or quoted (RFC 2045). -/
def Announces (text bound : List Byte) : Prop :=
  ∃ v t, FieldLine b!"Content-Type" text v ∧ CaseEq t b!"multipart/form-data; boundary=" ∧
    (v = t ++ bound ∨ v = t ++ 34 :: bound ++ [34]) ∧ bound ≠ [] ∧ ∀ c ∈ bound, 33 ≤ c.toNat ∧ c.toNat ≤ 126 ∧ c ≠ 34 ∧ c ≠ 59

end Wayuu.Spec
