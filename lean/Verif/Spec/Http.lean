import Verif.Spec.Json
import Mathlib.Data.List.Forall2
/-
HTTP/1.1 messages (RFC 9112) as relations on byte strings. Nothing here refers to the model of the
code.
-/
namespace Wayuu.Spec

/-- Text without line breaks. -/
def OneLine (s : List Byte) : Prop := ∀ c ∈ s, c ≠ 13 ∧ c ≠ 10

/-- Bytes of a field name (a subset of RFC 9110 tokens: letters, digits, '-', '_'). -/
def nameByte (c : Byte) : Prop := alnum c = true ∨ c = 45 ∨ c = 95

/-- A header field line (without its CRLF) with its name and value. -/
def Field (line name value : List Byte) : Prop :=
  ∃ ows, line = name ++ 58 :: (ows ++ value) ∧ name ≠ [] ∧ (∀ c ∈ name, nameByte c) ∧
    (∀ c ∈ ows, c = 32 ∨ c = 9) ∧ OneLine value ∧ (∀ c, value.head? = some c → c ≠ 32 ∧ c ≠ 9)

/-- The bytes are one HTTP/1.1 response: status line, header fields, blank line, body. -/
def Response (bytes : List Byte) (code : Nat) (fields : List (List Byte × List Byte)) (body : List Byte) : Prop :=
  ∃ ct reason lines, bytes = (b!"HTTP/1.1 " ++ ct ++ 32 :: reason) ++ 13 :: 10 ::
      (lines.flatMap (fun l => l ++ [13, 10]) ++ 13 :: 10 :: body) ∧
    NatText ct code ∧ ct.length = 3 ∧ OneLine reason ∧
    List.Forall₂ (fun l (f : List Byte × List Byte) => Field l f.1 f.2) lines fields

/-- There is exactly one `Content-Length` field and it is the length of the body. -/
def Sized (fields : List (List Byte × List Byte)) (body : List Byte) : Prop :=
  ∃ a n v b, fields = a ++ (n, v) :: b ∧ CaseEq n b!"Content-Length" ∧ NatText v body.length ∧
    ∀ f ∈ a ++ b, ¬ CaseEq f.1 b!"Content-Length"

/-- Status codes the library documents (http_utils.h). -/
def supported : List Nat := [200, 201, 400, 401, 403, 404, 429, 500]

/-- Media types by extension, as documented. -/
def mediaTypes : List (List Byte × List Byte) :=
  [(b!"html", b!"text/html"), (b!"js", b!"text/html"), (b!"png", b!"image/png"), (b!"jpg", b!"image/jpeg"),
   (b!"jpeg", b!"image/jpeg"), (b!"zip", b!"application/zip"), (b!"css", b!"text/css"),
   (b!"svg", b!"image/svg+xml"), (b!"ico", b!"image/vnd.microsoft.icon"), (b!"txt", b!"text/plain"),
   (b!"csv", b!"text/csv"), (b!"yaml", b!"text/yaml")]

/-- The media type of a file name. -/
inductive MediaType : List Byte → List Byte → Prop where
  /-- no extension -/
  | none (name : List Byte) : (46 : Byte) ∉ name → MediaType name b!"text/html"
  /-- a name that only starts with a dot -/
  | hidden (name : List Byte) : (46 : Byte) ∉ name → MediaType (46 :: name) b!"text/html"
  | known (stem ext t : List Byte) : stem ≠ [] → (46 : Byte) ∉ ext → (ext, t) ∈ mediaTypes →
      MediaType (stem ++ 46 :: ext) t
  | other (stem ext : List Byte) : stem ≠ [] → (46 : Byte) ∉ ext → (∀ t, (ext, t) ∉ mediaTypes) →
      MediaType (stem ++ 46 :: ext) b!"application/octet-stream"

/-- Splitting a URL at its first question mark. -/
def UrlParts (url path query : List Byte) : Prop :=
  (url = path ∧ query = [] ∧ (63 : Byte) ∉ path) ∨ (url = path ++ 63 :: query ∧ (63 : Byte) ∉ path)

/-- Looking up a header by exact name: `v` is the value of the earliest one, or there is none. -/
def FirstHeader (hs : List (List Byte × List Byte)) (name : List Byte) (v : Option (List Byte)) : Prop :=
  match v with
  | none => ∀ p ∈ hs, p.1 ≠ name
  | some v => ∃ a b, hs = a ++ (name, v) :: b ∧ ∀ p ∈ a, p.1 ≠ name

/-- The two header values that the access log shows have less than 256 bytes. -/
def FitsLog (hs : List (List Byte × List Byte)) : Prop :=
  ∀ name ∈ [b!"Referer", b!"User-Agent"], ∀ v, FirstHeader hs name (some v) → v.length < 256

/-- One line of input of at most `max` bytes: it ends at the first newline (included), at the end of the
input, or after `max` bytes. -/
def LineOf (input : List Byte) (max : Nat) (line rest : List Byte) : Prop :=
  input = line ++ rest ∧ line.length ≤ max ∧ (10 : Byte) ∉ line.dropLast ∧
    (line.length = max ∨ line.getLast? = some 10 ∨ rest = [])

end Wayuu.Spec
