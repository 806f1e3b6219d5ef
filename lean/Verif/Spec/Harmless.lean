import Verif.Spec.Request
import Verif.Spec.Headers
import Verif.Spec.Limits
import Verif.Spec.Router
import Verif.Spec.Http
import Verif.Spec.Files
/-
Specification: the requests that are handled without leaving defined behaviour.
-/
namespace Wayuu.Spec

/-- The line as it stands in its array of 1024 bytes. -/
def padded (line : List Byte) : List Byte := line ++ List.replicate (1024 - line.length) 0

/-- The word at the beginning of `s`, cut after `n` bytes; `rest` follows it. -/
def WordOf (n : Nat) (s w rest : List Byte) : Prop :=
  s = w ++ rest ∧ (∀ c ∈ w, ¬ White c) ∧ w.length ≤ n ∧ (w.length = n ∨ ∀ c, rest.head? = some c → White c)

/-- The white space at the beginning of `s`; `rest` follows it. -/
def GapOf (s gap rest : List Byte) : Prop := s = gap ++ rest ∧ (∀ c ∈ gap, White c) ∧ ∀ c, rest.head? = some c → ¬ White c

/-- The first two words of the array, up to their NULs; `after` is what follows them in the array. -/
def Words (line method url after : List Byte) : Prop :=
  ∃ m r1 gap r2 u, WordOf 254 (padded line) m r1 ∧ GapOf r1 gap r2 ∧ WordOf 254 r2 u after ∧ BeforeNul m method ∧ BeforeNul u url

/-- The body as it is stored: `n` bytes are announced; for those that do not come the last byte is repeated. -/
def bodyKept (n : Nat) (body : List Byte) : List Byte :=
  body.take n ++ List.replicate (n - body.length) (body.getLast?.getD 0)

/-- What is required of the path below /api: it fits the array of the router, and if the first route to match is one with a
parameter, there is no form yet (or a NUL in it leaves room for the parameter). -/
def PathFits (regs : List Registration) (method path form : List Byte) : Prop :=
  method.length + 1 + path.length < 255 ∧
  ∀ r pre name, FirstMatch regs (method ++ b!":" ++ path) r → r.template = .param pre name →
    ∀ f, BeforeNul form f → f = [] ∨
      f.length + 1 + (name.length + 1 + (method.length + 1 + path.length - pre.length)) ≤ form.length

/-- What is required of an admitted request. -/
def HeadFits (regs : List Registration) (method url : List Byte) (lines : List (List Byte)) (hs : List (List Byte × List Byte))
    (form : List Byte) : Prop :=
  (∀ l ∈ lines, ∀ t, BeforeNul l t → ¬ Overrun t) ∧ FitsLog (hs.take 20) ∧
  ∀ pieces, Runs b!"?" url pieces → pieces ≠ [] ∧ pieces.length ≤ 50 ∧
    (CasePrefix b!"/api" url → ∀ mount path, pieces.head? = some (mount ++ path) → mount.length = 4 →
      PathFits regs method path form)

/-- What is required of a request. -/
def Harmless (limits : List PathLimit) (live : List Conn) (peer : List Byte) (regs : List Registration) (line : List Byte)
    (lines : List (List Byte)) (hs : List (List Byte × List Byte)) (form : List Byte) : Prop :=
  (∀ text, BeforeNul line text → 2 ≤ text.length) ∧
  ∀ method url after, Words line method url after → Supported method →
    after ≠ [] ∧ (Admits limits live peer url → HeadFits regs method url lines hs form)

end Wayuu.Spec
