import Verif.Spec.Strings
import Verif.Spec.Files
import Verif.Model.State
/-
Limit rules, as the comment above `load_limits` (ws.c:813-832) describes them. The only things taken from
elsewhere are the record types of the rules and of the table, and `atoi` of libc.
-/
namespace Wayuu.Spec

/-- The lines of a file, each with its newline (the last one may lack it). -/
def FileLines (content : List Byte) (lines : List (List Byte)) : Prop :=
  content = lines.flatten ∧ (∀ l ∈ lines, l ≠ [] ∧ (10 : Byte) ∉ l.dropLast) ∧
    ∀ l ∈ lines.dropLast, l.getLast? = some 10

/-- The rule given by a line, if any: it starts with '/' and has at least three comma-separated fields. -/
def LineRule (line : List Byte) (rule : Option PathLimit) : Prop :=
  ∃ text fields, BeforeNul line text ∧ Runs b!"," text fields ∧
    ((text.head? = some 47 ∧ ∃ path a b more, fields = path :: a :: b :: more ∧
        rule = some ⟨path, atoi a, atoi b, (more.head?.map atoi).getD 0⟩) ∨
     ((text.head? ≠ some 47 ∨ fields.length < 3) ∧ rule = none))

/-- The connections of the table that are alive under a path (up to case). -/
def Under (path : List Byte) (c : Conn) : Prop := c.socket ≠ 0 ∧ CasePrefix path c.path

open Classical in
/-- How many connections are alive under a path. -/
noncomputable def liveUnder (path : List Byte) (live : List Conn) : Nat := live.countP (fun c => decide (Under path c))

open Classical in
/-- How many of them come from an address. -/
noncomputable def liveUnderFrom (path ip : List Byte) (live : List Conn) : Nat :=
  live.countP (fun c => decide (Under path c ∧ c.IP = ip))

/-- The table has room and no rule for this URL is exceeded. -/
def Admits (limits : List PathLimit) (live : List Conn) (ip url : List Byte) : Prop :=
  (∃ c ∈ live, c.socket = 0) ∧ ∀ l ∈ limits, CasePrefix l.path url →
    (liveUnder l.path live : Int) ≤ l.max_connections ∧ (liveUnderFrom l.path ip live : Int) ≤ l.max_connections_per_ip

end Wayuu.Spec
