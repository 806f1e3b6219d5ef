import Verif.Spec.Limits
import Verif.Spec.Json
/-
Lines of etc/limits as people write them (ws.c:821-832): four fields, with blanks around them.
-/
namespace Wayuu.Spec

/-- A field with blanks (spaces or tabs) around it. -/
def Padded (field text : List Byte) : Prop :=
  ∃ l r, text = l ++ field ++ r ∧ (∀ c ∈ l, c = 32 ∨ c = 9) ∧ ∀ c ∈ r, c = 32 ∨ c = 9

/-- A number written in decimal digits with blanks around it. -/
def PaddedNumber (v : Nat) (text : List Byte) : Prop :=
  ∃ n, Padded n text ∧ n ≠ [] ∧ (∀ c ∈ n, digit c) ∧ decimal n < 2 ^ 31 ∧ v = decimal n

/-- A path that can stand in a limits line. -/
def LimitPath (path : List Byte) : Prop :=
  path.head? = some 47 ∧ path.length < 512 ∧ ∀ c ∈ path, c ≠ 44 ∧ c ≠ 0 ∧ ws c = false

/-- A line of the documented form, with its four fields: the path as it is, the numbers with blanks around them. -/
def TightLine (line : List Byte) (rule : PathLimit) : Prop :=
  ∃ a b s x y z, line = rule.path ++ 44 :: a ++ 44 :: b ++ 44 :: s ++ [10] ∧ LimitPath rule.path ∧
    PaddedNumber x a ∧ PaddedNumber y b ∧ PaddedNumber z s ∧
    rule.max_connections = x ∧ rule.max_connections_per_ip = y ∧ rule.max_seconds = z

/-- The same with blanks around the path too. -/
def DocLine (line : List Byte) (rule : PathLimit) : Prop :=
  ∃ p a b s x y z, line = p ++ 44 :: a ++ 44 :: b ++ 44 :: s ++ [10] ∧ LimitPath rule.path ∧ Padded rule.path p ∧
    PaddedNumber x a ∧ PaddedNumber y b ∧ PaddedNumber z s ∧
    rule.max_connections = x ∧ rule.max_connections_per_ip = y ∧ rule.max_seconds = z

/-- A rule without white space in its path. -/
def spaceless (l : PathLimit) : Bool := l.path.all (fun c => !ws c)

/-- The URLs for a path: the path itself (up to case), what is below it, and both with a query. -/
def Concerns (path url : List Byte) : Prop :=
  ∃ a b, url = a ++ b ∧ CaseEq a path ∧ (b = [] ∨ b.head? = some 47 ∨ b.head? = some 63 ∨ path.getLast? = some 47)

end Wayuu.Spec
