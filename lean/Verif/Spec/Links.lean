import Verif.Spec.Request
import Verif.Model.Fs
/-
How the name of a file is written in a link (RFC 3986). The only things taken from elsewhere are the file trees of Fs.lean
(which are not part of the code).
-/
namespace Wayuu.Spec

/-- Bytes that stand for themselves in the path of a link: letters, digits, `-._~` and the separator '/'. -/
def Unreserved (c : Byte) : Prop :=
  (65 ≤ c.toNat ∧ c.toNat ≤ 90) ∨ (97 ≤ c.toNat ∧ c.toNat ≤ 122) ∨ (48 ≤ c.toNat ∧ c.toNat ≤ 57) ∨ c ∈ b!"-._~/"

instance (c : Byte) : Decidable (Unreserved c) := by unfold Unreserved; infer_instance

/-- The path of a link to a name: every other byte as `%` and two hexadecimal digits. -/
def linkTo (name : List Byte) : List Byte :=
  name.flatMap fun c => if Unreserved c then [c] else
    [37, (b!"0123456789ABCDEF").getD (c.toNat / 16) 0, (b!"0123456789ABCDEF").getD (c.toNat % 16) 0]

/-- Two file trees that agree on everything reached by names of a kind. -/
def SameNamed (kind : List Byte → Prop) (fs fs' : FS) : Prop :=
  ∀ p, (∀ n ∈ p, kind n) → fs.node p = fs'.node p ∧ fs.canRead p = fs'.canRead p

/-- A name without white space and question mark. -/
def PlainName (n : List Byte) : Prop := ∀ c ∈ n, ¬ White c ∧ c ≠ 63

end Wayuu.Spec
