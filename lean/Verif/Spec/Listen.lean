import Verif.Spec.Main
import Verif.Spec.Json
import Verif.Spec.Request
/-
Internet addresses and ports as one writes them.
-/
namespace Wayuu.Spec

/-- `a.b.c.d` in decimal, each at most 255, without superfluous zeros; the address as a number. -/
def Dotted (text : List Byte) (addr : Nat) : Prop :=
  ∃ t₁ t₂ t₃ t₄ n₁ n₂ n₃ n₄, NatText t₁ n₁ ∧ NatText t₂ n₂ ∧ NatText t₃ n₃ ∧ NatText t₄ n₄ ∧
    n₁ ≤ 255 ∧ n₂ ≤ 255 ∧ n₃ ≤ 255 ∧ n₄ ≤ 255 ∧ text = t₁ ++ 46 :: (t₂ ++ 46 :: (t₃ ++ 46 :: t₄)) ∧
    addr = n₁ * 2 ^ 24 + n₂ * 2 ^ 16 + n₃ * 2 ^ 8 + n₄

/-- A port number in decimal. -/
def PortText (text : List Byte) (port : Nat) : Prop := NatText text port ∧ 0 < port ∧ port < 65536

/-- Value of octal digits. -/
def octal (ds : List Byte) : Nat := ds.foldl (fun n c => 8 * n + (c.toNat - 48)) 0

/-- Value of hexadecimal digits. -/
def hexadecimal (ds : List Byte) : Nat := ds.foldl (fun n c => 16 * n + (hexVal c).getD 0) 0

/-- A number as C programs write it: decimal, octal after 0, hexadecimal after 0x or 0X. -/
def CNumber (t : List Byte) (n : Nat) : Prop :=
  NatText t n ∨
  (∃ ds, t = 48 :: ds ∧ (∀ c ∈ ds, 48 ≤ c.toNat ∧ c.toNat ≤ 55) ∧ n = octal ds) ∨
  (∃ x ds, t = 48 :: x :: ds ∧ (x = 120 ∨ x = 88) ∧ ds ≠ [] ∧ (∀ c ∈ ds, (hexVal c).isSome) ∧ n = hexadecimal ds)

/-- An address as `inet_addr` reads it: one to four such numbers separated by dots, all but the last at most 255, the last
filling the rest; blanks and whatever follows them are not looked at. -/
def AddrText (text : List Byte) (addr : Nat) : Prop :=
  ∃ (init : List (List Byte × Nat)) (last : List Byte) (v : Nat) (tail : List Byte),
    text = init.flatMap (fun p => p.1 ++ [46]) ++ last ++ tail ∧ (∀ c ∈ tail.head?, White c) ∧ init.length ≤ 3 ∧
    (∀ p ∈ init, CNumber p.1 p.2 ∧ p.2 ≤ 255) ∧ CNumber last v ∧ v < 256 ^ (4 - init.length) ∧
    addr = init.foldl (fun a p => a * 256 + p.2) 0 * 256 ^ (4 - init.length) + v

end Wayuu.Spec
