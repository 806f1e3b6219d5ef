import Verif.Model.Ws
/-
IPv4 addresses as the server handles them (ws.c:475-478, ws.c:780-781).
-/
namespace Wayuu
open C

/-- `struct in_addr`: four bytes in network order. -/
structure Addr where
  a : Byte
  b : Byte
  c : Byte
  d : Byte
deriving DecidableEq, Repr

/-- `inet_ntoa`: "%d.%d.%d.%d" (glibc keeps the result in a buffer of its own for every thread). -/
def inet_ntoa (x : Addr) : Str :=
  fmtNat x.a.toNat ++ b!"." ++ fmtNat x.b.toNat ++ b!"." ++ fmtNat x.c.toNat ++ b!"." ++ fmtNat x.d.toNat

/-- ws.c:780-781: the address of a new client, in 16 bytes; ws.c:474-478: the same in 24 bytes. -/
def clientAddress (cap : Nat) (x : Addr) : C Str := fmtInto cap (inet_ntoa x)

end Wayuu
