import Verif.Model.Main
/-
The socket the server listens on: /repo/ws.c:738-770 (the part of `ws_launch` between the creation of the queue and the
accept loop), with the C library's `inet_addr` and `htons`. The operating system decides whether `bind` succeeds.
-/
namespace Wayuu.Listen
open Wayuu C

/-- Value of a digit in any base up to 16. -/
def digitVal (c : Byte) : Nat :=
  if isDigit c then c.toNat - 48
  else if 97 ≤ c.toNat ∧ c.toNat ≤ 102 then c.toNat - 87
  else if 65 ≤ c.toNat ∧ c.toNat ≤ 70 then c.toNat - 55
  else 255

/-- The digits `strtoul` takes in the given base, and what follows. -/
def scan (base : Nat) : Str → Nat → Nat × Str
  | [], acc => (acc, [])
  | c :: r, acc => if digitVal c < base then scan base r (acc * base + digitVal c) else (acc, c :: r)

/-- `strtoul(s, &end, 0)` for a text that begins with a digit: 0x is hexadecimal if a hexadecimal digit follows, another
0 is octal. The value is not limited here: the caller rejects everything above 0xffffffff. -/
def strtoul0 (s : Str) : Nat × Str :=
  match s with
  | 48 :: x :: h :: r =>
    if (x = 120 ∨ x = 88) ∧ digitVal h < 16 then scan 16 (h :: r) 0 else scan 8 (48 :: x :: h :: r) 0
  | 48 :: r => scan 8 (48 :: r) 0
  | _ => scan 10 s 0

/-- The loop of `inet_aton` (glibc `inet_addr.c`): `n` parts have been read, with value `acc`. -/
def inetLoop : Nat → Nat → Nat → Str → Option Nat
  | 0, _, _, _ => none
  | fuel + 1, n, acc, s =>
    match s with
    | [] => none
    | c :: _ =>
      if !isDigit c then none else
      let (v, r) := strtoul0 s
      if v > 0xffffffff then none else
      match r with
      | 46 :: r' => if n > 2 ∨ v > 0xff then none else inetLoop fuel (n + 1) (acc * 256 + v) r'
      | r =>
        if r = [] ∨ ∃ x ∈ r.head?, isSpace x = true then
          if v > 256 ^ (4 - n) - 1 then none else some (acc * 256 ^ (4 - n) + v)
        else none

/-- `inet_addr(s)`, in host byte order; INADDR_NONE (255.255.255.255) if the text is not understood. -/
def inet_addr (s : Str) : Nat := (inetLoop 5 0 0 s).getD 0xffffffff

/-- The operating system: whether `bind` succeeds, and the port it chooses if it may. -/
structure Os where
  bind : Nat → Nat → Bool
  free : Nat

/-- How `ws_launch` gets to its accept loop. -/
inductive Outcome where
  | listening (addr port : Nat)
  | exit (e : Exit)
deriving DecidableEq, Repr

/-- ws.c:747-768, for a log level `lvl`. `listen` on a socket that is not bound binds it to all addresses and a free port.
`socket`, `setsockopt` and `listen` succeed. -/
def openSocket (os : Os) (lvl : Int) (bindAddr : Str) (port : Int) : C Outcome := do
  let p := (port % 65536).toNat
  let a := inet_addr bindAddr
  if os.bind a p then ok (.listening a (if p = 0 then os.free else p))
  else do
    let (_, e) ← logger ⟨lvl, []⟩ LOG_FATAL [] [] [] []
    if e = .returns then ok (.listening 0 os.free) else ok (.exit e)

/-- The program from its options (main.c:45-109) to its accept loop. -/
def start (os : Os) (fs : FS) (opts : List Opt) : C Outcome := do
  match ← main fs opts with
  | .exit e => ok (.exit e)
  | .launch c => openSocket os c.logLevel c.bindAddr c.port

end Wayuu.Listen
