import Verif.Model.Worker
/-
Clients that go away: what the operating system does with the data the server hands to a socket, and SIGPIPE.
-/
namespace Wayuu.Net
open Wayuu C

/-- What the operating system does with one call of `send` (http_utils.c:259) or `SSL_write` (http_utils.c:255). -/
inductive Send where
  /-- it takes everything -/
  | whole
  /-- it takes at most the first `n` bytes -/
  | part (n : Nat)
  /-- the client is gone: -1 is returned and SIGPIPE is raised -/
  | gone
deriving DecidableEq, Repr

/-- The two ways to run the server: with /repo/main.c, or in a program of one's own (README.md, "Embedded usage"). -/
inductive Program where
  | standalone
  | embedded
deriving DecidableEq, Repr

/-- main.c:56 `signal(SIGPIPE, SIG_IGN)`; nothing in the rest of the code sets the action for SIGPIPE, which by default
ends the process. -/
def Program.ignores : Program → Bool
  | .standalone => true
  | .embedded => false

/-- http_utils.c:251-261, call after call: `http_print` ignores the result. Returns what has reached the client and whether
the process is still there. -/
def transmit (p : Program) (net : Nat → Send) : List (List Byte) → List Byte × Bool
  | [] => ([], true)
  | d :: ds =>
    match net 0 with
    | .whole => let (got, alive) := transmit p (fun i => net (i + 1)) ds; (d ++ got, alive)
    | .part n => let (got, alive) := transmit p (fun i => net (i + 1)) ds; (d.take n ++ got, alive)
    | .gone => if p.ignores then transmit p (fun i => net (i + 1)) ds else ([], false)

/-- How connections of a worker end: the state afterwards and what each client has received, or the process has ended. -/
inductive Outcome where
  | served (st : St) (got : List (List Byte))
  | killed (got : List (List Byte))

/-- ws.c:693-703, as `worker` (Model/Worker.lean), with the operating system's answers. The steps of the request are not
interleaved with the answers, because the code looks at none of them; if one ends the process, nothing else is left. -/
def clients (p : Program) (env : Env) : List (Job × (Nat → Send)) → St → C Outcome
  | [], st => ok (.served st [])
  | (j, net) :: js, st => do
    let (st1, _) ← serve env st j
    match transmit p net (st1.out.drop st.out.length) with
    | (got, false) => ok (.killed [got])
    | (got, true) =>
      match ← clients p env js st1 with
      | .served st2 gots => ok (.served st2 (got :: gots))
      | .killed gots => ok (.killed (got :: gots))

end Wayuu.Net
