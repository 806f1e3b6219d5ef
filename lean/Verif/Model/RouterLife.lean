import Verif.Model.Router
/-
The routing table over the life of a program: `router_init`, `router_add_route`, `free_routing_table` (/repo/router.c) and
requests in between.
-/
namespace Wayuu.RouterLife
open C

/-- router.c:44-55: the entries up to `n_routes`, each with the mark that its matcher was freed. -/
abbrev Table := List (Route × Bool)

/-- Calls of the API of router.h. -/
inductive RCall where
  | init
  | add (template : Str) (handler filter : Option Nat)
  | free
deriving DecidableEq

/-- One call. -/
def call (t : Table) : RCall → C Table
  /- router.c:57-60: the matchers stay allocated, but are no longer reachable. -/
  | .init => ok []
  /- router.c:92-111 -/
  | .add template handler filter => do
    let t' ← router_add_route (t.map (·.1)) template handler filter
    ok (t ++ (t'.drop t.length).map (fun r => (r, false)))
  /- router.c:181-187: `free` of every matcher; `n_routes` stays as it is. -/
  | .free => if t.any (·.2) then ub .badFree else ok (t.map (fun e => (e.1, true)))

/-- The program starts with a table without routes (a global variable is zero at first). -/
def calls (cs : List RCall) : C Table := cs.foldlM call []

/-- router.c:125-154 reads the matchers in order, up to the first that matches: none of them was freed. -/
def readable (matcher : Str) : Table → Bool
  | [] => true
  | (r, freed) :: rs =>
    !freed && ((!r.isParam && strEq r.pre matcher) || (r.isParam && (strstr matcher r.pre).isSome && !strEq r.pre matcher) || readable matcher rs)

/-- router.c:113-173 `router_handle_request` with this table. -/
def request (env : Env) (t : Table) (st : St) : C (St × List Event) := do
  let matcher ← fmtInto 255 (st.req.method ++ b!":" ++ st.req.path)
  if !readable matcher t then ub .badFree
  else router_handle_request { env with routes := t.map (·.1) } st

end Wayuu.RouterLife
