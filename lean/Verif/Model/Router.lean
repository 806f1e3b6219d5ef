import Verif.Model.HttpUtils
/-
Model of /repo/router.c.
-/
namespace Wayuu
open C

/-- router.h:33 -/
abbrev MAX_ROUTES : Nat := 128
/-- router.h:35 -/
abbrev MAX_ROUTE_PATH : Nat := 256
/-- router.h:36 -/
abbrev MAX_PARAM_LENGTH : Nat := 64

/-- router.c:69-73, the scan of `router_resolve_route`: it stops at NUL, at a negative `char` and at
'{'. First argument: fuel (`strlen + 1` iterations suffice). -/
def resolveScan (b : Buf) : Nat → Nat → C Nat
  | 0, i => ok i
  | n + 1, i => do
    let c ← b.load i
    if 0 < schar c ∧ c ≠ 123 then resolveScan b n (i + 1) else ok i

/-- router.c:62-79 `router_resolve_route`: (prefix, param) as stored in the matcher's arrays. -/
def router_resolve_route (template : Str) : C (Str × Str) := do
  let tmp ← (strdup template).storeI ((template.length : Int) - 1) 0
  let index ← resolveScan tmp (template.length + 1) 0
  let param ← strAt tmp (index + 1)
  let param ← fmtInto MAX_PARAM_LENGTH param
  let tmp ← tmp.store index 0
  let pre ← cstr tmp
  let pre ← fmtInto MAX_ROUTE_PATH pre
  ok (pre, param)

/-- router.c:81-90 `router_extract_param`. -/
def router_extract_param (path : Str) (r : Route) : C Str := do
  let prefix_len := r.pre.length
  let value ← strAt (strdup path) prefix_len
  fmtInto (path.length + prefix_len + 10) (r.param ++ b!"=" ++ value)

/-- router.c:92-111 `router_add_route`: the table after the call. -/
def router_add_route (table : List Route) (template : Str) (handler filter : Option Nat) :
    C (List Route) := do
  let r ← if strchr template 123 then do
      let (pre, param) ← router_resolve_route template
      ok (Route.mk true pre param handler filter)
    else do
      let pre ← fmtInto MAX_ROUTE_PATH template
      ok (Route.mk false pre [] handler filter)
  if MAX_ROUTES ≤ table.length then ub .oob else ok (table ++ [r])

/-- router.c:138-149: the parameter is put into (or appended to) the form. -/
def addParam (form : Buf) (qs : Str) : C Buf := do
  let f ← cstr form
  if f.length = 0 then ok (strdup qs) else strcat form (b!"&" ++ qs)

/-- router.c:125-154, the loop over the routing table; returns the handler, the filter and the form. -/
def routeLoop (matcher : Str) : List Route → Buf → C (Option Nat × Option Nat × Buf)
  | [], form => ok (none, none, form)
  | r :: rs, form =>
    if !r.isParam && strEq r.pre matcher then ok (r.handler, r.filter, form)
    else if r.isParam && (strstr matcher r.pre).isSome && !strEq r.pre matcher then do
      let qs ← router_extract_param matcher r
      let form ← addParam form qs
      ok (r.handler, r.filter, form)
    else routeLoop matcher rs form

/-- router.c:175-179 `reject_routing_request`. -/
def reject_routing_request (env : Env) (st : St) : C St := bad_request env st

/-- router.c:113-173 `router_handle_request`; also returns the user code that was run. -/
def router_handle_request (env : Env) (st : St) : C (St × List Event) := do
  let matcher ← fmtInto 255 (st.req.method ++ b!":" ++ st.req.path)
  let (handler, filter, form) ← routeLoop matcher env.routes st.req.form
  let st := { st with req := { st.req with form := form } }
  match handler with
  | none => do
    let st ← reject_routing_request env st
    ok (st, [])
  | some h =>
    match filter with
    | some f => do
      let ev := Event.filter f st.req
      let (st, result) ← env.filt f st
      if !result then ok (st, [ev]) else do
      let ev2 := Event.handler h st.req
      let st ← env.handle h st
      ok (st, [ev, ev2])
    | none => do
      let ev := Event.handler h st.req
      let st ← env.handle h st
      ok (st, [ev])

end Wayuu
