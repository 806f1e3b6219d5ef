import Verif.Spec.Router
import Verif.Lemmas.Http2
import Verif.Lemmas.Sample
/-
Lemmas about the router (Model/Router.lean).
-/
namespace Wayuu
open C Spec

theorem strstr_isSome {h n : Str} : (strstr h n).isSome = true ↔ ∃ x v, h = x ++ n ++ v := by
  induction h with
  | nil =>
    unfold strstr
    cases n with
    | nil => simp
    | cons c n => simp
  | cons a t ih =>
    unfold strstr
    by_cases hp : n.isPrefixOf (a :: t) = true
    · rw [if_pos hp]
      obtain ⟨v, hv⟩ := List.isPrefixOf_iff_prefix.mp hp
      exact ⟨fun _ => ⟨[], v, by simpa using hv.symm⟩, fun _ => rfl⟩
    · rw [if_neg hp]
      simp only [ih]
      constructor
      · rintro ⟨x, v, rfl⟩
        exact ⟨a :: x, v, by simp⟩
      · rintro ⟨x, v, hx⟩
        cases x with
        | nil => exact absurd (List.isPrefixOf_iff_prefix.mpr ⟨v, by simpa using hx.symm⟩) hp
        | cons y x =>
          simp only [List.cons_append, List.cons.injEq] at hx
          exact ⟨x, v, hx.2⟩

/-- The entry of the routing table for a registration. -/
def regRoute (r : Registration) : Route :=
  match r.template with
  | .const t => ⟨false, t, [], r.handler, r.filter⟩
  | .param pre name => ⟨true, pre, name, r.handler, r.filter⟩

theorem resolveScan_eq (p : Str) (r : Buf) (x : Byte) (hp : ∀ c ∈ p, c ≠ 0 ∧ c ≠ 123 ∧ c < 128)
    (hx : x = 123 ∨ x = 0) (n i : Nat) (q : Buf) (hi : i = q.length) (hn : p.length < n) :
    resolveScan (q ++ (p.map some ++ some x :: r)) n i = ok (i + p.length) := by
  induction p generalizing n i q with
  | nil =>
    obtain ⟨n, rfl⟩ : ∃ k, n = k + 1 := ⟨n - 1, by simp at hn; omega⟩
    unfold resolveScan
    rw [load_append_right (by omega)]
    subst hi
    simp only [Nat.sub_self, List.map_nil, List.nil_append, load_cons_zero, ok_bind]
    rw [if_neg]
    · simp
    · rcases hx with rfl | rfl
      · simp
      · simp [schar]
  | cons c p ih =>
    obtain ⟨n, rfl⟩ : ∃ k, n = k + 1 := ⟨n - 1, by simp at hn; omega⟩
    unfold resolveScan
    rw [load_append_right (by omega)]
    subst hi
    simp only [Nat.sub_self, List.map_cons, List.cons_append, load_cons_zero, ok_bind]
    obtain ⟨h0, h1, h2⟩ := hp c (by simp)
    have hs : 0 < schar c := by
      unfold schar
      rw [if_pos h2]
      have : c.toNat ≠ 0 := fun h => h0 (UInt8.toNat_inj.mp (by simpa using h))
      omega
    rw [if_pos ⟨hs, h1⟩]
    have := ih (fun c hc => hp c (by simp [hc])) n (q.length + 1) (q ++ [some c]) (by simp) (by simp at hn; omega)
    simp only [List.append_assoc, List.cons_append, List.nil_append] at this
    rw [this]
    simp [Nat.add_assoc, Nat.add_comm 1]

theorem router_resolve_route_eq {pre name : Str} (hp : ∀ c ∈ pre, c ≠ 0 ∧ c ≠ 123 ∧ c < 128) (hn : NulFree name) :
    router_resolve_route (pre ++ b!"{" ++ name ++ b!"}") =
      (if pre.length < 256 ∧ name.length < 64 then ok (pre, name) else ub .oob) := by
  have hz : NulFree pre := fun c h => (hp c h).1
  unfold router_resolve_route
  simp only [Buf.storeI]
  rw [if_neg (by simp; omega)]
  have e : (((pre ++ b!"{" ++ name ++ b!"}").length : Int) - 1).toNat = ((pre ++ b!"{" ++ name).map some).length := by
    simp; omega
  rw [e]
  have e2 : strdup (pre ++ b!"{" ++ name ++ b!"}") = ((pre ++ b!"{" ++ name).map some) ++ some 125 :: [some 0] := by
    simp [strdup]
  rw [e2, store_append_cons rfl]
  simp only [ok_bind]
  have e3 : (pre ++ b!"{" ++ name).map some ++ some 0 :: [some 0] =
      ([] : Buf) ++ (pre.map some ++ some 123 :: (name.map some ++ some 0 :: [some 0])) := by simp
  rw [e3, resolveScan_eq pre _ 123 hp (Or.inl rfl) _ 0 [] rfl (by simp; omega)]
  simp only [ok_bind, List.nil_append, Nat.zero_add]
  have e4 : pre.map some ++ some 123 :: (name.map some ++ some 0 :: [some 0]) =
      (pre ++ [123]).map some ++ (name.map some ++ some 0 :: [some 0]) := by simp
  rw [e4, strAt_mk (by simp) hn]
  simp only [ok_bind]
  by_cases h2 : name.length < 64
  · rw [fmtInto_ok (show _ + 1 ≤ 64 by omega)]
    simp only [ok_bind]
    rw [← e4, store_append_cons (by simp)]
    simp only [ok_bind]
    rw [cstr_mk hz]
    simp only [ok_bind]
    by_cases h1 : pre.length < 256
    · rw [fmtInto_ok (show _ + 1 ≤ 256 by omega)]
      simp [h1, h2]
    · rw [fmtInto_over (show 256 < _ by omega)]
      simp [h1]
  · rw [fmtInto_over (show 64 < _ by omega)]
    simp [h2]

theorem router_add_route_eq {table : List Route} {r : Registration} (hv : r.template.Valid) (h1 : r.template.Fits)
    (h2 : table.length < 128) :
    router_add_route table r.template.text r.handler r.filter = ok (table ++ [regRoute r]) := by
  obtain ⟨t, h, f⟩ := r
  unfold router_add_route
  cases t with
  | const t =>
    have : strchr t 123 = false := by
      unfold strchr
      simpa using hv.2
    simp only [Template.text, this, Bool.false_eq_true, if_false]
    rw [fmtInto_ok (show _ + 1 ≤ 256 from h1)]
    simp only [ok_bind]
    rw [if_neg (show ¬ 128 ≤ _ by omega)]
    rfl
  | param pre name =>
    have : strchr (Template.text (.param pre name)) 123 = true := by
      unfold strchr Template.text
      simp
    simp only [this, if_true]
    rw [show Template.text (.param pre name) = pre ++ b!"{" ++ name ++ b!"}" from rfl,
      router_resolve_route_eq hv.1 hv.2, if_pos (show pre.length < 256 ∧ name.length < 64 from h1)]
    simp only [ok_bind]
    rw [if_neg (show ¬ 128 ≤ _ by omega)]
    rfl

theorem router_add_route_ub {table : List Route} {r : Registration} (hv : r.template.Valid)
    (h : ¬ r.template.Fits ∨ 128 ≤ table.length) :
    router_add_route table r.template.text r.handler r.filter = ub .oob := by
  by_cases h1 : r.template.Fits
  · have h2 : 128 ≤ table.length := by rcases h with h | h <;> tauto
    obtain ⟨t, hd, f⟩ := r
    unfold router_add_route
    cases t with
    | const t =>
      have : strchr t 123 = false := by
        unfold strchr
        simpa using hv.2
      simp only [Template.text, this, Bool.false_eq_true, if_false]
      rw [fmtInto_ok (show _ + 1 ≤ 256 from h1)]
      simp only [ok_bind]
      rw [if_pos h2]
    | param pre name =>
      have : strchr (Template.text (.param pre name)) 123 = true := by
        unfold strchr Template.text
        simp
      simp only [this, if_true]
      rw [show Template.text (.param pre name) = pre ++ b!"{" ++ name ++ b!"}" from rfl,
        router_resolve_route_eq hv.1 hv.2, if_pos (show pre.length < 256 ∧ name.length < 64 from h1)]
      simp only [ok_bind]
      rw [if_pos h2]
  · obtain ⟨t, hd, f⟩ := r
    unfold router_add_route
    cases t with
    | const t =>
      have : strchr t 123 = false := by
        unfold strchr
        simpa using hv.2
      simp only [Template.text, this, Bool.false_eq_true, if_false]
      rw [fmtInto_over (show 256 < t.length + 1 from by simp only [Template.Fits] at h1; omega)]
      rfl
    | param pre name =>
      have : strchr (Template.text (.param pre name)) 123 = true := by
        unfold strchr Template.text
        simp
      simp only [this, if_true]
      rw [show Template.text (.param pre name) = pre ++ b!"{" ++ name ++ b!"}" from rfl,
        router_resolve_route_eq hv.1 hv.2, if_neg (show ¬ (pre.length < 256 ∧ name.length < 64) from h1)]
      rfl

/-- A sequence of `router_add_route` calls after `router_init` (router.c:57-60). -/
def register (regs : List Registration) : C (List Route) :=
  regs.foldlM (fun t r => router_add_route t r.template.text r.handler r.filter) []

theorem foldlM_register (regs : List Registration) (table : List Route) (hv : ∀ r ∈ regs, r.template.Valid) :
    regs.foldlM (fun t r => router_add_route t r.template.text r.handler r.filter) table =
      (if (∀ r ∈ regs, r.template.Fits) ∧ (regs = [] ∨ table.length + regs.length ≤ 128) then
        ok (table ++ regs.map regRoute) else ub .oob) := by
  classical
  induction regs generalizing table with
  | nil => simp
  | cons r rs ih =>
    rw [List.foldlM_cons]
    by_cases h : r.template.Fits ∧ table.length < 128
    · rw [router_add_route_eq (hv r (by simp)) h.1 h.2, ok_bind, ih _ (fun r hr => hv r (by simp [hr]))]
      by_cases h2 : (∀ r ∈ rs, r.template.Fits) ∧ (rs = [] ∨ (table ++ [regRoute r]).length + rs.length ≤ 128)
      · rw [if_pos h2, if_pos]
        · simp
        · refine ⟨by simpa [h.1] using h2.1, Or.inr ?_⟩
          rcases h2.2 with rfl | h3
          · simp; omega
          · simp at h3 ⊢; omega
      · rw [if_neg h2, if_neg]
        rintro ⟨h3, h4⟩
        refine h2 ⟨fun r hr => h3 r (by simp [hr]), Or.inr ?_⟩
        simp at h4 ⊢; omega
    · rw [router_add_route_ub (hv r (by simp)), if_neg]
      · rfl
      · rintro ⟨h3, h4⟩
        refine h ⟨h3 r (by simp), ?_⟩
        simp only [reduceCtorEq, List.length_cons, false_or] at h4; omega
      · by_cases h5 : r.template.Fits
        · exact Or.inr (Nat.le_of_not_lt fun h' => h ⟨h5, h'⟩)
        · exact Or.inl h5

theorem register_eq {regs : List Registration} (hv : ∀ r ∈ regs, r.template.Valid) {t : List Route} :
    register regs = ok t ↔ (∀ r ∈ regs, r.template.Fits) ∧ regs.length ≤ 128 ∧ t = regs.map regRoute := by
  classical
  unfold register
  rw [foldlM_register regs [] hv]
  by_cases h : (∀ r ∈ regs, r.template.Fits) ∧ (regs = [] ∨ ([] : List Route).length + regs.length ≤ 128)
  · rw [if_pos h]
    have : regs.length ≤ 128 := by
      rcases h.2 with rfl | h2
      · simp
      · simpa using h2
    constructor
    · intro e
      simp only [List.nil_append, C.ok.injEq] at e
      exact ⟨h.1, this, e.symm⟩
    · rintro ⟨-, -, rfl⟩; simp
  · rw [if_neg h]
    constructor
    · intro e; simp at e
    · rintro ⟨h1, h2, -⟩
      exact absurd ⟨h1, Or.inr (by simpa using h2)⟩ h

/-- Whether an entry of the table is selected for the request text `m`. -/
def hits (m : Str) (r : Route) : Bool :=
  (!r.isParam && strEq r.pre m) || (r.isParam && (strstr m r.pre).isSome && !strEq r.pre m)

theorem hits_iff {m : Str} {r : Registration} : hits m (regRoute r) = true ↔ r.template.Matches m := by
  obtain ⟨t, h, f⟩ := r
  cases t with
  | const t =>
    simp only [hits, regRoute, strEq, Template.Matches, Bool.not_false, Bool.true_and, Bool.false_and, Bool.or_false,
      beq_iff_eq]
    exact eq_comm
  | param pre name =>
    have := @strstr_isSome m pre
    simp only [hits, regRoute, strEq, Template.Matches, Bool.not_true, Bool.false_and, Bool.true_and, Bool.false_or,
      Bool.and_eq_true, this, Bool.not_eq_true', beq_eq_false_iff_ne, ne_eq]
    exact and_congr_right fun _ => not_congr eq_comm

theorem routeLoop_none {m : Str} {form : Buf} (a : List Route) (ha : ∀ r ∈ a, hits m r = false) :
    routeLoop m a form = ok (none, none, form) := by
  induction a with
  | nil => rfl
  | cons r a ih =>
    have h := ha r (by simp)
    simp only [hits, Bool.or_eq_false_iff] at h
    simp only [routeLoop, h.1, h.2, Bool.false_eq_true, if_false]
    exact ih (fun r hr => ha r (by simp [hr]))

/-- The form a handler is given by the selected entry. -/
def formFor (m : Str) (r : Route) (form : Buf) : C Buf :=
  if r.isParam then do
    let qs ← router_extract_param m r
    addParam form qs
  else ok form

theorem routeLoop_first {m : Str} {form : Buf} (a b : List Route) (r : Route) (ha : ∀ r ∈ a, hits m r = false)
    (hr : hits m r = true) :
    routeLoop m (a ++ r :: b) form = (formFor m r form >>= fun f => ok (r.handler, r.filter, f)) := by
  induction a with
  | nil =>
    simp only [List.nil_append, routeLoop]
    unfold hits at hr
    unfold formFor
    cases hp : r.isParam with
    | false =>
      simp only [hp, Bool.not_false, Bool.true_and, Bool.false_and, Bool.or_false] at hr
      simp [hr]
    | true =>
      simp only [hp, Bool.not_true, Bool.true_and, Bool.false_and, Bool.false_or] at hr
      simp only [Bool.not_true, Bool.false_and, Bool.false_eq_true, if_false, Bool.true_and, hr, if_true, bind_assoc]
  | cons x a ih =>
    have h := ha x (by simp)
    simp only [hits, Bool.or_eq_false_iff] at h
    simp only [List.cons_append, routeLoop, h.1, h.2, Bool.false_eq_true, if_false]
    exact ih (fun r hr => ha r (by simp [hr]))

theorem firstMatch_cases (regs : List Registration) (m : Str) :
    (∀ r ∈ regs, ¬ r.template.Matches m) ∨ ∃ r, FirstMatch regs m r := by
  classical
  induction regs with
  | nil => left; simp
  | cons r rs ih =>
    by_cases h : r.template.Matches m
    · exact Or.inr ⟨r, [], rs, rfl, h, by simp⟩
    · rcases ih with ih | ⟨r', a, b, rfl, h1, h2⟩
      · left; simpa [h] using ih
      · exact Or.inr ⟨r', r :: a, b, rfl, h1, by simpa [h] using h2⟩

theorem _root_.Wayuu.Spec.FirstMatch.unique {regs : List Registration} {m : Str} {r r' : Registration} (h : FirstMatch regs m r)
    (h' : FirstMatch regs m r') : r = r' := by
  obtain ⟨a, b, rfl, h1, h2⟩ := h
  obtain ⟨c, d, e, h3, h4⟩ := h'
  rcases List.append_eq_append_iff.mp e with ⟨x, rfl, e2⟩ | ⟨x, rfl, e2⟩
  · cases x with
    | nil => simp at e2; exact e2.1
    | cons y x =>
      simp only [List.cons_append, List.cons.injEq] at e2
      obtain ⟨rfl, -⟩ := e2
      exact absurd h1 (h4 r (by simp))
  · cases x with
    | nil => simp at e2; exact e2.1.symm
    | cons y x =>
      simp only [List.cons_append, List.cons.injEq] at e2
      obtain ⟨rfl, -⟩ := e2
      exact absurd h3 (h2 r' (by simp))

/-- The request text the router compares: `METHOD:PATH`. -/
def St.target (st : St) : Str := st.req.method ++ b!":" ++ st.req.path

/-- What the router does once it has chosen a handler and a filter. -/
def runUser (env : Env) (h : Nat) (f : Option Nat) (st : St) : C (St × List Event) :=
  match f with
  | none => do
    let st' ← env.handle h st
    ok (st', [.handler h st.req])
  | some f => do
    let (st1, r) ← env.filt f st
    if r then do
      let st' ← env.handle h st1
      ok (st', [.filter f st.req, .handler h st1.req])
    else ok (st1, [.filter f st.req])

theorem router_over {env : Env} {st : St} (h : 254 ≤ st.req.method.length + st.req.path.length) :
    router_handle_request env st = ub .oob := by
  unfold router_handle_request
  rw [fmtInto_over (by simp; omega)]
  rfl

theorem router_none {env : Env} {st : St} {regs : List Registration} (hr : env.routes = regs.map regRoute)
    (hl : st.req.method.length + st.req.path.length < 254) (hm : ∀ r ∈ regs, ¬ r.template.Matches st.target) :
    router_handle_request env st = (bad_request env st >>= fun st' => ok (st', [])) := by
  unfold router_handle_request
  rw [fmtInto_ok (by simp; omega)]
  simp only [ok_bind]
  rw [hr, routeLoop_none]
  · rfl
  · intro x hx
    obtain ⟨r, hx', rfl⟩ := List.mem_map.mp hx
    have := hm r hx'
    rw [← hits_iff] at this
    simpa [St.target] using this

theorem router_some {env : Env} {st : St} {regs : List Registration} (hr : env.routes = regs.map regRoute)
    (hl : st.req.method.length + st.req.path.length < 254) {r : Registration} (hm : FirstMatch regs st.target r) :
    router_handle_request env st = (formFor st.target (regRoute r) st.req.form >>= fun form =>
      match r.handler with
      | none => bad_request env { st with req := { st.req with form := form } } >>= fun st' => ok (st', [])
      | some h => runUser env h r.filter { st with req := { st.req with form := form } }) := by
  obtain ⟨a, b, rfl, h1, h2⟩ := hm
  have e1 : (regRoute r).handler = r.handler := by
    unfold regRoute; split <;> rfl
  have e2 : (regRoute r).filter = r.filter := by
    unfold regRoute; split <;> rfl
  unfold router_handle_request
  rw [fmtInto_ok (by simp; omega)]
  simp only [ok_bind]
  rw [hr, List.map_append, List.map_cons, show st.req.method ++ b!":" ++ st.req.path = st.target from rfl,
    routeLoop_first (m := st.target) _ _ _ _ (hits_iff.mpr h1)]
  · rw [e1, e2]
    cases formFor st.target (regRoute r) st.req.form with
    | ub e => rfl
    | ok form =>
      simp only [ok_bind]
      cases r.handler with
      | none => rfl
      | some h =>
        cases r.filter with
        | none => rfl
        | some f =>
          simp only [runUser]
          cases env.filt f { st with req := { st.req with form := form } } with
          | ub e => rfl
          | ok x =>
            obtain ⟨st1, res⟩ := x
            simp only [ok_bind]
            cases res <;> rfl
  · intro x hx
    obtain ⟨y, hy, rfl⟩ := List.mem_map.mp hx
    have := h2 y hy
    rw [← hits_iff] at this
    simpa using this

theorem bad_request_eq {env : Env} {st : St} {hs : List (Str × Str)} (hh : st.req.HasHeaders hs) :
    ∃ st' start, bad_request env st = ok st' ∧ findStatus (400 : Nat) HTTP_STATUS_TABLE = some start ∧
      st'.sent = st.sent ++ statusReply start [] ∧ st'.input = st.input ∧ st'.fs = st.fs ∧ st'.live = st.live ∧
      st'.closed = st.closed ∧ st'.req = { st.req with response_length := st'.req.response_length } := by
  obtain ⟨start, hst⟩ := findStatus_some (n := 400) (by decide)
  obtain ⟨st', h1, h2, h3, h4, h5, h6, h7, h8⟩ := send_http_status_eq (env := env) hh hst (message := []) (by simp)
  refine ⟨st', start, h1, hst, h2, h5, h6, h7, h8, ?_⟩
  rw [h3]

/-- `router_extract_param` on `PREFIX ++ value`. -/
theorem router_extract_param_eq {pre name v : Str} (h : Option Nat) (f : Option Nat) (hz : NulFree (pre ++ v)) :
    router_extract_param (pre ++ v) ⟨true, pre, name, h, f⟩ =
      (if name.length ≤ 2 * pre.length + 8 then ok (name ++ b!"=" ++ v) else ub .oob) := by
  unfold router_extract_param
  dsimp only
  have : strdup (pre ++ v) = pre.map some ++ (v.map some ++ some 0 :: []) := by simp [strdup]
  rw [this, strAt_mk (by simp) (nulFree_append.mp hz).2]
  simp only [ok_bind]
  by_cases hl : name.length ≤ 2 * pre.length + 8
  · rw [if_pos hl, fmtInto_ok (by simp; omega)]
  · rw [if_neg hl, fmtInto_over (by simp; omega)]

theorem addParam_empty {form : Buf} (h : cstr form = ok []) (qs : Str) : addParam form qs = ok (strdup qs) := by
  unfold addParam
  rw [h]; rfl

theorem addParam_room {body qs : Str} {r : Buf} (hb : NulFree body) (hne : body ≠ []) :
    addParam (body.map some ++ some 0 :: r) qs =
      (if qs.length + 1 ≤ r.length then
        ok ((body ++ b!"&" ++ qs).map some ++ some 0 :: r.drop (qs.length + 1)) else ub .oob) := by
  unfold addParam
  rw [cstr_mk hb]
  simp only [ok_bind]
  rw [if_neg (by simpa using hne)]
  by_cases h : qs.length + 1 ≤ r.length
  · rw [if_pos h, strcat_mk hb (by simpa using h)]
    simp
  · rw [if_neg h]
    unfold strcat
    rw [cstr_mk hb]
    simp only [ok_bind]
    exact strcpyAt_over (by simp; omega)

end Wayuu
