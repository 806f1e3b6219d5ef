import Verif.Spec.Trail
import Verif.Props.Messages
import Verif.Props.Router
/-
Property C157 (router.c:81-179 and log.c:63-92): what the server log says about the routing of a request.
-/
namespace Wayuu
open C Spec

/-- C157 as claimed: at the levels the command line can set, the server log tells how a request was routed. -/
def C157_statement : Prop :=
  ∀ (env : Env) (req : Req) (regs : List Registration) (ms : List Msg) (level : Nat), level = DEBUG_LEVEL ∨ level = DEFAULT_LEVEL →
    (∀ r ∈ regs, r.template.Valid) → register regs = ok env.routes → router_msgs env req = ok ms →
    ∃ param lost, ParamLine regs (req.method ++ b!":" ++ req.path) param ∧ LostLines regs req.method req.path req.IP req.url lost ∧
      (written level ms).map Msg.text = (b!"Router handle request " ++ req.method ++ b!":" ++ req.path) :: param ++ lost

theorem param_msgs_none {m : Str} (a : List Route) (ha : ∀ r ∈ a, hits m r = false) : param_msgs m a = [] := by
  induction a with
  | nil => rfl
  | cons r a ih =>
    have h := ha r (by simp)
    simp only [hits, Bool.or_eq_false_iff] at h
    simp only [param_msgs, h.1, h.2, Bool.false_eq_true, if_false]
    exact ih (fun r hr => ha r (by simp [hr]))

theorem param_msgs_first {m : Str} (a b : List Route) (r : Route) (ha : ∀ r ∈ a, hits m r = false) (hr : hits m r = true) :
    param_msgs m (a ++ r :: b) = if r.isParam then
      [⟨1, b!"router_extract_param(path=" ++ m ++ b!",prefix=" ++ r.pre ++ b!",param=" ++ r.param ++ b!")"⟩] else [] := by
  induction a with
  | nil =>
    simp only [List.nil_append, param_msgs]
    unfold hits at hr
    cases hp : r.isParam with
    | false =>
      simp only [hp, Bool.not_false, Bool.true_and, Bool.false_and, Bool.or_false] at hr
      simp [hr]
    | true =>
      simp only [hp, Bool.not_true, Bool.true_and, Bool.false_and, Bool.false_or] at hr
      simp only [Bool.not_true, Bool.false_and, Bool.false_eq_true, if_false, Bool.true_and, hr, if_true]
  | cons x a ih =>
    have h := ha x (by simp)
    simp only [hits, Bool.or_eq_false_iff] at h
    simp only [List.cons_append, param_msgs, h.1, h.2, Bool.false_eq_true, if_false]
    exact ih (fun r hr => ha r (by simp [hr]))

/-- C157, with `-d`: exactly the texts that tell which registration was taken, which parameter was bound, and that there is no handler if
there is none. Missing: at the default level nothing is written (`C157_quiet`). -/
theorem C157_partial (env : Env) (req : Req) (regs : List Registration) (ms : List Msg) (hv : ∀ r ∈ regs, r.template.Valid)
    (hreg : register regs = ok env.routes) (h : router_msgs env req = ok ms) :
    ∃ param lost, ParamLine regs (req.method ++ b!":" ++ req.path) param ∧ LostLines regs req.method req.path req.IP req.url lost ∧
      (written DEBUG_LEVEL ms).map Msg.text = (b!"Router handle request " ++ req.method ++ b!":" ++ req.path) :: param ++ lost := by
  obtain ⟨-, -, hr⟩ := (register_eq hv).mp hreg
  have hlev : written DEBUG_LEVEL ms = ms := List.filter_eq_self.mpr fun m hm => by simp [router_level h m hm]
  rw [hlev]
  unfold router_msgs at h
  obtain ⟨m, h1, h⟩ := bind_eq_ok.mp h
  obtain ⟨-, rfl⟩ := fmtInto_eq_ok.mp h1
  obtain ⟨⟨hd, f, form⟩, h2, h⟩ := bind_eq_ok.mp h
  dsimp only at h
  have no : ∀ {a : List Registration}, (∀ r ∈ a, ¬ r.template.Matches (req.method ++ b!":" ++ req.path)) →
      ∀ r ∈ a.map regRoute, hits (req.method ++ b!":" ++ req.path) r = false := fun ha r hra => by
    obtain ⟨x, hx, rfl⟩ := List.mem_map.mp hra
    rw [← Bool.not_eq_true, hits_iff]
    exact ha x hx
  rcases firstMatch_cases regs (req.method ++ b!":" ++ req.path) with hm | ⟨r, hm⟩
  · rw [hr, routeLoop_none _ (no hm)] at h2
    rw [hr, param_msgs_none _ (no hm)] at h
    cases h2
    cases h
    refine ⟨[], _, .unbound ?_, .lost ?_, rfl⟩
    · rintro r pre name ⟨a, b, rfl, h3, -⟩
      exact absurd h3 (hm r (by simp))
    · rintro r ⟨a, b, rfl, h3, -⟩
      exact absurd h3 (hm r (by simp))
  · obtain ⟨a, b, e, h3, h4⟩ := id hm
    have hlist : env.routes = a.map regRoute ++ regRoute r :: b.map regRoute := by rw [hr, e]; simp
    rw [hlist, routeLoop_first _ _ _ (no h4) (hits_iff.mpr h3)] at h2
    rw [hlist, param_msgs_first _ _ _ (no h4) (hits_iff.mpr h3)] at h
    obtain ⟨form', -, h2⟩ := bind_eq_ok.mp h2
    cases h2
    have hp : ∃ param, ParamLine regs (req.method ++ b!":" ++ req.path) param ∧ (if (regRoute r).isParam then
        [⟨1, b!"router_extract_param(path=" ++ (req.method ++ b!":" ++ req.path) ++ b!",prefix=" ++ (regRoute r).pre ++ b!",param=" ++
          (regRoute r).param ++ b!")"⟩] else ([] : List Msg)).map Msg.text = param := by
      cases ht : r.template with
      | const t =>
        refine ⟨[], .unbound fun r' pre name hr' => ?_, by simp [regRoute, ht]⟩
        rw [hr'.unique hm, ht]
        simp
      | param pre name => exact ⟨_, .bound r pre name hm ht, by simp [regRoute, ht]⟩
    obtain ⟨param, hp1, hp2⟩ := hp
    have hh : (regRoute r).handler = r.handler := by unfold regRoute; split <;> rfl
    rw [hh] at h
    cases hd : r.handler with
    | none =>
      rw [hd] at h
      cases h
      refine ⟨param, _, hp1, .lost fun r' hr' => by rw [hr'.unique hm, hd], ?_⟩
      simp only [List.map_append, List.map_cons, hp2, List.map_nil]
    | some k =>
      rw [hd] at h
      cases h
      refine ⟨param, _, hp1, .found r k hm hd, ?_⟩
      simp only [List.map_cons, hp2, List.append_nil]

/-- C157: at the default level the routing of a request leaves nothing in the server log. -/
theorem C157_quiet (env : Env) (req : Req) (ms : List Msg) (h : router_msgs env req = ok ms) : written DEFAULT_LEVEL ms = [] :=
  List.filter_eq_nil_iff.mpr fun m hm => by simp [router_level h m hm]

/-- C157: whenever the router has done its work there are such messages. -/
theorem C157_defined (env : Env) (st st' : St) (ev : List Event) (h : router_handle_request env st = ok (st', ev)) :
    ∃ ms, router_msgs env st.req = ok ms := router_defined h

/-- C157 is false at the default level. -/
theorem C157_refuted : ¬ C157_statement := by
  intro h
  obtain ⟨param, lost, -, -, h3⟩ := h { sampleEnv with routes := [] } sampleReq [] _ DEFAULT_LEVEL (.inr rfl) (by simp) rfl rfl
  rw [C157_quiet { sampleEnv with routes := [] } sampleReq _ rfl] at h3
  cases h3

/-- A route with a parameter is taken. -/
example : router_msgs sampleRouterEnv { sampleReq with path := b!"/user/7" } =
    ok [⟨1, b!"Router handle request GET:/user/7"⟩, ⟨1, b!"router_extract_param(path=GET:/user/7,prefix=GET:/user/,param=id)"⟩] := by
  decide +kernel

/-- No route matches. -/
example : router_msgs sampleRouterEnv { sampleReq with path := b!"/b" } =
    ok [⟨1, b!"Router handle request GET:/b"⟩, ⟨1, b!"Unable to find matching route for method GET and path /b"⟩,
      ⟨1, b!"IP:" ++ sampleReq.IP ++ b!" Ignored API URL: " ++ sampleReq.url⟩] := by
  decide +kernel

end Wayuu
