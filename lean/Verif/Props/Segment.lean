import Verif.Props.Router
/-
C133: a path parameter and the segments of the path (router.c:63-91, 126-146).
-/
namespace Wayuu
open C Spec

/-- The requests a template is meant for if a parameter is one segment of the path. -/
def Spec.Template.Segment : Template → List Byte → Prop
  | .const t, m => m = t
  | .param pre _, m => ∃ v, v ≠ [] ∧ (47 : Byte) ∉ v ∧ m = pre ++ v

/-- C133 in full: the handler that runs was registered for the request, its parameter being one non-empty segment of the path. -/
def C133_statement : Prop :=
  ∀ (env : Env) (st st' : St) (regs : List Registration) (ev : List Event) (h : Nat) (req : Req) (hs : List (Str × Str)),
    (∀ r ∈ regs, r.template.Valid) → register regs = ok env.routes → st.req.HasHeaders hs →
    (∀ r ∈ regs, ∀ pre name, r.template = .param pre name → ∃ M P, M ∈ methods ∧ pre = M ++ b!":" ++ P) →
    st.req.method ∈ methods → (58 : Byte) ∉ st.req.path → router_handle_request env st = ok (st', ev) → .handler h req ∈ ev →
    ∃ r ∈ regs, r.handler = some h ∧ r.template.Segment (st.req.method ++ b!":" ++ st.req.path)

/-- A request for a page below a user. -/
def nestedSt : St := { sampleSt with req := { sampleReq with path := b!"/user/5/keys" } }

/-- C133 is false: `GET:/user/{id}` is run for `/user/5/keys`. -/
theorem C133_refuted : ¬ C133_statement := by
  intro h
  have key : (router_handle_request sampleRouterEnv nestedSt).bind (fun x => ok x.2) =
      ok [.handler 3 { sampleReq with path := b!"/user/5/keys", form := strdup b!"id=5/keys" }] := by decide +kernel
  cases hr : router_handle_request sampleRouterEnv nestedSt with
  | ub f => rw [hr] at key; cases key
  | ok x =>
    obtain ⟨st', ev⟩ := x
    rw [hr] at key
    obtain rfl := C.ok.inj key
    obtain ⟨r, h1, h2, h3⟩ := h _ _ _ sampleRegs _ 3 _ [] (by decide) (by decide +kernel) sample_headers (by
      intro r hr pre name he
      simp only [sampleRegs, List.mem_cons, List.not_mem_nil, or_false] at hr
      rcases hr with rfl | rfl | rfl
      · cases he
      · cases he
        exact ⟨b!"GET", b!"/user/", by decide, rfl⟩
      · cases he) (by decide) (by decide) hr (by simp; rfl)
    simp only [sampleRegs, List.mem_cons, List.not_mem_nil, or_false] at h1
    rcases h1 with rfl | rfl | rfl
    · exact absurd h2 (by decide)
    · obtain ⟨v, -, h4, h5⟩ := h3
      have : v = b!"5/keys" := by
        have : (nestedSt.req.method ++ b!":" ++ nestedSt.req.path).drop 10 = v := by rw [h5]; rfl
        rw [← this]; rfl
      subst this
      exact absurd h4 (by decide)
    · exact absurd h2 (by decide)

/-- C133, what holds: the parameter is one non-empty segment if the path has no more slashes than the prefix of any parameter
route. Missing: longer paths, see `C133_nested`. -/
theorem C133_partial (env : Env) (st st' : St) (regs : List Registration) (ev : List Event) (h : Nat) (req : Req)
    (hs : List (Str × Str)) (hv : ∀ r ∈ regs, r.template.Valid) (hreg : register regs = ok env.routes) (hh : st.req.HasHeaders hs)
    (ht : ∀ r ∈ regs, ∀ pre name, r.template = .param pre name → ∃ M P, M ∈ methods ∧ pre = M ++ b!":" ++ P)
    (hmeth : st.req.method ∈ methods) (hc : (58 : Byte) ∉ st.req.path)
    (hslash : ∀ r ∈ regs, ∀ pre name, r.template = .param pre name → st.req.path.count 47 ≤ pre.count 47)
    (hrun : router_handle_request env st = ok (st', ev)) (hev : .handler h req ∈ ev) :
    ∃ r ∈ regs, r.handler = some h ∧ r.template.Segment (st.req.method ++ b!":" ++ st.req.path) := by
  obtain ⟨a, r, b, rfl, h1, h2, -⟩ := C28_partial env st st' _ ev h req hs hv hreg hh hmeth hc ht hrun hev
  refine ⟨r, by simp, h1, ?_⟩
  cases hr : r.template with
  | const t => rw [hr] at h2; exact h2
  | param pre name =>
    rw [hr] at h2
    obtain ⟨v, hv0, e⟩ := h2
    refine ⟨v, hv0, ?_, e⟩
    have hm0 : ∀ m ∈ methods, m.count 47 = 0 := by decide
    have hcnt := congrArg (List.count 47) e
    rw [List.count_append, List.count_append, List.count_append, hm0 _ hmeth, show List.count 47 b!":" = 0 from rfl] at hcnt
    have := hslash r (by simp) pre name hr
    exact List.count_eq_zero.mp (by omega)

/-- C133, what happens to longer paths: the route takes every page below its prefix, however deep, and the handler gets the rest
of the path, slashes included, as the value of its parameter. -/
theorem C133_nested (env : Env) (st : St) (regs : List Registration) (r : Registration) (pre name v w : Str)
    (room : Buf) (h : Nat) (hv : ∀ r ∈ regs, r.template.Valid) (hreg : register regs = ok env.routes)
    (hz : NulFree (v ++ b!"/" ++ w)) (hl : st.req.method.length + 1 + st.req.path.length < 255) (ht : r.template = .param pre name)
    (hp : st.req.method ++ b!":" ++ st.req.path = pre ++ (v ++ b!"/" ++ w)) (a b : List Registration) (hr : regs = a ++ r :: b)
    (hfirst : ∀ r' ∈ a, ¬ r'.template.Matches (pre ++ (v ++ b!"/" ++ w))) (hd : r.handler = some h)
    (hform : st.req.form = some 0 :: room) (hname : name.length ≤ 2 * pre.length + 8) :
    ∃ form, cstr form = ok (name ++ b!"=" ++ v ++ b!"/" ++ w) ∧
      ∀ st' ev, router_handle_request env st = ok (st', ev) ↔
        Dispatched env h r.filter { st with req := { st.req with form := form } } st' ev := by
  have hm : FirstMatch regs (pre ++ (v ++ b!"/" ++ w)) r := by
    refine ⟨a, b, hr, ?_, hfirst⟩
    rw [ht]
    exact ⟨⟨[], v ++ b!"/" ++ w, rfl⟩, by simp⟩
  obtain ⟨form, h1, h2⟩ := (C27_partial env st regs r pre name (v ++ b!"/" ++ w) [] room h hv hreg
    (fun c hc => by cases hc) hz hl ht hp hm hd (by simpa using hform)).1 hname (Or.inl rfl)
  refine ⟨form, ?_, h2⟩
  rw [h1, if_pos rfl]
  simp

/-- The hypotheses of `C133_partial`: the sample routes and a path of two segments. -/
example : (∀ r ∈ sampleRegs, ∀ pre name, r.template = .param pre name → (b!"/user/5").count 47 ≤ pre.count 47) := by
  intro r hr pre name he
  simp only [sampleRegs, List.mem_cons, List.not_mem_nil, or_false] at hr
  rcases hr with rfl | rfl | rfl <;> cases he
  decide
example : nestedSt.req.method ++ b!":" ++ nestedSt.req.path = b!"GET:/user/" ++ (b!"5" ++ b!"/" ++ b!"keys") ∧
    nestedSt.req.form = some 0 :: [] := by decide +kernel

end Wayuu
