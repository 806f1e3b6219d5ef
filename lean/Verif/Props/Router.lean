import Verif.Lemmas.Router
import Verif.Lemmas.Response
/-
Properties C24–C29: the router (router.c), against Spec/Router.lean.
-/
namespace Wayuu
open C Spec

/-! ### C24 -/

/-- C24. `PREFIX{name}` is decomposed into `PREFIX` and `name` whenever both fit their arrays; otherwise an
array is overrun. -/
theorem C24_resolve (pre name : Str) (hp : ∀ c ∈ pre, c ≠ 0 ∧ c ≠ 123 ∧ c < 128) (hn : NulFree name) :
    router_resolve_route (pre ++ b!"{" ++ name ++ b!"}") =
      (if pre.length < 256 ∧ name.length < 64 then ok (pre, name) else ub .oob) :=
  router_resolve_route_eq hp hn

example : router_resolve_route b!"GET:/user/{id}" = ok (b!"GET:/user/", b!"id") :=
  C24_resolve b!"GET:/user/" b!"id" (by decide) (by decide)

/-- C24, any number of registrations: they succeed exactly if all templates fit and there are at most 128
of them; the table then holds their decompositions in order. -/
theorem C24_register (regs : List Registration) (hv : ∀ r ∈ regs, r.template.Valid) :
    ((∀ r ∈ regs, r.template.Fits) ∧ regs.length ≤ 128 →
      ∃ t, register regs = ok t ∧ List.Forall₂ (fun (r : Registration) (e : Route) =>
        e.handler = r.handler ∧ e.filter = r.filter ∧
        ((e.isParam = false ∧ r.template = .const e.pre) ∨ (e.isParam = true ∧ r.template = .param e.pre e.param))) regs t) ∧
    (¬ ((∀ r ∈ regs, r.template.Fits) ∧ regs.length ≤ 128) → register regs = ub .oob) := by
  constructor
  · rintro ⟨h1, h2⟩
    refine ⟨_, (register_eq hv).mpr ⟨h1, h2, rfl⟩, ?_⟩
    clear h1 h2 hv
    induction regs with
    | nil => exact .nil
    | cons r rs ih =>
      refine .cons ?_ ih
      obtain ⟨t, h, f⟩ := r
      cases t <;> simp [regRoute]
  · intro h
    unfold register
    rw [foldlM_register regs [] hv, if_neg]
    rintro ⟨h1, h2⟩
    refine h ⟨h1, ?_⟩
    rcases h2 with rfl | h2
    · simp
    · simpa using h2

example : (Template.param b!"GET:/user/" b!"id").Valid ∧ (Template.param b!"GET:/user/" b!"id").Fits := by decide
example : router_resolve_route b!"GET:/user/{id}" = ok (b!"GET:/user/", b!"id") := by decide

/-! ### C25, C26 -/

/-- What may happen after a route with handler `h` and filter `f` was chosen: without a filter the
handler runs once, on the request; with one, the filter runs once on the request and, only if it accepts, the
handler runs once, on the state the filter left. `ev` lists the user code that ran, in order. -/
def Dispatched (env : Env) (h : Nat) (f : Option Nat) (st st' : St) (ev : List Event) : Prop :=
  match f with
  | none => env.handle h st = ok st' ∧ ev = [.handler h st.req]
  | some f =>
    (env.filt f st = ok (st', false) ∧ ev = [.filter f st.req]) ∨
    (∃ st1, env.filt f st = ok (st1, true) ∧ env.handle h st1 = ok st' ∧ ev = [.filter f st.req, .handler h st1.req])

theorem runUser_dispatched {env : Env} {h : Nat} {f : Option Nat} {st st' : St} {ev : List Event} :
    runUser env h f st = ok (st', ev) ↔ Dispatched env h f st st' ev := by
  unfold runUser Dispatched
  cases f with
  | none =>
    simp only [bind_eq_ok, C.ok.injEq, Prod.mk.injEq]
    constructor
    · rintro ⟨a, h1, rfl, rfl⟩; exact ⟨h1, rfl⟩
    · rintro ⟨h1, rfl⟩; exact ⟨_, h1, rfl, rfl⟩
  | some f =>
    simp only [bind_eq_ok]
    constructor
    · rintro ⟨⟨a, r⟩, h1, h2⟩
      cases r with
      | false =>
        simp only [Bool.false_eq_true, if_false, C.ok.injEq, Prod.mk.injEq] at h2
        obtain ⟨rfl, rfl⟩ := h2
        exact Or.inl ⟨h1, rfl⟩
      | true =>
        simp only [if_true, bind_eq_ok, C.ok.injEq, Prod.mk.injEq] at h2
        obtain ⟨b, h3, rfl, rfl⟩ := h2
        exact Or.inr ⟨a, h1, h3, rfl⟩
    · rintro (⟨h1, rfl⟩ | ⟨a, h1, h2, rfl⟩)
      · exact ⟨_, h1, by simp⟩
      · exact ⟨_, h1, by simp [h2]⟩

/-- C25. For every routing table built by `router_add_route` and every request: whenever the call
completes, either the earliest matching registration's handler was dispatched (on the request with only the
form possibly replaced), or no registration matches (or the earliest has no handler), no user code ran
and exactly one 400 response was sent. -/
theorem C25_dispatch (env : Env) (st : St) (regs : List Registration) (hs : List (Str × Str))
    (hv : ∀ r ∈ regs, r.template.Valid) (hreg : register regs = ok env.routes) (hh : st.req.HasHeaders hs)
    (st' : St) (ev : List Event) (hrun : router_handle_request env st = ok (st', ev)) :
    (∃ r h form, FirstMatch regs (st.req.method ++ b!":" ++ st.req.path) r ∧ r.handler = some h ∧
      (∀ t, r.template = .const t → form = st.req.form) ∧
      Dispatched env h r.filter { st with req := { st.req with form := form } } st' ev) ∨
    ((∀ r, FirstMatch regs (st.req.method ++ b!":" ++ st.req.path) r → r.handler = none) ∧ ev = [] ∧
      ∃ reply fields, st'.sent = st.sent ++ reply ∧ Response reply 400 fields [] ∧ Sized fields [] ∧
        st'.input = st.input ∧ st'.fs = st.fs ∧ st'.live = st.live ∧ st'.closed = st.closed) := by
  obtain ⟨-, -, hr⟩ := (register_eq hv).mp hreg
  have hl : st.req.method.length + st.req.path.length < 254 := by
    by_contra h
    rw [router_over (by omega)] at hrun
    cases hrun
  have key : ∀ (form : Buf), bad_request env { st with req := { st.req with form := form } } = ok st' →
      ∃ reply fields, st'.sent = st.sent ++ reply ∧ Response reply 400 fields [] ∧ Sized fields [] ∧
        st'.input = st.input ∧ st'.fs = st.fs ∧ st'.live = st.live ∧ st'.closed = st.closed := by
    intro form hb
    obtain ⟨st2, start, h1, h2, h3, h4, h5, h6, h7, -⟩ := bad_request_eq (env := env)
      (st := { st with req := { st.req with form := form } }) (HasHeaders.congr hh rfl rfl)
    rw [hb] at h1
    cases h1
    obtain ⟨fields, h8, h9⟩ := statusReply_response h2 []
    exact ⟨_, fields, h3, by simpa using h8, by simpa using h9, h4, h5, h6, h7⟩
  rcases firstMatch_cases regs st.target with hm | ⟨r, hm⟩
  · right
    rw [router_none hr hl hm] at hrun
    obtain ⟨a, h1, h2⟩ := bind_eq_ok.mp hrun
    simp only [C.ok.injEq, Prod.mk.injEq] at h2
    obtain ⟨rfl, rfl⟩ := h2
    refine ⟨?_, rfl, key st.req.form h1⟩
    rintro r ⟨a, b, rfl, h3, -⟩
    exact absurd h3 (hm r (by simp))
  · rw [router_some hr hl hm] at hrun
    obtain ⟨form, hf, h2⟩ := bind_eq_ok.mp hrun
    cases hd : r.handler with
    | none =>
      right
      rw [hd] at h2
      obtain ⟨a, h1, h3⟩ := bind_eq_ok.mp h2
      simp only [C.ok.injEq, Prod.mk.injEq] at h3
      obtain ⟨rfl, rfl⟩ := h3
      refine ⟨fun r' hr' => ?_, rfl, key form h1⟩
      rw [show r' = r from hr'.unique hm, hd]
    | some h =>
      left
      rw [hd] at h2
      refine ⟨r, h, form, hm, hd, ?_, runUser_dispatched.mp h2⟩
      intro t ht
      have : (regRoute r).isParam = false := by unfold regRoute; rw [ht]
      unfold formFor at hf
      rw [this] at hf
      simp at hf
      exact hf.symm

/-- C25, progress: if `METHOD:PATH` is below 255 bytes and no registration matches, the request is answered. -/
theorem C25_reject (env : Env) (st : St) (regs : List Registration) (hs : List (Str × Str))
    (hv : ∀ r ∈ regs, r.template.Valid) (hreg : register regs = ok env.routes) (hh : st.req.HasHeaders hs)
    (hl : st.req.method.length + 1 + st.req.path.length < 255)
    (hm : ∀ r ∈ regs, ¬ r.template.Matches (st.req.method ++ b!":" ++ st.req.path)) :
    ∃ st' reply fields, router_handle_request env st = ok (st', []) ∧ st'.sent = st.sent ++ reply ∧
      Response reply 400 fields [] ∧ Sized fields [] := by
  obtain ⟨-, -, hr⟩ := (register_eq hv).mp hreg
  obtain ⟨st2, start, h1, h2, h3, -⟩ := bad_request_eq (env := env) hh
  obtain ⟨fields, h8, h9⟩ := statusReply_response h2 []
  refine ⟨st2, _, fields, ?_, h3, by simpa using h8, by simpa using h9⟩
  rw [router_none hr (by omega) hm, h1]
  rfl

/-- C25, progress: a constant route that is the earliest match is dispatched, on the unchanged request. -/
theorem C25_const (env : Env) (st : St) (regs : List Registration)
    (hv : ∀ r ∈ regs, r.template.Valid) (hreg : register regs = ok env.routes)
    (hl : st.req.method.length + 1 + st.req.path.length < 255) (r : Registration) (t : Str) (h : Nat)
    (ht : r.template = .const t) (hd : r.handler = some h)
    (hm : FirstMatch regs (st.req.method ++ b!":" ++ st.req.path) r) (st' : St) (ev : List Event) :
    router_handle_request env st = ok (st', ev) ↔ Dispatched env h r.filter st st' ev := by
  obtain ⟨-, -, hr⟩ := (register_eq hv).mp hreg
  have : (regRoute r).isParam = false := by unfold regRoute; rw [ht]
  rw [router_some hr (by omega) hm, hd, ← runUser_dispatched]
  unfold formFor
  rw [this]
  simp

/-- C26. With a filter on the earliest matching route: it ran exactly once and first; the handler ran (once,
that one only) only if the filter accepted, and otherwise the state is the one the filter left: the router
sent nothing. -/
theorem C26_filter (env : Env) (st : St) (regs : List Registration) (hs : List (Str × Str))
    (hv : ∀ r ∈ regs, r.template.Valid) (hreg : register regs = ok env.routes) (hh : st.req.HasHeaders hs)
    (r : Registration) (h f : Nat) (hm : FirstMatch regs (st.req.method ++ b!":" ++ st.req.path) r)
    (hd : r.handler = some h) (hf : r.filter = some f)
    (st' : St) (ev : List Event) (hrun : router_handle_request env st = ok (st', ev)) :
    ∃ form st1 res, env.filt f { st with req := { st.req with form := form } } = ok (st1, res) ∧
      (res = false → ev = [.filter f { st.req with form := form }] ∧ st' = st1) ∧
      (res = true → ev = [.filter f { st.req with form := form }, .handler h st1.req] ∧ env.handle h st1 = ok st') := by
  rcases C25_dispatch env st regs hs hv hreg hh st' ev hrun with ⟨r', h', form, hm', hd', -, hdisp⟩ | ⟨hno, -⟩
  · have e := hm'.unique hm
    subst e
    rw [hd] at hd'
    cases hd'
    rw [hf] at hdisp
    rcases hdisp with ⟨h1, h2⟩ | ⟨st1, h1, h2, h3⟩
    · exact ⟨form, st', false, h1, fun _ => ⟨h2, rfl⟩, fun h => by (cases h)⟩
    · exact ⟨form, st1, true, h1, fun h => by (cases h), fun _ => ⟨h3, h2⟩⟩
  · have := hno r hm
    rw [hd] at this
    cases this

/-- A table with a filtered constant route, a parameter route and a route that is never reached. -/
def sampleRegs : List Registration :=
  [⟨.const b!"GET:/a", some 1, some 2⟩, ⟨.param b!"GET:/user/" b!"id", some 3, none⟩, ⟨.const b!"GET:/a", some 4, none⟩]
def sampleRouterEnv : Env := { sampleEnv with routes := sampleRegs.map regRoute }

example : (∀ r ∈ sampleRegs, r.template.Valid) ∧ register sampleRegs = ok sampleRouterEnv.routes ∧
    sampleSt.req.HasHeaders [] := ⟨by decide, by decide +kernel, sample_headers⟩
example : FirstMatch sampleRegs (sampleSt.req.method ++ b!":" ++ sampleSt.req.path) ⟨.const b!"GET:/a", some 1, some 2⟩ :=
  ⟨[], _, rfl, rfl, by simp⟩
/-- The accepting filter lets the handler run; a rejecting one does not. -/
example : (router_handle_request sampleRouterEnv sampleSt).bind (fun x => ok x.2) =
    ok [.filter 2 sampleReq, .handler 1 sampleReq] := by decide +kernel
example : (router_handle_request { sampleRouterEnv with filt := fun _ st => ok (st, false) } sampleSt).bind (fun x => ok x.2) =
    ok [.filter 2 sampleReq] := by decide +kernel
example : (router_handle_request sampleRouterEnv { sampleSt with req := { sampleReq with path := b!"/b" } }).bind
    (fun x => ok x.2) = ok [] := by decide +kernel

/-! ### C27 -/

/-- C27 as claimed, with the body in the block the server allocates for it (body and terminator). -/
def C27_statement : Prop :=
  ∀ (env : Env) (st : St) (regs : List Registration) (r : Registration) (pre name v body : Str) (h : Nat),
    (∀ r ∈ regs, r.template.Valid) → register regs = ok env.routes → NulFree body → NulFree v → v ≠ [] →
    st.req.method.length + 1 + st.req.path.length < 255 →
    r.template = .param pre name → st.req.method ++ b!":" ++ st.req.path = pre ++ v → FirstMatch regs (pre ++ v) r →
    r.handler = some h → r.filter = none → st.req.form = strdup body → (∀ st, ∃ st', env.handle h st = ok st') →
    ∃ st' form, router_handle_request env st = ok (st', [.handler h { st.req with form := form }]) ∧
      cstr form = ok (if body = [] then name ++ b!"=" ++ v else body ++ b!"&" ++ name ++ b!"=" ++ v)

/-- C27 is false of the code: with a body, appending the parameter runs past the block. -/
theorem C27_refuted : ¬ C27_statement := by
  intro h
  obtain ⟨st', form, h1, -⟩ := h sampleRouterEnv
    { sampleSt with req := { sampleReq with path := b!"/user/5", form := strdup b!"x" } } sampleRegs
    ⟨.param b!"GET:/user/" b!"id", some 3, none⟩ b!"GET:/user/" b!"id" b!"5" b!"x" 3 (by decide) (by decide +kernel)
    (by decide) (by decide) (by decide) (by decide) rfl rfl
    ⟨[⟨.const b!"GET:/a", some 1, some 2⟩], _, rfl, ⟨⟨[], b!"5", rfl⟩, by decide⟩, by
      intro r' hr'
      simp only [List.mem_cons, List.not_mem_nil, or_false] at hr'
      subst hr'
      show ¬ _ = _
      decide⟩
    rfl rfl rfl (fun st => ⟨st, rfl⟩)
  have h2 : router_handle_request sampleRouterEnv
      { sampleSt with req := { sampleReq with path := b!"/user/5", form := strdup b!"x" } } = ub .oob := by
    have : (router_handle_request sampleRouterEnv
      { sampleSt with req := { sampleReq with path := b!"/user/5", form := strdup b!"x" } }).bind (fun x => ok x.2) = ub .oob := by
      decide +kernel
    revert this
    cases router_handle_request sampleRouterEnv
      { sampleSt with req := { sampleReq with path := b!"/user/5", form := strdup b!"x" } } with
    | ok a => intro h; cases h
    | ub e => intro h; cases h; rfl
  rw [h2] at h1
  cases h1

/-- C27, what holds: the parameter route is dispatched with `name=value` if there is no body and the name is
not too long for the scratch block, and with `body&name=value` if the block holding the body has room for
the parameter; in all other cases memory is overrun. Missing: bodies in blocks of their own size, and names
longer than `2|PREFIX| + 8`. -/
theorem C27_partial (env : Env) (st : St) (regs : List Registration) (r : Registration) (pre name v body : Str)
    (room : Buf) (h : Nat) (hv : ∀ r ∈ regs, r.template.Valid) (hreg : register regs = ok env.routes)
    (hb : NulFree body) (hz : NulFree v)
    (hl : st.req.method.length + 1 + st.req.path.length < 255)
    (ht : r.template = .param pre name) (hp : st.req.method ++ b!":" ++ st.req.path = pre ++ v)
    (hm : FirstMatch regs (pre ++ v) r) (hd : r.handler = some h)
    (hform : st.req.form = body.map some ++ some 0 :: room) :
    (name.length ≤ 2 * pre.length + 8 → (body = [] ∨ name.length + v.length + 2 ≤ room.length) →
      ∃ form, cstr form = ok (if body = [] then name ++ b!"=" ++ v else body ++ b!"&" ++ name ++ b!"=" ++ v) ∧
        ∀ st' ev, router_handle_request env st = ok (st', ev) ↔
          Dispatched env h r.filter { st with req := { st.req with form := form } } st' ev) ∧
    (¬ (name.length ≤ 2 * pre.length + 8 ∧ (body = [] ∨ name.length + v.length + 2 ≤ room.length)) →
      router_handle_request env st = ub .oob) := by
  obtain ⟨-, -, hr⟩ := (register_eq hv).mp hreg
  have hval : r.template.Valid := by
    obtain ⟨a, b, rfl, -⟩ := hm
    exact hv r (by simp)
  rw [ht] at hval
  have hpz : NulFree pre := fun c hc => (hval.1 c hc).1
  have hnz : NulFree name := hval.2
  have htg : st.target = pre ++ v := hp
  have hroute : regRoute r = ⟨true, pre, name, r.handler, r.filter⟩ := by
    unfold regRoute; rw [ht]
  rw [router_some hr (by omega) (htg ▸ hm), hd, htg, hroute]
  unfold formFor
  simp only [if_true]
  rw [router_extract_param_eq _ _ (nulFree_append.mpr ⟨hpz, hz⟩), hform]
  constructor
  · intro h1 h2
    rw [if_pos h1]
    simp only [ok_bind]
    by_cases hbe : body = []
    · subst hbe
      simp only [List.map_nil, List.nil_append, if_true]
      rw [addParam_empty (by simp [cstr])]
      refine ⟨strdup (name ++ b!"=" ++ v), cstr_strdup (by simp; exact ⟨hnz, hz⟩), fun st' ev => ?_⟩
      rw [← runUser_dispatched]
      simp
    · have h3 : name.length + v.length + 2 ≤ room.length := by tauto
      rw [addParam_room hb hbe, if_pos (show (name ++ b!"=" ++ v).length + 1 ≤ room.length by simp; omega)]
      refine ⟨(body ++ b!"&" ++ (name ++ b!"=" ++ v)).map some ++
        some 0 :: room.drop ((name ++ b!"=" ++ v).length + 1), ?_, fun st' ev => ?_⟩
      · rw [cstr_mk (by simp; exact ⟨hb, hnz, hz⟩), if_neg hbe]
        simp
      · rw [← runUser_dispatched]
        simp only [ok_bind]
  · intro hn
    by_cases h1 : name.length ≤ 2 * pre.length + 8
    · rw [if_pos h1]
      have h2 : body ≠ [] ∧ ¬ name.length + v.length + 2 ≤ room.length := by
        refine ⟨fun h => hn ⟨h1, Or.inl h⟩, fun h => hn ⟨h1, Or.inr h⟩⟩
      simp only [ok_bind]
      rw [addParam_room hb h2.1, if_neg (show ¬ (name ++ b!"=" ++ v).length + 1 ≤ room.length by simp; omega)]
      rfl
    · rw [if_neg h1]
      rfl

example : ∃ form, cstr form = ok b!"id=5" ∧ ∀ st' ev,
    router_handle_request sampleRouterEnv { sampleSt with req := { sampleReq with path := b!"/user/5", form := strdup [] } } = ok (st', ev) ↔
      Dispatched sampleRouterEnv 3 none { sampleSt with req := { sampleReq with path := b!"/user/5", form := form } } st' ev :=
  (C27_partial sampleRouterEnv { sampleSt with req := { sampleReq with path := b!"/user/5", form := strdup [] } } sampleRegs
    ⟨.param b!"GET:/user/" b!"id", some 3, none⟩ b!"GET:/user/" b!"id" b!"5" [] [] 3 (by decide) (by decide +kernel) (by decide)
    (by decide) (by decide) rfl rfl
    ⟨[⟨.const b!"GET:/a", some 1, some 2⟩], _, rfl, ⟨⟨[], b!"5", rfl⟩, by decide⟩, by
      intro r' hr'
      simp only [List.mem_cons, List.not_mem_nil, or_false] at hr'
      subst hr'
      show ¬ _ = _
      decide⟩ rfl rfl).1 (by decide) (Or.inl rfl)

/-- With a body in a block of its own size, as the server allocates it, every parameter overruns. -/
theorem C27_body (env : Env) (st : St) (regs : List Registration) (r : Registration) (pre name v body : Str)
    (h : Nat) (hv : ∀ r ∈ regs, r.template.Valid) (hreg : register regs = ok env.routes)
    (hb : NulFree body) (hne : body ≠ []) (hz : NulFree v)
    (hl : st.req.method.length + 1 + st.req.path.length < 255)
    (ht : r.template = .param pre name) (hp : st.req.method ++ b!":" ++ st.req.path = pre ++ v)
    (hm : FirstMatch regs (pre ++ v) r) (hd : r.handler = some h)
    (hform : st.req.form = strdup body) : router_handle_request env st = ub .oob := by
  refine (C27_partial env st regs r pre name v body [] h hv hreg hb hz hl ht hp hm hd (by rw [hform]; rfl)).2 ?_
  rintro ⟨-, h | h⟩
  · exact hne h
  · simp at h

example : (router_handle_request sampleRouterEnv { sampleSt with req := { sampleReq with path := b!"/user/5" } }).bind
    (fun x => ok x.2) = ok [.handler 3 { sampleReq with path := b!"/user/5", form := strdup b!"id=5" }] := by decide +kernel

/-! ### C28 -/

/-- C28 as claimed: a handler only runs for a request that a registration of it is meant for. -/
def C28_statement : Prop :=
  ∀ (env : Env) (st st' : St) (regs : List Registration) (ev : List Event) (h : Nat) (req : Req),
    (∀ r ∈ regs, r.template.Valid) → register regs = ok env.routes → st.req.HasHeaders [] →
    st.req.method ∈ methods → router_handle_request env st = ok (st', ev) → .handler h req ∈ ev →
    ∃ r ∈ regs, r.handler = some h ∧ r.template.Selects (st.req.method ++ b!":" ++ st.req.path)

/-- The handler really runs in that case, with a parameter that is not what follows the prefix. -/
theorem C28_witness : (router_handle_request sampleRouterEnv
    { sampleSt with req := { sampleReq with method := b!"DELETE", path := b!"/GET:/user/1" } }).bind (fun x => ok x.2) =
    ok [.handler 3 { sampleReq with method := b!"DELETE", path := b!"/GET:/user/1", form := strdup b!"id=T:/user/1" }] := by
  decide +kernel

/-- C28 is false of the code: `DELETE:/GET:/user/1` runs the handler of `GET:/user/{id}`. -/
theorem C28_refuted : ¬ C28_statement := by
  intro h
  have hw := C28_witness
  cases hr : router_handle_request sampleRouterEnv
    { sampleSt with req := { sampleReq with method := b!"DELETE", path := b!"/GET:/user/1" } } with
  | ub e => rw [hr] at hw; cases hw
  | ok x =>
    obtain ⟨st', ev⟩ := x
    rw [hr] at hw
    have hev : ev = _ := C.ok.inj hw
    subst hev
    obtain ⟨r, hr1, hr2, hr3⟩ := h sampleRouterEnv _ st' sampleRegs _ 3 _ (by decide) (by decide +kernel)
      (show Req.HasHeaders _ [] from noHeaders rfl rfl) (by decide) hr (List.mem_cons_self ..)
    simp only [sampleRegs, List.mem_cons, List.not_mem_nil, or_false] at hr1
    rcases hr1 with rfl | rfl | rfl
    · cases hr2
    · obtain ⟨v, -, e⟩ := hr3
      simp at e
    · cases hr2

theorem colon_split {a b c d : Str} (ha : (58 : Byte) ∉ a) (hb : (58 : Byte) ∉ b) (e : a ++ 58 :: b = c ++ 58 :: d) :
    a = c ∧ b = d := by
  rcases List.append_eq_append_iff.mp e with ⟨x, rfl, e2⟩ | ⟨x, rfl, e2⟩
  · cases x with
    | nil => simp at e2; simp [e2]
    | cons y x =>
      simp only [List.cons_append, List.cons.injEq] at e2
      rw [e2.2] at hb
      simp at hb
  · cases x with
    | nil => simp at e2; simp [e2]
    | cons y x =>
      simp only [List.cons_append, List.cons.injEq] at e2
      rw [← e2.1] at ha
      simp at ha

theorem matches_selects {t : Template} {method path : Str} (h1 : method ∈ methods) (hc : (58 : Byte) ∉ path)
    (ht : ∀ pre name, t = .param pre name → ∃ M P, M ∈ methods ∧ pre = M ++ b!":" ++ P) :
    t.Matches (method ++ b!":" ++ path) ↔ t.Selects (method ++ b!":" ++ path) := by
  cases t with
  | const t => exact Iff.rfl
  | param pre name =>
    obtain ⟨M, P, h2, rfl⟩ := ht _ _ rfl
    constructor
    · rintro ⟨⟨x, v, e⟩, hne⟩
      have hmc : ∀ m ∈ methods, (58 : Byte) ∉ m := by decide
      have e' : method ++ 58 :: path = (x ++ M) ++ 58 :: (P ++ v) := by simpa using e
      obtain ⟨e1, e2⟩ := colon_split (hmc _ h1) hc e'
      have suff : ∀ m ∈ methods, ∀ m' ∈ methods, m' <:+ m → m = m' := by decide
      have e3 := suff _ h1 _ h2 ⟨x, e1.symm⟩
      subst e3
      refine ⟨v, ?_, by simp [e2]⟩
      rintro rfl
      exact hne (by simp [e2])
    · rintro ⟨v, hv, e⟩
      refine ⟨⟨[], v, by simpa using e⟩, fun e2 => hv ?_⟩
      rw [e] at e2
      simpa using e2

/-- C28, what holds: for documented methods, paths without a colon and parameter templates that start with
`METHOD:`, the handler that runs is the one of the earliest registration meant for the request. Missing:
paths with a colon, and templates without `METHOD:`. -/
theorem C28_partial (env : Env) (st st' : St) (regs : List Registration) (ev : List Event) (h : Nat) (req : Req)
    (hs : List (Str × Str))
    (hv : ∀ r ∈ regs, r.template.Valid) (hreg : register regs = ok env.routes) (hh : st.req.HasHeaders hs)
    (hmeth : st.req.method ∈ methods) (hc : (58 : Byte) ∉ st.req.path)
    (ht : ∀ r ∈ regs, ∀ pre name, r.template = .param pre name → ∃ M P, M ∈ methods ∧ pre = M ++ b!":" ++ P)
    (hrun : router_handle_request env st = ok (st', ev)) (hev : .handler h req ∈ ev) :
    ∃ a r b, regs = a ++ r :: b ∧ r.handler = some h ∧
      r.template.Selects (st.req.method ++ b!":" ++ st.req.path) ∧
      ∀ r' ∈ a, ¬ r'.template.Selects (st.req.method ++ b!":" ++ st.req.path) := by
  rcases C25_dispatch env st regs hs hv hreg hh st' ev hrun with ⟨r, h', form, hm, hd, -, hdisp⟩ | ⟨-, rfl, -⟩
  · have hh' : h = h' := by
      unfold Dispatched at hdisp
      cases hf : r.filter with
      | none =>
        rw [hf] at hdisp
        obtain ⟨-, rfl⟩ := hdisp
        simp at hev
        exact hev.1
      | some f =>
        rw [hf] at hdisp
        rcases hdisp with ⟨-, rfl⟩ | ⟨st1, -, -, rfl⟩
        · simp at hev
        · simp at hev
          exact hev.1
    subst hh'
    obtain ⟨a, b, rfl, h1, h2⟩ := hm
    refine ⟨a, r, b, rfl, hd, (matches_selects hmeth hc (ht r (by simp))).mp h1, fun r' hr' hsel => h2 r' hr' ?_⟩
    exact (matches_selects hmeth hc (ht r' (by simp [hr']))).mpr hsel
  · simp at hev

example : (58 : Byte) ∉ b!"/user/1" ∧ b!"GET" ∈ methods ∧
    (∀ r ∈ sampleRegs, ∀ pre name, r.template = .param pre name → ∃ M P, M ∈ methods ∧ pre = M ++ b!":" ++ P) := by
  refine ⟨by decide, by decide, ?_⟩
  simp only [sampleRegs, List.mem_cons, List.not_mem_nil, or_false, forall_eq_or_imp, forall_eq, reduceCtorEq,
    false_implies, implies_true, Template.param.injEq, true_and, and_true, and_imp, forall_eq']
  rintro pre name rfl rfl
  exact ⟨b!"GET", b!"/user/", by decide, rfl⟩

/-! ### C29 -/

/-- C29 as claimed, for well-behaved user code and requests without body. -/
def C29_statement : Prop :=
  ∀ (env : Env) (st : St) (regs : List Registration) (hs : List (Str × Str)),
    (∀ r ∈ regs, r.template.Valid) → register regs = ok env.routes → st.req.HasHeaders hs →
    st.req.form = strdup [] → NulFree st.req.method → NulFree st.req.path →
    (∀ h st, (env.handle h st).IsOk) → (∀ f st, (env.filt f st).IsOk) →
    st.req.method.length ≤ 254 → st.req.path.length ≤ 250 → (router_handle_request env st).IsOk

/-- C29 is false of the code: `POST` and a path of 250 bytes do not fit `matcher[255]`. -/
theorem C29_refuted : ¬ C29_statement := by
  intro h
  obtain ⟨a, ha⟩ := h sampleEnv
    { sampleSt with req := { sampleReq with method := b!"POST", path := List.replicate 250 97 } } [] []
    (by simp) rfl (noHeaders rfl rfl) rfl (by decide) (by
      intro c hc
      rw [List.eq_of_mem_replicate hc]
      decide) (fun _ st => ⟨st, rfl⟩) (fun _ st => ⟨(st, true), rfl⟩) (by decide) (List.length_replicate ..).le
  have key : ∀ p : Str, p.length = 250 → router_handle_request sampleEnv
      { sampleSt with req := { sampleReq with method := b!"POST", path := p } } = ub .oob :=
    fun p hp => router_over (show 254 ≤ 4 + p.length by omega)
  rw [key _ List.length_replicate] at ha
  cases ha

/-- C29, the exact boundary: from 255 bytes of `METHOD:PATH` on, every request overruns the buffer. -/
theorem C29_over (env : Env) (st : St) (h : 255 ≤ st.req.method.length + 1 + st.req.path.length) :
    router_handle_request env st = ub .oob := router_over (by omega)

example (path : Str) (h : path.length = 300) :
    router_handle_request sampleRouterEnv { sampleSt with req := { sampleReq with path := path } } = ub .oob :=
  C29_over _ _ (by show 255 ≤ 3 + 1 + path.length; omega)

theorem runUser_isOk {env : Env} (h1 : ∀ h st, (env.handle h st).IsOk) (h2 : ∀ f st, (env.filt f st).IsOk)
    (h : Nat) (f : Option Nat) (st : St) : (runUser env h f st).IsOk := by
  unfold runUser
  cases f with
  | none =>
    obtain ⟨a, ha⟩ := h1 h st
    exact ⟨_, by rw [ha]; rfl⟩
  | some f =>
    obtain ⟨⟨b, r⟩, hb⟩ := h2 f st
    obtain ⟨a, ha⟩ := h1 h b
    simp only [hb, ok_bind]
    cases r
    · exact ⟨_, rfl⟩
    · exact ⟨_, by simp only [if_true, ha]; rfl⟩

/-- C29, what holds: below that length, without a body, and if no template has a name longer than
`2|PREFIX| + 8`, routing does not overrun anything. Missing: longer requests, requests with a body
(C27), longer names. -/
theorem C29_partial (env : Env) (st : St) (regs : List Registration) (hs : List (Str × Str))
    (hv : ∀ r ∈ regs, r.template.Valid) (hreg : register regs = ok env.routes) (hh : st.req.HasHeaders hs)
    (hform : cstr st.req.form = ok []) (hz1 : NulFree st.req.method) (hz2 : NulFree st.req.path)
    (h1 : ∀ h st, (env.handle h st).IsOk) (h2 : ∀ f st, (env.filt f st).IsOk)
    (hl : st.req.method.length + 1 + st.req.path.length < 255)
    (hn : ∀ r ∈ regs, ∀ pre name, r.template = .param pre name → name.length ≤ 2 * pre.length + 8) :
    (router_handle_request env st).IsOk := by
  obtain ⟨-, -, hr⟩ := (register_eq hv).mp hreg
  rcases firstMatch_cases regs st.target with hm | ⟨r, hm⟩
  · rw [router_none hr (by omega) hm]
    obtain ⟨st2, start, h3, -⟩ := bad_request_eq (env := env) hh
    exact ⟨_, by rw [h3]; rfl⟩
  · rw [router_some hr (by omega) hm]
    have hmem : r ∈ regs := by
      obtain ⟨a, b, rfl, -⟩ := hm
      simp
    have hform2 : (formFor st.target (regRoute r) st.req.form).IsOk := by
      have hm2 := hm
      obtain ⟨-, -, -, hmatch, -⟩ := hm2
      obtain ⟨t, hd, f⟩ := r
      cases t with
      | const t => exact ⟨_, rfl⟩
      | param pre name =>
        obtain ⟨⟨x, v, e⟩, -⟩ := hmatch
        unfold formFor
        simp only [regRoute, if_true]
        have htz : NulFree st.target := by
          unfold St.target
          simp [hz1, hz2]
        have : (router_extract_param st.target ⟨true, pre, name, hd, f⟩).IsOk := by
          unfold router_extract_param
          dsimp only
          have hlen : pre.length ≤ st.target.length := by rw [e]; simp; omega
          rw [strdup, strAt_str hlen htz]
          simp only [ok_bind]
          have := hn _ hmem pre name rfl
          rw [fmtInto_ok (by simp; omega)]
          exact ⟨_, rfl⟩
        obtain ⟨qs, hq⟩ := this
        rw [hq]
        simp only [ok_bind]
        rw [addParam_empty hform]
        exact ⟨_, rfl⟩
    obtain ⟨form, hf⟩ := hform2
    rw [hf]
    simp only [ok_bind]
    cases r.handler with
    | none =>
      obtain ⟨st2, start, h3, -⟩ := bad_request_eq (env := env)
        (st := { st with req := { st.req with form := form } }) (HasHeaders.congr hh rfl rfl)
      exact ⟨_, by rw [h3]; rfl⟩
    | some h => exact runUser_isOk h1 h2 h _ _

example : register sampleRegs = ok sampleRouterEnv.routes ∧ cstr sampleSt.req.form = ok [] ∧
    (∀ r ∈ sampleRegs, ∀ pre name, r.template = .param pre name → name.length ≤ 2 * pre.length + 8) := by
  refine ⟨by decide +kernel, by decide, ?_⟩
  simp [sampleRegs]

end Wayuu
