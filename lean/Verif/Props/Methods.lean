import Verif.Props.Admission
/-
C99: a handler is only run by requests of the method it was registered for (ws.c:463-656 and router.c:113-173 together).
-/
namespace Wayuu
open C Spec

/-- C99 in full: a handler is only run by requests of the method it was registered for; so links and images of other
sites, which make a browser send GET requests, do not run a handler for another method. -/
def C99_statement : Prop :=
  ∀ (env : Env) (st st' : St) (socket : Nat) (peer line text method url rest : Str) (regs : List Registration)
    (ev : List Event) (h : Nat) (req : Req),
    peer.length < 24 → Begins st.input line text method url rest → method ∈ methods →
    (∀ r ∈ regs, r.template.Valid ∧ ∃ M P, M ∈ methods ∧ r.template.text = M ++ b!":" ++ P) → register regs = ok env.routes →
    accept_request env st socket peer = ok (st', ev) → .handler h req ∈ ev →
    ∃ r ∈ regs, r.handler = some h ∧ method ++ b!":" <+: r.template.text

/-- The user code run by the router belongs to the first registration that matches. -/
theorem router_first {env : Env} {st st' : St} {ev : List Event} {regs : List Registration} {h : Nat} {req : Req}
    (hv : ∀ r ∈ regs, r.template.Valid) (hreg : register regs = ok env.routes)
    (hrun : router_handle_request env st = ok (st', ev)) (hev : .handler h req ∈ ev) :
    ∃ r, FirstMatch regs (st.req.method ++ b!":" ++ st.req.path) r ∧ r.handler = some h := by
  unfold router_handle_request at hrun
  obtain ⟨m, hm, hrun⟩ := bind_eq_ok.mp hrun
  obtain ⟨-, rfl⟩ := fmtInto_eq_ok.mp hm
  obtain ⟨⟨hd, fl, form⟩, hl, hrun⟩ := bind_eq_ok.mp hrun
  have hr : env.routes = regs.map regRoute := ((register_eq hv).mp hreg).2.2
  rw [hr] at hl
  rcases firstMatch_cases regs (st.req.method ++ b!":" ++ st.req.path) with hno | ⟨r, hf⟩
  · rw [routeLoop_none] at hl
    · simp only [ok.injEq, Prod.mk.injEq] at hl
      obtain ⟨rfl, -, -⟩ := hl
      simp only at hrun
      obtain ⟨_, -, hrun⟩ := bind_eq_ok.mp hrun
      simp only [ok.injEq, Prod.mk.injEq] at hrun
      rw [← hrun.2] at hev
      cases hev
    · intro x hx
      obtain ⟨r, hr, rfl⟩ := List.mem_map.mp hx
      have := mt hits_iff.mp (hno r hr)
      simpa using this
  · refine ⟨r, hf, ?_⟩
    obtain ⟨a, b, rfl, h1, h2⟩ := hf
    rw [List.map_append, List.map_cons, routeLoop_first _ _ _ (fun x hx => by
      obtain ⟨r, hr, rfl⟩ := List.mem_map.mp hx
      have := mt hits_iff.mp (h2 r hr)
      simpa using this) (hits_iff.mpr h1)] at hl
    obtain ⟨f, -, hl⟩ := bind_eq_ok.mp hl
    simp only [ok.injEq, Prod.mk.injEq] at hl
    obtain ⟨hh, hfl, rfl⟩ := hl
    have hh : hd = r.handler := by
      rw [← hh]; unfold regRoute; split <;> rfl
    rw [← hh]
    cases hd with
    | none =>
      simp only at hrun
      obtain ⟨_, -, hrun⟩ := bind_eq_ok.mp hrun
      simp only [ok.injEq, Prod.mk.injEq] at hrun
      rw [← hrun.2] at hev
      cases hev
    | some h' =>
      simp only at hrun
      cases fl with
      | none =>
        simp only at hrun
        obtain ⟨_, -, hrun⟩ := bind_eq_ok.mp hrun
        simp only [ok.injEq, Prod.mk.injEq] at hrun
        rw [← hrun.2] at hev
        simp only [List.mem_singleton, Event.handler.injEq] at hev
        rw [hev.1]
      | some f' =>
        simp only at hrun
        obtain ⟨⟨s1, b1⟩, -, hrun⟩ := bind_eq_ok.mp hrun
        simp only at hrun
        split at hrun
        · simp only [ok.injEq, Prod.mk.injEq] at hrun
          rw [← hrun.2] at hev
          simp at hev
        · obtain ⟨_, -, hrun⟩ := bind_eq_ok.mp hrun
          simp only [ok.injEq, Prod.mk.injEq] at hrun
          rw [← hrun.2] at hev
          simp at hev
          rw [hev.1]

theorem readForm_req {env : Env} {st st' : St} {n : Int} {b : Str} (h : readForm env st n b = ok st') :
    st'.req.method = st.req.method ∧ st'.req.path = st.req.path := by
  unfold readForm at h
  split at h
  · obtain ⟨⟨_, _⟩, -, h⟩ := bind_eq_ok.mp h
    dsimp only at h
    split at h
    · obtain ⟨⟨_, _⟩, -, h⟩ := bind_eq_ok.mp h
      cases h
      exact ⟨rfl, rfl⟩
    · cases h
      exact ⟨rfl, rfl⟩
  · cases h
    exact ⟨rfl, rfl⟩

/-- The path of a URL that does not begin with a question mark. -/
theorem get_path_eq {url path query p q : Str} (hz : NulFree url) (hl : url.length ≤ 254) (h : UrlParts url path query)
    (hp : path ≠ []) (hg : get_path_and_query_string url = ok (p, q)) : p = path := by
  have hpath : ∀ c ∈ path, c ∉ b!"?" := by
    intro c hc h'
    simp only [List.mem_singleton] at h'
    subst h'
    rcases h with h | h
    · exact h.2.2 hc
    · exact h.2 hc
  obtain ⟨ts, hr⟩ : ∃ ts, Runs b!"?" url (path :: ts) := by
    rcases h with ⟨rfl, rfl, -⟩ | ⟨rfl, -⟩
    · exact ⟨[], by simpa using Runs.last (delim := b!"?") [] url (by simp) hp hpath⟩
    · obtain ⟨ts, ht⟩ := runs_exists b!"?" query
      exact ⟨ts, by simpa using Runs.cons (delim := b!"?") [] path 63 query ts (by simp) hp hpath (by simp) ht⟩
  have hlen : ∀ u ∈ path :: ts, u.length < 1023 := by
    intro u hu
    have := runs_token_length hr u hu
    omega
  by_cases hcnt : (path :: ts).length ≤ 50
  · rw [C36_runs_partial url path ts hz hr hlen hcnt] at hg
    simp only [ok.injEq, Prod.mk.injEq] at hg
    exact hg.1.symm
  · exfalso
    have := splitLoop_over hr [] (url.length + 1) (by have := runs_length hr; omega) (by simp) (by simp at hcnt ⊢; omega) hlen
    unfold get_path_and_query_string at hg
    rw [show split url b!"?" = ub .oob from this] at hg
    cases hg

/-- A request that runs user code: what the router is given. -/
theorem runs_router {env : Env} {st st' : St} {socket : Nat} {peer line text method url rest path query : Str} {ev : List Event}
    {e : Event} (hp : peer.length < 24) (hb : Begins st.input line text method url rest) (hs : Supported method)
    (hparts : UrlParts url path query) (hrun : accept_request env st socket peer = ok (st', ev)) (hev : e ∈ ev) :
    CasePrefix b!"/api" url ∧ ∃ st1 st2, st1.req.method = method ∧ st1.req.path = path.drop 4 ∧
      router_handle_request env st1 = ok (st2, ev) := by
  have hu : CasePrefix b!"/api" url := by
    by_contra hu
    rw [(C64_static env st socket peer line text method url rest env.routes env.handle env.filt hp hb hs hu).2 st' ev hrun] at hev
    cases hev
  refine ⟨hu, ?_⟩
  rw [begins_line hb hp hs] at hrun
  obtain ⟨⟨added, live⟩, -, hrun⟩ := bind_eq_ok.mp hrun
  dsimp only at hrun
  split at hrun
  · obtain ⟨_, -, hrun⟩ := bind_eq_ok.mp hrun
    simp only [ok.injEq, Prod.mk.injEq] at hrun
    rw [← hrun.2] at hev
    cases hev
  · obtain ⟨h, -, hrun⟩ := bind_eq_ok.mp hrun
    obtain ⟨⟨s2, ev2⟩, hd, hrun⟩ := bind_eq_ok.mp hrun
    simp only [ok.injEq, Prod.mk.injEq] at hrun
    obtain ⟨-, rfl⟩ := hrun
    have hget : ∃ p q, get_path_and_query_string url = ok (p, q) := by
      unfold dispatch at hd
      obtain ⟨⟨p, q⟩, hg, -⟩ := bind_eq_ok.mp hd
      exact ⟨p, q, hg⟩
    obtain ⟨p, q, hg⟩ := hget
    obtain ⟨mount, hml, hmp⟩ : ∃ mount, mount.length = 4 ∧ path = mount ++ path.drop 4 := by
      obtain ⟨m, r, e, hm⟩ := hu
      have hml : m.length = 4 := by simpa using congrArg List.length hm
      have h63 : (63 : Byte) ∉ m := by
        intro h
        have : lower 63 ∈ m.map lower := List.mem_map_of_mem h
        rw [hm] at this
        revert this
        decide
      have key : ∃ t, path = m ++ t := by
        rcases hparts with ⟨rfl, -⟩ | ⟨e2, -⟩
        · exact ⟨r, e⟩
        · rw [e] at e2
          rcases List.append_eq_append_iff.mp e2 with ⟨x, e3, -⟩ | ⟨x, e3, e4⟩
          · exact ⟨x, e3⟩
          · cases x with
            | nil => exact ⟨[], by simpa using e3.symm⟩
            | cons c x =>
              simp only [List.cons_append, List.cons.injEq] at e4
              rw [e3, ← e4.1] at h63
              simp at h63
      obtain ⟨t, rfl⟩ := key
      exact ⟨m, hml, by rw [← hml, List.drop_left]⟩
    have hpne : path ≠ [] := by rintro rfl; simp at hmp; rw [hmp] at hml; simp at hml
    obtain rfl := get_path_eq hb.nulFree hb.2.2.2.2 hparts hpne hg
    have hz : NulFree (p.drop 4) := by
      intro c hc
      have hc := List.mem_of_mem_drop hc
      refine hb.nulFree c ?_
      rcases hparts with ⟨rfl, -⟩ | ⟨rfl, -⟩
      · exact hc
      · simp [hc]
    rw [dispatch_api (mount := mount) (path := p.drop 4) hu (by rw [← hmp]; exact hg) hml hz] at hd
    unfold handle_api_request at hd
    obtain ⟨s1, h1, hd⟩ := bind_eq_ok.mp hd
    refine ⟨s1, s2, ?_, ?_, hd⟩
    · rw [(readForm_req h1).1]; rfl
    · rw [(readForm_req h1).2]

/-- C99, what holds: for paths without a colon, the handler that runs is the one of the first registration meant for the
method and the path. Missing: paths with a colon. -/
theorem C99_partial (env : Env) (st st' : St) (socket : Nat) (peer line text method url rest path query : Str)
    (regs : List Registration) (ev : List Event) (h : Nat) (req : Req)
    (hp : peer.length < 24) (hb : Begins st.input line text method url rest) (hm : method ∈ methods)
    (hparts : UrlParts url path query) (hc : (58 : Byte) ∉ path)
    (hv : ∀ r ∈ regs, r.template.Valid ∧ ∃ M P, M ∈ methods ∧ r.template.text = M ++ b!":" ++ P)
    (hreg : register regs = ok env.routes)
    (hrun : accept_request env st socket peer = ok (st', ev)) (hev : .handler h req ∈ ev) :
    ∃ a r b, regs = a ++ r :: b ∧ r.handler = some h ∧ method ++ b!":" <+: r.template.text ∧
      r.template.Selects (method ++ b!":" ++ path.drop 4) ∧
      ∀ r' ∈ a, ¬ r'.template.Selects (method ++ b!":" ++ path.drop 4) := by
  have hs : Supported method := ⟨method, hm, ⟨method, [], by simp, rfl⟩⟩
  obtain ⟨-, st1, st2, e1, e2, hr⟩ := runs_router hp hb hs hparts hrun hev
  obtain ⟨r, ⟨a, b, rfl, h1, h2⟩, h3⟩ := router_first (fun r hr => (hv r hr).1) hreg hr hev
  rw [e1, e2] at h1 h2
  have ht : ∀ r' ∈ a ++ r :: b, ∀ pre name, r'.template = .param pre name → ∃ M P, M ∈ methods ∧ pre = M ++ b!":" ++ P := by
    intro r' hr' pre name e
    obtain ⟨hval, M, P, hM, ht⟩ := hv r' hr'
    rw [e] at ht hval
    have hmc : ∀ m ∈ methods, (123 : Byte) ∉ m := by decide
    have ht' : pre ++ 123 :: (name ++ b!"}") = (M ++ b!":") ++ P := by simpa [Template.text] using ht
    rcases List.append_eq_append_iff.mp ht' with ⟨x, e3, e4⟩ | ⟨x, e3, -⟩
    · cases x with
      | nil => exact ⟨M, [], hM, by simpa using e3.symm⟩
      | cons y x =>
        exfalso
        simp only [List.cons_append, List.cons.injEq] at e4
        have : (123 : Byte) ∈ M ++ b!":" := by rw [e3, e4.1]; simp
        rcases List.mem_append.mp this with h | h
        · exact hmc M hM h
        · revert h; decide
    · exact ⟨M, x, hM, e3⟩
  have hc4 : (58 : Byte) ∉ path.drop 4 := fun h => hc (List.mem_of_mem_drop h)
  have hsel := (matches_selects hm hc4 (ht r (by simp))).mp h1
  refine ⟨a, r, b, rfl, h3, ?_, hsel, fun r' hr' hs' => h2 r' hr' ((matches_selects hm hc4 (ht r' (by simp [hr']))).mpr hs')⟩
  cases htm : r.template with
  | const t =>
    rw [htm] at hsel
    have : method ++ b!":" ++ path.drop 4 = t := hsel
    exact ⟨path.drop 4, this⟩
  | param pre name =>
    rw [htm] at hsel
    obtain ⟨v, -, ev⟩ := hsel
    obtain ⟨M, P, hM, rfl⟩ := ht r (by simp) pre name htm
    have hmc : ∀ m ∈ methods, (58 : Byte) ∉ m := by decide
    obtain ⟨rfl, -⟩ := colon_split (hmc _ hm) hc4 (show method ++ 58 :: path.drop 4 = M ++ 58 :: (P ++ v) by simpa using ev)
    exact ⟨P ++ b!"{" ++ name ++ b!"}", by simp [Template.text]⟩

/-- A table with a route that deletes. -/
def deleteRegs : List Registration := [⟨.const b!"GET:/a", some 1, none⟩, ⟨.param b!"DELETE:/user/" b!"id", some 3, none⟩]
def deleteEnv : Env := { sampleEnv with routes := deleteRegs.map regRoute }
def linkSt (url : Str) : St :=
  { sampleSt with live := [⟨0, [], []⟩], input := b!"GET " ++ url ++ b!" HTTP/1.1\r\n\r\n" }

/-- What was run. -/
def ranIds : List Event → List Nat
  | [] => []
  | .handler h _ :: r => h :: ranIds r
  | .filter _ _ :: r => ranIds r

theorem C99_witness : (accept_request deleteEnv (linkSt b!"/api/aDELETE:/user/5") 7 b!"10.0.0.1").bind (fun x => ok (ranIds x.2)) =
    ok [3] := by decide +kernel

theorem ranIds_mem {ev : List Event} {h : Nat} (hh : h ∈ ranIds ev) : ∃ req, Event.handler h req ∈ ev := by
  induction ev with
  | nil => cases hh
  | cons e ev ih =>
    cases e with
    | handler k req =>
      rcases List.mem_cons.mp hh with rfl | hh
      · exact ⟨req, by simp⟩
      · obtain ⟨r, hr⟩ := ih hh; exact ⟨r, by simp [hr]⟩
    | filter k req => obtain ⟨r, hr⟩ := ih hh; exact ⟨r, by simp [hr]⟩

theorem begins_link {url : Str} (h1 : url.length ≤ 254) (h2 : url ≠ []) (h3 : ∀ c ∈ url, ¬ White c ∧ c ≠ 0) :
    Begins (linkSt url).input (b!"GET " ++ url ++ b!" HTTP/1.1\r\n") (b!"GET " ++ url ++ b!" HTTP/1.1\r\n") b!"GET" url b!"\r\n" := by
  have hn10 : ∀ c ∈ url, c ≠ 10 := by
    rintro c hc rfl
    exact (h3 _ hc).1 (Or.inr (by decide))
  refine ⟨⟨by show b!"GET " ++ url ++ b!" HTTP/1.1\r\n\r\n" = _; simp, by simp; omega, ?_, Or.inr (Or.inl (by rw [List.getLast?_append_of_ne_nil _ (by decide)]; rfl))⟩, ⟨?_, Or.inl rfl⟩,
    ⟨b!" ", 32, b!"HTTP/1.1\r\n", by simp, by unfold White; decide, by decide, by unfold White; decide, h2,
      fun c hc => (h3 c hc).1, by unfold White; decide⟩, by decide, h1⟩
  · intro h
    rw [List.dropLast_append_of_ne_nil (by decide)] at h
    rcases List.mem_append.mp h with h | h
    · rcases List.mem_append.mp h with h | h
      · revert h; decide
      · exact hn10 _ h rfl
    · revert h; decide
  · intro c hc
    rcases List.mem_append.mp hc with h | h
    · clear hc
      rcases List.mem_append.mp h with h2 | h
      · clear h; revert h2; revert c; decide
      · exact (h3 c h).2
    · clear hc; revert h; revert c; decide

theorem delete_regs : ∀ r ∈ deleteRegs, r.template.Valid ∧ ∃ M P, M ∈ methods ∧ r.template.text = M ++ b!":" ++ P := by
  intro r hr
  simp only [deleteRegs, List.mem_cons, List.not_mem_nil, or_false] at hr
  rcases hr with rfl | rfl
  · exact ⟨by decide, b!"GET", b!"/a", by decide, rfl⟩
  · exact ⟨by decide, b!"DELETE", b!"/user/{id}", by decide, rfl⟩

/-- C99 fails: the link /api/aDELETE:/user/5 runs the handler of DELETE:/user/{id}. -/
theorem C99_refuted : ¬ C99_statement := by
  intro h
  have hw := C99_witness
  cases hr : accept_request deleteEnv (linkSt b!"/api/aDELETE:/user/5") 7 b!"10.0.0.1" with
  | ub f => rw [hr] at hw; cases hw
  | ok x =>
    obtain ⟨st', ev⟩ := x
    rw [hr] at hw
    have hw : ranIds ev = [3] := C.ok.inj hw
    obtain ⟨req, hreq⟩ := ranIds_mem (ev := ev) (h := 3) (by rw [hw]; simp)
    obtain ⟨r, hm, h1, h2⟩ := h deleteEnv _ st' 7 b!"10.0.0.1" _ _ _ _ _ deleteRegs ev 3 req (by decide)
      (begins_link (url := b!"/api/aDELETE:/user/5") (by decide) (by decide) (by unfold White; decide)) (by decide) delete_regs
      (by decide +kernel) hr hreq
    simp only [deleteRegs, List.mem_cons, List.not_mem_nil, or_false] at hm
    rcases hm with rfl | rfl
    · cases h1
    · revert h2; decide

/-- C99_partial applies: GET /api/a runs handler 1. -/
example : (accept_request deleteEnv (linkSt b!"/api/a?t=12:30") 7 b!"10.0.0.1").bind (fun x => ok (ranIds x.2)) = ok [1] ∧
    UrlParts b!"/api/a?t=12:30" b!"/api/a" b!"t=12:30" ∧ (58 : Byte) ∉ b!"/api/a" :=
  ⟨by decide +kernel, Or.inr (by decide), by decide⟩

end Wayuu
