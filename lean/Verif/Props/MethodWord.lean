import Verif.Props.LinksRun
/-
C130: which method words reach the API (ws.c:470-560, router.c:81-173).
-/
namespace Wayuu
open C Spec

/-- C130: no filter and no handler runs for a request whose method is none of GET, POST, PUT, DELETE. -/
def C130_statement : Prop :=
  ∀ (env : Env) (st st' : St) (socket : Nat) (peer line text method url rest : Str) (regs : List Registration)
    (ev : List Event),
    peer.length < 24 → Begins st.input line text method url rest → method ∉ methods →
    (∀ r ∈ regs, r.template.Valid ∧ ∃ M P, M ∈ methods ∧ r.template.text = M ++ b!":" ++ P) →
    register regs = ok env.routes → accept_request env st socket peer = ok (st', ev) → ev = []

/-- The prefix of a parameter template has the method and its colon. -/
theorem param_method {regs : List Registration}
    (hv : ∀ r ∈ regs, r.template.Valid ∧ ∃ M P, M ∈ methods ∧ r.template.text = M ++ b!":" ++ P) :
    ∀ r ∈ regs, ∀ pre name, r.template = .param pre name → ∃ M P, M ∈ methods ∧ pre = M ++ b!":" ++ P := by
  intro r' hr' pre name e
  obtain ⟨-, M, P, hM, ht⟩ := hv r' hr'
  rw [e] at ht
  have hmc : ∀ m ∈ methods, (123 : Byte) ∉ m := by decide
  have ht' : pre ++ 123 :: (name ++ b!"}") = (M ++ b!":") ++ P := by simpa [Template.text] using ht
  rcases List.append_eq_append_iff.mp ht' with ⟨x, e3, e4⟩ | ⟨x, e3, -⟩
  · cases x with
    | nil => exact ⟨M, [], hM, by simpa using e3.symm⟩
    | cons y x =>
      exfalso
      simp only [List.cons_append, List.cons.injEq] at e4
      have : (123 : Byte) ∈ M ++ b!":" := by rw [e3, e4.1]; simp
      rcases List.mem_append.mp this with h | h
      · exact hmc M hM h
      · revert h; decide
  · exact ⟨M, x, hM, e3⟩

/-- Nothing runs when no template matches. -/
theorem router_nothing {env : Env} {st st' : St} {ev : List Event} {regs : List Registration}
    (hv : ∀ r ∈ regs, r.template.Valid) (hreg : register regs = ok env.routes)
    (hm : ∀ r ∈ regs, ¬ r.template.Matches (st.req.method ++ b!":" ++ st.req.path))
    (hrun : router_handle_request env st = ok (st', ev)) : ev = [] := by
  have hr : env.routes = regs.map regRoute := ((register_eq hv).mp hreg).2.2
  by_cases hl : st.req.method.length + st.req.path.length < 254
  · rw [router_none hr hl hm] at hrun
    obtain ⟨s, -, h⟩ := bind_eq_ok.mp hrun
    simp only [ok.injEq, Prod.mk.injEq] at h
    exact h.2.symm
  · rw [router_over (by omega)] at hrun
    cases hrun

/-- C130, what holds: nothing runs for a method word without a colon that does not end in one of the four words, when the
path has no colon. Missing: method words and paths with a colon, and method words such as GETDELETE. -/
theorem C130_partial (env : Env) (st st' : St) (socket : Nat) (peer line text method url rest path query : Str)
    (regs : List Registration) (ev : List Event)
    (hp : peer.length < 24) (hb : Begins st.input line text method url rest)
    (hm : (58 : Byte) ∉ method) (hend : ∀ M ∈ methods, ¬ M <:+ method)
    (hparts : UrlParts url path query) (hc : (58 : Byte) ∉ path)
    (hv : ∀ r ∈ regs, r.template.Valid ∧ ∃ M P, M ∈ methods ∧ r.template.text = M ++ b!":" ++ P)
    (hreg : register regs = ok env.routes)
    (hrun : accept_request env st socket peer = ok (st', ev)) : ev = [] := by
  by_contra hne
  obtain ⟨e, he⟩ := List.exists_mem_of_ne_nil _ hne
  by_cases hs : Supported method
  · obtain ⟨-, st1, st2, e1, e2, hr⟩ := runs_router hp hb hs hparts hrun he
    refine hne (router_nothing (fun r hr => (hv r hr).1) hreg ?_ hr)
    rw [e1, e2]
    intro r hr hmat
    have hc4 : (58 : Byte) ∉ path.drop 4 := fun h => hc (List.mem_of_mem_drop h)
    have hmc : ∀ m ∈ methods, (58 : Byte) ∉ m := by decide
    cases htm : r.template with
    | const t =>
      obtain ⟨-, M, P, hM, ht⟩ := hv r hr
      rw [htm] at hmat ht
      have e3 : method ++ 58 :: path.drop 4 = M ++ 58 :: P := by
        have : method ++ b!":" ++ path.drop 4 = t := hmat
        have h4 : t = M ++ b!":" ++ P := ht
        rw [h4] at this
        simpa using this
      obtain ⟨rfl, -⟩ := colon_split hm hc4 e3
      exact hend _ hM (List.suffix_refl _)
    | param pre name =>
      obtain ⟨M, P, hM, rfl⟩ := param_method hv r hr pre name htm
      rw [htm] at hmat
      obtain ⟨⟨x, v, e3⟩, -⟩ := hmat
      obtain ⟨e4, -⟩ := colon_split hm hc4 (show method ++ 58 :: path.drop 4 = (x ++ M) ++ 58 :: (P ++ v) by simpa using e3)
      exact hend M hM ⟨x, e4.symm⟩
  · obtain ⟨e1, -⟩ := requestLine_eq hb.1 hb.2.1 hb.2.2.1 hb.2.2.2.1 hb.2.2.2.2
    cases (accept_request_cases hrun).2 with
    | badMethod => cases he
    | tooMany => cases he
    | served buf inp rl m j u live h st1 ev hr hm' =>
      rw [e1] at hr
      simp only [ok.injEq, Prod.mk.injEq] at hr
      obtain ⟨-, -, -, rfl, -⟩ := hr
      obtain ⟨b, hb1, hb2⟩ := startswithany_methods method
      rw [hb1] at hm'
      exact hs (hb2.mp (C.ok.inj hm'))

/-- A request without headers: any method word and URL. -/
def wordInput (method url : Str) : Str := method ++ b!" " ++ url ++ b!" HTTP/1.1\r\n\r\n"

theorem begins_word {method url : Str} (hm : method.length ≤ 254) (hmc : ∀ c ∈ method, ¬ White c ∧ c ≠ 0)
    (h1 : url.length ≤ 254) (h2 : url ≠ []) (h3 : ∀ c ∈ url, ¬ White c ∧ c ≠ 0) :
    Begins (wordInput method url) (method ++ b!" " ++ url ++ b!" HTTP/1.1\r\n") (method ++ b!" " ++ url ++ b!" HTTP/1.1\r\n")
      method url b!"\r\n" := by
  have hn10 : ∀ {l : Str}, (∀ c ∈ l, ¬ White c ∧ c ≠ 0) → (10 : Byte) ∉ l := by
    intro l hl hc
    exact (hl _ hc).1 (Or.inr (by decide))
  refine ⟨⟨by unfold wordInput; simp, by simp; omega, ?_, Or.inr (Or.inl (by rw [List.getLast?_append_of_ne_nil _ (by decide)]; rfl))⟩, ⟨?_, Or.inl rfl⟩,
    ⟨b!" ", 32, b!"HTTP/1.1\r\n", by simp, fun c hc => (hmc c hc).1, by decide, by unfold White; decide, h2,
      fun c hc => (h3 c hc).1, by unfold White; decide⟩, hm, h1⟩
  · intro h
    rw [List.dropLast_append_of_ne_nil (by decide)] at h
    rcases List.mem_append.mp h with h | h
    · rcases List.mem_append.mp h with h | h
      · rcases List.mem_append.mp h with h | h
        · exact hn10 hmc h
        · revert h; decide
      · exact hn10 h3 h
    · revert h; decide
  · intro c hc
    rcases List.mem_append.mp hc with h | h
    · clear hc
      rcases List.mem_append.mp h with h' | h'
      · clear h
        rcases List.mem_append.mp h' with h | h
        · exact (hmc c h).2
        · clear h'; revert h; revert c; decide
      · exact (h3 c h').2
    · clear hc; revert h; revert c; decide

/-- A request for /api alone reaches the router with its method word and an empty path. -/
theorem word_routed (env : Env) (st : St) (socket : Nat) (peer method : Str)
    (hlim : env.limits.length ≤ 64 ∧ ∀ l ∈ env.limits, l.path ≠ []) (hp : peer.length < 16)
    (hs : Supported method) (hm : method.length ≤ 254) (hmc : ∀ c ∈ method, ¬ White c ∧ c ≠ 0)
    (hadm : Admits env.limits st.live peer b!"/api") (hin : st.input = wordInput method b!"/api") :
    ∃ st0 : St, st0.req.method = method ∧ st0.req.path = [] ∧ st0.req.query_string = [] ∧ st0.req.form = strdup [] ∧
      st0.req.socket = socket ∧ st0.req.HasHeaders [] ∧ st0.fs = st.fs ∧ st0.out = st.out ∧
      accept_request env st socket peer =
        (router_handle_request env st0).bind (fun x => ok (connection_close x.1, x.2)) := by
  obtain ⟨line, text, hb⟩ : ∃ line text, Begins st.input line text method b!"/api" b!"\r\n" :=
    ⟨_, _, by rw [hin]; exact begins_word hm hmc (by decide) (by decide) (by unfold White; decide)⟩
  have hsec : Section b!"\r\n" [] [] := .blank _ b!"\r\n" _ ⟨by decide, by decide, by decide, by decide⟩ (by decide)
  obtain ⟨a, c, b, e1, e2, e3, hadd⟩ := (connection_add_admits (socket := socket) hlim.1 hlim.2
    (show (b!"/api").length < 512 by decide) hp).1 hadm
  obtain ⟨x, hh1, hh2, hh3⟩ := head_ok (hs := []) hsec (by simp) .nil (fitsLog_of_short (by simp)) (lineBytes_buf hb.1.2.1) peer
  obtain ⟨last, -, -, -, -, -, f4, f5, -⟩ := parse_fields (lineBytes_buf hb.1.2.1) hsec hh1
  have hget : get_path_and_query_string b!"/api" = ok (b!"/api", []) :=
    C36_partial _ _ [] (by decide) (by decide) (Or.inl ⟨rfl, rfl, by decide⟩) (by simp) (by simp)
  have hpre : CasePrefix b!"/api" b!"/api" := ⟨b!"/api", [], rfl, rfl⟩
  clear hin hadm
  generalize hu : b!"/api" = url at hb hadd hget
  rw [← hu] at hget
  let st1 := servedSt st (a ++ ⟨socket, url, peer⟩ :: b) socket peer (text.take (text.length - 2)) method url x
  let st2 : St := { st1 with req := { st1.req with query_string := [], path := [] } }
  refine ⟨st2, rfl, rfl, rfl, rfl, rfl, hh3 st2 rfl rfl, rfl, rfl, ?_⟩
  have hcl : x.content_length = -1 := by rw [f5]; rfl
  rw [served_eq hb (by omega) hs hadd, hh1]
  show (dispatch env st1 url x.content_length x.boundary).bind _ = _
  rw [dispatch_api (mount := b!"/api") (path := []) (hu ▸ hpre) (by rw [← hu, hget]; rfl) rfl (by intro c h; cases h)]
  show ((readForm env st2 x.content_length x.boundary).bind (router_handle_request env)).bind _ = _
  rw [hcl]
  show ((ok st2).bind (router_handle_request env)).bind _ = _
  rfl

/-- C130, how far it fails: for every registration `PREFIX{name}` the request line `PREFIX VALUE /api HTTP/1.1` (PREFIX and
VALUE run together, in the place of the method) runs the handler, with `VALUE:` as its parameter, unless an earlier
registration matches. The connection limits are those of the URL /api: whatever limit is set for the path the route is
meant for does not count. -/
theorem C130_smuggled (env : Env) (st : St) (socket : Nat) (peer : Str) (regs : List Registration) (r : Registration)
    (pre name v : Str) (h : Nat)
    (hlim : env.limits.length ≤ 64 ∧ ∀ l ∈ env.limits, l.path ≠ []) (hp : peer.length < 16)
    (hv : ∀ r ∈ regs, r.template.Valid ∧ ∃ M P, M ∈ methods ∧ r.template.text = M ++ b!":" ++ P)
    (hreg : register regs = ok env.routes)
    (ht : r.template = .param pre name) (hd : r.handler = some h) (hname : name.length ≤ 2 * pre.length + 8)
    (hc : ∀ c ∈ pre ++ v, ¬ White c) (hvz : NulFree v) (hlen : pre.length + v.length ≤ 253)
    (hadm : Admits env.limits st.live peer b!"/api") (hin : st.input = wordInput (pre ++ v) b!"/api")
    (hm : ∃ a b, regs = a ++ r :: b ∧ ∀ r' ∈ a, ¬ r'.template.Matches (pre ++ v ++ b!":")) :
    ∃ (st0 : St) (form : Buf), cstr form = ok (name ++ b!"=" ++ v ++ b!":") ∧ st0.req.form = form ∧
      st0.req.method = pre ++ v ∧ st0.req.socket = socket ∧ st0.req.HasHeaders [] ∧ st0.fs = st.fs ∧ st0.out = st.out ∧
      ∀ st' ev, accept_request env st socket peer = ok (st', ev) ↔
        ∃ st1, Dispatched env h r.filter st0 st1 ev ∧ st' = connection_close st1 := by
  obtain ⟨ra, rb, hregs, hfirst⟩ := hm
  have hr : r ∈ regs := by rw [hregs]; simp
  have hval : r.template.Valid := (hv r hr).1
  rw [ht] at hval
  have hpz : NulFree pre := fun c hc => (hval.1 c hc).1
  have hz : NulFree (pre ++ v) := nulFree_append.mpr ⟨hpz, hvz⟩
  obtain ⟨M, P, hM, rfl⟩ := param_method hv r hr pre name ht
  have hs : Supported (M ++ b!":" ++ P ++ v) := ⟨M, hM, ⟨M, b!":" ++ P ++ v, by simp, rfl⟩⟩
  obtain ⟨s0, k1, k2, k3, k4, k5, k6, k7, k8, k9⟩ := word_routed env st socket peer (M ++ b!":" ++ P ++ v) hlim hp hs
    (by rw [List.length_append]; omega) (fun c h => ⟨hc c h, hz c h⟩) hadm hin
  generalize M ++ b!":" ++ P = pre at *
  have hfm : FirstMatch regs (pre ++ v ++ b!":") r := by
    refine ⟨ra, rb, hregs, ?_, hfirst⟩
    rw [ht]
    refine ⟨⟨[], v ++ b!":", by simp⟩, fun e => ?_⟩
    have := congrArg List.length e
    simp at this
  obtain ⟨form, f1, f2⟩ := (C28_anywhere env s0 regs r pre name (pre ++ v ++ b!":") [] h (fun r hr => (hv r hr).1) hreg
    (nulFree_append.mpr ⟨hz, by decide⟩) (by simp; omega) ht (by rw [k1, k2]; simp) hfm hd k4).1 hname
  refine ⟨{ s0 with req := { s0.req with form := form } }, form, ?_, rfl, k1, k5, k6, k7, k8, fun st' ev => ?_⟩
  · rw [f1]
    have : (pre ++ v ++ b!":").drop pre.length = v ++ b!":" := by
      rw [show pre ++ v ++ b!":" = pre ++ (v ++ b!":") by simp]
      exact List.drop_left' rfl
    rw [this]
    simp
  · rw [k9]
    constructor
    · intro e
      obtain ⟨⟨s, ev'⟩, h1, h2⟩ := bind_eq_ok.mp e
      simp only [ok.injEq, Prod.mk.injEq] at h2
      obtain ⟨rfl, rfl⟩ := h2
      exact ⟨s, (f2 _ _).mp h1, rfl⟩
    · rintro ⟨s, h1, rfl⟩
      rw [(f2 _ _).mpr h1]
      rfl

def wordSt (method url : Str) : St :=
  { sampleSt with live := [⟨0, [], []⟩], input := wordInput method url }

theorem C130_witness : (accept_request deleteEnv (wordSt b!"DELETE:/user/5" b!"/api") 7 b!"10.0.0.1").bind
    (fun x => ok (ranIds x.2)) = ok [3] := by decide +kernel

/-- C130 fails: `DELETE:/user/5 /api HTTP/1.1` runs the handler of DELETE:/user/{id}. -/
theorem C130_refuted : ¬ C130_statement := by
  intro h
  have hw := C130_witness
  cases hr : accept_request deleteEnv (wordSt b!"DELETE:/user/5" b!"/api") 7 b!"10.0.0.1" with
  | ub f => rw [hr] at hw; cases hw
  | ok x =>
    obtain ⟨st', ev⟩ := x
    rw [hr] at hw
    have hw : ranIds ev = [3] := C.ok.inj hw
    have := h deleteEnv _ st' 7 b!"10.0.0.1" _ _ b!"DELETE:/user/5" b!"/api" _ deleteRegs ev (by decide)
      (begins_word (by decide) (by unfold White; decide) (by decide) (by decide) (by unfold White; decide)) (by decide) delete_regs
      (by decide +kernel) hr
    rw [this] at hw
    cases hw

/-- The method word GETDELETE does as well: it ends in DELETE. -/
example : (accept_request deleteEnv (wordSt b!"GETDELETE" b!"/api/user/5") 7 b!"10.0.0.1").bind
    (fun x => ok (ranIds x.2)) = ok [3] := by decide +kernel

/-- C130_partial applies: the method GETS runs nothing, although it passes the check of the method. -/
example : (accept_request deleteEnv (wordSt b!"GETS" b!"/api/a") 7 b!"10.0.0.1").bind (fun x => ok (ranIds x.2)) = ok [] ∧
    (58 : Byte) ∉ b!"GETS" ∧ (∀ M ∈ methods, ¬ M <:+ b!"GETS") ∧ Supported b!"GETS" ∧
    Begins (wordSt b!"GETS" b!"/api/a").input (b!"GETS" ++ b!" " ++ b!"/api/a" ++ b!" HTTP/1.1\r\n")
      (b!"GETS" ++ b!" " ++ b!"/api/a" ++ b!" HTTP/1.1\r\n") b!"GETS" b!"/api/a" b!"\r\n" :=
  ⟨by decide +kernel, by decide, by decide, ⟨b!"GET", by decide, ⟨b!"GET", b!"S", rfl, rfl⟩⟩,
    begins_word (by decide) (by unfold White; decide) (by decide) (by decide) (by unfold White; decide)⟩

/-- C130_smuggled applies. -/
example : ∃ (st0 : St) (form : Buf), cstr form = ok b!"id=5:" ∧ st0.req.form = form ∧
    ∀ st' ev, accept_request deleteEnv (wordSt b!"DELETE:/user/5" b!"/api") 7 b!"10.0.0.1" = ok (st', ev) ↔
      ∃ st1, Dispatched deleteEnv 3 none st0 st1 ev ∧ st' = connection_close st1 := by
  obtain ⟨st0, form, h1, h2, -, -, -, -, -, h3⟩ := C130_smuggled deleteEnv (wordSt b!"DELETE:/user/5" b!"/api") 7 b!"10.0.0.1"
    deleteRegs ⟨.param b!"DELETE:/user/" b!"id", some 3, none⟩ b!"DELETE:/user/" b!"id" b!"5" 3
    ⟨by decide, by intro l hl; cases hl⟩ (by decide) delete_regs (by decide +kernel) rfl rfl (by decide)
    (by unfold White; decide) (by decide) (by decide) ⟨⟨⟨0, [], []⟩, by simp [wordSt], rfl⟩, by intro l hl; cases hl⟩ rfl
    ⟨[⟨.const b!"GET:/a", some 1, none⟩], [], rfl, by
      intro r' hr'
      simp only [List.mem_cons, List.not_mem_nil, or_false] at hr'
      subst hr'
      show ¬ _ = _
      decide⟩
  exact ⟨st0, form, h1, h2, h3⟩

end Wayuu
