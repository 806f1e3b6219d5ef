import Verif.Props.Methods
import Verif.Props.Forms
/-
C28 and C99, how far the refuted claims fail: every parameter route can be run by a link (ws.c:463-656, router.c:81-173).
-/
namespace Wayuu
open C Spec

/-- The value a parameter route is given: what follows as many bytes as its prefix has, wherever the prefix is. -/
theorem C28_anywhere (env : Env) (st : St) (regs : List Registration) (r : Registration) (pre name target : Str) (room : Buf)
    (h : Nat) (hv : ∀ r ∈ regs, r.template.Valid) (hreg : register regs = ok env.routes) (hz : NulFree target)
    (hl : target.length < 255) (ht : r.template = .param pre name)
    (hp : st.req.method ++ b!":" ++ st.req.path = target) (hm : FirstMatch regs target r) (hd : r.handler = some h)
    (hform : st.req.form = some 0 :: room) :
    (name.length ≤ 2 * pre.length + 8 → ∃ form, cstr form = ok (name ++ b!"=" ++ target.drop pre.length) ∧
      ∀ st' ev, router_handle_request env st = ok (st', ev) ↔
        Dispatched env h r.filter { st with req := { st.req with form := form } } st' ev) ∧
    (2 * pre.length + 8 < name.length → router_handle_request env st = ub .oob) := by
  obtain ⟨-, -, hr⟩ := (register_eq hv).mp hreg
  have hval : r.template.Valid := by
    obtain ⟨a, b, rfl, -⟩ := hm
    exact hv r (by simp)
  rw [ht] at hval
  have hnz : NulFree name := hval.2
  have htg : st.target = target := hp
  have hroute : regRoute r = ⟨true, pre, name, r.handler, r.filter⟩ := by
    unfold regRoute; rw [ht]
  have hle : pre.length ≤ target.length := by
    obtain ⟨a, b, rfl, h1, -⟩ := hm
    rw [ht] at h1
    obtain ⟨⟨x, v, rfl⟩, -⟩ := h1
    simp; omega
  have hlen : st.req.method.length + st.req.path.length < 254 := by
    have := congrArg List.length hp
    simp at this
    omega
  have hdrop : NulFree (target.drop pre.length) := fun c hc => hz c (List.mem_of_mem_drop hc)
  rw [router_some hr hlen (htg ▸ hm), hd, htg, hroute]
  have hex : router_extract_param target ⟨true, pre, name, some h, r.filter⟩ =
      (if name.length ≤ 2 * pre.length + 8 then ok (name ++ b!"=" ++ target.drop pre.length) else ub .oob) := by
    unfold router_extract_param
    dsimp only
    have e : strdup target = (target.take pre.length).map some ++ ((target.drop pre.length).map some ++ some 0 :: []) := by
      rw [← List.append_assoc, ← List.map_append, List.take_append_drop]
      rfl
    rw [e, strAt_mk (by simp; omega) hdrop]
    simp only [ok_bind]
    by_cases hl : name.length ≤ 2 * pre.length + 8
    · rw [if_pos hl, fmtInto_ok (by simp; omega)]
    · rw [if_neg hl, fmtInto_over (by simp; omega)]
  unfold formFor
  simp only [if_true]
  rw [hd, hex, hform]
  constructor
  · intro h1
    rw [if_pos h1]
    simp only [ok_bind]
    rw [addParam_empty (by simp [cstr])]
    refine ⟨strdup (name ++ b!"=" ++ target.drop pre.length), cstr_strdup (by simp; exact ⟨hnz, hdrop⟩), fun st' ev => ?_⟩
    rw [← runUser_dispatched]
    simp
  · intro h1
    rw [if_neg (by omega)]
    rfl

/-- The route of `DELETE:/user/` reached by a target that only contains its text. -/
example : ∃ form, cstr form = ok b!"id=5DELETE:/user/" ∧ ∀ st' ev,
    router_handle_request deleteEnv { sampleSt with req := { sampleReq with path := b!"/aaaaaaaa5DELETE:/user/", form := [some 0] } } = ok (st', ev) ↔
      Dispatched deleteEnv 3 none
        { sampleSt with req := { sampleReq with path := b!"/aaaaaaaa5DELETE:/user/", form := form } } st' ev :=
  (C28_anywhere deleteEnv { sampleSt with req := { sampleReq with path := b!"/aaaaaaaa5DELETE:/user/", form := [some 0] } } deleteRegs
    ⟨.param b!"DELETE:/user/" b!"id", some 3, none⟩ b!"DELETE:/user/" b!"id" b!"GET:/aaaaaaaa5DELETE:/user/" [] 3
    (by decide) (by decide +kernel) (by decide) (by decide) rfl rfl
    ⟨[⟨.const b!"GET:/a", some 1, none⟩], [], rfl, ⟨⟨b!"GET:/aaaaaaaa5", [], rfl⟩, by decide⟩, by
      intro r' hr'
      simp only [List.mem_cons, List.not_mem_nil, or_false] at hr'
      subst hr'
      show ¬ _ = _
      decide⟩ rfl rfl).1 (by decide)

/-- C99 for handlers without parameter: one that is only registered for fixed templates runs for its method and path alone,
whatever the path has in it and whatever else is registered. -/
theorem C99_const (env : Env) (st st' : St) (socket : Nat) (peer line text method url rest path query : Str)
    (regs : List Registration) (ev : List Event) (h : Nat) (req : Req)
    (hp : peer.length < 24) (hb : Begins st.input line text method url rest) (hm : Supported method)
    (hparts : UrlParts url path query) (hv : ∀ r ∈ regs, r.template.Valid) (hreg : register regs = ok env.routes)
    (hconst : ∀ r ∈ regs, r.handler = some h → ∃ t, r.template = .const t)
    (hrun : accept_request env st socket peer = ok (st', ev)) (hev : .handler h req ∈ ev) :
    ∃ r ∈ regs, r.handler = some h ∧ r.template = .const (method ++ b!":" ++ path.drop 4) := by
  obtain ⟨-, st1, st2, e1, e2, hr⟩ := runs_router hp hb hm hparts hrun hev
  obtain ⟨r, ⟨a, b, rfl, h1, -⟩, h3⟩ := router_first hv hreg hr hev
  obtain ⟨t, ht⟩ := hconst r (by simp) h3
  rw [e1, e2, ht] at h1
  exact ⟨r, by simp, h3, by rw [ht]; exact congrArg _ (show _ = t from h1).symm⟩

example : ∀ r ∈ deleteRegs, r.handler = some 1 → ∃ t, r.template = .const t := by
  intro r hr
  simp only [deleteRegs, List.mem_cons, List.not_mem_nil, or_false] at hr
  rcases hr with rfl | rfl
  · exact fun _ => ⟨_, rfl⟩
  · intro h; cases h

/-- A link: the request a browser sends for it. -/
theorem begins_api_link {input url : Str} (hin : input = b!"GET " ++ url ++ b!" HTTP/1.1\r\n\r\n") (h1 : url.length ≤ 254) (h2 : url ≠ [])
    (h3 : ∀ c ∈ url, ¬ White c ∧ c ≠ 0) :
    Begins input (b!"GET " ++ url ++ b!" HTTP/1.1\r\n") (b!"GET " ++ url ++ b!" HTTP/1.1\r\n") b!"GET" url b!"\r\n" := by
  rw [hin]
  exact begins_link h1 h2 h3

/-- A link under /api reaches the router with the path that follows. -/
theorem link_routed (env : Env) (st : St) (socket : Nat) (peer path : Str)
    (hlim : env.limits.length ≤ 64 ∧ ∀ l ∈ env.limits, l.path ≠ []) (hp : peer.length < 16)
    (hadm : Admits env.limits st.live peer (b!"/api" ++ path))
    (hin : st.input = b!"GET /api" ++ path ++ b!" HTTP/1.1\r\n\r\n") (hl : path.length ≤ 250)
    (hc : ∀ c ∈ path, ¬ White c ∧ c ≠ 0 ∧ c ≠ 63) :
    ∃ st0 : St, st0.req.method = b!"GET" ∧ st0.req.path = path ∧ st0.req.query_string = [] ∧ st0.req.form = strdup [] ∧
      st0.req.socket = socket ∧ st0.req.HasHeaders [] ∧ st0.fs = st.fs ∧ st0.out = st.out ∧
      accept_request env st socket peer =
        (router_handle_request env st0).bind (fun x => ok (connection_close x.1, x.2)) := by
  obtain ⟨line, text, hb⟩ : ∃ line text, Begins st.input line text b!"GET" (b!"/api" ++ path) b!"\r\n" :=
    ⟨_, _, begins_api_link (url := b!"/api" ++ path) (by rw [hin]; simp) (by simp; omega) (by simp) (by
      intro c h
      rcases List.mem_append.mp h with h' | h'
      · clear h; revert h'; revert c; unfold White; decide
      · exact ⟨(hc c h').1, (hc c h').2.1⟩)⟩
  have hsec : Section b!"\r\n" [] [] := .blank _ b!"\r\n" _ ⟨by decide, by decide, by decide, by decide⟩ (by decide)
  have hs : Supported b!"GET" := ⟨b!"GET", by decide, ⟨b!"GET", [], by simp, rfl⟩⟩
  obtain ⟨a, c, b, e1, e2, e3, hadd⟩ := (connection_add_admits (socket := socket) hlim.1 hlim.2
    (show (b!"/api" ++ path).length < 512 by simp; omega) hp).1 hadm
  obtain ⟨x, hh1, hh2, hh3⟩ := head_ok (hs := []) hsec (by simp) .nil (fitsLog_of_short (by simp)) (lineBytes_buf hb.1.2.1) peer
  obtain ⟨last, -, -, -, -, -, f4, f5, -⟩ := parse_fields (lineBytes_buf hb.1.2.1) hsec hh1
  have hq : (63 : Byte) ∉ b!"/api" ++ path := by
    intro h
    rcases List.mem_append.mp h with h | h
    · revert h; decide
    · exact (hc _ h).2.2 rfl
  have hget : get_path_and_query_string (b!"/api" ++ path) = ok (b!"/api" ++ path, []) :=
    C36_partial _ _ [] hb.nulFree hb.2.2.2.2 (Or.inl ⟨rfl, rfl, hq⟩) (by simp) (by simp)
  have hpre : CasePrefix b!"/api" (b!"/api" ++ path) := ⟨b!"/api", path, rfl, rfl⟩
  clear hin hadm
  generalize hu : b!"/api" ++ path = url at hb hadd hpre hget
  let st1 := servedSt st (a ++ ⟨socket, url, peer⟩ :: b) socket peer (text.take (text.length - 2)) b!"GET" url x
  let st2 : St := { st1 with req := { st1.req with query_string := [], path := path } }
  refine ⟨st2, rfl, rfl, rfl, rfl, rfl, hh3 st2 rfl rfl, rfl, rfl, ?_⟩
  have hcl : x.content_length = -1 := by rw [f5]; rfl
  rw [served_eq hb (by omega) hs hadd, hh1]
  show (dispatch env st1 url x.content_length x.boundary).bind _ = _
  rw [dispatch_api (mount := b!"/api") (path := path) hpre (by rw [hget, ← hu]) rfl (fun c h => (hc c h).2.1)]
  show ((readForm env st2 x.content_length x.boundary).bind (router_handle_request env)).bind _ = _
  rw [hcl]
  show ((ok st2).bind (router_handle_request env)).bind _ = _
  rfl

/-- C99, how far it fails: for every registration `PREFIX{name}`, of whatever method, the link /api/PAD VALUE PREFIX (PAD of
the length that makes `GET:/PAD` as long as PREFIX) runs the handler, with the text `VALUE PREFIX` as its parameter; so a
handler that reads a number reads the VALUE. This is of course so unless an earlier registration matches. -/
theorem C99_everything (env : Env) (st : St) (socket : Nat) (peer : Str) (regs : List Registration) (r : Registration)
    (pre name pad v : Str) (h : Nat)
    (hlim : env.limits.length ≤ 64 ∧ ∀ l ∈ env.limits, l.path ≠ []) (hp : peer.length < 16)
    (hv : ∀ r ∈ regs, r.template.Valid) (hreg : register regs = ok env.routes)
    (ht : r.template = .param pre name) (hd : r.handler = some h) (hname : name.length ≤ 2 * pre.length + 8)
    (hpad : pad.length + 5 = pre.length) (hc : ∀ c ∈ pad ++ v ++ pre, ¬ White c ∧ c ≠ 63) (hvz : NulFree (pad ++ v))
    (hlen : pad.length + v.length + pre.length ≤ 249)
    (hadm : Admits env.limits st.live peer (b!"/api/" ++ pad ++ v ++ pre))
    (hin : st.input = b!"GET /api/" ++ pad ++ v ++ pre ++ b!" HTTP/1.1\r\n\r\n")
    (hm : ∃ a b, regs = a ++ r :: b ∧ ∀ r' ∈ a, ¬ r'.template.Matches (b!"GET:/" ++ pad ++ v ++ pre)) (hne : v ≠ []) :
    ∃ (st0 : St) (form : Buf), cstr form = ok (name ++ b!"=" ++ v ++ pre) ∧ st0.req.form = form ∧ st0.req.method = b!"GET" ∧
      st0.req.socket = socket ∧ st0.req.HasHeaders [] ∧ st0.fs = st.fs ∧ st0.out = st.out ∧
      ∀ st' ev, accept_request env st socket peer = ok (st', ev) ↔
        ∃ st1, Dispatched env h r.filter st0 st1 ev ∧ st' = connection_close st1 := by
  obtain ⟨ra, rb, hregs, hfirst⟩ := hm
  have hval : r.template.Valid := hv r (by rw [hregs]; simp)
  rw [ht] at hval
  have hpz : NulFree pre := fun c hc => (hval.1 c hc).1
  have hz : NulFree (pad ++ v ++ pre) := nulFree_append.mpr ⟨hvz, hpz⟩
  have h47 : ∀ c ∈ 47 :: (pad ++ v ++ pre), ¬ White c ∧ c ≠ 0 ∧ c ≠ 63 := by
    intro c h
    rcases List.mem_cons.mp h with rfl | h
    · unfold White; decide
    · exact ⟨(hc c h).1, hz c h, (hc c h).2⟩
  obtain ⟨s0, k1, k2, k3, k4, k5, k6, k7, k8, k9⟩ := link_routed env st socket peer (47 :: (pad ++ v ++ pre)) hlim hp
    (by have e : b!"/api/" ++ pad ++ v ++ pre = b!"/api" ++ 47 :: (pad ++ v ++ pre) := by simp
        rw [← e]; exact hadm) (by rw [hin]; simp) (by simp; omega) h47
  have etg : b!"GET:/" ++ pad ++ v ++ pre = b!"GET:/" ++ (pad ++ v ++ pre) := by simp
  have hfm : FirstMatch regs (b!"GET:/" ++ pad ++ v ++ pre) r := by
    refine ⟨ra, rb, hregs, ?_, hfirst⟩
    rw [ht]
    refine ⟨⟨b!"GET:/" ++ pad ++ v, [], by simp⟩, fun e => ?_⟩
    have := congrArg List.length e
    simp at this
    have := List.length_pos_iff.mpr hne
    omega
  obtain ⟨form, f1, f2⟩ := (C28_anywhere env s0 regs r pre name (b!"GET:/" ++ pad ++ v ++ pre) [] h hv hreg
    (by rw [etg]; exact nulFree_append.mpr ⟨by decide, hz⟩) (by simp; omega) ht (by rw [k1, k2]; simp) hfm hd k4).1 hname
  refine ⟨{ s0 with req := { s0.req with form := form } }, form, ?_, rfl, k1, k5, k6, k7, k8, fun st' ev => ?_⟩
  · rw [f1]
    have : (b!"GET:/" ++ pad ++ v ++ pre).drop pre.length = v ++ pre := by
      rw [show b!"GET:/" ++ pad ++ v ++ pre = (b!"GET:/" ++ pad) ++ (v ++ pre) by simp]
      exact List.drop_left' (by simp; omega)
    rw [this]
    simp
  · rw [k9]
    constructor
    · intro e
      obtain ⟨⟨s, ev'⟩, h1, h2⟩ := bind_eq_ok.mp e
      simp only [ok.injEq, Prod.mk.injEq] at h2
      obtain ⟨rfl, rfl⟩ := h2
      exact ⟨s, (f2 _ _).mp h1, rfl⟩
    · rintro ⟨s, h1, rfl⟩
      rw [(f2 _ _).mpr h1]
      rfl

/-- The link that deletes user 5 of the sample. -/
example : (accept_request deleteEnv (linkSt b!"/api/aaaaaaaa5DELETE:/user/") 7 b!"10.0.0.1").bind
    (fun x => ok (x.2.map fun e => match e with | .handler h q => (h, q.form) | .filter h q => (h, q.form))) =
    ok [(3, strdup b!"id=5DELETE:/user/")] := by decide +kernel

example : ∃ (st0 : St) (form : Buf), cstr form = ok (b!"id=5DELETE:/user/") ∧ st0.req.form = form ∧
    ∀ st' ev, accept_request deleteEnv (linkSt b!"/api/aaaaaaaa5DELETE:/user/") 7 b!"10.0.0.1" = ok (st', ev) ↔
      ∃ st1, Dispatched deleteEnv 3 none st0 st1 ev ∧ st' = connection_close st1 := by
  obtain ⟨st0, form, h1, h2, -, -, -, -, -, h3⟩ := C99_everything deleteEnv (linkSt b!"/api/aaaaaaaa5DELETE:/user/") 7 b!"10.0.0.1"
    deleteRegs ⟨.param b!"DELETE:/user/" b!"id", some 3, none⟩ b!"DELETE:/user/" b!"id" b!"aaaaaaaa" b!"5" 3
    ⟨by decide, by intro l hl; cases hl⟩ (by decide) (by decide) (by decide +kernel) rfl rfl (by decide) (by decide)
    (by unfold White; decide) (by decide) (by decide) ⟨⟨⟨0, [], []⟩, by simp [linkSt], rfl⟩, by intro l hl; cases hl⟩ rfl
    ⟨[⟨.const b!"GET:/a", some 1, none⟩], [], rfl, by
      intro r' hr'
      simp only [List.mem_cons, List.not_mem_nil, or_false] at hr'
      subst hr'
      show ¬ _ = _
      decide⟩ (by decide)
  exact ⟨st0, form, h1, h2, h3⟩

end Wayuu
