import Verif.Lemmas.Messages2
import Verif.Props.Links
import Verif.Props.Order
/-
C120: session tokens in the server log. C121: messages of the server log and lines.
-/
namespace Wayuu
open C Spec

/-! ### lines and what the code takes from them -/

/-- A line that may bring a session token. -/
def Credential (line : List Byte) : Prop := ∃ t, BeforeNul line t ∧ SessionLine t

/-- The line says something: a `Content-Length` line has at least one byte after its colon, an `X-Real-IP` line has something
there that is not blank. -/
def Definite (line : List Byte) : Prop :=
  (∀ t, BeforeNul line t → CasePrefix b!"Content-Length:" t → 15 < t.length) ∧ Says line

/-- The two lines are the same, or each brings a session token. -/
def SameButToken (l l' : List Byte) : Prop := (l = l' ∧ Definite l) ∨ (Credential l ∧ Credential l')

/-- C120 in full: at the levels the command line can set, two requests that only differ in the lines with the session token
leave the same messages in the server log. -/
def C120_statement : Prop :=
  ∀ (env : Env) (st : St) (input' : List Byte) (socket : Nat) (peer : Str) (line rest rest' after : List Byte)
    (lines lines' : List (List Byte)) (ms ms' : List Msg) (level : Nat), level = DEBUG_LEVEL ∨ level = DEFAULT_LEVEL →
    LineOf st.input 1023 line rest → LineOf input' 1023 line rest' → Section rest lines after → Section rest' lines' after →
    List.Forall₂ SameButToken lines lines' → accept_msgs env st socket peer = ok ms →
    accept_msgs env { st with input := input' } socket peer = ok ms' → written level ms = written level ms'

theorem says_length {t : Str} (hp : CasePrefix b!"X-Real-IP:" t) (hs : ∃ c ∈ t.drop 10, ws c = false) : 11 ≤ (strip t).length := by
  obtain ⟨c, hc, hw⟩ := hs
  obtain ⟨l, r, e, el, er, -, -⟩ := isStrip_strip t
  by_contra hlt
  have hl0 : l = [] := by
    cases l with
    | nil => rfl
    | cons x l =>
      exfalso
      obtain ⟨p, q, e1, e2⟩ := hp
      rw [e1] at e
      cases p with
      | nil => cases e2
      | cons y p =>
        have hy : y = x := by simpa using congrArg List.head? e
        subst hy
        have hx : lower y = 120 := by simpa [CaseEq, show lower 88 = (120 : Byte) by decide] using congrArg List.head? e2
        have hk : ∀ n : Fin 256, lower (UInt8.ofNat n) = 120 → ws (UInt8.ofNat n) = false := by decide +kernel
        have := hk ⟨y.toNat, y.toNat_lt⟩ (by simpa using hx)
        simp only [UInt8.ofNat_toNat] at this
        rw [el y (by simp)] at this
        cases this
  subst hl0
  rw [List.nil_append] at e
  generalize strip t = u at *
  rw [e] at hc
  have : c ∈ r := by
    rw [List.drop_append] at hc
    rw [List.drop_of_length_le (by omega), List.nil_append] at hc
    exact List.mem_of_mem_drop hc
  rw [er c this] at hw
  cases hw

theorem nextIP_says {bs : List Byte} (hb : LineBuf bs) {line : List Byte} (hl : line.length ≤ 1023) (hsay : Says line) (ip : Str) :
    nextIP ip (loadLine bs line) =
      if startswith (untilNul line) b!"X-Real-IP:" then ((strip (untilNul line)).drop 11).take 24 else ip := by
  unfold nextIP
  rw [untilNul_loadLine]
  split
  · rename_i hst
    have hbuf := nextBuf_spec (hb.load hl)
    have hu := hbuf.2 (by rw [untilNul_loadLine]; exact hst)
    rw [untilNul_loadLine] at hu
    have hp := (startswith_iff _ _).mp hst
    rw [hbuf.1.tail (by rw [hu]; exact says_length hp (hsay _ (untilNul_before line) hp)), hu]
  · rfl

theorem nextLength_definite {bs : List Byte} (hb : LineBuf bs) {line : List Byte} (hl : line.length ≤ 1023) (hd : Definite line)
    (n : Int) : nextLength n (loadLine bs line) =
      if startswith (untilNul line) b!"Content-Length:" then atoi ((untilNul line).drop 16) else n := by
  unfold nextLength
  rw [untilNul_loadLine]
  split
  · rename_i hst
    have := hd.1 _ (untilNul_before line) ((startswith_iff _ _).mp hst)
    rw [(hb.load hl).tail (by rw [untilNul_loadLine]; exact this), untilNul_loadLine]
  · rfl

theorem credential_other {line : List Byte} (h : Credential line) :
    startswith (untilNul line) b!"X-Real-IP:" = false ∧ startswith (untilNul line) b!"Content-Length:" = false ∧
      startswith (untilNul line) b!"Content-Type: multipart/form-data" = false := by
  obtain ⟨t, ht, hs⟩ := h
  rw [← beforeNul_eq ht]
  rcases hs with hs | hs | hs <;> have hs := (startswith_iff _ _).mpr hs
  · exact ⟨not_startswith_of_get hs (i := 2) (by decide) (by decide) (by decide),
      not_startswith_of_get hs (i := 0) (by decide) (by decide) (by decide),
      not_startswith_of_get hs (i := 0) (by decide) (by decide) (by decide)⟩
  · exact ⟨not_startswith_of_get hs (i := 0) (by decide) (by decide) (by decide),
      not_startswith_of_get hs (i := 0) (by decide) (by decide) (by decide),
      not_startswith_of_get hs (i := 0) (by decide) (by decide) (by decide)⟩
  · exact ⟨not_startswith_of_get hs (i := 0) (by decide) (by decide) (by decide),
      not_startswith_of_get hs (i := 2) (by decide) (by decide) (by decide),
      not_startswith_of_get hs (i := 2) (by decide) (by decide) (by decide)⟩

/-- What is left when the session is not looked at. -/
def Head.Alike (a b : Head) : Prop := a.boundary = b.boundary ∧ a.clen = b.clen ∧ a.ip = b.ip

theorem alike_step {a b : Head} (h : a.Alike b) (ha : LineBuf a.bs) (hb : LineBuf b.bs) {l l' : List Byte} (hl : l.length ≤ 1023)
    (hl' : l'.length ≤ 1023) (hr : SameButToken l l') : (a.step l).Alike (b.step l') := by
  obtain ⟨h1, h2, h3⟩ := h
  rcases hr with ⟨rfl, hd⟩ | ⟨hc, hc'⟩
  · refine ⟨?_, ?_, ?_⟩
    · show nextBoundary a.boundary (untilNul (loadLine a.bs l)) = nextBoundary b.boundary (untilNul (loadLine b.bs l))
      rw [untilNul_loadLine, untilNul_loadLine, h1]
    · show nextLength a.clen (loadLine a.bs l) = nextLength b.clen (loadLine b.bs l)
      rw [nextLength_definite ha hl hd, nextLength_definite hb hl hd, h2]
    · show nextIP a.ip (loadLine a.bs l) = nextIP b.ip (loadLine b.bs l)
      rw [nextIP_says ha hl hd.2, nextIP_says hb hl hd.2, h3]
  · obtain ⟨x1, x2, x3⟩ := credential_other hc
    obtain ⟨y1, y2, y3⟩ := credential_other hc'
    refine ⟨?_, ?_, ?_⟩
    · show nextBoundary a.boundary (untilNul (loadLine a.bs l)) = nextBoundary b.boundary (untilNul (loadLine b.bs l'))
      unfold nextBoundary
      rw [untilNul_loadLine, untilNul_loadLine, x3, y3]
      exact h1
    · show nextLength a.clen (loadLine a.bs l) = nextLength b.clen (loadLine b.bs l')
      unfold nextLength
      rw [untilNul_loadLine, untilNul_loadLine, x2, y2]
      exact h2
    · show nextIP a.ip (loadLine a.bs l) = nextIP b.ip (loadLine b.bs l')
      unfold nextIP
      rw [untilNul_loadLine, untilNul_loadLine, x1, y1]
      exact h3

theorem alike_foldl {lines lines' : List (List Byte)} (hr : List.Forall₂ SameButToken lines lines') :
    ∀ {a b : Head}, a.Alike b → LineBuf a.bs → LineBuf b.bs → (∀ l ∈ lines, l.length ≤ 1023) → (∀ l ∈ lines', l.length ≤ 1023) →
      (lines.foldl Head.step a).Alike (lines'.foldl Head.step b) := by
  induction hr with
  | nil => exact fun h _ _ _ _ => h
  | cons hr _ ih =>
    intro a b h ha hb hl hl'
    exact ih (alike_step h ha hb (hl _ (by simp)) (hl' _ (by simp)) hr) (ha.step (hl _ (by simp))) (hb.step (hl' _ (by simp)))
      (fun l h => hl l (by simp [h])) (fun l h => hl' l (by simp [h]))

theorem alike_parse {bs input input' rest rest' : List Byte} {lines lines' : List (List Byte)} {ip : Str} {h h' : HdrSt}
    (hb : LineBuf bs) (hs : Section input lines rest) (hs' : Section input' lines' rest')
    (hr : List.Forall₂ SameButToken lines lines') (hok : parseHeaders (bs.map some) input ip = ok h)
    (hok' : parseHeaders (bs.map some) input' ip = ok h') :
    h.input = rest ∧ h'.input = rest' ∧ h.boundary = h'.boundary ∧ h.content_length = h'.content_length ∧ h.IP = h'.IP := by
  obtain ⟨last, e0, -, -, -, -, e1, e2, e3, -⟩ := parse_fields hb hs hok
  obtain ⟨last', e0', -, -, -, -, e1', e2', e3', -⟩ := parse_fields hb hs' hok'
  have hb0 := hb.load (line := [65]) (by decide)
  obtain ⟨k1, k2, k3⟩ := alike_foldl hr (a := .init bs ip) (b := .init bs ip) ⟨rfl, rfl, rfl⟩ hb0 hb0 hs.length_le hs'.length_le
  exact ⟨e0, e0', e1.trans (k1.trans e1'.symm), e2.trans (k2.trans e2'.symm), e3.trans (k3.trans e3'.symm)⟩

/-- C120, for the default level: nothing in the server log depends on the session tokens of the request. -/
theorem C120_partial (env : Env) (st : St) (input' : List Byte) (socket : Nat) (peer : Str)
    (line rest rest' after : List Byte) (lines lines' : List (List Byte)) (ms ms' : List Msg)
    (hl : LineOf st.input 1023 line rest) (hl' : LineOf input' 1023 line rest') (hs : Section rest lines after)
    (hs' : Section rest' lines' after) (hr : List.Forall₂ SameButToken lines lines')
    (h : accept_msgs env st socket peer = ok ms)
    (h' : accept_msgs env { st with input := input' } socket peer = ok ms') :
    written DEFAULT_LEVEL ms = written DEFAULT_LEVEL ms' := by
  unfold accept_msgs at h h'
  obtain ⟨ip, hip, h⟩ := bind_eq_ok.mp h
  rw [hip, ok_bind] at h'
  dsimp only at h h'
  have hb := untilNul_before line
  by_cases h2 : 2 ≤ (untilNul line).length
  swap
  · rw [readRequestLine_short hl hb (by omega)] at h
    cases h
  rw [readRequestLine_eq hl hb h2, ok_bind] at h
  rw [readRequestLine_eq hl' hb h2, ok_bind] at h'
  dsimp only at h h'
  obtain ⟨text, ht, h⟩ := bind_eq_ok.mp h
  rw [ht, ok_bind] at h'
  obtain ⟨al, ha, h⟩ := bind_eq_ok.mp h
  rw [ha, ok_bind] at h'
  cases al with
  | false => cases h; cases h'; rfl
  | true =>
    simp only [Bool.not_true, Bool.false_eq_true, if_false] at h h'
    obtain ⟨url, hu, h⟩ := bind_eq_ok.mp h
    rw [hu, ok_bind] at h'
    obtain ⟨⟨added, live⟩, hadd, h⟩ := bind_eq_ok.mp h
    rw [hadd, ok_bind] at h'
    dsimp only at h h'
    cases added with
    | false => cases h; cases h'; rfl
    | true =>
      simp only [Bool.not_true, Bool.false_eq_true, if_false] at h h'
      obtain ⟨m4, h4, h⟩ := bind_eq_ok.mp h
      obtain ⟨hd, hh, h⟩ := bind_eq_ok.mp h
      obtain ⟨m5, h5, h⟩ := bind_eq_ok.mp h
      obtain ⟨m4', h4', h'⟩ := bind_eq_ok.mp h'
      obtain ⟨hd', hh', h'⟩ := bind_eq_ok.mp h'
      obtain ⟨m5', h5', h'⟩ := bind_eq_ok.mp h'
      cases h; cases h'
      obtain ⟨b1, a, b2⟩ := lineBytes_buf hl.2.1
      obtain ⟨k1, k2, k3, k4, k5⟩ := alike_parse (lineBuf_of b1 (by rw [b2]; simp)) hs hs' hr hh hh'
      rw [← k3, ← k4] at h5'
      have := dispatch_loud h5 h5' rfl (by show hd'.input = hd.input; rw [k1, k2]) (by show hd'.IP = hd.IP; rw [k5]) rfl
      simp only [written_append]
      rw [this, written_nil (a := m4) (fun m hm => by rw [section_level h4 m hm]; decide),
        written_nil (a := m4') (fun m hm => by rw [section_level h4' m hm]; decide)]

/-- C120: the messages are defined whenever the request is handled without fault. -/
theorem C120_defined (env : Env) (st st' : St) (socket : Nat) (peer : Str) (ev : List Event)
    (h : accept_request env st socket peer = ok (st', ev)) : ∃ ms, accept_msgs env st socket peer = ok ms := accept_defined h

/-- The request an event passes to user code. -/
def Event.request : Event → Req
  | .filter _ r => r
  | .handler _ r => r

theorem router_session_first {env : Env} {st st1 : St} {e : Event} {ev : List Event} (h : router_handle_request env st = ok (st1, e :: ev)) :
    e.request.session = st.req.session := by
  unfold router_handle_request at h
  obtain ⟨m, -, h⟩ := bind_eq_ok.mp h
  obtain ⟨⟨hd, f, form⟩, -, h⟩ := bind_eq_ok.mp h
  dsimp only at h
  split at h
  · obtain ⟨s, -, h⟩ := bind_eq_ok.mp h
    cases h
  · split at h
    · obtain ⟨⟨s, r⟩, -, h⟩ := bind_eq_ok.mp h
      dsimp only at h
      split at h
      · cases h; rfl
      · obtain ⟨s, -, h⟩ := bind_eq_ok.mp h
        cases h; rfl
    · obtain ⟨s, -, h⟩ := bind_eq_ok.mp h
      cases h; rfl

theorem readForm_session {env : Env} {st st1 : St} {n : Int} {b : Str} (h : readForm env st n b = ok st1) :
    st1.req.session = st.req.session := by
  unfold readForm at h
  split at h
  · obtain ⟨⟨form, inp⟩, -, h⟩ := bind_eq_ok.mp h
    dsimp only at h
    split at h
    · obtain ⟨⟨f, fs⟩, -, h⟩ := bind_eq_ok.mp h
      cases h; rfl
    · cases h; rfl
  · cases h; rfl

/-- C120, with `-d`: for every request that reaches user code, the token handed to the user's code is in the server log. -/
theorem C120_debug (env : Env) (st st' : St) (socket : Nat) (peer : Str) (e : Event) (ev : List Event) (ms : List Msg)
    (token : Str) (h : accept_request env st socket peer = ok (st', e :: ev)) (hm : accept_msgs env st socket peer = ok ms)
    (ht : cstr e.request.session = ok token) :
    ∃ m ∈ written DEBUG_LEVEL ms, ∃ before, m.text = before ++ b!", SESSION:" ++ token ++ b!" " := by
  obtain ⟨hp, hh⟩ := accept_request_cases h
  cases hh with
  | served buf inp rl method j url live hd st1 _ hr hm' hurl hadd hh h1 =>
    unfold accept_msgs at hm
    rw [fmtInto_ok hp, ok_bind] at hm
    dsimp only at hm
    rw [hr, ok_bind] at hm
    dsimp only at hm
    obtain ⟨text, -, hm⟩ := bind_eq_ok.mp hm
    rw [hm', ok_bind] at hm
    simp only [Bool.not_true, Bool.false_eq_true, if_false] at hm
    rw [hurl, ok_bind] at hm
    dsimp only [api_request_new] at hm
    rw [hadd, ok_bind] at hm
    simp only [Bool.not_true, Bool.false_eq_true, if_false] at hm
    obtain ⟨m4, h4, hm⟩ := bind_eq_ok.mp hm
    rw [hh, ok_bind] at hm
    obtain ⟨m5, h5, hm⟩ := bind_eq_ok.mp hm
    cases hm
    have key : ∃ m ∈ m5, m.level = 1 ∧ ∃ before, m.text = before ++ b!", SESSION:" ++ token ++ b!" " := by
      unfold dispatch at h1
      unfold dispatch_msgs at h5
      obtain ⟨⟨path, query⟩, hq, h1⟩ := bind_eq_ok.mp h1
      rw [hq, ok_bind] at h5
      dsimp only at h1 h5
      split at h1
      · exfalso
        split at h1
        · obtain ⟨s, -, h1⟩ := bind_eq_ok.mp h1
          cases h1
        · obtain ⟨s, -, h1⟩ := bind_eq_ok.mp h1
          cases h1
      · rename_i hu
        rw [if_neg hu] at h5
        obtain ⟨p, hp', h1⟩ := bind_eq_ok.mp h1
        rw [hp', ok_bind] at h5
        unfold handle_api_request at h1
        unfold api_msgs at h5
        obtain ⟨st2, hf, h1⟩ := bind_eq_ok.mp h1
        obtain ⟨s, hs, h5⟩ := bind_eq_ok.mp h5
        have e1 := router_session_first h1
        rw [readForm_session hf] at e1
        rw [e1] at ht
        have : s = token := by
          have := hs.symm.trans ht
          cases this; rfl
        subst this
        dsimp only at h5
        obtain ⟨fm, -, h5⟩ := bind_eq_ok.mp h5
        obtain ⟨st3, -, h5⟩ := bind_eq_ok.mp h5
        obtain ⟨rs, -, h5⟩ := bind_eq_ok.mp h5
        cases h5
        exact ⟨_, List.mem_append_left _ (List.mem_append_left _ (List.mem_append_left _ (List.mem_singleton.mpr rfl))), rfl, _, rfl⟩
    obtain ⟨m, hm, hlev, htext⟩ := key
    refine ⟨m, ?_, htext⟩
    unfold written
    rw [List.mem_filter]
    exact ⟨by simp [hm], by rw [hlev]; decide⟩

/-- A request with a token that is answered: its line in the debug log. -/
example : ∃ st' e ev ms token, accept_request sampleRouterEnv { sampleSt with live := [⟨0, [], []⟩], input := b!"GET /api/a HTTP/1.1\r\nX-Session: s3cret\r\n\r\n" } 7 b!"1.2.3.4" =
      ok (st', e :: ev) ∧ accept_msgs sampleRouterEnv { sampleSt with live := [⟨0, [], []⟩], input := b!"GET /api/a HTTP/1.1\r\nX-Session: s3cret\r\n\r\n" } 7 b!"1.2.3.4" = ok ms ∧
    cstr e.request.session = ok token ∧ token = b!"s3cret" := by
  have e1 : (accept_request sampleRouterEnv { sampleSt with live := [⟨0, [], []⟩], input := b!"GET /api/a HTTP/1.1\r\nX-Session: s3cret\r\n\r\n" } 7 b!"1.2.3.4").bind
      (fun x => ok (x.2.map (fun e => cstr e.request.session))) = ok [ok b!"s3cret", ok b!"s3cret"] := by decide +kernel
  generalize hg : accept_request sampleRouterEnv { sampleSt with live := [⟨0, [], []⟩], input := b!"GET /api/a HTTP/1.1\r\nX-Session: s3cret\r\n\r\n" } 7 b!"1.2.3.4" = r at e1
  match r, e1 with
  | ok (st', []), e1 => exact absurd e1 (by intro h; injection h with h; cases h)
  | ok (st', e :: ev), e1 =>
    obtain ⟨ms, hms⟩ := C120_defined _ _ _ _ _ _ hg
    injection e1 with e1
    injection e1 with e1
    exact ⟨st', e, ev, ms, _, rfl, hms, e1, rfl⟩

/-- The header line with the given session, and a request to the API with it. -/
def tokenLine (token : Str) : List Byte := b!"X-Session: " ++ token ++ b!"\r\n"
def tokenInput (token : Str) : List Byte := b!"GET /api/x HTTP/1.1\r\n" ++ (tokenLine token ++ 13 :: 10 :: [])

/-- A server with a place for a connection. -/
def freeSt : St := { sampleSt with live := [⟨0, [], []⟩] }

/-- What it leaves in the server log with `-d`. -/
def tokenLog (token : Str) : List Msg :=
  [⟨1, b!"IP:1.2.3.4, URL:/api/x, METHOD:GET, PATH:/x, SESSION:" ++ token ++ b!" "⟩, ⟨1, b!"Router handle request GET:/x"⟩,
   ⟨1, b!"Unable to find matching route for method GET and path /x"⟩, ⟨1, b!"IP:1.2.3.4 Ignored API URL: /api/x"⟩]

/-- C120 is false: with `-d` the tokens are in the log. -/
theorem C120_refuted : ¬ C120_statement := by
  intro h
  have k1 : (accept_msgs sampleEnv { freeSt with input := tokenInput b!"a" } 5 b!"1.2.3.4").bind (fun ms => ok (written 1 ms)) =
      ok (tokenLog b!"a") := by decide +kernel
  have k2 : (accept_msgs sampleEnv { freeSt with input := tokenInput b!"b" } 5 b!"1.2.3.4").bind (fun ms => ok (written 1 ms)) =
      ok (tokenLog b!"b") := by decide +kernel
  cases h1 : accept_msgs sampleEnv { freeSt with input := tokenInput b!"a" } 5 b!"1.2.3.4" with
  | ub f => rw [h1] at k1; cases k1
  | ok ms =>
    cases h2 : accept_msgs sampleEnv { freeSt with input := tokenInput b!"b" } 5 b!"1.2.3.4" with
    | ub f => rw [h2] at k2; cases k2
    | ok ms' =>
      rw [h1] at k1
      rw [h2] at k2
      change ok (written 1 ms) = _ at k1
      change ok (written 1 ms') = _ at k2
      have cred : ∀ x : Byte, x ≠ 0 → Credential (tokenLine [x]) := by
        intro x hx
        refine ⟨_, ⟨?_, Or.inl rfl⟩, Or.inl ⟨b!"X-Session:", _, rfl, rfl⟩⟩
        intro c hc
        simp only [tokenLine, List.mem_append, List.mem_singleton] at hc
        rcases hc with (hc | rfl) | hc
        · revert c; decide
        · exact hx
        · revert c; decide
      have := h sampleEnv { freeSt with input := tokenInput b!"a" } (tokenInput b!"b") 5 b!"1.2.3.4" b!"GET /api/x HTTP/1.1\r\n"
        (tokenLine b!"a" ++ 13 :: 10 :: []) (tokenLine b!"b" ++ 13 :: 10 :: []) [] [tokenLine b!"a"] [tokenLine b!"b"] ms ms' 1
        (Or.inl rfl) ⟨rfl, by decide, by decide, by decide⟩ ⟨rfl, by decide, by decide, by decide⟩
        (one_line_section (by decide) (by decide) (by decide) (by decide) (by decide) [])
        (one_line_section (by decide) (by decide) (by decide) (by decide) (by decide) [])
        (.cons (Or.inr ⟨cred 97 (by decide), cred 98 (by decide)⟩) .nil) h1 h2
      rw [this] at k1
      exact absurd (k1.symm.trans k2) (by decide)

/-! ### C121 -/

/-- What the server was set up with, the address and the thread are single lines. -/
def SingleSetup (env : Env) (peer : Str) : Prop :=
  (10 : Byte) ∉ env.staticRoot ∧ (10 : Byte) ∉ env.wwwIndex ∧ (10 : Byte) ∉ env.favicon ∧ (10 : Byte) ∉ env.tid ∧ (10 : Byte) ∉ peer

/-- C121 in full: at the levels the command line can set, every message of a request is one line. -/
def C121_statement : Prop :=
  ∀ (env : Env) (st : St) (socket : Nat) (peer : Str) (ms : List Msg) (level : Nat),
    level = DEBUG_LEVEL ∨ level = DEFAULT_LEVEL → SingleSetup env peer → (∀ x, (env.digest x).length = 16) →
    accept_msgs env st socket peer = ok ms → ∀ m ∈ written level ms, (10 : Byte) ∉ m.text

theorem direct_file_single {fs : FS} {path : Str} (h : (10 : Byte) ∉ path) : ∀ m ∈ direct_file_msgs fs path, (10 : Byte) ∉ m.text := by
  unfold direct_file_msgs
  split
  · intro m hm
    rw [List.mem_singleton] at hm
    subst hm
    simp only [List.mem_append, not_or]
    exact ⟨by decide, h⟩
  · simp

theorem static_single {env : Env} {st : St} {peer : Str} {ms : List Msg} (hs : SingleSetup env peer) (hp : (10 : Byte) ∉ st.req.path)
    (h : static_msgs env st = ok ms) : ∀ m ∈ written DEFAULT_LEVEL ms, (10 : Byte) ∉ m.text := by
  obtain ⟨s1, s2, s3, -, -⟩ := hs
  unfold static_msgs at h
  obtain ⟨p, h1, h⟩ := bind_eq_ok.mp h
  obtain ⟨path, h2, h⟩ := bind_eq_ok.mp h
  obtain ⟨-, rfl⟩ := fmtInto_eq_ok.mp h2
  have hpp : (10 : Byte) ∉ p := by
    unfold rewritePath at h1
    obtain ⟨s, -, h1⟩ := bind_eq_ok.mp h1
    split at h1
    · cases h1; exact s2
    · split at h1
      · cases h1; exact s3
      · obtain ⟨last, -, h1⟩ := bind_eq_ok.mp h1
        split at h1
        · obtain ⟨-, rfl⟩ := fmtInto_eq_ok.mp h1
          simp only [List.mem_append, not_or]
          exact ⟨hp, by decide⟩
        · cases h1; exact hp
  have hpath : (10 : Byte) ∉ env.staticRoot ++ b!"/" ++ p := by
    simp only [List.mem_append, not_or]
    exact ⟨⟨s1, by decide⟩, hpp⟩
  have hindex : (10 : Byte) ∉ env.staticRoot ++ b!"/" ++ env.wwwIndex := by
    simp only [List.mem_append, not_or]
    exact ⟨⟨s1, by decide⟩, s2⟩
  have drop : ∀ (a b : Str) (l : List Msg), written DEFAULT_LEVEL ([⟨1, a⟩, ⟨1, b⟩] ++ l) = written DEFAULT_LEVEL l := by
    intro a b l
    rw [written_append, written_nil (by simp), List.nil_append]
  dsimp only at h
  split at h
  · obtain ⟨i, h3, h⟩ := bind_eq_ok.mp h
    obtain ⟨-, rfl⟩ := fmtInto_eq_ok.mp h3
    cases h
    intro m hm
    rw [List.append_assoc, drop] at hm
    rcases List.mem_append.mp (List.mem_filter.mp hm).1 with hm | hm
    · exact direct_file_single hpath m hm
    · exact direct_file_single hindex m hm
  · cases h
    intro m hm
    rw [drop] at hm
    exact direct_file_single hpath m (List.mem_filter.mp hm).1

theorem hexText_single (ds : List Byte) : (10 : Byte) ∉ hexText ds := by
  have hex : ∀ n : Fin 16, (b!"0123456789abcdef").getD n 0 ≠ 10 := by decide
  intro hc
  unfold hexText at hc
  obtain ⟨d, -, hd⟩ := List.mem_flatMap.mp hc
  unfold hex2 at hd
  have hlt := d.toNat_lt
  rcases (show (10 : Byte) = _ ∨ (10 : Byte) = _ by simpa using hd) with h | h
  · exact hex ⟨d.toNat / 16, by omega⟩ (by simpa using h.symm)
  · exact hex ⟨d.toNat % 16, by omega⟩ (by simpa using h.symm)

theorem save_single {env : Env} {fs : FS} {tmpdata : Buf} {a b : Nat} {n : Int} {ms : List Msg} (h16 : ∀ x, (env.digest x).length = 16)
    (ht : (10 : Byte) ∉ env.tid) (h : save_msgs env fs tmpdata a b n = ok ms) : ∀ m ∈ written DEFAULT_LEVEL ms, (10 : Byte) ∉ m.text := by
  unfold save_msgs at h
  obtain ⟨s, -, h⟩ := bind_eq_ok.mp h
  obtain ⟨o1, -, h⟩ := bind_eq_ok.mp h
  obtain ⟨o2, -, h⟩ := bind_eq_ok.mp h
  obtain ⟨o3, -, h⟩ := bind_eq_ok.mp h
  obtain ⟨o4, -, h⟩ := bind_eq_ok.mp h
  dsimp only at h
  obtain ⟨m1, h1, h⟩ := bind_eq_ok.mp h
  obtain ⟨m2, h2, h⟩ := bind_eq_ok.mp h
  generalize (if (!is_dir fs FILE_DOWNLOAD_TMP_DIR) = true then (check_createdir fs FILE_DOWNLOAD_TMP_DIR).snd else fs) = fs1 at h
  obtain ⟨-, content, rfl⟩ := md5sum_text h16 h1 h2
  generalize (if is_file fs1 _ = true then fs1.remove _ else fs1) = fs2 at h
  simp only [ok.injEq] at h
  subst h
  intro m hm
  rw [written_append, written_append, written_append, written_nil (by simp), written_nil, written_nil (by simp)] at hm
  · have hm := (List.mem_filter.mp hm).1
    split at hm
    · rw [List.mem_singleton] at hm
      subst hm
      simp only [List.mem_append, not_or]
      exact ⟨by decide, ⟨by decide, by decide⟩, ⟨ht, by decide⟩, hexText_single _⟩
    · simp at hm
  · intro m hm
    split at hm
    · simp at hm; subst hm; exact Nat.lt_succ_self 1
    · simp at hm

theorem part_single {env : Env} {fs : FS} {ip : Str} {tmpdata : Buf} {n : Int} {ms : List Msg} (h16 : ∀ x, (env.digest x).length = 16)
    (ht : (10 : Byte) ∉ env.tid) (hip : (10 : Byte) ∉ ip) (h : part_msgs env fs ip tmpdata n = ok ms) :
    ∀ m ∈ written DEFAULT_LEVEL ms, (10 : Byte) ∉ m.text := by
  unfold part_msgs at h
  obtain ⟨text, -, h⟩ := bind_eq_ok.mp h
  obtain ⟨start, -, h⟩ := bind_eq_ok.mp h
  split at h
  · cases h
    intro m hm
    have hm := (List.mem_filter.mp hm).1
    rw [List.mem_singleton] at hm
    subst hm
    simp only [List.mem_append, not_or]
    exact ⟨⟨by decide, hip⟩, by decide⟩
  · obtain ⟨tail, -, h⟩ := bind_eq_ok.mp h
    split at h
    · cases h; simp [written]
    · obtain ⟨ds, -, h⟩ := bind_eq_ok.mp h
      obtain ⟨sf, -, h⟩ := bind_eq_ok.mp h
      split at h
      · exact save_single h16 ht h
      · cases h; simp [written]

theorem parts_single {env : Env} {ip boundary : Str} {form : Buf} {cl : Nat} (h16 : ∀ x, (env.digest x).length = 16)
    (ht : (10 : Byte) ∉ env.tid) (hip : (10 : Byte) ∉ ip) : ∀ (n ptr : Nat) (tmppart tmpfields : Buf) (fs : FS) (ms : List Msg),
    partsMsgs env ip form boundary cl n ptr tmppart tmpfields fs = ok ms → ∀ m ∈ written DEFAULT_LEVEL ms, (10 : Byte) ∉ m.text
  | 0, _, _, _, _, ms, h => by cases h; simp [written]
  | n + 1, ptr, tmppart, tmpfields, fs, ms, h => by
    unfold partsMsgs at h
    split at h
    · cases h; simp [written]
    obtain ⟨ps, -, h⟩ := bind_eq_ok.mp h
    split at h
    · cases h; simp [written]
    obtain ⟨pe, -, h⟩ := bind_eq_ok.mp h
    split at h
    · cases h; simp [written]
    dsimp only at h
    obtain ⟨t1, -, h⟩ := bind_eq_ok.mp h
    obtain ⟨pm, h1, h⟩ := bind_eq_ok.mp h
    obtain ⟨⟨tf, fs'⟩, -, h⟩ := bind_eq_ok.mp h
    dsimp only at h
    obtain ⟨t2, -, h⟩ := bind_eq_ok.mp h
    obtain ⟨more, h2, h⟩ := bind_eq_ok.mp h
    cases h
    intro m hm
    rw [written_append] at hm
    rcases List.mem_append.mp hm with hm | hm
    · exact part_single h16 ht hip h1 m hm
    · exact parts_single h16 ht hip n _ _ _ _ _ h2 m hm

theorem form_single {env : Env} {st : St} {n : Int} {b : Str} {ms : List Msg} (h16 : ∀ x, (env.digest x).length = 16)
    (ht : (10 : Byte) ∉ env.tid) (hip : (10 : Byte) ∉ st.req.IP) (h : form_msgs env st n b = ok ms) :
    ∀ m ∈ written DEFAULT_LEVEL ms, (10 : Byte) ∉ m.text := by
  unfold form_msgs at h
  split at h
  · dsimp only at h
    obtain ⟨⟨form, inp⟩, -, h⟩ := bind_eq_ok.mp h
    dsimp only at h
    split at h
    · exact parts_single h16 ht hip _ _ _ _ _ _ h
    · cases h; simp [written]
  · cases h; simp [written]

theorem readUrl_plain {buf : Buf} {j : Nat} {url : Str} (h : readUrl buf j = ok url) :
    NulFree url ∧ url.length ≤ 254 ∧ (10 : Byte) ∉ url := by
  refine ⟨?_, ?_, fun hm => absurd (readUrl_ws h 10 hm) (by decide)⟩
  · unfold readUrl at h
    obtain ⟨k, -, h⟩ := bind_eq_ok.mp h
    obtain ⟨⟨u, m⟩, -, h⟩ := bind_eq_ok.mp h
    cases h
    exact nulFree_untilNul u
  · unfold readUrl at h
    obtain ⟨k, -, h⟩ := bind_eq_ok.mp h
    obtain ⟨⟨u, m⟩, h1, h⟩ := bind_eq_ok.mp h
    cases h
    have : ∀ (n k : Nat) (u : List Byte) (m : Nat), scanWord buf n k = ok (u, m) → u.length ≤ n := by
      intro n
      induction n with
      | zero =>
        intro k u m h
        unfold scanWord at h
        obtain ⟨c, -, h⟩ := bind_eq_ok.mp h
        cases h; simp
      | succ n ih =>
        intro k u m h
        unfold scanWord at h
        obtain ⟨c, -, h⟩ := bind_eq_ok.mp h
        split at h
        · cases h; simp
        · obtain ⟨⟨r, j⟩, h1, h⟩ := bind_eq_ok.mp h
          cases h
          have := ih _ _ _ h1
          simp; omega
    have h254 := this _ _ _ _ h1
    obtain ⟨-, e | ⟨q, e⟩⟩ := untilNul_before u
    · rw [← e]; exact h254
    · have := congrArg List.length e
      simp at this
      omega

/-- C121, for the default level: without a failed handshake, and if no `X-Real-IP` line is blank, every message is one line. -/
theorem C121_partial (env : Env) (st : St) (socket : Nat) (peer : Str) (line rest after : List Byte) (lines : List (List Byte))
    (ms : List Msg) (hset : SingleSetup env peer) (h16 : ∀ x, (env.digest x).length = 16) (hl : LineOf st.input 1023 line rest)
    (hs : Section rest lines after) (hsay : ∀ l ∈ lines, Says l) (h : accept_msgs env st socket peer = ok ms) :
    ∀ m ∈ written DEFAULT_LEVEL ms, (10 : Byte) ∉ m.text := by
  unfold accept_msgs at h
  obtain ⟨ip, hip, h2⟩ := bind_eq_ok.mp h
  clear h
  obtain ⟨-, rfl⟩ := fmtInto_eq_ok.mp hip
  rename' h2 => h
  dsimp only at h
  obtain ⟨⟨buf, inp, rl, method, j⟩, hr, h⟩ := bind_eq_ok.mp h
  obtain ⟨rfl, rfl, -⟩ := readRequestLine_break hl hr
  dsimp only at h
  obtain ⟨text, -, h⟩ := bind_eq_ok.mp h
  obtain ⟨al, -, h⟩ := bind_eq_ok.mp h
  cases al with
  | false => cases h; simp [written]
  | true =>
    simp only [Bool.not_true, Bool.false_eq_true, if_false] at h
    obtain ⟨url, hu, h⟩ := bind_eq_ok.mp h
    obtain ⟨⟨added, live⟩, hadd, h⟩ := bind_eq_ok.mp h
    dsimp only at h
    cases added with
    | false =>
      cases h
      intro m hm
      rw [written_append, written_nil (by simp), written_nil (fun m hm => by rw [add_level _ _ _ _ m hm]; decide)] at hm
      simp at hm
    | true =>
      simp only [Bool.not_true, Bool.false_eq_true, if_false] at h
      obtain ⟨m4, h4, h⟩ := bind_eq_ok.mp h
      obtain ⟨hd, hh, h⟩ := bind_eq_ok.mp h
      obtain ⟨m5, h5, h⟩ := bind_eq_ok.mp h
      cases h
      obtain ⟨b1, a, b2⟩ := lineBytes_buf hl.2.1
      obtain ⟨k1, -⟩ := parse_unbroken (lineBuf_of b1 (by rw [b2]; simp)) hs hsay hset.2.2.2.2 hh
      obtain ⟨u1, u2, u3⟩ := readUrl_plain hu
      intro m hm
      rw [written_append, written_append, written_append, written_nil (by simp),
        written_nil (fun m hm => by rw [add_level _ _ _ _ m hm]; decide),
        written_nil (a := m4) (fun m hm => by rw [section_level h4 m hm]; decide)] at hm
      simp only [List.nil_append] at hm
      unfold dispatch_msgs at h5
      obtain ⟨⟨path, query⟩, hq, h5⟩ := bind_eq_ok.mp h5
      dsimp only at h5
      split at h5
      · split at h5
        · exact static_single hset (fun hc => u3 (get_path_plain u1 u2 hq _ hc).1) h5 m hm
        · cases h5; simp [written] at hm
      · obtain ⟨p, -, h5⟩ := bind_eq_ok.mp h5
        obtain ⟨fm, f1, f2⟩ := api_loud h5
        rw [f2] at hm
        exact form_single h16 hset.2.2.2.1 k1 f1 m hm

/-- C121: a failed handshake leaves a message with a line break (an empty line follows it in the log). -/
theorem C121_handshake (peer : Str) (h : peer.length < 24) :
    ∃ ms, handshake_msgs peer = ok ms ∧ ∃ m ∈ written DEFAULT_LEVEL ms, (10 : Byte) ∈ m.text :=
  ⟨_, by unfold handshake_msgs; rw [fmtInto_ok h, ok_bind], _, List.mem_filter.mpr ⟨List.mem_singleton.mpr rfl, rfl⟩, by simp⟩

/-- An upload with an `X-Real-IP` line that says nothing, and a part that is not form data. -/
def blankInput : List Byte := b!"POST /api/x HTTP/1.1\r\nX-Real-IP:\r\nContent-Length: 10\r\nContent-Type: multipart/form-data; boundary=B\r\n\r\n--B-x---B-"

/-- C121 is false at the default level: the address of such a request is a line break. -/
theorem C121_refuted : ¬ C121_statement := by
  intro h
  have k : (accept_msgs sampleEnv { freeSt with input := blankInput } 5 b!"1.2.3.4").bind (fun ms => ok (written DEFAULT_LEVEL ms)) =
      ok [⟨3, b!"IP:\n Multipart error: Form-data not found "⟩] := by
    decide +kernel
  cases h1 : accept_msgs sampleEnv { freeSt with input := blankInput } 5 b!"1.2.3.4" with
  | ub f => rw [h1] at k; cases k
  | ok ms =>
    rw [h1] at k
    change ok (written DEFAULT_LEVEL ms) = _ at k
    simp only [ok.injEq] at k
    exact h _ _ _ _ _ _ (Or.inr rfl) ⟨by decide, by decide, by decide, by decide, by decide⟩ (fun _ => rfl) h1 _
      (by rw [k]; exact List.mem_singleton.mpr rfl) (by decide)

/-! ### Examples -/

/-- Two requests that differ in the token, at the default level: the hypotheses of `C120_partial`. -/
example : SameButToken (tokenLine b!"a") (tokenLine b!"b") ∧ SameButToken b!"Host: x\r\n" b!"Host: x\r\n" := by
  refine ⟨Or.inr ⟨⟨_, ⟨by decide, Or.inl rfl⟩, Or.inl ⟨b!"X-Session:", _, rfl, rfl⟩⟩,
    ⟨_, ⟨by decide, Or.inl rfl⟩, Or.inl ⟨b!"X-Session:", _, rfl, rfl⟩⟩⟩, Or.inl ⟨rfl, ?_, ?_⟩⟩
  · intro t ht hp
    rw [beforeNul_eq ht] at hp
    have := (startswith_iff _ _).mpr hp
    exact absurd this (by decide)
  · intro t ht hp
    rw [beforeNul_eq ht] at hp
    have := (startswith_iff _ _).mpr hp
    exact absurd this (by decide)

/-- A missing page leaves two warnings at the default level. -/
example : (accept_msgs sampleEnv { freeSt with input := b!"GET /x HTTP/1.1\r\nX-Session: a\r\n\r\n" } 5 b!"1.2.3.4").bind
    (fun ms => ok (written DEFAULT_LEVEL ms)) =
      ok [⟨3, b!"File not found: /www//x"⟩, ⟨3, b!"File not found: /www/index.html"⟩] := by decide +kernel

example : SingleSetup sampleEnv b!"1.2.3.4" := ⟨by decide, by decide, by decide, by decide, by decide⟩

end Wayuu
