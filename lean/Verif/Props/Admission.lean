import Verif.Lemmas.Served
import Verif.Props.Headers
import Verif.Props.Router
import Verif.Props.Http2
/-
Properties C63, C64, C65 (ws.c:540-656, from the request line to the handler).
-/
namespace Wayuu
open C Spec

theorem connection_add_admits {limits : List PathLimit} {live : List Conn} {socket : Nat} {ip url : Str}
    (hlen : limits.length ≤ 64) (hne : ∀ l ∈ limits, l.path ≠ []) (hu : url.length < 512) (hi : ip.length < 16) :
    (Admits limits live ip url → ∃ a c b, live = a ++ c :: b ∧ c.socket = 0 ∧ (∀ x ∈ a, x.socket ≠ 0) ∧
      connection_add limits live socket ip url = ok (true, a ++ ⟨socket, url, ip⟩ :: b)) ∧
    (¬ Admits limits live ip url → connection_add limits live socket ip url = ok (false, live)) := by
  obtain ⟨r, live', h1, h2, h3, h4⟩ := C49_decision limits live socket ip url hlen hne hu hi
  constructor
  · intro ha
    obtain ⟨a, c, b, e1, e2, e3, e4⟩ := h4 (h2.mpr ha)
    exact ⟨a, c, b, e1, e2, e3, by rw [h1, h2.mpr ha, e4]⟩
  · intro ha
    have : r = false := by
      cases r with
      | false => rfl
      | true => exact absurd (h2.mp rfl) ha
    rw [h1, h3 this, this]

theorem _root_.Wayuu.Spec.Begins.nulFree {input line text method url rest : Str} (h : Begins input line text method url rest) :
    NulFree url := by
  obtain ⟨-, hb, ⟨gap, w, more, rfl, -⟩, -⟩ := h
  exact NulFree.mono hb.1 (fun c hc => by simp [hc])

/-- Reading a section without overruns: what follows it is left, and the request has its headers. -/
theorem head_ok {bs input rest : List Byte} {lines : List (List Byte)} {hs : List (Str × Str)} (hsec : Section input lines rest)
    (ho : ∀ l ∈ lines, ∀ t, BeforeNul l t → ¬ Overrun t) (hn : Named lines hs)
    (hfit : FitsLog (hs.take 20)) (hb : LineBuf bs) (ip : Str) :
    ∃ h, parseHeaders (bs.map some) input ip = ok h ∧ h.input = rest ∧
      ∀ st : St, st.req.headers = h.headers → st.req.n_headers = h.headers.length → st.req.HasHeaders (hs.take 20) := by
  obtain ⟨h1, a, h2⟩ := hb
  obtain ⟨h, hh⟩ := C69_partial bs input rest lines ip h1 (by rw [h2]; simp) hsec ho
  obtain ⟨last, e1, -, -, e2, -⟩ := parse_fields ⟨h1, a, h2⟩ hsec hh
  refine ⟨h, hh, e1, fun st e3 e4 => ⟨⟨by rw [e3, e4], ?_⟩, fun p hp => headers_nulFree hn p (List.mem_of_mem_take hp), hfit⟩⟩
  have e : h.headers = ((lines.filter (fun l => decide ((58 : Byte) ∈ untilNul l))).map (fun l => headerRec (untilNul l))).take 20 := by
    rw [e2]
    show (lines.foldl Head.step (.init bs ip)).headers = _
    rw [foldl_headers _ _ (by show 0 ≤ 20; omega)]
    rfl
  rw [e3, e]
  exact headers_stored hn 20

/-! ### C65 -/

/-- C65, admission: with a request line from a supported method, whether the request is served depends on the peer's
address, the URL and the table only. If it is refused, the answer is one 429 response and the header section (an
X-Real-IP header, if any) is not even read. If it is admitted, it is registered with the peer's address while it is
handled. -/
theorem C65_admission (env : Env) (st : St) (socket : Nat) (peer line text method url rest : Str)
    (hlim : env.limits.length ≤ 64) (hne : ∀ l ∈ env.limits, l.path ≠ []) (hp : peer.length < 16)
    (hb : Begins st.input line text method url rest) (hs : Supported method) (hsock : ∀ c ∈ st.live, c.socket ≠ socket) :
    (¬ Admits env.limits st.live peer url → ∃ st' reply fields, accept_request env st socket peer = ok (st', []) ∧
      st'.sent = st.sent ++ reply ∧ Response reply 429 fields [] ∧ st'.input = rest ∧ st'.live = st.live ∧
      st'.closed = st.closed ++ [socket]) ∧
    (Admits env.limits st.live peer url → ∃ a c b, st.live = a ++ c :: b ∧ c.socket = 0 ∧
      ∀ st' ev, accept_request env st socket peer = ok (st', ev) → ∃ st0 st1 n boundary,
        st0.live = a ++ ⟨socket, url, peer⟩ :: b ∧ st0.req.url = url ∧
        dispatch env st0 url n boundary = ok (st1, ev) ∧ st' = connection_close st1) := by
  have hu : url.length < 512 := by have := hb.2.2.2.2; omega
  obtain ⟨h1, h2⟩ := connection_add_admits (live := st.live) (socket := socket) hlim hne hu hp
  constructor
  · intro ha
    obtain ⟨st', start, e1, e2, e3, e4, e5, e6, e7⟩ := refused_eq hb (by omega) hs (h2 ha) hsock
    obtain ⟨fields, h11, -⟩ := statusReply_response e2 []
    exact ⟨st', _, fields, e1, e3, by simpa using h11, e4, e6, e7⟩
  · intro ha
    obtain ⟨a, c, b, e1, e2, e3, e4⟩ := h1 ha
    refine ⟨a, c, b, e1, e2, fun st' ev h => ?_⟩
    rw [served_eq hb (by omega) hs e4] at h
    obtain ⟨x, h3, h⟩ := bind_eq_ok.mp h
    obtain ⟨⟨st1, ev'⟩, h4, h⟩ := bind_eq_ok.mp h
    simp only [ok.injEq, Prod.mk.injEq] at h
    obtain ⟨h5, h6⟩ := h
    subst h6
    exact ⟨_, st1, _, _, rfl, rfl, h4, h5.symm⟩

/-- A request that finds no free slot in the table. -/
example : ∃ st' reply fields, accept_request sampleRouterEnv
      { sampleSt with live := [⟨3, b!"/api/b", b!"10.0.0.2"⟩], input := b!"GET /api/a HTTP/1.1\r\n\r\n" } 7 b!"10.0.0.1" = ok (st', []) ∧
      st'.sent = sampleSt.sent ++ reply ∧ Response reply 429 fields [] ∧ st'.input = b!"\r\n" ∧
      st'.live = [⟨3, b!"/api/b", b!"10.0.0.2"⟩] ∧ st'.closed = sampleSt.closed ++ [7] := by
  refine (C65_admission sampleRouterEnv _ 7 b!"10.0.0.1" b!"GET /api/a HTTP/1.1\r\n"
    b!"GET /api/a HTTP/1.1\r\n" b!"GET" b!"/api/a" b!"\r\n" (by decide) (by decide) (by decide)
    ⟨⟨by decide, by decide, by decide, by decide⟩, ⟨by decide, Or.inl rfl⟩,
    ⟨b!" ", 32, b!"HTTP/1.1\r\n", rfl, by unfold White; decide, by decide, by unfold White; decide, by decide,
      by unfold White; decide, by unfold White; decide⟩, by decide, by decide⟩
    ⟨b!"GET", by decide, (startswith_iff _ _).mp (by decide)⟩ (by decide)).1 ?_
  rintro ⟨⟨c, hc, h0⟩, -⟩
  simp at hc
  subst hc
  cases h0

/-- C65, the recorded address: whatever the header section, at most 24 bytes; the peer's address if there is no
X-Real-IP line; otherwise what the last one says. -/
theorem C65_recorded (bs input rest : List Byte) (lines : List (List Byte)) (peer : Str) (h : HdrSt) (hb : bs.length = 1024)
    (hz : bs.getLast? = some 0) (hp : peer.length ≤ 24) (hsec : Section input lines rest)
    (hok : parseHeaders (bs.map some) input peer = ok h) :
    h.IP.length ≤ 24 ∧
    ((∀ l ∈ lines, ∀ t, BeforeNul l t → ¬ CasePrefix b!"X-Real-IP:" t) → h.IP = peer) ∧
    (∀ before line after p v w, lines = before ++ line :: after → BeforeNul line (p ++ v ++ w) → CaseEq p b!"X-Real-IP: " →
      (∀ c, v.getLast? = some c → ws c = false) → v ≠ [] → (∀ c ∈ w, ws c = true) → (∀ l ∈ after, ∀ t, BeforeNul l t → ¬ CasePrefix b!"X-Real-IP:" t) → h.IP = v.take 24) := by
  obtain ⟨last, -, -, -, -, -, -, -, h2, -⟩ := parse_fields (lineBuf_of hb hz) hsec hok
  have h2 : h.IP = (lines.foldl Head.step (.init bs peer)).ip := h2
  have conv : ∀ ls : List (List Byte), (∀ l ∈ ls, ∀ t, BeforeNul l t → ¬ CasePrefix b!"X-Real-IP:" t) →
      ∀ l ∈ ls, ¬ CasePrefix b!"X-Real-IP:" (untilNul l) := fun ls h l hl => h l hl _ (untilNul_before l)
  refine ⟨?_, fun hno => ?_, ?_⟩
  · rw [h2]; exact foldl_ip_length lines _ hp
  · rw [h2, foldl_ip_same lines _ (conv _ hno)]; rfl
  · intro before line after p v w hlines hline hpre hlast hv hw hafter
    subst hlines
    rw [h2, List.foldl_append, List.foldl_cons, foldl_ip_same after _ (conv _ hafter)]
    have hlen := hsec.length_le
    have hb0 : LineBuf (Head.init bs peer).bs := (lineBuf_of hb hz).load (line := [65]) (by decide)
    have hb1 := LineBuf.foldl (lines := before) hb0 (fun l hl => hlen l (by simp [hl]))
    have htext : untilNul line = p ++ v ++ w := (beforeNul_eq hline).symm
    show nextIP _ (loadLine (before.foldl Head.step (.init bs peer)).bs line) = _
    have hpl : p.length = 11 := by simpa using congrArg List.length hpre
    have hstart : startswith (untilNul (loadLine (before.foldl Head.step (.init bs peer)).bs line)) b!"X-Real-IP:" = true := by
      rw [untilNul_loadLine, htext, startswith_iff]
      refine ⟨p.take 10, p.drop 10 ++ (v ++ w), ?_, ?_⟩
      · rw [← List.append_assoc, List.take_append_drop, List.append_assoc]
      · have := congrArg (List.take 10) hpre
        rw [← List.map_take, ← List.map_take] at this
        exact this
    unfold nextIP
    rw [if_pos hstart]
    have hstrip : strip (p ++ v ++ w) = p ++ v := by
      refine (isStrip_eq ⟨[], w, by simp, by simp, hw, ?_, ?_⟩).symm
      · intro c hc
        cases p with
        | nil => cases hpl
        | cons x p =>
          have hx : lower x = 120 := by simpa [CaseEq, show lower 88 = (120 : Byte) by decide] using congrArg List.head? hpre
          simp only [List.cons_append, List.head?_cons, Option.some.injEq] at hc
          subst hc
          have : ∀ n : Fin 256, lower (UInt8.ofNat n) = 120 → ws (UInt8.ofNat n) = false := by decide +kernel
          simpa using this ⟨x.toNat, x.toNat_lt⟩ (by simpa using hx)
      · intro c hc
        apply hlast
        rwa [List.getLast?_append_of_ne_nil _ hv] at hc
    have hbuf := nextBuf_spec (hb1.load (hlen line (by simp)))
    have hu : untilNul (nextBuf (loadLine (before.foldl Head.step (.init bs peer)).bs line)) = p ++ v := by
      rw [hbuf.2 hstart, untilNul_loadLine, htext, hstrip]
    rw [hbuf.1.tail (by rw [hu, List.length_append]; omega), hu, drop_at hpl.symm]

example : Begins b!"GET /api/a HTTP/1.1\r\nX-Real-IP: 1.2.3.4\r\n\r\n" b!"GET /api/a HTTP/1.1\r\n" b!"GET /api/a HTTP/1.1\r\n"
    b!"GET" b!"/api/a" b!"X-Real-IP: 1.2.3.4\r\n\r\n" :=
  ⟨⟨by decide, by decide, by decide, by decide⟩, ⟨by decide, Or.inl rfl⟩,
    ⟨b!" ", 32, b!"HTTP/1.1\r\n", rfl, by unfold White; decide, by decide, by unfold White; decide, by decide,
      by unfold White; decide, by unfold White; decide⟩, by decide, by decide⟩
example : Supported b!"GET" := ⟨b!"GET", by decide, (startswith_iff _ _).mp (by decide)⟩
example : Admits [] [⟨0, [], []⟩] b!"10.0.0.1" b!"/api/a" := ⟨⟨_, List.mem_singleton.mpr rfl, rfl⟩, by simp⟩
example : ¬ Admits [] [⟨3, b!"/", b!"10.0.0.2"⟩] b!"10.0.0.1" b!"/api/a" := by
  rintro ⟨⟨c, hc, h0⟩, -⟩
  simp at hc
  subst hc
  cases h0
example : Section b!"X-Real-IP: 1.2.3.4\r\n\r\n" [b!"X-Real-IP: 1.2.3.4\r\n"] [] ∧
    BeforeNul b!"X-Real-IP: 1.2.3.4\r\n" (b!"X-Real-IP: " ++ b!"1.2.3.4" ++ b!"\r\n") :=
  ⟨one_line_section (line := b!"X-Real-IP: 1.2.3.4\r\n") (by decide) (by decide) (by decide) (by decide) (by decide) [],
    by decide, Or.inl rfl⟩

/-! ### C64 -/

theorem partsLoop_env (env : Env) (root index icon junk : Str) (form : Buf) (boundary : Str) (cl n : Nat) :
    ∀ (ptr : Nat) (a b : Buf) (fs : FS),
      partsLoop { env with staticRoot := root, wwwIndex := index, favicon := icon, junk := junk } form boundary cl n ptr a b fs =
        partsLoop env form boundary cl n ptr a b fs := by
  induction n with
  | zero => intro ptr a b fs; rfl
  | succ n ih =>
    intro ptr a b fs
    simp only [partsLoop, ih]
    rfl

/-- C64, the API: a request for a URL that starts with /api (up to case) has the same outcome whatever the static
root, the index page, the icon, and whatever was on the stack of the code for static files. -/
theorem C64_api (env : Env) (st : St) (socket : Nat) (peer line text method url rest root index icon junk : Str)
    (hp : peer.length < 24) (hb : Begins st.input line text method url rest) (hs : Supported method)
    (hu : CasePrefix b!"/api" url) :
    accept_request { env with staticRoot := root, wwwIndex := index, favicon := icon, junk := junk } st socket peer =
      accept_request env st socket peer := by
  have hd : ∀ st n b, dispatch { env with staticRoot := root, wwwIndex := index, favicon := icon, junk := junk } st url n b =
      dispatch env st url n b := by
    intro st n b
    unfold dispatch
    have : startswith url API_MOUNT = true := (startswith_iff _ _).mpr hu
    have hapi : ∀ st, handle_api_request { env with staticRoot := root, wwwIndex := index, favicon := icon, junk := junk } st n b =
        handle_api_request env st n b := by
      intro st
      unfold handle_api_request readForm multipart_parse
      simp only [partsLoop_env]
      rfl
    simp only [this, Bool.not_true, Bool.false_eq_true, if_false, hapi]
  rw [begins_line hb hp hs, begins_line hb hp hs]
  simp only [hd]
  rfl

example := C64_api sampleRouterEnv { sampleSt with live := [⟨0, [], []⟩], input := b!"GET /api/a?q HTTP/1.1\r\nContent-Length: 2\r\n\r\nhi" } 7 b!"10.0.0.1"
  b!"GET /api/a?q HTTP/1.1\r\n" b!"GET /api/a?q HTTP/1.1\r\n" b!"GET" b!"/api/a?q" b!"Content-Length: 2\r\n\r\nhi"
  b!"/else" b!"start.html" b!"icon" b!"junk" (by decide)
  ⟨⟨by decide, by decide, by decide, by decide⟩, ⟨by decide, Or.inl rfl⟩,
    ⟨b!" ", 32, b!"HTTP/1.1\r\n", rfl, by unfold White; decide, by decide, by unfold White; decide, by decide,
      by unfold White; decide, by unfold White; decide⟩, by decide, by decide⟩
  ⟨b!"GET", by decide, (startswith_iff _ _).mp (by decide)⟩ ((startswith_iff _ _).mp (by decide))

/-- C64, everything else: for any other URL no handler or filter runs, and the outcome is the same whatever routes,
handlers and filters there are. -/
theorem C64_static (env : Env) (st : St) (socket : Nat) (peer line text method url rest : Str) (routes : List Route)
    (handle : Nat → St → C St) (filt : Nat → St → C (St × Bool))
    (hp : peer.length < 24) (hb : Begins st.input line text method url rest) (hs : Supported method)
    (hu : ¬ CasePrefix b!"/api" url) :
    accept_request { env with routes := routes, handle := handle, filt := filt } st socket peer =
      accept_request env st socket peer ∧
    ∀ st' ev, accept_request env st socket peer = ok (st', ev) → ev = [] := by
  have hn : startswith url API_MOUNT = false := not_startswith_api hu
  have hd : ∀ st n b, dispatch { env with routes := routes, handle := handle, filt := filt } st url n b =
      dispatch env st url n b := by
    intro st n b
    unfold dispatch
    simp only [hn, Bool.not_false, if_true]
    rfl
  have hev : ∀ st n b st' ev, dispatch env st url n b = ok (st', ev) → ev = [] := by
    intro st n b st' ev h
    unfold dispatch at h
    simp only [hn, Bool.not_false, if_true] at h
    obtain ⟨⟨path, query⟩, -, h⟩ := bind_eq_ok.mp h
    dsimp only at h
    split at h
    · obtain ⟨_, -, h⟩ := bind_eq_ok.mp h
      simp only [ok.injEq, Prod.mk.injEq] at h
      exact h.2.symm
    · obtain ⟨_, -, h⟩ := bind_eq_ok.mp h
      simp only [ok.injEq, Prod.mk.injEq] at h
      exact h.2.symm
  constructor
  · rw [begins_line hb hp hs, begins_line hb hp hs]
    simp only [hd]
    rfl
  · intro st' ev h
    rw [begins_line hb hp hs] at h
    obtain ⟨⟨added, live⟩, -, h⟩ := bind_eq_ok.mp h
    dsimp only at h
    split at h
    · obtain ⟨_, -, h⟩ := bind_eq_ok.mp h
      simp only [ok.injEq, Prod.mk.injEq] at h
      exact h.2.symm
    · obtain ⟨x, -, h⟩ := bind_eq_ok.mp h
      obtain ⟨⟨st1, ev'⟩, h1, h⟩ := bind_eq_ok.mp h
      simp only [ok.injEq, Prod.mk.injEq] at h
      rw [← h.2]
      exact hev _ _ _ _ _ h1

example := C64_static sampleEnv { sampleSt with live := [⟨0, [], []⟩], input := b!"GET /index.html HTTP/1.1\r\n\r\n" } 7 b!"10.0.0.1"
  b!"GET /index.html HTTP/1.1\r\n" b!"GET /index.html HTTP/1.1\r\n" b!"GET" b!"/index.html" b!"\r\n"
  sampleRouterEnv.routes sampleRouterEnv.handle sampleRouterEnv.filt (by decide)
  ⟨⟨by decide, by decide, by decide, by decide⟩, ⟨by decide, Or.inl rfl⟩,
    ⟨b!" ", 32, b!"HTTP/1.1\r\n", rfl, by unfold White; decide, by decide, by unfold White; decide, by decide,
      by unfold White; decide, by unfold White; decide⟩, by decide, by decide⟩
  ⟨b!"GET", by decide, (startswith_iff _ _).mp (by decide)⟩ (by rw [← startswith_iff]; decide)

/-- C64, other methods: outside /api, an admitted request whose method is not GET (up to case) is answered by exactly
one 400 response, without reading or writing any file. -/
theorem C64_method (env : Env) (st : St) (socket : Nat) (peer line text method url rest body : Str) (lines : List (List Byte))
    (hs' : List (Str × Str)) (path query : Str)
    (hlim : env.limits.length ≤ 64) (hne : ∀ l ∈ env.limits, l.path ≠ []) (hp : peer.length < 16)
    (hb : Begins st.input line text method url rest) (hs : Supported method)
    (hu : ¬ CasePrefix b!"/api" url) (hm : ¬ CaseEq method b!"GET")
    (hparts : UrlParts url path query) (hpath : path ≠ []) (hq : (63 : Byte) ∉ query)
    (hadm : Admits env.limits st.live peer url)
    (hsec : Section rest lines body) (ho : ∀ l ∈ lines, ∀ t, BeforeNul l t → ¬ Overrun t) (hn : Named lines hs')
    (hfit : FitsLog (hs'.take 20)) :
    ∃ st' reply fields, accept_request env st socket peer = ok (st', []) ∧ st'.sent = st.sent ++ reply ∧
      Response reply 400 fields [] ∧ Sized fields [] ∧ st'.fs = st.fs ∧ st'.closed = st.closed ++ [socket] ∧
      st'.input = body := by
  obtain ⟨a, c, b, e1, e2, e3, hadd⟩ := (connection_add_admits (socket := socket) hlim hne
    (show url.length < 512 by have := hb.2.2.2.2; omega) hp).1 hadm
  obtain ⟨h, hh1, hh2, hh3⟩ := head_ok hsec ho hn hfit (lineBytes_buf hb.1.2.1) peer
  have hget : get_path_and_query_string url = ok (path, query) :=
    C36_partial url path query hb.nulFree hb.2.2.2.2 hparts hpath hq
  have hm' : strcaseEq method b!"GET" = false := by
    cases h : strcaseEq method b!"GET" with
    | false => rfl
    | true => exact absurd ((strcaseEq_iff _ _).mp h) hm
  have hst := hh3 { servedSt st (a ++ ⟨socket, url, peer⟩ :: b) socket peer (text.take (text.length - 2)) method url h with
    req := { headReq socket peer (text.take (text.length - 2)) method url h with query_string := query, path := path } } rfl rfl
  obtain ⟨st2, start, h3, h4, h5, h6, h7, h8, h9, h10⟩ := bad_request_eq (env := env) hst
  obtain ⟨fields, h11, h12⟩ := statusReply_response h4 []
  refine ⟨connection_close st2, _, fields, ?_, h5, by simpa using h11, by simpa using h12, h7, ?_, by rw [← hh2]; exact h6⟩
  · rw [served_eq hb (by omega) hs hadd, hh1]
    show (dispatch _ _ _ _ _).bind _ = _
    rw [dispatch_static hu hget, if_neg (by show ¬ strcaseEq method _ = true; rw [hm']; simp)]
    have h3' : bad_request env { servedSt st (a ++ ⟨socket, url, peer⟩ :: b) socket peer (text.take (text.length - 2)) method url h with
        req := { (servedSt st (a ++ ⟨socket, url, peer⟩ :: b) socket peer (text.take (text.length - 2)) method url h).req with
          query_string := query, path := path } } = ok st2 := h3
    rw [h3']
    rfl
  · have : st2.req.socket = socket := by rw [h10]; rfl
    simp [connection_close, h9, this]
    rfl

example : ¬ CasePrefix b!"/api" b!"/index.html" ∧ CasePrefix b!"/api" b!"/API/a" ∧ ¬ CaseEq b!"POST" b!"GET" ∧
    UrlParts b!"/form?x" b!"/form" b!"x" :=
  ⟨by rw [← startswith_iff]; decide, (startswith_iff _ _).mp (by decide), by unfold CaseEq; decide, Or.inr (by decide)⟩
example : (accept_request sampleEnv { sampleSt with live := [⟨0, [], []⟩], input := b!"POST /form HTTP/1.1\r\nHost: a\r\n\r\nx" } 7
    b!"10.0.0.1").bind (fun x => ok (x.1.sent, x.1.closed, x.1.input)) =
    ok (b!"HTTP/1.1 400 Bad Request\r\nServer: WAYUU/1.5.0\r\nContent-Length: 0\r\n\r\n", [7], b!"x") := by decide +kernel

/-! ### C63 -/

/-- C63: every request METHOD /api/PATH?QUERY (the mount in any case) with headers and body within the limits, when a
constant route METHOD:PATH is the earliest match: its handling is exactly that of the route's filter and handler (each
runs once, see `Dispatched`) on a request with that method, path, query, headers and body, followed by closing the
connection. -/
theorem C63_request (env : Env) (st : St) (socket : Nat) (peer line text method url rest mount path query body : Str)
    (lines : List (List Byte)) (hs : List (Str × Str)) (n : Option Nat) (regs : List Registration) (r : Registration)
    (t : Str) (h : Nat)
    (hlim : env.limits.length ≤ 64) (hne : ∀ l ∈ env.limits, l.path ≠ []) (hp : peer.length < 16)
    (hb : Begins st.input line text method url rest) (hm : Supported method) (hadm : Admits env.limits st.live peer url)
    (hparts : UrlParts url (mount ++ path) query) (hmount : CaseEq mount b!"/api") (hq : (63 : Byte) ∉ query)
    (hlen : method.length + path.length ≤ 253)
    (hsec : Section rest lines body) (ho : ∀ l ∈ lines, ∀ t, BeforeNul l t → ¬ Overrun t) (hn : Named lines hs)
    (hfit : FitsLog (hs.take 20))
    (hcl : LengthOf lines n) (hlt : n.getD 0 < 2 ^ 31) (hbody : n.getD 0 ≤ body.length)
    (hsp : ∀ l ∈ lines, ∀ t, BeforeNul l t → CasePrefix b!"Content-Length:" t → CasePrefix b!"Content-Length: " t)
    (hmp : ∀ l ∈ lines, ∀ t, BeforeNul l t → ¬ CasePrefix b!"Content-Type: multipart/form-data" t)
    (hv : ∀ r ∈ regs, r.template.Valid) (hreg : register regs = ok env.routes) (ht : r.template = .const t)
    (hd : r.handler = some h) (hfirst : FirstMatch regs (method ++ b!":" ++ path) r) :
    ∃ st0 : St, st0.req.method = method ∧ st0.req.path = path ∧ st0.req.query_string = query ∧
      st0.req.HasHeaders (hs.take 20) ∧ st0.req.form = (body.take (n.getD 0)).map some ++ [some 0] ∧
      st0.req.url = url ∧ st0.req.socket = socket ∧ st0.input = body.drop (n.getD 0) ∧ st0.out = st.out ∧ st0.fs = st.fs ∧
      ∀ st' ev, accept_request env st socket peer = ok (st', ev) ↔
        ∃ st1, Dispatched env h r.filter st0 st1 ev ∧ st' = connection_close st1 := by
  obtain ⟨a, c, b, e1, e2, e3, hadd⟩ := (connection_add_admits (socket := socket) hlim hne
    (show url.length < 512 by have := hb.2.2.2.2; omega) hp).1 hadm
  obtain ⟨x, hh1, hh2, hh3⟩ := head_ok hsec ho hn hfit (lineBytes_buf hb.1.2.1) peer
  have hml : mount.length = 4 := by simpa using congrArg List.length hmount
  have hmne : mount ++ path ≠ [] := by
    intro e
    rw [List.append_eq_nil_iff.mp e |>.1] at hml
    cases hml
  have hget : get_path_and_query_string url = ok (mount ++ path, query) :=
    C36_partial url _ query hb.nulFree hb.2.2.2.2 hparts hmne hq
  have hpre : CasePrefix b!"/api" url := by
    rcases hparts with ⟨rfl, -⟩ | ⟨rfl, -⟩
    · exact ⟨mount, path, rfl, hmount⟩
    · exact ⟨mount, path ++ 63 :: query, by simp, hmount⟩
  have hz : NulFree path := by
    refine NulFree.mono hb.nulFree (fun c hc => ?_)
    rcases hparts with ⟨rfl, -⟩ | ⟨rfl, -⟩ <;> simp [hc]
  obtain ⟨last, -, -, -, -, -, f4, f5, -⟩ := parse_fields (lineBytes_buf hb.1.2.1) hsec hh1
  have hb0 : LineBuf (Head.init (lineBytes line) peer).bs := (lineBytes_buf hb.1.2.1).load (line := [65]) (by decide)
  have hbd : x.boundary = [] := f4.trans (foldl_boundary_same lines _ (fun l hl => hmp l hl _ (untilNul_before l)))
  have hclen := foldl_clen hcl _ hb0 rfl hsec.length_le (fun m hm => by subst hm; exact hlt) hsp
  have hclen : x.content_length = (n.map (fun m => (m : Int))).getD (-1) := by
    rw [f5]
    cases n <;> exact hclen
  let st1 := servedSt st (a ++ ⟨socket, url, peer⟩ :: b) socket peer (text.take (text.length - 2)) method url x
  let st2 : St := { st1 with req := { st1.req with query_string := query, path := path } }
  have hform : ∃ st0 : St, readForm env st2 x.content_length x.boundary = ok st0 ∧
      st0 = { st2 with input := body.drop (n.getD 0), req := { st2.req with form := (body.take (n.getD 0)).map some ++ [some 0] } } := by
    have hin : st2.input = body := hh2
    rw [hbd]
    by_cases h0 : n.getD 0 = 0
    · refine ⟨st2, ?_, ?_⟩
      · unfold readForm
        rw [if_neg]
        rw [hclen]
        cases n with
        | none => simp
        | some n => simp at h0; simp [h0]
      · rw [h0, ← hin]
        simp only [List.drop_zero, List.take_zero, List.map_nil, List.nil_append]
        rfl
    · obtain ⟨m, rfl⟩ : ∃ m, n = some m := by
        cases n with
        | none => exact absurd rfl h0
        | some m => exact ⟨m, rfl⟩
      refine ⟨_, ?_, rfl⟩
      simp only [Option.getD_some] at h0 hbody
      have hclen' : x.content_length = (m : Int) := hclen
      rw [hclen', readForm_plain env st2 m (by omega) [] (by decide) (by rw [hin]; exact hbody), hin]
      rfl
  obtain ⟨st0, hform, hst0⟩ := hform
  have hdisp : ∀ st' ev, router_handle_request env st0 = ok (st', ev) ↔ Dispatched env h r.filter st0 st' ev := by
    intro st' ev
    apply C25_const env st0 regs hv hreg ?_ r t h ht hd ?_
    · rw [hst0]; show method.length + 1 + path.length < 255; omega
    · rw [hst0]; exact hfirst
  refine ⟨st0, by rw [hst0]; rfl, by rw [hst0], by rw [hst0], hh3 st0 (by rw [hst0]; rfl) (by rw [hst0]; rfl), by rw [hst0],
    by rw [hst0]; rfl, by rw [hst0]; rfl, by rw [hst0], by rw [hst0]; rfl, by rw [hst0]; rfl, fun st' ev => ?_⟩
  rw [served_eq hb (by omega) hm hadd, hh1]
  show (dispatch env st1 url x.content_length x.boundary).bind _ = _ ↔ _
  rw [dispatch_api hpre hget hml hz]
  show ((readForm env st2 x.content_length x.boundary).bind (router_handle_request env)).bind _ = _ ↔ _
  rw [hform]
  show (router_handle_request env st0).bind _ = _ ↔ _
  constructor
  · intro h
    obtain ⟨⟨s, ev'⟩, h1, h2⟩ := bind_eq_ok.mp h
    simp only [ok.injEq, Prod.mk.injEq] at h2
    obtain ⟨rfl, rfl⟩ := h2
    exact ⟨s, (hdisp _ _).mp h1, rfl⟩
  · rintro ⟨s, h1, rfl⟩
    rw [(hdisp _ _).mpr h1]
    rfl

/-- A request with a body for the filtered route of `sampleRegs`. -/
def samplePost : Str := b!"GET /api/a?q HTTP/1.1\r\nContent-Length: 2\r\n\r\nhi"

example : Begins samplePost b!"GET /api/a?q HTTP/1.1\r\n" b!"GET /api/a?q HTTP/1.1\r\n" b!"GET" b!"/api/a?q"
      b!"Content-Length: 2\r\n\r\nhi" ∧
    UrlParts b!"/api/a?q" (b!"/api" ++ b!"/a") b!"q" ∧
    Section b!"Content-Length: 2\r\n\r\nhi" [b!"Content-Length: 2\r\n"] b!"hi" ∧
    Named [b!"Content-Length: 2\r\n"] [(b!"Content-Length", b!"2")] ∧
    (∀ r ∈ sampleRegs, r.template.Valid) ∧ register sampleRegs = ok sampleRouterEnv.routes ∧
    FirstMatch sampleRegs (b!"GET" ++ b!":" ++ b!"/a") ⟨.const b!"GET:/a", some 1, some 2⟩ := by
  refine ⟨⟨⟨by decide, by decide, by decide, by decide⟩, ⟨by decide, Or.inl rfl⟩,
    ⟨b!" ", 32, b!"HTTP/1.1\r\n", rfl, by unfold White; decide, by decide, by unfold White; decide, by decide,
      by unfold White; decide, by unfold White; decide⟩, by decide, by decide⟩, Or.inr (by decide), ?_, ?_, by decide,
    by decide +kernel, ⟨[], _, rfl, rfl, by simp⟩⟩
  · exact one_line_section (line := b!"Content-Length: 2\r\n") (by decide) (by decide) (by decide) (by decide) (by decide) b!"hi"
  · exact .header _ b!"Content-Length: 2\r\n" _ _ _ _ ⟨by decide, Or.inl rfl⟩ (headerLine_iff.mpr ⟨by decide, by decide⟩) .nil
example : (accept_request sampleRouterEnv { sampleSt with live := [⟨0, [], []⟩], input := samplePost } 7 b!"10.0.0.1").bind
    (fun x => ok (x.2.map (fun e => match e with
      | .filter i r => (i, [r.method, r.path, r.query_string, r.form.map (·.getD 1)])
      | .handler i r => (i, [r.method, r.path, r.query_string, r.form.map (·.getD 1)])))) =
    ok [(2, [b!"GET", b!"/a", b!"q", b!"hi" ++ [0]]), (1, [b!"GET", b!"/a", b!"q", b!"hi" ++ [0]])] := by decide +kernel

end Wayuu
