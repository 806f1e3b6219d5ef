import Verif.Props.Session
import Verif.Props.Framing
import Verif.Spec.PageSession
/-
C135: the session a page hands out (http_utils.c:86-109, ws.c:607-617).
-/
namespace Wayuu
open C Spec

/-- C135 in full: a page hands the client the session of its request, and no session if the request has none. -/
def C135_statement : Prop :=
  ∀ (env : Env) (st : St) (socket : Nat) (peer path body page name content s session : Str) (lines : List (List Byte)),
    StaticHead env st peer path body lines → Page env.wwwIndex env.favicon path page →
    Served st.fs env.staticRoot env.wwwIndex page name → st.fs.openRead name = some content →
    env.staticRoot.length ≤ 256 → env.wwwIndex.length ≤ 256 → env.favicon.length ≤ 256 → content.length + 1200 < 2 ^ 31 →
    path = b!"/" ∨ path.getLast? ≠ some 47 → Stack env s → s ≠ [] → s.getLast? ≠ some 47 → SessionOf lines session →
    ∃ st' reply, accept_request env st socket peer = ok (st', []) ∧ st'.sent = st.sent ++ reply ∧ PageFor reply session content

/-- The head before the session has no cookie. -/
theorem head_no_cookie (name : Str) : ¬ b!"Set-Cookie" <:+: fileHead ++ fileHead ++ get_content_type name := by
  have key : ∀ t ∈ contentTypes, ¬ b!"Set-Cookie" <:+: fileHead ++ fileHead ++ t := by decide +kernel
  exact key _ (content_type_mem name)

theorem pageFor_file (name session content : Str) : PageFor (fileReply name session content) session content :=
  ⟨fileHead ++ fileHead ++ get_content_type name, by unfold fileReply sessionLines sessionText; simp, head_no_cookie name⟩

/-- No answer is one with and one without a session. -/
theorem pageFor_none {reply s content : Str} (h1 : PageFor reply s content) (h2 : PageFor reply [] content) : s = [] := by
  obtain ⟨a, e1, n1⟩ := h1
  obtain ⟨b, e2, n2⟩ := h2
  by_contra h0
  rw [e1] at e2
  have e2 := List.append_cancel_right (List.append_cancel_right e2)
  rw [show sessionLines [] = [] from rfl, List.append_nil] at e2
  apply n2
  rw [← e2]
  unfold sessionLines
  rw [if_neg h0]
  exact ⟨a ++ b!"X-Session: " ++ s ++ b!"\r\n", b!":WSSESSION=" ++ s ++ b!"\r\n", by simp⟩

/-- C135, what holds: header sections without `Authorization` and `Cookie` lines. -/
theorem C135_partial (env : Env) (st : St) (socket : Nat) (peer path body page name content s session : Str) (lines : List (List Byte))
    (hreq : StaticHead env st peer path body lines) (hpage : Page env.wwwIndex env.favicon path page)
    (hserved : Served st.fs env.staticRoot env.wwwIndex page name) (hopen : st.fs.openRead name = some content)
    (hroot : env.staticRoot.length ≤ 256) (hidx : env.wwwIndex.length ≤ 256) (hicon : env.favicon.length ≤ 256)
    (hlen : content.length + 1200 < 2 ^ 31)
    (hfolder : path = b!"/" ∨ path.getLast? ≠ some 47) (hs : Stack env s) (hne : s ≠ []) (hlast : s.getLast? ≠ some 47)
    (hses : SessionOf lines session)
    (hno : ∀ l ∈ lines, ∀ t, BeforeNul l t → (∀ v, ¬ FieldLine b!"Authorization" t v) ∧ ¬ CasePrefix b!"Cookie:" t) :
    ∃ st' reply, accept_request env st socket peer = ok (st', []) ∧ st'.sent = st.sent ++ reply ∧ PageFor reply session content := by
  obtain ⟨st', s', line, rest, x, h1, h2, h3, h4, h5, h6⟩ :=
    static_reply (socket := socket) hreq (rewritePath_page hpage hfolder hs hne hlast) hserved hopen hroot hidx hicon hlen
  obtain ⟨g1, g2, g3⟩ := h3
  have := C43_partial (lineBytes line) rest body lines peer session x g1 (by rw [g3]; simp) h4 hses hno h5
  rw [h6, ok.injEq] at this
  subst this
  exact ⟨st', _, h1, h2, pageFor_file _ _ _⟩

/-- C135, what every section does (if no `Cookie:` line is shorter than 18 bytes): the page hands out the session of `SessionRead`,
the one that C43_exact says user code would get. -/
theorem C135_exact (env : Env) (st : St) (socket : Nat) (peer path body page name content s session : Str) (lines : List (List Byte))
    (hreq : StaticHead env st peer path body lines) (hpage : Page env.wwwIndex env.favicon path page)
    (hserved : Served st.fs env.staticRoot env.wwwIndex page name) (hopen : st.fs.openRead name = some content)
    (hroot : env.staticRoot.length ≤ 256) (hidx : env.wwwIndex.length ≤ 256) (hicon : env.favicon.length ≤ 256)
    (hlen : content.length + 1200 < 2 ^ 31)
    (hfolder : path = b!"/" ∨ path.getLast? ≠ some 47) (hs : Stack env s) (hne : s ≠ []) (hlast : s.getLast? ≠ some 47)
    (hc : ∀ l ∈ lines, ∀ t, BeforeNul l t → CasePrefix b!"Cookie:" t → 18 ≤ t.length) (hses : SessionRead lines session) :
    ∃ st' reply, accept_request env st socket peer = ok (st', []) ∧ st'.sent = st.sent ++ reply ∧ PageFor reply session content := by
  obtain ⟨st', s', line, rest, x, h1, h2, h3, h4, h5, h6⟩ :=
    static_reply (socket := socket) hreq (rewritePath_page hpage hfolder hs hne hlast) hserved hopen hroot hidx hicon hlen
  obtain ⟨last, -, -, -, -, -, -, -, -, h7⟩ := parse_fields h3 h4 h5
  have e := foldl_read hses (.init (lineBytes line) peer) (h3.load (line := [65]) (by decide)) rfl h4.length_le hc
  have h8 := h7.cstr
  rw [h6, ok.injEq] at h8
  have h9 : s' = session := h8.trans e
  subst h9
  exact ⟨st', _, h1, h2, pageFor_file _ _ _⟩

/-- C135, a line `Authorization: v`: the page answers with the cookie `WSSESSION=ion: v`, so the credential of the client is in the
cookies of the site from then on. -/
theorem C135_authorization (env : Env) (st : St) (socket : Nat) (peer path body page name content s v session : Str)
    (lines : List (List Byte)) (hreq : StaticHead env st peer path body (lines ++ [b!"Authorization:" ++ v]))
    (hpage : Page env.wwwIndex env.favicon path page)
    (hserved : Served st.fs env.staticRoot env.wwwIndex page name) (hopen : st.fs.openRead name = some content)
    (hroot : env.staticRoot.length ≤ 256) (hidx : env.wwwIndex.length ≤ 256) (hicon : env.favicon.length ≤ 256)
    (hlen : content.length + 1200 < 2 ^ 31)
    (hfolder : path = b!"/" ∨ path.getLast? ≠ some 47) (hs : Stack env s) (hne : s ≠ []) (hlast : s.getLast? ≠ some 47)
    (hc : ∀ l ∈ lines, ∀ t, BeforeNul l t → CasePrefix b!"Cookie:" t → 18 ≤ t.length) (hz : (0 : Byte) ∉ v)
    (hv : IsStrip (b!"ion:" ++ v) session) :
    ∃ st' reply, accept_request env st socket peer = ok (st', []) ∧ st'.sent = st.sent ++ reply ∧ PageFor reply session content := by
  have hb : BeforeNul (b!"Authorization:" ++ v) (b!"Authorization:" ++ v) := by
    refine ⟨fun c hc => ?_, Or.inl rfl⟩
    rintro rfl
    rcases List.mem_append.mp hc with h | h
    · revert h; decide
    · exact hz h
  have hp : CasePrefix b!"Authorization:" (b!"Authorization:" ++ v) := ⟨_, v, rfl, rfl⟩
  obtain ⟨s0, h0⟩ := sessionRead_exists lines hc
  refine C135_exact env st socket peer path body page name content s session _ hreq hpage hserved hopen hroot hidx hicon hlen hfolder hs
    hne hlast ?_ (.token lines s0 _ _ _ h0 hb (Or.inr hp) (by simpa using hv))
  intro l hl t ht hct
  rcases List.mem_append.mp hl with h | h
  · exact hc l h t ht hct
  · have : l = b!"Authorization:" ++ v := by simpa using h
    subst this
    rw [beforeNul_unique ht hb] at hct
    have := cookie_not_sess hct
    rw [← Bool.not_eq_true, isSess_iff] at this
    exact absurd (Or.inr hp) this

/-- The cookie of a statistics script. -/
def statsLine : Str := b!"Cookie: _ga=GA1.2.1111\r\n"

theorem stats_head : StaticHead sampleEnv (cookieSt statsLine) b!"10.0.0.1" b!"/" [] ([] ++ [statsLine]) :=
  cookie_head (line := statsLine) (by decide) (by decide) (by decide) (by decide) (by decide) (by decide) (by decide)
    (by decide +kernel) (by decide +kernel)

theorem C135_refuted : ¬ C135_statement := by
  intro h
  have hpage : Page sampleEnv.wwwIndex sampleEnv.favicon b!"/" b!"index.html" := Or.inl ⟨Or.inl rfl, rfl⟩
  have hserved : Served (cookieSt statsLine).fs sampleEnv.staticRoot sampleEnv.wwwIndex b!"index.html" b!"/www/index.html" :=
    Or.inl ⟨⟨b!"site", by decide +kernel⟩, rfl⟩
  have hopen : (cookieSt statsLine).fs.openRead b!"/www/index.html" = some b!"site" := by decide +kernel
  have hst : Stack sampleEnv b!"A" := ⟨[], rfl, by decide⟩
  have hb : BeforeNul statsLine statsLine := ⟨by decide, Or.inl rfl⟩
  have hnone : SessionOf ([] ++ [statsLine]) [] := by
    refine .kept [] [] statsLine statsLine .none hb (fun v => ⟨?_, ?_⟩) (fun h => ?_)
    · intro hf
      exact absurd (fieldLine_startswith.mp ⟨v, hf⟩) (by decide)
    · intro hf
      exact absurd (fieldLine_startswith.mp ⟨v, hf⟩) (by decide)
    · exact absurd h (by decide)
  obtain ⟨st1, r1, e1, e2, e3⟩ := h _ _ 7 _ _ _ _ _ _ _ _ _ stats_head hpage hserved hopen (by decide) (by decide) (by decide) (by decide)
    (Or.inl rfl) hst (by decide) (by decide) hnone
  obtain ⟨st2, r2, g1, g2, g3⟩ := C135_exact _ _ 7 _ _ _ _ _ _ _ b!"1111\r\n" _ stats_head hpage hserved hopen (by decide) (by decide)
    (by decide) (by decide) (Or.inl rfl) hst (by decide) (by decide)
    (by
      intro l hl t ht _
      have : l = statsLine := by simpa using hl
      subst this
      rw [beforeNul_unique ht hb]
      decide)
    (.cookie [] statsLine b!"Cookie: _ga=GA1.2." b!"1111\r\n" .none hb ⟨b!"Cookie:", _, rfl, rfl⟩ rfl (by decide))
  rw [e1] at g1
  simp only [ok.injEq, Prod.mk.injEq, and_true] at g1
  subst g1
  rw [e2] at g2
  have := List.append_cancel_left g2
  subst this
  exact absurd (pageFor_none g3 e3) (by decide)

/-- The hypotheses of `C135_partial` and `C135_authorization`, and what is sent. -/
example : StaticHead sampleEnv (cookieSt b!"X-Session: abc\r\n") b!"10.0.0.1" b!"/" [] ([] ++ [b!"X-Session: abc\r\n"]) ∧
    SessionOf ([] ++ [b!"X-Session: abc\r\n"]) b!"abc" :=
  ⟨cookie_head (by decide) (by decide) (by decide) (by decide) (by decide) (by decide) (by decide)
    (by decide +kernel) (by decide +kernel),
   .token [] [] _ _ _ .none ⟨by decide, Or.inl rfl⟩ (Or.inl ⟨b!"X-Session", b!" abc\r\n", rfl, rfl, isStrip_strip _⟩)⟩
example : (accept_request sampleEnv (cookieSt b!"X-Session: abc\r\n") 7 b!"10.0.0.1").bind (fun x => ok (x.1.sent.drop 101)) =
    ok b!"X-Session: abc\r\nSet-Cookie:WSSESSION=abc\r\n\r\nsite" := by decide +kernel
example : StaticHead sampleEnv (cookieSt b!"Authorization: Basic YTpi\r\n") b!"10.0.0.1" b!"/" []
    ([] ++ [b!"Authorization:" ++ b!" Basic YTpi\r\n"]) ∧ IsStrip (b!"ion:" ++ b!" Basic YTpi\r\n") b!"ion: Basic YTpi" :=
  ⟨cookie_head (by decide) (by decide) (by decide) (by decide) (by decide) (by decide) (by decide)
    (by decide +kernel) (by decide +kernel), isStrip_strip _⟩
example : (accept_request sampleEnv (cookieSt b!"Authorization: Basic YTpi\r\n") 7 b!"10.0.0.1").bind (fun x => ok (x.1.sent.drop 101)) =
    ok b!"X-Session: ion: Basic YTpi\r\nSet-Cookie:WSSESSION=ion: Basic YTpi\r\n\r\nsite" := by decide +kernel

end Wayuu
