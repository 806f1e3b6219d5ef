import Verif.Props.Static
/-
Property C71 (ws.c:607-617 with http_utils.c:87-110): what a client sends as session and the layout of the response.
-/
namespace Wayuu
open C Spec

/-- The bytes consist of a head, the first blank line, and this body. -/
def Framed (reply body : List Byte) : Prop :=
  ∃ head, reply = head ++ b!"\r\n\r\n" ++ body ∧ ¬ b!"\r\n\r\n" <:+: head ++ b!"\r\n\r"

/-- There is only one way to read a reply. -/
theorem Framed.unique {reply b1 b2 : List Byte} (h1 : Framed reply b1) (h2 : Framed reply b2) : b1 = b2 := by
  obtain ⟨a1, e1, n1⟩ := h1
  obtain ⟨a2, e2, n2⟩ := h2
  have main : ∀ a1 b1 a2 b2 : List Byte, a1 ++ b!"\r\n\r\n" ++ b1 = a2 ++ b!"\r\n\r\n" ++ b2 → a1.length < a2.length →
      b!"\r\n\r\n" <:+: a2 ++ b!"\r\n\r" := by
    intro a1 b1 a2 b2 e hlt
    have hp : a1 ++ b!"\r\n\r\n" <+: a2 ++ b!"\r\n\r" := by
      have p1 : a1 ++ b!"\r\n\r\n" <+: a2 ++ b!"\r\n\r\n" ++ b2 := by rw [← e]; exact List.prefix_append _ _
      have p2 : a2 ++ b!"\r\n\r" <+: a2 ++ b!"\r\n\r\n" ++ b2 := ⟨10 :: b2, by simp⟩
      exact List.prefix_of_prefix_length_le p1 p2 (by simp; omega)
    obtain ⟨t, ht⟩ := hp
    exact ⟨a1, t, ht⟩
  have e := e1.symm.trans e2
  rcases Nat.lt_trichotomy a1.length a2.length with h | h | h
  · exact absurd (main _ _ _ _ e h) n2
  · simp only [List.append_assoc] at e
    obtain ⟨-, e⟩ := List.append_inj e h
    exact (List.append_inj e rfl).2
  · exact absurd (main _ _ _ _ e.symm h) n1

theorem no_blank_line (lines : List (List Byte)) (hl : ∀ l ∈ lines, l ≠ [] ∧ (10 : Byte) ∉ l) :
    ∀ p q, lines.flatMap (· ++ [13, 10]) ++ [13] ≠ p ++ 10 :: 13 :: 10 :: q := by
  induction lines with
  | nil =>
    intro p q h
    have : (10 : Byte) ∈ ([13] : List Byte) := by
      have h : [13] = p ++ 10 :: 13 :: 10 :: q := h
      rw [h]; simp
    revert this; decide
  | cons l ls ih =>
    have hl0 := hl l (by simp)
    have ih := ih (fun x hx => hl x (by simp [hx]))
    intro p q h
    rw [List.flatMap_cons, List.append_assoc, List.append_assoc] at h
    rcases List.append_eq_append_iff.mp h with ⟨a, ha, h'⟩ | ⟨a, ha, h'⟩
    · clear h
      match a, h' with
      | [], h => simp at h
      | [x], h =>
        simp only [List.cons_append, List.nil_append, List.cons.injEq, true_and] at h
        obtain ⟨-, h⟩ := h
        cases ls with
        | nil => simp at h
        | cons l2 ls =>
          have h2 := hl l2 (by simp)
          match l2, h2, h with
          | [x], _, h => simp at h
          | x :: y :: l2, h2, h =>
            simp only [List.flatMap_cons, List.cons_append, List.cons.injEq] at h
            exact h2.2 (by simp [h.2.1])
      | x :: y :: a, h =>
        simp only [List.cons_append, List.nil_append, List.cons.injEq] at h
        exact ih a q h.2.2
    · clear h
      subst ha
      match a, h' with
      | [], h => simp at h
      | x :: a, h =>
        simp only [List.cons_append, List.cons.injEq] at h
        exact hl0.2 (by simp [h.1])

/-- Lines without line feeds, a blank line and a body are read as such. -/
theorem framed_mk {lines : List (List Byte)} (h0 : lines ≠ []) (hl : ∀ l ∈ lines, l ≠ [] ∧ (10 : Byte) ∉ l) (body : List Byte) :
    Framed (lines.flatMap (· ++ [13, 10]) ++ 13 :: 10 :: body) body := by
  obtain ⟨ls, l, rfl⟩ := List.eq_nil_or_concat lines |>.resolve_left h0
  refine ⟨ls.flatMap (· ++ [13, 10]) ++ l, by simp, ?_⟩
  rintro ⟨p, q, h⟩
  refine no_blank_line _ hl (p ++ [13]) q ?_
  simp only [List.concat_eq_append, List.flatMap_append, List.flatMap_cons, List.flatMap_nil, List.append_nil, List.append_assoc,
    List.cons_append, List.nil_append] at h ⊢
  exact h.symm

/-! ### the session -/

theorem strip_no_newline {l text t : List Byte} {k : Nat} (hl : (10 : Byte) ∉ l.dropLast) (ht : BeforeNul l text)
    (hs : IsStrip (text.drop k) t) : (10 : Byte) ∉ t := by
  intro hin
  obtain ⟨a, b, e, -, -, -, hlast⟩ := hs
  obtain ⟨y1, y2, rfl⟩ := List.append_of_mem hin
  obtain ⟨r, hr⟩ : ∃ r, l = text ++ r := by
    rcases ht.2 with rfl | ⟨r, rfl⟩
    · exact ⟨[], by simp⟩
    · exact ⟨_, rfl⟩
  have hl2 : l = (text.take k ++ a ++ y1) ++ 10 :: (y2 ++ b ++ r) := by
    conv_lhs => rw [hr, ← List.take_append_drop k text, e]
    simp
  by_cases h0 : y2 ++ b ++ r = []
  · have : y2 = [] := by simp at h0; exact h0.1
    subst this
    have := hlast 10 (by simp)
    revert this; decide
  · apply hl
    rw [hl2, List.dropLast_append_of_ne_nil (by simp), List.dropLast_cons_of_ne_nil h0]
    simp

theorem _root_.Wayuu.Spec.Section.newlines {input rest : List Byte} {lines : List (List Byte)} (h : Section input lines rest) :
    ∀ l ∈ lines, (10 : Byte) ∉ l.dropLast := by
  induction h with
  | eof => simp
  | blank => simp
  | line input line rest lines rest' h1 h2 h3 h4 _ ih =>
    intro l hl
    rcases List.mem_cons.mp hl with rfl | hl
    · exact h1.2.2.1
    · exact ih l hl

theorem foldl_sess_newline (lines : List (List Byte)) (a : Head) (ha : LineBuf a.bs) (hs : (10 : Byte) ∉ a.sess)
    (hl : ∀ l ∈ lines, l.length ≤ 1023 ∧ (10 : Byte) ∉ l.dropLast)
    (hc : ∀ l ∈ lines, ∀ t, BeforeNul l t → ¬ CasePrefix b!"Cookie:" t) : (10 : Byte) ∉ (lines.foldl Head.step a).sess := by
  induction lines generalizing a with
  | nil => exact hs
  | cons l ls ih =>
    have h1 := hl l (by simp)
    have hb := ha.load h1.1
    refine ih _ (LineBuf.foldl (lines := [l]) ha (by simpa using h1.1)) ?_ (fun x hx => hl x (by simp [hx])) (fun x hx => hc x (by simp [hx]))
    show (10 : Byte) ∉ nextSession a.sess (loadLine a.bs l)
    have hck : startswith (untilNul l) b!"Cookie:" = false := by
      cases e : startswith (untilNul l) b!"Cookie:" with
      | false => rfl
      | true => exact absurd ((startswith_iff _ _).mp e) (hc l (by simp) _ (untilNul_before l))
    unfold nextSession
    simp only [untilNul_loadLine, hck, Bool.false_eq_true, false_and, if_false]
    by_cases hi : isSess (untilNul l) = true
    · rw [if_pos hi, hb.tail (by rw [untilNul_loadLine]; exact isSess_length hi), untilNul_loadLine]
      exact strip_no_newline h1.2 (untilNul_before l) (isStrip_strip _)
    · rw [if_neg hi]; exact hs

/-- The answer to a request for a file, with the session found in the header section. -/
theorem static_reply {env : Env} {st : St} {socket : Nat} {peer path body page name content : Str} {lines : List (List Byte)}
    (hreq : StaticHead env st peer path body lines) (hpage : path.length ≤ 254 → rewritePath env path = ok page)
    (hserved : Served st.fs env.staticRoot env.wwwIndex page name) (hopen : st.fs.openRead name = some content)
    (hroot : env.staticRoot.length ≤ 256) (hidx : env.wwwIndex.length ≤ 256) (hicon : env.favicon.length ≤ 256)
    (hlen : content.length + 1200 < 2 ^ 31) :
    ∃ (st' : St) (session line rest : List Byte) (x : HdrSt), accept_request env st socket peer = ok (st', []) ∧
      st'.sent = st.sent ++ fileReply name session content ∧ LineBuf (lineBytes line) ∧ Section rest lines body ∧
      parseHeaders ((lineBytes line).map some) rest peer = ok x ∧ cstr x.session = ok session := by
  obtain ⟨st0, hs, session, h1, h2, h3, h4, h5, h6, h7, h8, h9, h10, h11, line, rest, x, h12, h13, h14, h15⟩ :=
    static_head_reaches (socket := socket) hreq
  have hp := hpage h10
  have hpl : page.length ≤ 300 := by
    rcases rewritePath_cases hp with rfl | rfl | rfl | rfl
    · omega
    · omega
    · simp; omega
    · omega
  rw [← h1] at hp
  rw [← h6] at hserved hopen
  obtain ⟨st1, g1, g2, -⟩ := handle_static_serves h2 h3 h4 hp hserved hopen hroot hidx hpl hlen
  refine ⟨connection_close st1, session, line, rest, x, ?_, ?_, h12, h13, h14, h15⟩
  · rw [h11, g1]; rfl
  · show st1.sent = _
    rw [g2]
    have : st0.sent = st.sent := by simp [St.sent, h5]
    rw [this]

/-- C71 in full: whatever headers a client sends, what follows the first blank line of the answer is the file. -/
def C71_statement : Prop :=
  ∀ (env : Env) (st : St) (socket : Nat) (peer path body page name content s : Str) (lines : List (List Byte)),
    StaticHead env st peer path body lines → Page env.wwwIndex env.favicon path page →
    Served st.fs env.staticRoot env.wwwIndex page name → st.fs.openRead name = some content →
    env.staticRoot.length ≤ 256 → env.wwwIndex.length ≤ 256 → env.favicon.length ≤ 256 → content.length + 1200 < 2 ^ 31 →
    path = b!"/" ∨ path.getLast? ≠ some 47 → Stack env s → s ≠ [] → s.getLast? ≠ some 47 →
    ∃ st' reply, accept_request env st socket peer = ok (st', []) ∧ st'.sent = st.sent ++ reply ∧ Framed reply content

theorem head_lines (name : Str) : ∃ t, fileHead ++ fileHead ++ get_content_type name =
    [b!"HTTP/1.1 200 OK", b!"Server: WAYUU/1.5.0", b!"HTTP/1.1 200 OK", b!"Server: WAYUU/1.5.0", b!"Content-Type: " ++ t].flatMap (· ++ [13, 10]) ∧
    (10 : Byte) ∉ t := by
  obtain ⟨t, ht, ows, hf, -, -, -, hone, -⟩ := content_type_field name
  refine ⟨t, ?_, ?_⟩
  · rw [ht]
    simp [fileHead, HTTP_OK_START, WAYUU_HTTP_SERVER_STRING]
  · intro h
    exact (hone 10 h).2 rfl

/-- C71, what holds: header sections without a Cookie line. -/
theorem C71_partial (env : Env) (st : St) (socket : Nat) (peer path body page name content s : Str) (lines : List (List Byte))
    (hreq : StaticHead env st peer path body lines) (hpage : Page env.wwwIndex env.favicon path page)
    (hserved : Served st.fs env.staticRoot env.wwwIndex page name) (hopen : st.fs.openRead name = some content)
    (hroot : env.staticRoot.length ≤ 256) (hidx : env.wwwIndex.length ≤ 256) (hicon : env.favicon.length ≤ 256)
    (hlen : content.length + 1200 < 2 ^ 31)
    (hfolder : path = b!"/" ∨ path.getLast? ≠ some 47) (hs : Stack env s) (hne : s ≠ []) (hlast : s.getLast? ≠ some 47)
    (hcookie : ∀ l ∈ lines, ∀ t, BeforeNul l t → ¬ CasePrefix b!"Cookie:" t) :
    ∃ st' reply, accept_request env st socket peer = ok (st', []) ∧ st'.sent = st.sent ++ reply ∧ Framed reply content := by
  obtain ⟨st', session, line, rest, x, h1, h2, h3, h4, h5, h6⟩ :=
    static_reply (socket := socket) hreq (rewritePath_page hpage hfolder hs hne hlast) hserved hopen hroot hidx hicon hlen
  refine ⟨st', _, h1, h2, ?_⟩
  obtain ⟨last, -, -, -, -, -, -, -, -, e⟩ := parse_fields h3 h4 h5
  have hb0 : LineBuf (Head.init (lineBytes line) peer).bs := h3.load (line := [65]) (by decide)
  have hsess : (10 : Byte) ∉ session := by
    have := e.cstr
    rw [h6] at this
    simp only [ok.injEq] at this
    rw [this]
    exact foldl_sess_newline lines _ hb0 (by show (10 : Byte) ∉ []; simp)
      (fun l hl => ⟨h4.length_le l hl, h4.newlines l hl⟩) hcookie
  obtain ⟨t, ht, hn⟩ := head_lines name
  unfold fileReply
  rw [ht]
  by_cases e0 : session = []
  · have := framed_mk (lines := [b!"HTTP/1.1 200 OK", b!"Server: WAYUU/1.5.0", b!"HTTP/1.1 200 OK", b!"Server: WAYUU/1.5.0",
      b!"Content-Type: " ++ t]) (by simp) (by simp [hn]) content
    rw [e0]
    simpa [sessionText] using this
  · have := framed_mk (lines := [b!"HTTP/1.1 200 OK", b!"Server: WAYUU/1.5.0", b!"HTTP/1.1 200 OK", b!"Server: WAYUU/1.5.0",
      b!"Content-Type: " ++ t, b!"X-Session: " ++ session, b!"Set-Cookie:WSSESSION=" ++ session]) (by simp) (by simp [hn, hsess]) content
    simpa [sessionText, e0] using this

/-- C71, what a cookie does: if the session comes from a line `Cookie: WSSESSION=v`, the first blank line of the answer is in the
middle of its head, and the body a client sees starts with the line `Set-Cookie:WSSESSION=v`. -/
theorem C71_cookie (env : Env) (st : St) (socket : Nat) (peer path body page name content s v : Str) (lines : List (List Byte))
    (line : List Byte) (hreq : StaticHead env st peer path body (lines ++ [line])) (hpage : Page env.wwwIndex env.favicon path page)
    (hserved : Served st.fs env.staticRoot env.wwwIndex page name) (hopen : st.fs.openRead name = some content)
    (hroot : env.staticRoot.length ≤ 256) (hidx : env.wwwIndex.length ≤ 256) (hicon : env.favicon.length ≤ 256)
    (hlen : content.length + 1200 < 2 ^ 31)
    (hfolder : path = b!"/" ∨ path.getLast? ≠ some 47) (hs : Stack env s) (hne : s ≠ []) (hlast : s.getLast? ≠ some 47)
    (hses : SessionOf lines [])
    (hno : ∀ l ∈ lines, ∀ t, BeforeNul l t → (∀ v, ¬ FieldLine b!"Authorization" t v) ∧ ¬ CasePrefix b!"Cookie:" t)
    (hline : BeforeNul line (b!"Cookie: WSSESSION=" ++ v ++ b!"\r\n")) (hv : v.length < 62) :
    ∃ st' reply, accept_request env st socket peer = ok (st', []) ∧ st'.sent = st.sent ++ reply ∧
      Framed reply (b!"Set-Cookie:WSSESSION=" ++ v ++ b!"\r\n\r\n\r\n" ++ content) := by
  obtain ⟨st', session, ln, rest, x, h1, h2, h3, h4, h5, h6⟩ :=
    static_reply (socket := socket) hreq (rewritePath_page hpage hfolder hs hne hlast) hserved hopen hroot hidx hicon hlen
  refine ⟨st', _, h1, h2, ?_⟩
  obtain ⟨g1, g2, g3⟩ := h3
  have hsess := C43_cookie (lineBytes ln) rest body lines peer line (v ++ b!"\r\n") x g1 (by rw [g3]; simp) h4 hses hno
    (by rw [← List.append_assoc]; exact hline) (by simp; omega) h5
  rw [h6] at hsess
  simp only [ok.injEq] at hsess
  have hv10 : (10 : Byte) ∉ v := by
    intro hin
    apply h4.newlines line (by simp)
    obtain ⟨r, hr⟩ : ∃ r, line = (b!"Cookie: WSSESSION=" ++ v ++ b!"\r\n") ++ r := by
      rcases hline.2 with h | ⟨r, h⟩
      · exact ⟨[], by rw [List.append_nil]; exact h⟩
      · exact ⟨_, h⟩
    rw [hr, show (b!"Cookie: WSSESSION=" ++ v ++ b!"\r\n") ++ r = (b!"Cookie: WSSESSION=" ++ v) ++ (13 :: 10 :: r) by simp,
      List.dropLast_append_of_ne_nil (by simp)]
    simp [hin]
  obtain ⟨t, ht, hn⟩ := head_lines name
  unfold fileReply
  rw [ht, hsess]
  have := framed_mk (lines := [b!"HTTP/1.1 200 OK", b!"Server: WAYUU/1.5.0", b!"HTTP/1.1 200 OK", b!"Server: WAYUU/1.5.0",
      b!"Content-Type: " ++ t, b!"X-Session: " ++ v]) (by simp) (by simp [hn, hv10]) (b!"Set-Cookie:WSSESSION=" ++ v ++ b!"\r\n\r\n\r\n" ++ content)
  simpa [sessionText] using this

/-- A request for that page with one header line. -/
def cookieSt (line : Str) : St :=
  { sampleSt with live := [⟨0, [], []⟩], input := b!"GET / HTTP/1.1\r\n" ++ (line ++ b!"\r\n"), fs := docsFs }

theorem cookie_head {line : Str} (h1 : line.length ≤ 1023) (h2 : (10 : Byte) ∉ line.dropLast) (h3 : line.getLast? = some 10)
    (h4 : line ≠ [10]) (h5 : line ≠ [13, 10]) (hz : NulFree line) (h6 : (58 : Byte) ∈ line) (h7 : lineSafe line = true)
    (h8 : (headerPair line).1.length < 64 ∧ (headerPair line).2.length < 256) :
    StaticHead sampleEnv (cookieSt line) b!"10.0.0.1" b!"/" [] ([] ++ [line]) := by
  refine ⟨b!"GET / HTTP/1.1\r\n", b!"GET / HTTP/1.1\r\n", b!"GET", b!"/", line ++ b!"\r\n", [], [headerPair line], by decide, by decide,
    by decide, ⟨⟨rfl, by decide, by decide, Or.inr (Or.inl rfl)⟩, ⟨by decide, Or.inl rfl⟩,
    ⟨b!" ", 32, b!"HTTP/1.1\r\n", rfl, by unfold White; decide, by decide, by unfold White; decide, by decide,
      by unfold White; decide, by unfold White; decide⟩, by decide, by decide⟩, rfl, by rw [← startswith_iff]; decide, Or.inl (by decide),
    by decide, by decide, ⟨⟨⟨0, [], []⟩, by simp [cookieSt], rfl⟩, by intro l hl; simp [sampleEnv] at hl⟩, ?_⟩
  refine ⟨one_line_section h1 h2 h3 h4 h5 [], ?_,
    .header _ line _ _ _ _ ⟨hz, Or.inl rfl⟩ (headerLine_iff.mpr ⟨h6, rfl⟩) .nil, fitsLog_of_short (by simpa using h8)⟩
  intro l hl t ht ho
  have : l = line := by simpa using hl
  subst this
  rw [← lineSafe_iff, beforeNul_eq ht, untilNul_of_nulFree hz, h7] at ho
  cases ho

def cookieLine : Str := b!"Cookie: WSSESSION=abc\r\n"

theorem C71_refuted : ¬ C71_statement := by
  intro h
  have hreq := cookie_head (line := cookieLine) (by decide) (by decide) (by decide) (by decide) (by decide) (by decide) (by decide)
    (by decide +kernel) (by decide +kernel)
  have hpage : Page sampleEnv.wwwIndex sampleEnv.favicon b!"/" b!"index.html" := Or.inl ⟨Or.inl rfl, rfl⟩
  have hserved : Served (cookieSt cookieLine).fs sampleEnv.staticRoot sampleEnv.wwwIndex b!"index.html" b!"/www/index.html" :=
    Or.inl ⟨⟨b!"site", by decide +kernel⟩, rfl⟩
  have hopen : (cookieSt cookieLine).fs.openRead b!"/www/index.html" = some b!"site" := by decide +kernel
  have hst : Stack sampleEnv b!"A" := ⟨[], rfl, by decide⟩
  obtain ⟨st1, r1, e1, e2, e3⟩ := h _ _ 7 _ _ _ _ _ _ _ _ hreq hpage hserved hopen (by decide) (by decide) (by decide) (by decide)
    (Or.inl rfl) hst (by decide) (by decide)
  obtain ⟨st2, r2, g1, g2, g3⟩ := C71_cookie _ _ 7 _ _ _ _ _ _ _ b!"abc" _ _ hreq hpage hserved hopen (by decide) (by decide) (by decide)
    (by decide) (Or.inl rfl) hst (by decide) (by decide) .none (by simp) ⟨by decide, Or.inl rfl⟩ (by decide)
  rw [e1] at g1
  simp only [ok.injEq, Prod.mk.injEq, and_true] at g1
  subst g1
  rw [e2] at g2
  have := List.append_cancel_left g2
  subst this
  exact absurd (e3.unique g3) (by decide)

/-- The hypotheses of `C71_partial`, and what is sent. -/
example : StaticHead sampleEnv (cookieSt b!"X-Session: abc\r\n") b!"10.0.0.1" b!"/" [] ([] ++ [b!"X-Session: abc\r\n"]) ∧
    ¬ CasePrefix b!"Cookie:" b!"X-Session: abc\r\n" :=
  ⟨cookie_head (by decide) (by decide) (by decide) (by decide) (by decide) (by decide) (by decide)
    (by decide +kernel) (by decide +kernel), by rw [← startswith_iff]; decide⟩
example : (accept_request sampleEnv (cookieSt cookieLine) 7 b!"10.0.0.1").bind (fun x => ok (x.1.sent.drop 101)) =
    ok b!"X-Session: abc\r\n\r\nSet-Cookie:WSSESSION=abc\r\n\r\n\r\nsite" := by decide +kernel

end Wayuu
