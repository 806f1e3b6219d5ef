import Verif.Spec.Lines
import Verif.Props.Headers
/-
Properties C92, C93 and C94: names of headers, one header per line, the request line.
-/
namespace Wayuu
open C Spec

/-! ### C92 -/

/-- C92 in full: a header is found whatever the case of the letters of its name. -/
def C92_statement : Prop :=
  ∀ (bs input rest : List Byte) (lines : List (List Byte)) (hs : List (Str × Str)) (ip name : Str) (h : HdrSt) (req : Req),
    bs.length = 1024 → bs.getLast? = some 0 → Section input lines rest → Named lines hs →
    (∀ p ∈ hs.take 20, p.1.length < 64 ∧ p.2.length < 256) → parseHeaders (bs.map some) input ip = ok h →
    req.headers = h.headers ∧ req.n_headers = h.headers.length → (∀ c ∈ name, c ≠ 0) →
    ∃ v, FirstHeaderAnyCase (hs.take 20) name v ∧ http_get_header req name = ok ⟨v.isSome, v.getD []⟩

/-- A header sent with a name in small letters, as HTTP/2 proxies do. -/
theorem small_section : Section b!"user-agent: curl\r\n\r\n" [b!"user-agent: curl\r\n"] [] :=
  one_line_section (line := b!"user-agent: curl\r\n") (by decide) (by decide) (by decide) (by decide) (by decide) []

theorem small_named : Named [b!"user-agent: curl\r\n"] [(b!"user-agent", b!"curl")] :=
  .header _ b!"user-agent: curl\r\n" _ _ _ _ ⟨by decide, Or.inl rfl⟩ (headerLine_iff.mpr ⟨by decide, by decide⟩) .nil

/-- C92 is false: `user-agent: curl` is not found as `User-Agent`. -/
theorem C92_refuted : ¬ C92_statement := by
  intro h
  have key : (parseHeaders ((lineBytes b!"GET / HTTP/1.1\r\n").map some) b!"user-agent: curl\r\n\r\n" b!"10.0.0.1").bind
      (fun h => http_get_header { sampleReq with headers := h.headers, n_headers := h.headers.length } b!"User-Agent") =
        ok ⟨false, []⟩ := by decide +kernel
  cases hp : parseHeaders ((lineBytes b!"GET / HTTP/1.1\r\n").map some) b!"user-agent: curl\r\n\r\n" b!"10.0.0.1" with
  | ub f => rw [hp] at key; cases key
  | ok x =>
    obtain ⟨v, hv, e⟩ := h _ _ _ _ _ b!"10.0.0.1" b!"User-Agent" x
      { sampleReq with headers := x.headers, n_headers := x.headers.length } (by decide +kernel) (by decide +kernel)
      small_section small_named (by decide) hp ⟨rfl, rfl⟩ (by decide)
    rw [hp] at key
    change http_get_header { sampleReq with headers := x.headers, n_headers := x.headers.length } b!"User-Agent" = _ at key
    rw [key] at e
    cases v with
    | none => exact hv (b!"user-agent", b!"curl") (by simp) (by unfold CaseEq; decide)
    | some v => simp at e

/-- C92, the part that holds: a header is found if the client spells its name as the program does. Missing: every
other spelling, see `C92_missed`. -/
theorem C92_partial (bs input rest : List Byte) (lines : List (List Byte)) (hs : List (Str × Str)) (ip name : Str) (h : HdrSt)
    (req : Req) (hb : bs.length = 1024) (hz : bs.getLast? = some 0) (hsec : Section input lines rest) (hn : Named lines hs)
    (hfit : ∀ p ∈ hs.take 20, p.1.length < 64 ∧ p.2.length < 256)
    (hok : parseHeaders (bs.map some) input ip = ok h) (hreq : req.headers = h.headers ∧ req.n_headers = h.headers.length)
    (hname : ∀ c ∈ name, c ≠ 0) (hspell : ∀ p ∈ hs.take 20, CaseEq p.1 name → p.1 = name) :
    ∃ v, FirstHeaderAnyCase (hs.take 20) name v ∧ http_get_header req name = ok ⟨v.isSome, v.getD []⟩ := by
  have hv := headerValue_first (hs.take 20) name
  refine ⟨headerValue (hs.take 20) name, ?_, by
    rw [get_header_fits (stored_of hb hz hsec hn hok hreq) (fun p hp => headers_nulFree hn p (List.mem_of_mem_take hp)) hfit hname]
    cases headerValue (hs.take 20) name <;> rfl⟩
  revert hv
  cases headerValue (hs.take 20) name with
  | none => intro hv; exact fun p hp hc => hv p hp (hspell p hp hc)
  | some v =>
    rintro ⟨a, b, hab, ha⟩
    refine ⟨a, name, b, hab, rfl, fun p hp hc => ha p hp (hspell p ?_ hc)⟩
    rw [hab]
    exact List.mem_append_left _ hp

/-- C92, what happens to the others: a header that is only sent in other spellings counts as absent, however long the other headers
are. -/
theorem C92_missed (bs input rest : List Byte) (lines : List (List Byte)) (hs : List (Str × Str)) (ip name : Str) (h : HdrSt)
    (req : Req) (hb : bs.length = 1024) (hz : bs.getLast? = some 0) (hsec : Section input lines rest) (hn : Named lines hs)
    (hok : parseHeaders (bs.map some) input ip = ok h) (hreq : req.headers = h.headers ∧ req.n_headers = h.headers.length)
    (hname : ∀ c ∈ name, c ≠ 0) (hlen : name.length < 64 ∨ ∀ p ∈ hs.take 20, p.1.length < 64) (hspell : ∀ p ∈ hs.take 20, p.1 ≠ name) :
    http_get_header req name = ok ⟨false, []⟩ := by
  have hz' : ∀ p ∈ hs.take 20, NulFree p.1 ∧ NulFree p.2 := fun p hp => headers_nulFree hn p (List.mem_of_mem_take hp)
  by_cases h64 : name.length < 64
  · rw [get_header_stored (stored_of hb hz hsec hn hok hreq) hz' hname h64,
      firstHeader_unique (headerValue_first (hs.take 20) name) (show FirstHeader (hs.take 20) name none from hspell)]
  · rw [get_header_long (stored_of hb hz hsec hn hok hreq) hz' hname (by omega), if_neg]
    rintro ⟨p, hp, e⟩
    have := (hlen.resolve_left h64) p hp
    have e2 := congrArg List.length e
    simp only [List.length_take] at e2
    omega

/-- C92, the server's own use of headers is no different: the access log shows no user agent and no referer if the
client spells the two names in another way. -/
theorem C92_log (env : Env) (st : St) (status : Int) (bs input rest : List Byte) (lines : List (List Byte)) (hs : List (Str × Str))
    (ip : Str) (h : HdrSt) (hb : bs.length = 1024) (hz : bs.getLast? = some 0) (hsec : Section input lines rest)
    (hn : Named lines hs) (hok : parseHeaders (bs.map some) input ip = ok h)
    (hreq : st.req.headers = h.headers ∧ st.req.n_headers = h.headers.length) (hlog : env.logOk = true)
    (hspell : ∀ p ∈ hs.take 20, p.1 ≠ b!"Referer" ∧ p.1 ≠ b!"User-Agent") :
    ∃ st', log_access env st status = ok st' ∧ st'.log = st.log ++ [st.req.IP ++ b!" - - [" ++ env.ts ++ b!"] \"" ++
      st.req.request_line ++ b!"\" " ++ fmtInt status ++ b!" " ++ fmtNat st.req.response_length ++ b!" \"\" \"\" " ++
      env.rt ++ b!"\n"] := by
  have h1 := C92_missed bs input rest lines hs ip b!"Referer" h st.req hb hz hsec hn hok hreq (by decide) (Or.inl (by decide))
    (fun p hp => (hspell p hp).1)
  have h2 := C92_missed bs input rest lines hs ip b!"User-Agent" h st.req hb hz hsec hn hok hreq (by decide) (Or.inl (by decide))
    (fun p hp => (hspell p hp).2)
  refine ⟨_, ?_, appendLog_log env st _ hlog⟩
  unfold log_access
  rw [h1, h2]
  simp [freeHeader, accessLine, List.append_assoc]

example : ∀ p ∈ ([(b!"user-agent", b!"curl")] : List (Str × Str)).take 20, p.1 ≠ b!"Referer" ∧ p.1 ≠ b!"User-Agent" := by decide
example : ∀ p ∈ ([(b!"User-Agent", b!"curl")] : List (Str × Str)).take 20, CaseEq p.1 b!"User-Agent" → p.1 = b!"User-Agent" := by
  simp

/-! ### C93 -/

/-- A line that fits the buffer is delivered as it is sent. -/
theorem wireLine_lineOf {input line rest : List Byte} (h : WireLine input line rest) (hl : line.length ≤ 1023) :
    LineOf input 1023 line rest := ⟨h.1, hl, h.2.1, Or.inr h.2.2⟩

theorem wireSection_section {input rest : List Byte} {lines : List (List Byte)} (h : WireSection input lines rest)
    (hl : ∀ l ∈ lines, l.length ≤ 1023) : Section input lines rest := by
  induction h with
  | eof => exact .eof
  | blank input line rest h hb =>
    exact .blank input line rest (wireLine_lineOf h (by rcases hb with rfl | rfl <;> decide)) hb
  | line input line rest lines rest' h h1 h2 h3 _ ih =>
    exact .line input line rest lines rest' (wireLine_lineOf h (hl line (by simp))) h1 h2 h3 (ih (fun l hl' => hl l (by simp [hl'])))

/-- C93 in full: the headers of the request are those of the lines that were sent; no part of a line is taken for
another line. -/
def C93_statement : Prop :=
  ∀ (bs input rest : List Byte) (lines : List (List Byte)) (hs : List (Str × Str)) (ip name : Str) (h : HdrSt) (req : Req),
    bs.length = 1024 → bs.getLast? = some 0 → WireSection input lines rest → Named lines hs →
    (∀ p ∈ hs.take 20, p.1.length < 64) → parseHeaders (bs.map some) input ip = ok h →
    req.headers = h.headers ∧ req.n_headers = h.headers.length → (∀ c ∈ name, c ≠ 0) → (∀ p ∈ hs, p.1 ≠ name) →
    h.headers.length = min 20 hs.length ∧ http_get_header req name = ok ⟨false, []⟩

/-- One line: a long referer that contains the text of another header. -/
def longReferer : List Byte := b!"Referer: " ++ List.replicate 1014 97 ++ b!"X-Session: forged\r\n"

theorem longReferer_wire (body : List Byte) : WireSection (longReferer ++ 13 :: 10 :: body) [longReferer] body := by
  refine .line _ longReferer (13 :: 10 :: body) _ _ ⟨rfl, by decide +kernel, Or.inl (by decide +kernel)⟩ (by decide +kernel)
    (by decide +kernel) (by decide +kernel) ?_
  exact .blank _ [13, 10] body ⟨rfl, by decide, Or.inl rfl⟩ (Or.inr rfl)

theorem longReferer_named : ∃ v, Named [longReferer] [(b!"Referer", v)] := by
  refine ⟨(headerPair longReferer).2, .header _ longReferer _ _ _ _ ⟨by decide +kernel, Or.inl rfl⟩
    (headerLine_iff.mpr ⟨?_, ?_⟩) .nil⟩
  · decide +kernel
  · decide +kernel

/-- C93, the part that holds: if no line is longer than 1023 bytes (its end included), the lines that were sent are
the lines that count. Missing: longer lines, see `C93_cut` and `C93_forged`. -/
theorem C93_partial (bs input rest : List Byte) (lines : List (List Byte)) (hs : List (Str × Str)) (ip name : Str) (h : HdrSt)
    (req : Req) (hb : bs.length = 1024) (hz : bs.getLast? = some 0) (hsec : WireSection input lines rest) (hn : Named lines hs)
    (hfit : ∀ p ∈ hs.take 20, p.1.length < 64) (hok : parseHeaders (bs.map some) input ip = ok h)
    (hreq : req.headers = h.headers ∧ req.n_headers = h.headers.length) (hname : ∀ c ∈ name, c ≠ 0)
    (habs : ∀ p ∈ hs, p.1 ≠ name) (hl : ∀ l ∈ lines, l.length ≤ 1023) :
    h.input = rest ∧ h.headers.length = min 20 hs.length ∧ http_get_header req name = ok ⟨false, []⟩ := by
  have hsec' := wireSection_section hsec hl
  obtain ⟨h1, h2, -⟩ := C42_stored bs input rest lines hs ip h hb hz hsec' hn hok
  refine ⟨h1, h2, ?_⟩
  exact C92_missed bs input rest lines hs ip name h req hb hz hsec' hn hok hreq hname (Or.inr hfit)
    (fun p hp => habs p (List.mem_of_mem_take hp))

/-- The rest of a long line is a line of its own. -/
theorem cut_section (a b more rest : List Byte) (lines : List (List Byte)) (ha : a.length = 1023) (hnl : (10 : Byte) ∉ a)
    (hb : b ≠ [] ∧ b ≠ [10] ∧ b ≠ [13, 10]) (hlb : b.length ≤ 1023) (hmore : WireLine (a ++ b ++ more) (a ++ b) more)
    (hsec : WireSection more lines rest) (hl : ∀ l ∈ lines, l.length ≤ 1023) :
    Section (a ++ b ++ more) (a :: b :: lines) rest := by
  have ha0 : a ≠ [] := by rintro rfl; simp at ha
  refine .line _ a (b ++ more) _ _ ⟨by simp, by omega, ?_, Or.inl ha⟩ ha0 (by rintro rfl; simp at ha)
    (by rintro rfl; simp at ha) ?_
  · exact fun h => hnl (List.dropLast_subset a h)
  · refine .line _ b more _ _ ⟨rfl, hlb, ?_, Or.inr ?_⟩ hb.1 hb.2.1 hb.2.2 (wireSection_section hsec hl)
    · have := hmore.2.1
      rw [List.dropLast_append_of_ne_nil hb.1] at this
      exact fun h => this (List.mem_append_right _ h)
    · rcases hmore.2.2 with h | h
      · rw [List.getLast?_append_of_ne_nil _ hb.1] at h
        exact Or.inl h
      · exact Or.inr h

/-- C93, what happens to a long line: it is read exactly as if the client had sent its first 1023 bytes and the rest
of it as lines of their own: the headers that are stored are those of these lines. (`a` are those 1023 bytes, `b` is the rest of the line.) -/
theorem C93_cut (bs a b more rest : List Byte) (lines : List (List Byte)) (hs : List (Str × Str)) (ip : Str) (h : HdrSt)
    (hbs : bs.length = 1024) (hz : bs.getLast? = some 0) (ha : a.length = 1023) (hnl : (10 : Byte) ∉ a)
    (hb : b ≠ [] ∧ b ≠ [10] ∧ b ≠ [13, 10]) (hlb : b.length ≤ 1023) (hmore : WireLine (a ++ b ++ more) (a ++ b) more)
    (hsec : WireSection more lines rest) (hl : ∀ l ∈ lines, l.length ≤ 1023) (hn : Named (a :: b :: lines) hs)
    (hok : parseHeaders (bs.map some) (a ++ b ++ more) ip = ok h) :
    h.input = rest ∧ h.headers.length = min 20 hs.length ∧
    ∀ (i : Nat) (p : Str × Str), (hs.take 20)[i]? = some p → ∃ hd, h.headers[i]? = some hd ∧
      (p.1.length < 64 → cstr hd.name = ok p.1) ∧ (p.2.length < 256 → cstr hd.value = ok p.2) := by
  obtain ⟨h1, h2, h3⟩ := C42_stored bs (a ++ b ++ more) rest (a :: b :: lines) hs ip h hbs hz
    (cut_section a b more rest lines ha hnl hb hlb hmore hsec hl) hn hok
  refine ⟨h1, h2, fun i p hp => ?_⟩
  obtain ⟨hd, k1, k2, -, k3, -⟩ := h3 i p hp
  exact ⟨hd, k1, k2, k3⟩

/-- C93, the consequence: whoever can choose the end of a client's referer chooses the client's session. -/
theorem C93_forged (bs body : List Byte) (q tok ip : Str) (hb : bs.length = 1024) (hz : bs.getLast? = some 0)
    (hq : q.length = 1014) (hqn : (10 : Byte) ∉ q) (ht : tok.length ≤ 60) (htn : ∀ c ∈ tok, c ≠ 0 ∧ c ≠ 10)
    (hstrip : IsStrip tok tok) :
    WireLine (b!"Referer: " ++ q ++ (b!"X-Session: " ++ tok ++ [13, 10]) ++ (13 :: 10 :: body))
      (b!"Referer: " ++ q ++ (b!"X-Session: " ++ tok ++ [13, 10])) (13 :: 10 :: body) ∧
    ∃ h, parseHeaders (bs.map some) (b!"Referer: " ++ q ++ (b!"X-Session: " ++ tok ++ [13, 10]) ++ (13 :: 10 :: body)) ip = ok h ∧
      cstr h.session = ok tok ∧ h.input = body := by
  have hlen9 : (b!"Referer: " : Str).length = 9 := by decide
  have hlen11 : (b!"X-Session: " : Str).length = 11 := by decide
  have hnl9 : (10 : Byte) ∉ (b!"Referer: " : Str) := by decide
  have hnl11 : (10 : Byte) ∉ (b!"X-Session: " : Str) := by decide
  have hne : (b!"X-Session: " ++ tok ++ [13, 10] : List Byte) ≠ [] := by simp
  have hdl : (b!"X-Session: " ++ tok ++ [13, 10] : List Byte).dropLast = b!"X-Session: " ++ tok ++ [13] := by
    rw [List.dropLast_append_of_ne_nil (by simp)]; rfl
  have hw : WireLine (b!"Referer: " ++ q ++ (b!"X-Session: " ++ tok ++ [13, 10]) ++ (13 :: 10 :: body))
      (b!"Referer: " ++ q ++ (b!"X-Session: " ++ tok ++ [13, 10])) (13 :: 10 :: body) := by
    refine ⟨rfl, ?_, Or.inl ?_⟩
    · rw [List.dropLast_append_of_ne_nil hne, hdl]
      intro h
      simp only [List.mem_append] at h
      rcases h with (h | h) | (h | h) | h
      · exact hnl9 h
      · exact hqn h
      · exact hnl11 h
      · exact (htn 10 h).2 rfl
      · simp at h
    · rw [List.getLast?_append_of_ne_nil _ hne, List.getLast?_append_of_ne_nil _ (by simp)]; rfl
  refine ⟨hw, ?_⟩
  have hx : ∀ x : List Byte, x.length ≤ 2 → b!"X-Session: " ++ tok ++ [13, 10] ≠ x := by
    intro x hx h
    have := congrArg List.length h
    simp only [List.length_append] at this
    rw [hlen11] at this
    omega
  have hsec : Section (b!"Referer: " ++ q ++ (b!"X-Session: " ++ tok ++ [13, 10]) ++ (13 :: 10 :: body))
      [b!"Referer: " ++ q, b!"X-Session: " ++ tok ++ [13, 10]] body := by
    refine cut_section (b!"Referer: " ++ q) (b!"X-Session: " ++ tok ++ [13, 10]) (13 :: 10 :: body) body [] ?_ ?_
      ⟨hne, hx _ (by simp), hx _ (by simp)⟩ ?_ hw
      (.blank _ [13, 10] body ⟨rfl, by decide, Or.inl rfl⟩ (Or.inr rfl)) (by simp)
    · rw [List.length_append, hlen9, hq]
    · rw [List.mem_append]
      rintro (h | h)
      · exact hnl9 h
      · exact hqn h
    · rw [List.length_append, List.length_append, hlen11]
      simp; omega
  -- the two lines as the server sees them
  have hb2 : BeforeNul (b!"X-Session: " ++ tok ++ [13, 10]) (b!"X-Session: " ++ tok ++ [13, 10]) := by
    refine ⟨?_, Or.inl rfl⟩
    intro c hc
    simp only [List.mem_append] at hc
    rcases hc with (hc | hc) | hc
    · exact (by decide : ∀ c ∈ (b!"X-Session: " : Str), c ≠ 0) c hc
    · exact (htn c hc).1
    · exact (by decide : ∀ c ∈ ([13, 10] : Str), c ≠ 0) c hc
  have hb1 : ∀ t, BeforeNul (b!"Referer: " ++ q) t → startswith t b!"Referer:" = true := by
    intro t ht
    rw [startswith_iff]
    rcases ht.2 with h | ⟨r, h⟩
    · exact ⟨b!"Referer:", 32 :: q, by rw [← h]; rfl, rfl⟩
    · have hlt : 8 ≤ t.length := by
        by_contra hc
        have e1 : (b!"Referer: " ++ q)[t.length]? = some 0 := by rw [h]; simp
        rw [List.getElem?_append_left (by rw [hlen9]; omega)] at e1
        have : ∀ i : Fin 8, (b!"Referer: " : Str)[i.val]? ≠ some 0 := by decide
        exact this ⟨t.length, by omega⟩ e1
      refine ⟨t.take 8, t.drop 8, (List.take_append_drop _ _).symm, ?_⟩
      have e2 : (b!"Referer: " ++ q).take 8 = t.take 8 := by
        rw [h, List.take_append_of_le_length hlt]
      rw [← e2, List.take_append_of_le_length (by rw [hlen9]; omega)]
      rfl
  have hfl : FieldLine b!"X-Session" (b!"X-Session: " ++ tok ++ [13, 10]) tok := by
    refine ⟨b!"X-Session", 32 :: (tok ++ [13, 10]), by rw [List.append_assoc]; rfl, rfl, ?_⟩
    obtain ⟨l, r, -, -, -, h3, h4⟩ := hstrip
    exact ⟨[32], [13, 10], rfl, by decide, by decide, h3, h4⟩
  have hover : ∀ l ∈ [b!"Referer: " ++ q, b!"X-Session: " ++ tok ++ [13, 10]], ∀ t, BeforeNul l t → ¬ Overrun t := by
    intro l hl t ht
    simp only [List.mem_cons, List.not_mem_nil, or_false] at hl
    rcases hl with rfl | rfl
    · have hp := hb1 t ht
      rintro (⟨h1, -⟩ | ⟨h1 | h1, -⟩)
      · rw [← startswith_iff, not_startswith_of_get hp (i := 0) (by decide) (by decide) (by decide)] at h1; cases h1
      · rw [← startswith_iff, not_startswith_of_get hp (i := 0) (by decide) (by decide) (by decide)] at h1; cases h1
      · rw [← startswith_iff, not_startswith_of_get hp (i := 0) (by decide) (by decide) (by decide)] at h1; cases h1
    · have e : t = b!"X-Session: " ++ tok ++ [13, 10] := (beforeNul_eq ht).trans (beforeNul_eq hb2).symm
      subst e
      have hp : startswith (b!"X-Session: " ++ tok ++ [13, 10]) b!"X-Session:" = true := by
        rw [startswith_iff]
        exact ⟨b!"X-Session:", 32 :: (tok ++ [13, 10]), by rw [List.append_assoc]; rfl, rfl⟩
      rintro (⟨h1, -⟩ | ⟨-, h2⟩)
      · rw [← startswith_iff, not_startswith_of_get hp (i := 0) (by decide) (by decide) (by decide)] at h1; cases h1
      · rw [List.length_append, List.length_append, hlen11] at h2
        simp at h2; omega
  obtain ⟨h, hok⟩ := C69_partial bs _ _ _ ip hb hz hsec hover
  refine ⟨h, hok, ?_, ?_⟩
  · refine C43_partial bs _ body _ ip tok h hb hz hsec ?_ ?_ hok
    · refine SessionOf.token [b!"Referer: " ++ q] [] _ _ _ ?_ hb2 (Or.inl hfl)
      refine SessionOf.kept [] [] _ (untilNul (b!"Referer: " ++ q)) .none (untilNul_before _) ?_ ?_
      · have hp := hb1 _ (untilNul_before (b!"Referer: " ++ q))
        intro v
        constructor
        · intro hf
          have := fieldLine_startswith.mp ⟨v, hf⟩
          rw [not_startswith_of_get hp (i := 0) (by decide) (by decide) (by decide)] at this; cases this
        · intro hf
          have := fieldLine_startswith.mp ⟨v, hf⟩
          rw [not_startswith_of_get hp (i := 0) (by decide) (by decide) (by decide)] at this; cases this
      · intro hpre
        have hp := hb1 _ (untilNul_before (b!"Referer: " ++ q))
        have : startswith (untilNul (b!"Referer: " ++ q)) b!"Cookie: WSSESSION=" = true := by
          rw [startswith_iff]
          obtain ⟨t, ht⟩ := hpre
          exact ⟨_, t, ht.symm, rfl⟩
        rw [not_startswith_of_get hp (i := 0) (by decide) (by decide) (by decide)] at this; cases this
    · intro l hl t ht
      simp only [List.mem_cons, List.not_mem_nil, or_false] at hl
      rcases hl with rfl | rfl
      · have hp := hb1 t ht
        constructor
        · intro v hf
          have := fieldLine_startswith.mp ⟨v, hf⟩
          rw [not_startswith_of_get hp (i := 0) (by decide) (by decide) (by decide)] at this; cases this
        · intro hf
          rw [← startswith_iff, not_startswith_of_get hp (i := 0) (by decide) (by decide) (by decide)] at hf; cases hf
      · have e : t = b!"X-Session: " ++ tok ++ [13, 10] := (beforeNul_eq ht).trans (beforeNul_eq hb2).symm
        subst e
        have hp := fieldLine_startswith.mp ⟨tok, hfl⟩
        constructor
        · intro v hf
          have := fieldLine_startswith.mp ⟨v, hf⟩
          rw [not_startswith_of_get hp (i := 0) (by decide) (by decide) (by decide)] at this; cases this
        · intro hf
          rw [← startswith_iff, not_startswith_of_get hp (i := 0) (by decide) (by decide) (by decide)] at hf; cases hf
  · exact (parse_fields (lineBuf_of hb hz) hsec hok).choose_spec.1

/-- C93 is false: the rest of a line that is longer than the buffer is taken for a line of its own. -/
theorem C93_refuted : ¬ C93_statement := by
  intro h
  obtain ⟨v, hn⟩ := longReferer_named
  obtain ⟨hw, x, hp, -⟩ := C93_forged (lineBytes b!"GET / HTTP/1.1\r\n") [] (List.replicate 1014 97) b!"forged" b!"10.0.0.1"
    (by decide +kernel) (by decide +kernel) List.length_replicate (fun h => absurd (List.eq_of_mem_replicate h) (by decide))
    (by decide) (by decide)
    ⟨[], [], rfl, by decide, by decide, by decide, by decide⟩
  have e : b!"Referer: " ++ List.replicate 1014 97 ++ (b!"X-Session: " ++ b!"forged" ++ [13, 10]) = longReferer := rfl
  rw [e] at hw hp
  have hlen := (h _ _ _ _ _ b!"10.0.0.1" b!"X-Session" x
    { sampleReq with headers := x.headers, n_headers := x.headers.length } (by decide +kernel) (by decide +kernel)
    (longReferer_wire []) hn (by simp) hp ⟨rfl, rfl⟩ (by decide) (by simp)).1
  have hsec : Section (longReferer ++ [13, 10]) [b!"Referer: " ++ List.replicate 1014 97, b!"X-Session: forged\r\n"] [] := by
    refine cut_section (b!"Referer: " ++ List.replicate 1014 97) b!"X-Session: forged\r\n" [13, 10] [] [] (by decide +kernel)
      (by decide +kernel) ⟨by decide, by decide, by decide⟩ (by decide) hw (.blank _ [13, 10] [] ⟨rfl, by decide, Or.inl rfl⟩ (Or.inr rfl)) (by simp)
  have hn2 : Named [b!"Referer: " ++ List.replicate 1014 97, b!"X-Session: forged\r\n"]
      [(b!"Referer", (headerPair (b!"Referer: " ++ List.replicate 1014 97)).2), (b!"X-Session", b!"forged")] := by
    refine .header _ (b!"Referer: " ++ List.replicate 1014 97) _ _ _ _ ⟨by decide +kernel, Or.inl rfl⟩
      (headerLine_iff.mpr ⟨by decide +kernel, by decide +kernel⟩) ?_
    exact .header _ b!"X-Session: forged\r\n" _ _ _ _ ⟨by decide, Or.inl rfl⟩ (headerLine_iff.mpr ⟨by decide, by decide⟩) .nil
  have := (C42_stored _ _ _ _ _ b!"10.0.0.1" x (by decide +kernel) (by decide +kernel) hsec hn2 hp).2.1
  rw [hlen] at this
  exact absurd this (by show ¬ (min 20 1 = min 20 2); decide)

example : (b!"Referer: " ++ List.replicate 1014 97 : Str).length = 1023 := by decide +kernel
/-- A referer of 1014 bytes that ends with what looks like a header: two headers are stored. -/
example (h : HdrSt) (hok : parseHeaders ((lineBytes b!"GET / HTTP/1.1\r\n").map some)
    (b!"Referer: " ++ List.replicate 1014 97 ++ b!"X-Session: forged\r\n" ++ [13, 10]) b!"10.0.0.1" = ok h) : h.headers.length = 2 := by
  refine (C93_cut (lineBytes b!"GET / HTTP/1.1\r\n") (b!"Referer: " ++ List.replicate 1014 97) b!"X-Session: forged\r\n" [13, 10] [] []
    [(b!"Referer", (headerPair (b!"Referer: " ++ List.replicate 1014 97)).2), (b!"X-Session", b!"forged")] b!"10.0.0.1" h
    (by decide +kernel) (by decide +kernel) (by decide +kernel) (by decide +kernel) ⟨by decide, by decide, by decide⟩ (by decide)
    ⟨rfl, by decide +kernel, Or.inl (by decide +kernel)⟩ (.blank _ [13, 10] [] ⟨rfl, by decide, Or.inl rfl⟩ (Or.inr rfl)) (by simp) ?_ hok).2.1
  exact .header _ (b!"Referer: " ++ List.replicate 1014 97) _ _ _ _ ⟨by decide +kernel, Or.inl rfl⟩
    (headerLine_iff.mpr ⟨by decide +kernel, by decide +kernel⟩)
    (.header _ b!"X-Session: forged\r\n" _ _ _ _ ⟨by decide, Or.inl rfl⟩ (headerLine_iff.mpr ⟨by decide, by decide⟩) .nil)
example : IsStrip b!"forged" b!"forged" := ⟨[], [], rfl, by decide, by decide, by decide, by decide⟩

/-! ### C94 -/

/-- C94 in full: the request line that is kept for the log is the line that was sent, without its end. -/
def C94_statement : Prop :=
  ∀ (input line text rest : List Byte), WireLine input line rest → LineText line text → (∀ c ∈ line, c ≠ 0) → text ≠ [] →
    ∃ buf method j, readRequestLine input = ok (buf, rest, text, method, j)

/-- C94 is false: a line that ends with a newline alone loses its last byte. -/
theorem C94_refuted : ¬ C94_statement := by
  intro h
  obtain ⟨buf, method, j, e⟩ := h b!"GET / HTTP/1.1\n" b!"GET / HTTP/1.1\n" b!"GET / HTTP/1.1" []
    ⟨by decide, by decide, Or.inl (by decide)⟩ (Or.inr ⟨by decide, by decide⟩) (by decide) (by decide)
  have key : (readRequestLine b!"GET / HTTP/1.1\n").bind (fun x => ok x.2.2.1) = ok b!"GET / HTTP/1." := by decide +kernel
  rw [e] at key
  change ok b!"GET / HTTP/1.1" = _ at key
  exact absurd key (by decide)

/-- C94, the part that holds: lines that end with CR LF and have at most 1023 bytes. Missing: the others, see
`C94_newline` and `C94_long`. -/
theorem C94_partial (input text rest : List Byte) (hw : WireLine input (text ++ [13, 10]) rest) (hz : ∀ c ∈ text, c ≠ 0)
    (hl : text.length ≤ 1021) : ∃ buf method j, readRequestLine input = ok (buf, rest, text, method, j) := by
  have hb : BeforeNul (text ++ [13, 10]) (text ++ [13, 10]) := by
    refine ⟨?_, Or.inl rfl⟩
    intro c hc
    rcases List.mem_append.mp hc with hc | hc
    · exact hz c hc
    · exact (by decide : ∀ c ∈ ([13, 10] : Str), c ≠ 0) c hc
  have := readRequestLine_eq (wireLine_lineOf hw (by simp; omega)) hb (by simp)
  have e : List.take ((text ++ [13, 10]).length - 2) (text ++ [13, 10]) = text := by simp
  rw [e] at this
  exact ⟨_, _, _, this⟩

example := C94_partial b!"GET / HTTP/1.1\r\nHost: a\r\n" b!"GET / HTTP/1.1" b!"Host: a\r\n" ⟨by decide, by decide, Or.inl (by decide)⟩
  (by decide) (by decide)

/-- C94, with a newline alone the last byte of the line is lost. -/
theorem C94_newline (input text rest : List Byte) (c : Byte) (hw : WireLine input (text ++ [c, 10]) rest)
    (hz : ∀ d ∈ text ++ [c], d ≠ 0) (hl : text.length ≤ 1021) :
    ∃ buf method j, readRequestLine input = ok (buf, rest, text, method, j) := by
  have hb : BeforeNul (text ++ [c, 10]) (text ++ [c, 10]) := by
    refine ⟨?_, Or.inl rfl⟩
    intro d hd
    rw [show text ++ [c, 10] = (text ++ [c]) ++ [10] by simp] at hd
    rcases List.mem_append.mp hd with hd | hd
    · exact hz d hd
    · exact (by decide : ∀ c ∈ ([10] : Str), c ≠ 0) d hd
  have := readRequestLine_eq (wireLine_lineOf hw (by simp; omega)) hb (by simp)
  have e : List.take ((text ++ [c, 10]).length - 2) (text ++ [c, 10]) = text := by simp
  rw [e] at this
  exact ⟨_, _, _, this⟩

example := C94_newline b!"GET / HTTP/1.1\nHost: a\n" b!"GET / HTTP/1." b!"Host: a\n" 49 ⟨by decide, by decide, Or.inl (by decide)⟩
  (by decide) (by decide)

/-- C94, of a longer line the first 1021 bytes are kept, and what follows the first 1023 is read as the first header
line. -/
theorem C94_long (a rest : List Byte) (ha : a.length = 1021) (hz : ∀ c ∈ a, c ≠ 0 ∧ c ≠ 10) (c d : Byte)
    (hcd : c ≠ 0 ∧ c ≠ 10 ∧ d ≠ 0) :
    ∃ buf method j, readRequestLine (a ++ c :: d :: rest) = ok (buf, rest, a, method, j) := by
  have hlo : LineOf (a ++ c :: d :: rest) 1023 (a ++ [c, d]) rest := by
    refine ⟨by simp, by simp; omega, ?_, Or.inl (by simp; omega)⟩
    rw [List.dropLast_append_of_ne_nil (by simp)]
    intro h
    rcases List.mem_append.mp h with h | h
    · exact (hz 10 h).2 rfl
    · simp at h; exact hcd.2.1 h.symm
  have hb : BeforeNul (a ++ [c, d]) (a ++ [c, d]) := by
    refine ⟨?_, Or.inl rfl⟩
    intro e he
    rcases List.mem_append.mp he with he | he
    · exact (hz e he).1
    · simp at he
      rcases he with rfl | rfl
      · exact hcd.1
      · exact hcd.2.2
  have := readRequestLine_eq hlo hb (by simp)
  have e : List.take ((a ++ [c, d]).length - 2) (a ++ [c, d]) = a := by simp
  rw [e] at this
  exact ⟨_, _, _, this⟩

example : WireLine b!"GET / HTTP/1.1\r\nHost: a\r\n" (b!"GET / HTTP/1.1" ++ [13, 10]) b!"Host: a\r\n" :=
  ⟨by decide, by decide, Or.inl (by decide)⟩
example : WireLine b!"GET / HTTP/1.1\nHost: a\n" (b!"GET / HTTP/1." ++ [49, 10]) b!"Host: a\n" :=
  ⟨by decide, by decide, Or.inl (by decide)⟩

end Wayuu
