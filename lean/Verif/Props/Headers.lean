import Verif.Lemmas.Headers2
import Verif.Lemmas.Sample
import Verif.Props.Requests
/-
Properties C42, C43, C44, C65 and C69 (ws.c:551-622, the header section, and ws.c:292-303, the body).
-/
namespace Wayuu
open C Spec

/-- What the parser reports, in terms of the lines of the section. -/
theorem parse_fields {bs input rest : List Byte} {lines : List (List Byte)} {ip : Str} {h : HdrSt} (hb : LineBuf bs)
    (hs : Section input lines rest) (hok : parseHeaders (bs.map some) input ip = ok h) :
    ∃ last, h.input = rest ∧ ((lines.foldl Head.step (.init bs ip)).load last).Is h := by
  by_cases hsafe : ∀ l ∈ lines, lineSafe (untilNul l) = true
  · obtain ⟨h', last, h1, h2, h3⟩ := (parseHeaders_eq (ip := ip) hb hs).2 hsafe
    rw [hok] at h1
    cases h1
    exact ⟨last, h2, h3⟩
  · have := (parseHeaders_eq (ip := ip) hb hs).1 (by simpa using hsafe)
    rw [hok] at this
    cases this

theorem lineBuf_of {bs : List Byte} (h1 : bs.length = 1024) (h2 : bs.getLast? = some 0) : LineBuf bs := by
  refine ⟨h1, bs.dropLast, ?_⟩
  have hne : bs ≠ [] := by rintro rfl; simp at h2
  rw [List.getLast?_eq_some_getLast hne, Option.some.injEq] at h2
  rw [← h2, List.dropLast_concat_getLast]

/-! ### C69 -/

/-- C69: reading a header section is defined exactly when no line overruns the boundary or the session array;
otherwise memory outside an array is accessed. (`bs` is what the request line left in the line buffer.) -/
theorem C69_defined (bs input rest : List Byte) (lines : List (List Byte)) (ip : Str) (hb : bs.length = 1024)
    (hz : bs.getLast? = some 0) (hs : Section input lines rest) :
    ((∃ h, parseHeaders (bs.map some) input ip = ok h) ↔ ∀ l ∈ lines, ∀ t, BeforeNul l t → ¬ Overrun t) ∧
    (parseHeaders (bs.map some) input ip = ub .oob ↔ ∃ l ∈ lines, ∃ t, BeforeNul l t ∧ Overrun t) := by
  have hp := parseHeaders_eq (ip := ip) (lineBuf_of hb hz) hs
  have e1 : (∀ l ∈ lines, ∀ t, BeforeNul l t → ¬ Overrun t) ↔ ∀ l ∈ lines, lineSafe (untilNul l) = true := by
    constructor
    · exact fun h l hl => (lineSafe_true_iff _).mpr (h l hl _ (untilNul_before l))
    · intro h l hl t ht
      rw [beforeNul_eq ht]
      exact (lineSafe_true_iff _).mp (h l hl)
  have e2 : (∃ l ∈ lines, ∃ t, BeforeNul l t ∧ Overrun t) ↔ ∃ l ∈ lines, lineSafe (untilNul l) = false := by
    constructor
    · rintro ⟨l, hl, t, ht, ho⟩
      rw [beforeNul_eq ht] at ho
      exact ⟨l, hl, (lineSafe_iff _).mpr ho⟩
    · rintro ⟨l, hl, h⟩
      exact ⟨l, hl, _, untilNul_before l, (lineSafe_iff _).mp h⟩
  rw [e1, e2]
  by_cases hsafe : ∀ l ∈ lines, lineSafe (untilNul l) = true
  · obtain ⟨h, last, h1, -⟩ := hp.2 hsafe
    refine ⟨⟨fun _ => hsafe, fun _ => ⟨h, h1⟩⟩, ⟨fun h' => ?_, fun ⟨l, hl, h'⟩ => ?_⟩⟩
    · rw [h1] at h'; cases h'
    · rw [hsafe l hl] at h'; cases h'
  · have hne : ∃ l ∈ lines, lineSafe (untilNul l) = false := by simpa using hsafe
    have hu := hp.1 hne
    refine ⟨⟨fun ⟨h, h'⟩ => ?_, fun h => absurd h hsafe⟩, ⟨fun _ => hne, fun _ => hu⟩⟩
    rw [hu] at h'; cases h'

/-- C69 in full: reading a header section never leaves the arrays. -/
def C69_statement : Prop :=
  ∀ (bs input : List Byte) (ip : Str), bs.length = 1024 → bs.getLast? = some 0 → ∃ h, parseHeaders (bs.map some) input ip = ok h

/-- A session token of 64 bytes. -/
def longSession : List Byte := b!"X-Session:" ++ List.replicate 64 65 ++ [13, 10]

theorem C69_refuted : ¬ C69_statement := by
  intro h
  obtain ⟨h', e⟩ := h (lineBytes b!"GET / HTTP/1.1\r\n") (longSession ++ [13, 10]) b!"10.0.0.1"
    (by decide +kernel) (by decide +kernel)
  have : (parseHeaders ((lineBytes b!"GET / HTTP/1.1\r\n").map some) (longSession ++ [13, 10]) b!"10.0.0.1").bind
      (fun _ => ok ()) = ub .oob := by decide +kernel
  rw [e] at this
  cases this

/-- C69, the part that holds: sections in which no line overruns the two arrays are read without undefined
behaviour, whatever the number and length of the other lines. Missing: lines that do. -/
theorem C69_partial (bs input rest : List Byte) (lines : List (List Byte)) (ip : Str) (hb : bs.length = 1024)
    (hz : bs.getLast? = some 0) (hs : Section input lines rest) (ho : ∀ l ∈ lines, ∀ t, BeforeNul l t → ¬ Overrun t) :
    ∃ h, parseHeaders (bs.map some) input ip = ok h :=
  ((C69_defined bs input rest lines ip hb hz hs).1).mpr ho

theorem one_line_section {line : List Byte} (hl : line.length ≤ 1023) (h1 : (10 : Byte) ∉ line.dropLast)
    (h2 : line.getLast? = some 10) (h3 : line ≠ [10]) (h4 : line ≠ [13, 10]) (body : List Byte) :
    Section (line ++ 13 :: 10 :: body) [line] body := by
  refine .line _ line (13 :: 10 :: body) _ _ ⟨rfl, hl, h1, Or.inr (Or.inl h2)⟩ (by rintro rfl; simp at h2) h3 h4 ?_
  exact .blank _ [13, 10] body ⟨rfl, by decide, by decide, Or.inr (Or.inl rfl)⟩ (Or.inr rfl)

theorem not_overrun_of_decide {text : List Byte} (h : lineSafe text = true) : ¬ Overrun text := (lineSafe_true_iff _).mp h

/-- A section with two header lines. -/
theorem sample_section : Section b!"Host: a\r\nX-Session: abc\r\n\r\nbody" [b!"Host: a\r\n", b!"X-Session: abc\r\n"] b!"body" := by
  refine .line _ b!"Host: a\r\n" b!"X-Session: abc\r\n\r\nbody" _ _ ⟨by decide, by decide, by decide, by decide⟩ (by decide) (by decide)
    (by decide) ?_
  refine .line _ b!"X-Session: abc\r\n" b!"\r\nbody" _ _ ⟨by decide, by decide, by decide, by decide⟩ (by decide) (by decide)
    (by decide) ?_
  exact .blank _ b!"\r\n" _ ⟨by decide, by decide, by decide, by decide⟩ (by decide)

example : ∀ l ∈ [b!"Host: a\r\n", b!"X-Session: abc\r\n"], ∀ t, BeforeNul l t → ¬ Overrun t := by
  intro l hl t ht
  rw [beforeNul_eq ht]
  simp only [List.mem_cons, List.not_mem_nil, or_false] at hl
  rcases hl with rfl | rfl
  · exact not_overrun_of_decide (by decide +kernel)
  · exact not_overrun_of_decide (by decide +kernel)

/-- C69_defined applies. -/
example : ∃ h, parseHeaders ((lineBytes b!"GET / HTTP/1.1\r\n").map some) b!"Host: a\r\n\r\n" b!"10.0.0.1" = ok h :=
  (C69_defined (lineBytes b!"GET / HTTP/1.1\r\n") b!"Host: a\r\n\r\n" [] [b!"Host: a\r\n"] b!"10.0.0.1" (by decide +kernel) (by decide +kernel)
    (one_line_section (line := b!"Host: a\r\n") (by decide) (by decide) (by decide) (by decide) (by decide) [])).1.mpr (by
      intro l hl t ht
      rw [beforeNul_eq ht, List.mem_singleton.mp hl]
      exact not_overrun_of_decide (by decide +kernel))

/-! ### C42 -/

/-- C42: for every header section, the request holds the names and values of the first 20 lines with a colon, in
order, without the white space around them, and the rest of the input is untouched. A name of 64 bytes or more, or a
value of 256 or more, is stored without its terminator. -/
theorem C42_stored (bs input rest : List Byte) (lines : List (List Byte)) (hs : List (Str × Str)) (ip : Str) (h : HdrSt)
    (hb : bs.length = 1024) (hz : bs.getLast? = some 0) (hsec : Section input lines rest) (hn : Named lines hs)
    (hok : parseHeaders (bs.map some) input ip = ok h) :
    h.input = rest ∧ h.headers.length = min 20 hs.length ∧
    ∀ (i : Nat) (p : Str × Str), (hs.take 20)[i]? = some p → ∃ hd, h.headers[i]? = some hd ∧
      (p.1.length < 64 → cstr hd.name = ok p.1) ∧ (64 ≤ p.1.length → cstr hd.name = ub .oob) ∧
      (p.2.length < 256 → cstr hd.value = ok p.2) ∧ (256 ≤ p.2.length → cstr hd.value = ub .oob) := by
  obtain ⟨last, h1, -, -, h2, -⟩ := parse_fields (lineBuf_of hb hz) hsec hok
  have e : h.headers = ((lines.filter (fun l => decide ((58 : Byte) ∈ untilNul l))).map (fun l => headerRec (untilNul l))).take 20 := by
    rw [h2]
    show (lines.foldl Head.step (.init bs ip)).headers = _
    rw [foldl_headers _ _ (by show 0 ≤ 20; omega)]
    rfl
  have e' := named_eq hn
  refine ⟨h1, ?_, ?_⟩
  · rw [e, e']; simp
  · intro i p hp
    rw [e', ← List.map_take, List.getElem?_map] at hp
    cases hl : (List.take 20 (lines.filter (fun l => decide ((58 : Byte) ∈ untilNul l))))[i]? with
    | none => rw [hl] at hp; cases hp
    | some l =>
      rw [hl] at hp
      simp only [Option.map_some, Option.some.injEq] at hp
      subst hp
      refine ⟨headerRec (untilNul l), by rw [e, ← List.map_take, List.getElem?_map, hl]; rfl, ?_⟩
      have hnf := nulFree_untilNul l
      have n1 : NulFree (headerPair (untilNul l)).1 := nulFree_strip (hnf.sublist (List.takeWhile_sublist _))
      have n2 : NulFree (headerPair (untilNul l)).2 := nulFree_strip ((hnf.sublist (List.dropWhile_sublist _)).drop 1)
      have over : ∀ (n : Nat) (s : Str), NulFree s → n ≤ s.length → cstr (padTo n s) = ub .oob := by
        intro n s hs hle
        unfold padTo
        rw [show n - s.length = 0 by omega, List.replicate_zero, List.append_nil]
        exact cstr_unterminated (hs.take n)
      exact ⟨fun h => cstr_padTo n1 h, fun h => over 64 _ n1 h, fun h => cstr_padTo n2 h, fun h => over 256 _ n2 h⟩

/-- The header table after reading a section. -/
theorem stored_of {bs input rest : List Byte} {lines : List (List Byte)} {hs : List (Str × Str)} {ip : Str} {h : HdrSt} {req : Req}
    (hb : bs.length = 1024) (hz : bs.getLast? = some 0) (hsec : Section input lines rest) (hn : Named lines hs)
    (hok : parseHeaders (bs.map some) input ip = ok h) (hreq : req.headers = h.headers ∧ req.n_headers = h.headers.length) :
    req.Stored (hs.take 20) := by
  obtain ⟨last, h1, -, -, h2, -⟩ := parse_fields (lineBuf_of hb hz) hsec hok
  have e : h.headers = ((lines.filter (fun l => decide ((58 : Byte) ∈ untilNul l))).map (fun l => headerRec (untilNul l))).take 20 := by
    rw [h2]
    show (lines.foldl Head.step (.init bs ip)).headers = _
    rw [foldl_headers _ _ (by show 0 ≤ 20; omega)]
    rfl
  exact ⟨by rw [hreq.1, hreq.2], by rw [hreq.1, e]; exact headers_stored hn 20⟩

/-- C42, as handlers see it: looking up a header (`http_get_header`) works on exactly this list, if its value has less than 256 bytes
and its name less than 64. -/
theorem C42_lookup (bs input rest : List Byte) (lines : List (List Byte)) (hs : List (Str × Str)) (ip name : Str) (h : HdrSt)
    (req : Req)
    (hb : bs.length = 1024) (hz : bs.getLast? = some 0) (hsec : Section input lines rest) (hn : Named lines hs)
    (hok : parseHeaders (bs.map some) input ip = ok h) (hreq : req.headers = h.headers ∧ req.n_headers = h.headers.length)
    (hname : ∀ c ∈ name, c ≠ 0) (hlen : name.length < 64)
    (hfit : ∀ v, FirstHeader (hs.take 20) name (some v) → v.length < 256) :
    ∃ v, FirstHeader (hs.take 20) name v ∧ http_get_header req name = ok ⟨v.isSome, v.getD []⟩ := by
  refine ⟨headerValue (hs.take 20) name, headerValue_first _ name, ?_⟩
  rw [get_header_stored (stored_of hb hz hsec hn hok hreq) (fun p hp => headers_nulFree hn p (List.mem_of_mem_take hp)) hname hlen]
  have := headerValue_first (hs.take 20) name
  cases hv : headerValue (hs.take 20) name with
  | none => rfl
  | some v =>
    rw [hv] at this
    simp only
    rw [if_pos (hfit v this)]
    rfl

example : Named [b!"Host: a\r\n", b!"junk\r\n", b!"X-Session: abc\r\n"] [(b!"Host", b!"a"), (b!"X-Session", b!"abc")] := by
  refine .header _ b!"Host: a\r\n" _ _ _ _ ⟨by decide, Or.inl rfl⟩ (headerLine_iff.mpr ⟨by decide, by decide⟩) ?_
  refine .other _ b!"junk\r\n" _ _ ⟨by decide, Or.inl rfl⟩ (by decide) ?_
  exact .header _ b!"X-Session: abc\r\n" _ _ _ _ ⟨by decide, Or.inl rfl⟩ (headerLine_iff.mpr ⟨by decide, by decide⟩) .nil

/-! ### C43 -/

/-- C43 in full (for sections that are read at all). -/
def C43_statement : Prop :=
  ∀ (bs input rest : List Byte) (lines : List (List Byte)) (ip s : Str) (h : HdrSt), bs.length = 1024 → bs.getLast? = some 0 →
    Section input lines rest → SessionOf lines s → parseHeaders (bs.map some) input ip = ok h → cstr h.session = ok s

/-- C43 is false: `Authorization: tok` gives the session `ion: tok`. -/
theorem C43_refuted : ¬ C43_statement := by
  intro h
  have hs := one_line_section (line := b!"Authorization: tok\r\n") (by decide) (by decide) (by decide) (by decide) (by decide) []
  have hv : SessionOf [b!"Authorization: tok\r\n"] b!"tok" := by
    have : FieldLine b!"Authorization" b!"Authorization: tok\r\n" b!"tok" :=
      ⟨b!"Authorization", b!" tok\r\n", rfl, rfl, by rw [show b!"tok" = strip b!" tok\r\n" by decide]; exact isStrip_strip _⟩
    exact .token [] [] _ b!"Authorization: tok\r\n" _ .none ⟨by decide, Or.inl rfl⟩ (Or.inr this)
  have key : (parseHeaders ((lineBytes b!"GET / HTTP/1.1\r\n").map some) b!"Authorization: tok\r\n\r\n" b!"10.0.0.1").bind
      (fun h => cstr h.session) = ok b!"ion: tok" := by decide +kernel
  cases hp : parseHeaders ((lineBytes b!"GET / HTTP/1.1\r\n").map some) b!"Authorization: tok\r\n\r\n" b!"10.0.0.1" with
  | ub f => rw [hp] at key; cases key
  | ok x =>
    have := h _ _ _ _ b!"10.0.0.1" _ x (by decide +kernel) (by decide +kernel) hs hv hp
    rw [hp] at key
    change cstr x.session = _ at key
    rw [this] at key
    exact absurd key (by decide)

/-- C43, the part that holds: without `Authorization` and `Cookie` lines the session is the value of the last
`X-Session` line, or empty if there is none. Missing: those two kinds of line (see `C43_authorization` and
`C43_cookie`) and tokens that do not fit (see C69). -/
theorem C43_partial (bs input rest : List Byte) (lines : List (List Byte)) (ip s : Str) (h : HdrSt) (hb : bs.length = 1024)
    (hz : bs.getLast? = some 0) (hsec : Section input lines rest) (hs : SessionOf lines s)
    (hno : ∀ l ∈ lines, ∀ t, BeforeNul l t → (∀ v, ¬ FieldLine b!"Authorization" t v) ∧ ¬ CasePrefix b!"Cookie:" t)
    (hok : parseHeaders (bs.map some) input ip = ok h) : cstr h.session = ok s := by
  obtain ⟨last, -, -, -, -, -, -, -, -, h2⟩ := parse_fields (lineBuf_of hb hz) hsec hok
  have e := foldl_sess hs (.init bs ip) ((lineBuf_of hb hz).load (line := [65]) (by decide)) rfl hsec.length_le hno
  have := h2.cstr
  rw [show ((lines.foldl Head.step (.init bs ip)).load last).sess = s from e] at this
  exact this

/-- C43: the session never exceeds its 64-byte array, and is always terminated in it, whatever the section. -/
theorem C43_bounded (bs input rest : List Byte) (lines : List (List Byte)) (ip : Str) (h : HdrSt) (hb : bs.length = 1024)
    (hz : bs.getLast? = some 0) (hsec : Section input lines rest) (hok : parseHeaders (bs.map some) input ip = ok h) :
    h.session.length = 64 ∧ ∃ s, cstr h.session = ok s ∧ s.length < 64 := by
  obtain ⟨last, -, -, -, -, -, -, -, -, h2⟩ := parse_fields (lineBuf_of hb hz) hsec hok
  refine ⟨h2.length, _, h2.cstr, ?_⟩
  obtain ⟨-, r, -, hr⟩ := h2
  omega

example : ∃ h, parseHeaders ((lineBytes b!"GET / HTTP/1.1\r\n").map some) b!"X-Session: abc\r\n\r\n" b!"10.0.0.1" = ok h ∧
    h.session.length = 64 := by
  obtain ⟨h, hok⟩ := (C69_defined (lineBytes b!"GET / HTTP/1.1\r\n") b!"X-Session: abc\r\n\r\n" [] [b!"X-Session: abc\r\n"] b!"10.0.0.1"
    (by decide +kernel) (by decide +kernel)
    (one_line_section (line := b!"X-Session: abc\r\n") (by decide) (by decide) (by decide) (by decide) (by decide) [])).1.mpr (by
      intro l hl t ht
      rw [beforeNul_eq ht, List.mem_singleton.mp hl]
      exact not_overrun_of_decide (by decide +kernel))
  exact ⟨h, hok, (C43_bounded _ _ _ _ _ h (by decide +kernel) (by decide +kernel)
    (one_line_section (line := b!"X-Session: abc\r\n") (by decide) (by decide) (by decide) (by decide) (by decide) []) hok).1⟩

theorem parse_fields_sess {bs input rest : List Byte} {lines : List (List Byte)} {ip s : Str} {h : HdrSt} {line : List Byte}
    (hb : LineBuf bs) (hsec : Section input (lines ++ [line]) rest) (hs : SessionOf lines s)
    (hno : ∀ l ∈ lines, ∀ t, BeforeNul l t → (∀ v, ¬ FieldLine b!"Authorization" t v) ∧ ¬ CasePrefix b!"Cookie:" t)
    (hok : parseHeaders (bs.map some) input ip = ok h) :
    ∃ bs', LineBuf bs' ∧ cstr h.session = ok (nextSession s (loadLine bs' line)) := by
  obtain ⟨last, -, -, -, -, -, -, -, -, h2⟩ := parse_fields hb hsec hok
  have hb0 : LineBuf (Head.init bs ip).bs := hb.load (line := [65]) (by decide)
  have hlen := hsec.length_le
  have e := foldl_sess hs (.init bs ip) hb0 rfl (fun l hl => hlen l (by simp [hl])) hno
  refine ⟨(lines.foldl Head.step (.init bs ip)).bs, LineBuf.foldl hb0 (fun l hl => hlen l (by simp [hl])), ?_⟩
  have := h2.cstr
  rw [List.foldl_append, List.foldl_cons, List.foldl_nil] at this
  rw [← e]
  exact this

/-- C43, what really happens with a cookie: the token is kept together with everything up to the end of the line,
the line end included. -/
theorem C43_cookie (bs input rest : List Byte) (lines : List (List Byte)) (ip line t : Str) (h : HdrSt) (hb : bs.length = 1024)
    (hz : bs.getLast? = some 0) (hsec : Section input (lines ++ [line]) rest) (hs : SessionOf lines [])
    (hno : ∀ l ∈ lines, ∀ t, BeforeNul l t → (∀ v, ¬ FieldLine b!"Authorization" t v) ∧ ¬ CasePrefix b!"Cookie:" t)
    (hline : BeforeNul line (b!"Cookie: WSSESSION=" ++ t)) (ht : t.length < 64)
    (hok : parseHeaders (bs.map some) input ip = ok h) : cstr h.session = ok t := by
  obtain ⟨bs', hb', e⟩ := parse_fields_sess (lineBuf_of hb hz) hsec hs hno hok
  rw [e]
  have hl := hsec.length_le line (by simp)
  have htext : untilNul line = b!"Cookie: WSSESSION=" ++ t := (beforeNul_eq hline).symm
  have hcook : startswith (untilNul line) b!"Cookie:" = true := by
    rw [htext, startswith_iff]
    exact ⟨b!"Cookie:", b!" WSSESSION=" ++ t, rfl, rfl⟩
  have hsess : isSess (untilNul line) = false := by
    unfold isSess
    rw [not_startswith_of_get hcook (q := b!"X-Session:") (i := 0) (by decide) (by decide) (by decide),
      not_startswith_of_get hcook (q := b!"Authorization:") (i := 0) (by decide) (by decide) (by decide)]
    rfl
  have htail : tailAt (loadLine bs' line) 18 = t := by
    have hlen : (b!"Cookie: WSSESSION=" : Str).length = 18 := by decide
    rw [(hb'.load hl).tail (by rw [untilNul_loadLine, htext, List.length_append]; omega), untilNul_loadLine, htext,
      drop_at hlen.symm]
  unfold nextSession
  simp only [untilNul_loadLine, hsess, hcook, htail, ht, Bool.false_eq_true, if_false, and_self, if_true]

/-- A request whose only header is the cookie. -/
example (h : HdrSt) (hok : parseHeaders ((lineBytes b!"GET / HTTP/1.1\r\n").map some) b!"Cookie: WSSESSION=tok\r\n\r\n" b!"10.0.0.1" = ok h) :
    cstr h.session = ok b!"tok\r\n" :=
  C43_cookie (lineBytes b!"GET / HTTP/1.1\r\n") b!"Cookie: WSSESSION=tok\r\n\r\n" [] [] b!"10.0.0.1" b!"Cookie: WSSESSION=tok\r\n" b!"tok\r\n" h
    (by decide +kernel) (by decide +kernel)
    (one_line_section (line := b!"Cookie: WSSESSION=tok\r\n") (by decide) (by decide) (by decide) (by decide) (by decide) [])
    .none (by simp) ⟨by decide, Or.inl rfl⟩ (by decide) hok

/-- C43, what really happens with an `Authorization` line: the session is what follows its tenth byte,
"ion:" included. -/
theorem C43_authorization (bs input rest : List Byte) (lines : List (List Byte)) (ip line v : Str) (h : HdrSt)
    (hb : bs.length = 1024) (hz : bs.getLast? = some 0) (hsec : Section input (lines ++ [line]) rest)
    (hv : BeforeNul line (b!"Authorization:" ++ v)) (hok : parseHeaders (bs.map some) input ip = ok h) :
    ∃ s, cstr h.session = ok s ∧ IsStrip (b!"ion:" ++ v) s := by
  obtain ⟨last, -, -, -, -, -, -, -, -, h2⟩ := parse_fields (lineBuf_of hb hz) hsec hok
  have hlen := hsec.length_le
  have hb0 : LineBuf (Head.init bs ip).bs := (lineBuf_of hb hz).load (line := [65]) (by decide)
  have hb' := LineBuf.foldl (lines := lines) hb0 (fun l hl => hlen l (by simp [hl]))
  have htext : untilNul line = b!"Authorization:" ++ v := (beforeNul_eq hv).symm
  refine ⟨_, h2.cstr, ?_⟩
  rw [List.foldl_append, List.foldl_cons, List.foldl_nil]
  show IsStrip _ (nextSession (lines.foldl Head.step (.init bs ip)).sess (loadLine (lines.foldl Head.step (.init bs ip)).bs line))
  generalize (lines.foldl Head.step (.init bs ip)).sess = s0
  have hi : isSess (untilNul line) = true := by
    unfold isSess
    rw [Bool.or_eq_true]
    right
    rw [htext, startswith_iff]
    exact ⟨b!"Authorization:", v, rfl, rfl⟩
  unfold nextSession
  simp only [untilNul_loadLine, hi, if_true]
  rw [(hb'.load (hlen line (by simp))).tail (by rw [untilNul_loadLine]; exact isSess_length hi), untilNul_loadLine, htext]
  exact isStrip_strip _

example : SessionOf [b!"Host: a\r\n", b!"X-Session: abc\r\n"] b!"abc" := by
  refine .token [b!"Host: a\r\n"] [] _ b!"X-Session: abc\r\n" _ ?_ ⟨by decide, Or.inl rfl⟩
    (Or.inl ⟨b!"X-Session", b!" abc\r\n", rfl, rfl, by rw [show b!"abc" = strip b!" abc\r\n" by decide]; exact isStrip_strip _⟩)
  refine .kept [] [] _ b!"Host: a\r\n" .none ⟨by decide, Or.inl rfl⟩ (fun v => ⟨fun h => ?_, fun h => ?_⟩) (by decide)
  · exact absurd (fieldLine_startswith.mp ⟨v, h⟩) (by decide +kernel)
  · exact absurd (fieldLine_startswith.mp ⟨v, h⟩) (by decide +kernel)
example : (parseHeaders ((lineBytes b!"GET / HTTP/1.1\r\n").map some) b!"Cookie: WSSESSION=tok\r\n\r\n" b!"10.0.0.1").bind
      (fun h => cstr h.session) = ok b!"tok\r\n" := by decide +kernel

/-! ### C44 -/

/-- C44 in full: the announced number of bytes is read and becomes the form (no multipart boundary). -/
def C44_statement : Prop :=
  ∀ (env : Env) (st : St) (bs input body : List Byte) (lines : List (List Byte)) (ip : Str) (n : Nat) (h : HdrSt),
    bs.length = 1024 → bs.getLast? = some 0 → Section input lines body → LengthOf lines (some n) → 0 < n → n < 2 ^ 31 →
    n ≤ body.length → parseHeaders (bs.map some) input ip = ok h →
    ∃ st', readForm env { st with input := h.input } h.content_length [] = ok st' ∧
      st'.req.form = (body.take n).map some ++ [some 0] ∧ st'.input = body.drop n

theorem length_sample : LengthOf [b!"Content-Length:12\r\n"] (some 12) := by
  have := LengthOf.field [] none b!"Content-Length:12\r\n" b!"Content-Length:12\r\n" b!"12" .none ⟨by decide, Or.inl rfl⟩
    ⟨b!"Content-Length", b!"12\r\n", rfl, rfl, by rw [show b!"12" = strip b!"12\r\n" by decide]; exact isStrip_strip _⟩ (by decide)
    (by unfold digit; decide)
  exact this

/-- C44 is false: without a space after the colon, the first digit of the length is lost. -/
theorem C44_refuted : ¬ C44_statement := by
  intro h
  have hs := one_line_section (line := b!"Content-Length:12\r\n") (by decide) (by decide) (by decide) (by decide) (by decide)
    b!"hello, world"
  have key : (parseHeaders ((lineBytes b!"POST /api/a HTTP/1.1\r\n").map some) (b!"Content-Length:12\r\n\r\nhello, world")
      b!"10.0.0.1").bind (fun h => (readForm sampleEnv { sampleSt with input := h.input } h.content_length []).bind
        (fun st => ok (cstr st.req.form))) = ok (ok b!"he") := by decide +kernel
  cases hp : parseHeaders ((lineBytes b!"POST /api/a HTTP/1.1\r\n").map some) (b!"Content-Length:12\r\n\r\nhello, world") b!"10.0.0.1" with
  | ub f => rw [hp] at key; cases key
  | ok x =>
    obtain ⟨st', h1, h2, -⟩ := h sampleEnv sampleSt _ _ _ _ b!"10.0.0.1" 12 x (by decide +kernel) (by decide +kernel) hs
      length_sample (by decide) (by decide) (by decide) hp
    rw [hp] at key
    change (readForm sampleEnv { sampleSt with input := x.input } x.content_length []).bind _ = _ at key
    rw [h1] at key
    change ok (cstr st'.req.form) = _ at key
    rw [h2] at key
    exact absurd key (by decide)

/-- C44, the part that holds: when every `Content-Length` line has a space after the colon and the input is long
enough, the form is exactly the next `n` bytes of the input, and they are consumed. Missing: lines without that space
(see `C44_refuted`) and inputs that end early (see `C44_short`). -/
theorem C44_partial (env : Env) (st : St) (bs input body : List Byte) (lines : List (List Byte)) (ip : Str) (n : Nat) (h : HdrSt)
    (hb : bs.length = 1024) (hz : bs.getLast? = some 0) (hsec : Section input lines body) (hlen : LengthOf lines (some n))
    (hn : 0 < n) (hlt : n < 2 ^ 31) (hle : n ≤ body.length)
    (hsp : ∀ l ∈ lines, ∀ t, BeforeNul l t → CasePrefix b!"Content-Length:" t → CasePrefix b!"Content-Length: " t)
    (hok : parseHeaders (bs.map some) input ip = ok h) :
    ∃ st', readForm env { st with input := h.input } h.content_length [] = ok st' ∧
      st'.req.form = (body.take n).map some ++ [some 0] ∧ st'.input = body.drop n ∧ st'.fs = st.fs := by
  obtain ⟨last, h1, -, -, -, -, -, h2, -⟩ := parse_fields (lineBuf_of hb hz) hsec hok
  have e := foldl_clen hlen (.init bs ip) ((lineBuf_of hb hz).load (line := [65]) (by decide)) rfl hsec.length_le
    (fun m hm => by cases hm; exact hlt) hsp
  have e : h.content_length = n := h2.trans e
  have := readForm_plain env { st with input := body } n hn [] (by decide) hle
  rw [e, h1]
  exact ⟨_, this, rfl, rfl, rfl⟩

/-- C44: without a `Content-Length` line no body is read and the form stays empty. -/
theorem C44_nobody (env : Env) (st : St) (bs input body : List Byte) (lines : List (List Byte)) (ip boundary : Str) (h : HdrSt)
    (hb : bs.length = 1024) (hz : bs.getLast? = some 0) (hsec : Section input lines body) (hlen : LengthOf lines none)
    (hok : parseHeaders (bs.map some) input ip = ok h) :
    readForm env { st with input := h.input } h.content_length boundary = ok { st with input := body } := by
  obtain ⟨last, h1, -, -, -, -, -, h2, -⟩ := parse_fields (lineBuf_of hb hz) hsec hok
  have hno : ∀ l ∈ lines, ∀ t, BeforeNul l t → ¬ CasePrefix b!"Content-Length:" t := by
    have : ∀ {lines : List (List Byte)} {o : Option Nat}, LengthOf lines o → o = none →
        ∀ l ∈ lines, ∀ t, BeforeNul l t → ¬ CasePrefix b!"Content-Length:" t := by
      intro lines o h
      induction h with
      | none => simp
      | field => intro h; cases h
      | other lines n line text _ hb h1 ih =>
        intro hn l hl t ht hc
        rcases List.mem_append.mp hl with hl | hl
        · exact ih hn l hl t ht hc
        · simp at hl
          subst hl
          obtain ⟨v, hv⟩ := (fieldLine_startswith (name := b!"Content-Length")).mpr ((startswith_iff _ _).mpr hc)
          rw [beforeNul_unique ht hb] at hv
          exact h1 v hv
    exact this hlen rfl
  have e := foldl_clen hlen (.init bs ip) ((lineBuf_of hb hz).load (line := [65]) (by decide)) rfl hsec.length_le
    (fun m hm => by cases hm) (fun l hl t ht hc => absurd hc (hno l hl t ht))
  have e : h.content_length = -1 := h2.trans e
  rw [e, h1]
  unfold readForm
  rw [if_neg (by omega)]

/-- No header at all: what follows the blank line is left unread. -/
example (h : HdrSt) (hok : parseHeaders ((lineBytes b!"GET / HTTP/1.1\r\n").map some) b!"Host: a\r\n\r\nrest" b!"10.0.0.1" = ok h)
    (hlen : LengthOf [b!"Host: a\r\n"] none) :
    readForm sampleEnv { sampleSt with input := h.input } h.content_length [] = ok { sampleSt with input := b!"rest" } :=
  C44_nobody sampleEnv sampleSt (lineBytes b!"GET / HTTP/1.1\r\n") b!"Host: a\r\n\r\nrest" b!"rest" [b!"Host: a\r\n"] b!"10.0.0.1" [] h
    (by decide +kernel) (by decide +kernel)
    (one_line_section (line := b!"Host: a\r\n") (by decide) (by decide) (by decide) (by decide) (by decide) b!"rest") hlen hok

theorem bodyLoop_fill (n : Nat) (c : Byte) (p : List Byte) (r : Buf) (hr : r.length = n + 1) :
    bodyLoop n [] c (p.map some ++ r) p.length =
      ok (if n = 0 then p.map some ++ r else (p ++ List.replicate n c).map some ++ [some 0], []) := by
  induction n generalizing p r with
  | zero => simp [bodyLoop]
  | succ n ih =>
    obtain ⟨y, z, r, rfl⟩ : ∃ y z r', r = y :: z :: r' := by
      match r, hr with
      | y :: z :: r', _ => exact ⟨y, z, r', rfl⟩
    simp only [bodyLoop]
    rw [store_append_cons (by simp)]
    simp only [ok_bind]
    rw [show p.map some ++ some c :: z :: r = (p ++ [c]).map some ++ z :: r by simp, store_append_cons (by simp)]
    simp only [ok_bind]
    have := ih (p ++ [c]) (some 0 :: r) (by simpa using hr)
    rw [List.length_append, List.length_singleton] at this
    rw [this]
    by_cases h0 : n = 0
    · subst h0
      have hr' := List.length_eq_zero_iff.mp (show r.length = 0 by simpa using hr)
      subst hr'
      simp
    · simp [h0, List.replicate_succ]

/-- C44, what really happens when the input ends early: the last byte received is repeated up to the announced
length (zero bytes if nothing was received). -/
theorem C44_short (env : Env) (st : St) (n : Nat) (hn : 0 < n) (hlt : st.input.length < n) :
    ∃ st', readForm env st n [] = ok st' ∧ st'.input = [] ∧
      st'.req.form = (st.input ++ List.replicate (n - st.input.length) (st.input.getLast?.getD 0)).map some ++ [some 0] := by
  have key : ∀ (n : Nat) (inp : List Byte) (c : Byte) (p : List Byte) (r : Buf), inp.length < n → r.length = n + 1 →
      bodyLoop n inp c (p.map some ++ r) p.length =
        ok ((p ++ (inp ++ List.replicate (n - inp.length) (inp.getLast?.getD c))).map some ++ [some 0], []) := by
    intro n
    induction n with
    | zero => intro inp c p r h; omega
    | succ n ih =>
      intro inp c p r h hr
      cases inp with
      | nil =>
        rw [bodyLoop_fill _ _ _ _ hr]
        simp
      | cons x inp =>
        obtain ⟨y, z, r, rfl⟩ : ∃ y z r', r = y :: z :: r' := by
          match r, hr with
          | y :: z :: r', _ => exact ⟨y, z, r', rfl⟩
        simp only [bodyLoop]
        rw [store_append_cons (by simp)]
        simp only [ok_bind]
        rw [show p.map some ++ some x :: z :: r = (p ++ [x]).map some ++ z :: r by simp, store_append_cons (by simp)]
        simp only [ok_bind]
        have := ih inp x (p ++ [x]) (some 0 :: r) (by simpa using h) (by simpa using hr)
        rw [List.length_append, List.length_singleton] at this
        rw [this]
        simp [List.getLast?_cons]
  unfold readForm
  rw [if_pos (by omega)]
  have := key n st.input 0 [] (malloc (n + 1)) hlt (by simp)
  simp only [Int.toNat_natCast]
  simp only [List.map_nil, List.nil_append, List.length_nil] at this
  rw [this]
  exact ⟨_, rfl, rfl, rfl⟩

example : LengthOf [b!"Content-Length: 5\r\n"] (some 5) ∧ CasePrefix b!"Content-Length: " b!"Content-Length: 5\r\n" := by
  refine ⟨?_, ⟨b!"Content-Length: ", b!"5\r\n", rfl, rfl⟩⟩
  have := LengthOf.field [] none b!"Content-Length: 5\r\n" b!"Content-Length: 5\r\n" b!"5" .none ⟨by decide, Or.inl rfl⟩
    ⟨b!"Content-Length", b!" 5\r\n", rfl, rfl, by rw [show b!"5" = strip b!" 5\r\n" by decide]; exact isStrip_strip _⟩ (by decide)
    (by unfold digit; decide)
  exact this
example : (readForm sampleEnv { sampleSt with input := b!"abc" } 5 []).bind (fun st => cstr st.req.form) = ok b!"abccc" := by
  decide +kernel

end Wayuu
