import Verif.Props.Messages
import Verif.Spec.MediaType
/-
C132: the media type a handler finds in `req->content_type` (ws.c:576-579, http_utils.h:116).
-/
namespace Wayuu
open C Spec

/-! ### what reaches the first user code of a request -/

theorem router_request_first {env : Env} {st st1 : St} {e : Event} {ev : List Event}
    (h : router_handle_request env st = ok (st1, e :: ev)) : ∃ form, e.request = { st.req with form := form } := by
  unfold router_handle_request at h
  obtain ⟨m, -, h⟩ := bind_eq_ok.mp h
  obtain ⟨⟨hd, f, form⟩, -, h⟩ := bind_eq_ok.mp h
  dsimp only at h
  refine ⟨form, ?_⟩
  split at h
  · obtain ⟨s, -, h⟩ := bind_eq_ok.mp h
    cases h
  · split at h
    · obtain ⟨⟨s, r⟩, -, h⟩ := bind_eq_ok.mp h
      dsimp only at h
      split at h
      · cases h; rfl
      · obtain ⟨s, -, h⟩ := bind_eq_ok.mp h
        cases h; rfl
    · obtain ⟨s, -, h⟩ := bind_eq_ok.mp h
      cases h; rfl

theorem readForm_request {env : Env} {st st1 : St} {n : Int} {b : Str} (h : readForm env st n b = ok st1) :
    ∃ form, st1.req = { st.req with form := form } := by
  unfold readForm at h
  split at h
  · obtain ⟨⟨form, inp⟩, -, h⟩ := bind_eq_ok.mp h
    dsimp only at h
    split at h
    · obtain ⟨⟨f, fs⟩, -, h⟩ := bind_eq_ok.mp h
      cases h; exact ⟨_, rfl⟩
    · cases h; exact ⟨_, rfl⟩
  · cases h; exact ⟨_, rfl⟩

/-- The first user code of a request gets what was read from the header section. -/
theorem first_request {env : Env} {st st' : St} {socket : Nat} {peer line text method url rest : Str} {e : Event} {ev : List Event}
    (hb : Begins st.input line text method url rest) (h : accept_request env st socket peer = ok (st', e :: ev)) :
    ∃ x path query form, parseHeaders ((lineBytes line).map some) rest peer = ok x ∧
      e.request = { headReq socket peer (text.take (text.length - 2)) method url x with
        path := path, query_string := query, form := form } := by
  obtain ⟨hp, hh⟩ := accept_request_cases h
  obtain ⟨e1, e2⟩ := requestLine_eq hb.1 hb.2.1 hb.2.2.1 hb.2.2.2.1 hb.2.2.2.2
  cases hh with
  | served buf inp rl m j u live hd st1 _ hr hm' hurl hadd hh h1 =>
    rw [e1] at hr
    cases hr
    rw [e2] at hurl
    cases hurl
    unfold dispatch at h1
    obtain ⟨⟨path, query⟩, -, h1⟩ := bind_eq_ok.mp h1
    dsimp only at h1
    split at h1
    · exfalso
      split at h1
      · obtain ⟨s, -, h1⟩ := bind_eq_ok.mp h1
        cases h1
      · obtain ⟨s, -, h1⟩ := bind_eq_ok.mp h1
        cases h1
    · obtain ⟨p, -, h1⟩ := bind_eq_ok.mp h1
      unfold handle_api_request at h1
      obtain ⟨st2, hf, h1⟩ := bind_eq_ok.mp h1
      obtain ⟨f1, g1⟩ := readForm_request hf
      obtain ⟨f2, g2⟩ := router_request_first h1
      refine ⟨hd, p, query, f2, hh, ?_⟩
      rw [g2, g1]

/-! ### the type after a section -/

theorem ctype_same (lines : List (List Byte)) (a : Head) (h : ∀ l ∈ lines, ¬ CasePrefix b!"Content-Type:" (untilNul l)) :
    (lines.foldl Head.step a).ctype = a.ctype := by
  induction lines generalizing a with
  | nil => rfl
  | cons l lines ih =>
    rw [List.foldl_cons, ih _ (fun x hx => h x (List.mem_cons_of_mem _ hx))]
    show nextType a.ctype (loadLine a.bs l) = _
    unfold nextType
    rw [untilNul_loadLine, if_neg]
    exact fun hs => h l (by simp) ((startswith_iff _ _).mp hs)

theorem ctype_step (a : Head) (line : List Byte) {n media more : Str} {w : Byte} (ha : LineBuf a.bs) (hl : line.length ≤ 1023)
    (ht : BeforeNul line (n ++ 58 :: w :: media ++ more)) (hn : CaseEq n b!"Content-Type") (hm : (59 : Byte) ∉ media)
    (hmore : more = [] ∨ ∃ r, more = 59 :: r) : (a.step line).ctype = some media := by
  show nextType a.ctype (loadLine a.bs line) = _
  have hb := ha.load hl
  have e := beforeNul_eq ht
  have hnl : n.length = 12 := by simpa using congrArg List.length hn
  have hs : startswith (untilNul line) b!"Content-Type:" = true := by
    rw [← e]
    exact (fieldLine_startswith (name := b!"Content-Type")).mp ⟨_, n, w :: media ++ more, by simp, hn, isStrip_strip _⟩
  unfold nextType
  rw [untilNul_loadLine, if_pos hs, hb.tail (by rw [untilNul_loadLine, ← e]; simp; omega), untilNul_loadLine, ← e,
    show n ++ 58 :: w :: media ++ more = (n ++ [58, w]) ++ (media ++ more) by simp, drop_at (by simp; omega)]
  congr 1
  have hm' : ∀ c ∈ media, (c != 59) = true := fun c hc => by
    rw [bne_iff_ne]; rintro rfl; exact hm hc
  rw [List.takeWhile_append_of_pos hm']
  rcases hmore with rfl | ⟨r, rfl⟩ <;> simp

/-- A `Content-Type` line whose media type follows the colon and one blank and is followed by `;`. -/
def TypeLine (text media : Str) : Prop :=
  ∃ n r, text = n ++ 58 :: 32 :: media ++ 59 :: r ∧ CaseEq n b!"Content-Type" ∧ (59 : Byte) ∉ media ∧ IsStrip media media

theorem strip_keeps {m r v : Str} (hm : IsStrip m m) (h : IsStrip (32 :: m ++ 59 :: r) v) : ∃ r', v = m ++ 59 :: r' := by
  obtain ⟨l, q, e, hl, hq, h1, h2⟩ := h
  have h59l : (59 : Byte) ∉ l := fun h => absurd (hl _ h) (by decide)
  have h59q : (59 : Byte) ∉ q := fun h => absurd (hq _ h) (by decide)
  have hm1 : ∀ c t, m = c :: t → ws c = false := by
    obtain ⟨a, b, e, ha, hb, h1, -⟩ := hm
    have hlen := congrArg List.length e
    intro c t hc
    exact h1 c (by rw [hc]; rfl)
  cases l with
  | nil =>
    cases v with
    | nil =>
      simp at e
      rw [← e] at h59q
      simp at h59q
    | cons c v =>
      simp at e
      exact absurd (h1 c rfl) (by rw [← e.1]; decide)
  | cons c l =>
    simp only [List.cons_append, List.cons.injEq] at e
    obtain ⟨-, e⟩ := e
    have hl0 : l = [] := by
      cases l with
      | nil => rfl
      | cons d l =>
        exfalso
        cases m with
        | nil =>
          simp at e
          rw [← e.1] at h59l
          simp at h59l
        | cons d' m =>
          simp at e
          have := hm1 d' m rfl
          rw [e.1, hl d (by simp)] at this
          cases this
    subst hl0
    rw [List.nil_append] at e
    rcases List.append_eq_append_iff.mp e with ⟨x, e1, e2⟩ | ⟨x, e1, e2⟩
    · cases x with
      | nil =>
        simp at e2
        rw [← e2] at h59q
        simp at h59q
      | cons d x =>
        simp at e2
        exact ⟨x, by rw [e1, e2.1]⟩
    · rw [e2] at h59q
      simp at h59q

theorem mediaOf_unique {m r a : Str} (h59 : (59 : Byte) ∉ m) (hm : IsStrip m m) (h : MediaOf (m ++ 59 :: r) a) : a = m := by
  obtain ⟨b, p, e, hb, hp, hs⟩ := h
  have : b = m := by
    have key : ∀ {x y : Str}, (59 : Byte) ∉ x → (y = [] ∨ ∃ r, y = 59 :: r) → (x ++ y).takeWhile (· != 59) = x := by
      intro x y hx hy
      rw [List.takeWhile_append_of_pos (fun c hc => by rw [bne_iff_ne]; rintro rfl; exact hx hc)]
      rcases hy with rfl | ⟨r, rfl⟩ <;> simp
    rw [← key hb hp, ← e, key h59 (Or.inr ⟨_, rfl⟩)]
  subst this
  rw [isStrip_eq hs, ← isStrip_eq hm]

theorem foldl_type {lines : List (List Byte)} {o : Option Str} (h : TypeOf lines o) (a : Head) (ha : LineBuf a.bs)
    (hs : a.ctype = none) (hl : ∀ l ∈ lines, l.length ≤ 1023)
    (hf : ∀ l ∈ lines, ∀ t, BeforeNul l t → CasePrefix b!"Content-Type:" t → ∃ m, TypeLine t m) :
    (lines.foldl Head.step a).ctype = o := by
  induction h with
  | none => exact hs
  | field lines n line text v m _ hb hv hmed ih =>
    rw [List.foldl_append, List.foldl_cons, List.foldl_nil]
    have hb' := LineBuf.foldl (lines := lines) ha (fun l h => hl l (by simp [h]))
    have hc : CasePrefix b!"Content-Type:" text :=
      (startswith_iff _ _).mp ((fieldLine_startswith (name := b!"Content-Type")).mp ⟨v, hv⟩)
    obtain ⟨m', n, r, e, hn, h59, hm⟩ := hf line (by simp) text hb hc
    rw [ctype_step _ line hb' (hl line (by simp)) (by rw [← e]; exact hb) hn h59 (Or.inr ⟨r, rfl⟩)]
    congr 1
    obtain ⟨n2, b, e3, hn2, hst⟩ := hv
    have hlen : n2.length = n.length := by
      have e1 := congrArg List.length hn
      have e2 := congrArg List.length hn2
      simp only [List.length_map] at e1 e2
      omega
    rw [e, List.append_assoc] at e3
    obtain ⟨-, e4⟩ := List.append_inj e3 hlen.symm
    simp only [List.cons_append, List.cons.injEq, true_and] at e4
    rw [← e4] at hst
    obtain ⟨r', rfl⟩ := strip_keeps hm hst
    exact (mediaOf_unique h59 hm hmed).symm
  | other lines o line text _ hb h1 ih =>
    rw [List.foldl_append]
    have hno : ¬ CasePrefix b!"Content-Type:" (untilNul line) := by
      intro hc
      obtain ⟨v, hv⟩ := (fieldLine_startswith (name := b!"Content-Type")).mpr ((startswith_iff _ _).mpr hc)
      rw [← beforeNul_eq hb] at hv
      exact h1 v hv
    rw [ctype_same [line] _ (by simpa using hno)]
    exact ih (fun l h => hl l (by simp [h])) (fun l h => hf l (by simp [h]))

/-! ### C132 -/

/-- C132 in full: the user code finds in `content_type` the media type the client announced, or nothing if it announced none. -/
def C132_statement : Prop :=
  ∀ (env : Env) (st st' : St) (socket : Nat) (peer line text method url rest body : Str) (lines : List (List Byte))
    (o : Option Str) (e : Event) (ev : List Event),
    Begins st.input line text method url rest → Section rest lines body → TypeOf lines o →
    accept_request env st socket peer = ok (st', e :: ev) → e.request.content_type = o

/-- The lines of a request decide on what the first user code finds. -/
theorem first_type {env : Env} {st st' : St} {socket : Nat} {peer line text method url rest body : Str} {lines : List (List Byte)}
    {e : Event} {ev : List Event} (hb : Begins st.input line text method url rest) (hs : Section rest lines body)
    (h : accept_request env st socket peer = ok (st', e :: ev)) :
    e.request.content_type = (lines.foldl Head.step (.init (lineBytes line) peer)).ctype := by
  obtain ⟨x, p, q, f, h1, h2⟩ := first_request hb h
  obtain ⟨last, -, -, -, -, h3, -⟩ := parse_fields (lineBytes_buf hb.1.2.1) hs h1
  rw [h2]
  exact h3

/-- C132, what holds: the media type is found as announced when, in every `Content-Type` line, one blank is between the colon and
the media type and a `;` follows it at once. Missing: media types without parameters, which is what most clients send (see
`C132_refuted` and `C132_exact`), no blank or several after the colon, blanks before the `;`. -/
theorem C132_partial (env : Env) (st st' : St) (socket : Nat) (peer line text method url rest body : Str) (lines : List (List Byte))
    (o : Option Str) (e : Event) (ev : List Event)
    (hb : Begins st.input line text method url rest) (hs : Section rest lines body) (ho : TypeOf lines o)
    (hf : ∀ l ∈ lines, ∀ t, BeforeNul l t → CasePrefix b!"Content-Type:" t →
      ∃ n media r, t = n ++ 58 :: 32 :: media ++ 59 :: r ∧ CaseEq n b!"Content-Type" ∧ (59 : Byte) ∉ media ∧ IsStrip media media)
    (h : accept_request env st socket peer = ok (st', e :: ev)) : e.request.content_type = o := by
  rw [first_type hb hs h]
  refine foldl_type ho _ ((lineBytes_buf hb.1.2.1).load (line := [65]) (by decide)) rfl hs.length_le ?_
  intro l hl t ht hc
  obtain ⟨n, m, r, e1, e2, e3, e4⟩ := hf l hl t ht hc
  exact ⟨m, n, r, e1, e2, e3, e4⟩

/-- C132, what is found instead: everything between the byte behind the colon, which is dropped whatever it is, and the first `;` or
the end of the last `Content-Type` line, white space and the line end included. -/
theorem C132_exact (env : Env) (st st' : St) (socket : Nat) (peer line text method url rest body : Str)
    (before after : List (List Byte)) (l n media more : Str) (w : Byte) (e : Event) (ev : List Event)
    (hb : Begins st.input line text method url rest) (hs : Section rest (before ++ l :: after) body)
    (hl : BeforeNul l (n ++ 58 :: w :: media ++ more)) (hn : CaseEq n b!"Content-Type") (hm : (59 : Byte) ∉ media)
    (hmore : more = [] ∨ ∃ r, more = 59 :: r)
    (hafter : ∀ l ∈ after, ∀ t, BeforeNul l t → ¬ CasePrefix b!"Content-Type:" t)
    (h : accept_request env st socket peer = ok (st', e :: ev)) : e.request.content_type = some media := by
  rw [first_type hb hs h, List.foldl_append, List.foldl_cons, ctype_same after _ (fun l hl => hafter l hl _ (untilNul_before l))]
  refine ctype_step _ l ?_ (hs.length_le l (by simp)) hl hn hm hmore
  exact LineBuf.foldl ((lineBytes_buf hb.1.2.1).load (line := [65]) (by decide)) (fun x hx => hs.length_le x (by simp [hx]))

/-- C132: without parameters the line end is part of what is found, so it never equals the media type. -/
theorem C132_bare (env : Env) (st st' : St) (socket : Nat) (peer line text method url rest body : Str)
    (before after : List (List Byte)) (n media : Str) (e : Event) (ev : List Event)
    (hb : Begins st.input line text method url rest)
    (hs : Section rest (before ++ (n ++ b!": " ++ media ++ [13, 10]) :: after) body)
    (hn : CaseEq n b!"Content-Type") (hm : (59 : Byte) ∉ media) (h0 : (0 : Byte) ∉ n ∧ (0 : Byte) ∉ media)
    (hafter : ∀ l ∈ after, ∀ t, BeforeNul l t → ¬ CasePrefix b!"Content-Type:" t)
    (h : accept_request env st socket peer = ok (st', e :: ev)) : e.request.content_type = some (media ++ [13, 10]) := by
  refine C132_exact env st st' socket peer line text method url rest body before after _ n (media ++ [13, 10]) [] 32 e ev hb hs
    ?_ hn ?_ (Or.inl rfl) hafter h
  · refine ⟨?_, Or.inl (by simp)⟩
    intro c hc
    rintro rfl
    simp only [List.append_nil, List.mem_append, List.mem_cons, List.not_mem_nil, or_false] at hc
    rcases hc with hc | hc | hc | hc | hc | hc
    · exact h0.1 hc
    · exact absurd hc (by decide)
    · exact absurd hc (by decide)
    · exact h0.2 hc
    · exact absurd hc (by decide)
    · exact absurd hc (by decide)
  · simp [hm]

/-- A request for `/api/user/7` with this `Content-Type` line. -/
def typeSt (line : Str) : St :=
  { sampleSt with live := [⟨0, [], []⟩], input := b!"GET /api/user/7 HTTP/1.1\r\n" ++ (line ++ b!"\r\n") }

theorem type_begins (line : Str) : Begins (typeSt line).input b!"GET /api/user/7 HTTP/1.1\r\n" b!"GET /api/user/7 HTTP/1.1\r\n"
    b!"GET" b!"/api/user/7" (line ++ b!"\r\n") := by
  refine ⟨⟨rfl, by decide, by decide, Or.inr (Or.inl rfl)⟩, ⟨by decide, Or.inl rfl⟩, ?_, by decide, by decide⟩
  exact ⟨b!" ", 32, b!"HTTP/1.1\r\n", rfl, by unfold White; decide, by decide, by unfold White; decide, by decide,
    by unfold White; decide, Or.inl rfl⟩

/-- What the first user code of a request finds in `content_type`. -/
def typeSeen (r : C (St × List Event)) : C (Option (Option Str)) := do
  let (_, ev) ← r
  ok (ev.head?.map (fun e => e.request.content_type))

theorem typeSeen_some {r : C (St × List Event)} {t : Option Str} (h : typeSeen r = ok (some t)) :
    ∃ st' e ev, r = ok (st', e :: ev) ∧ e.request.content_type = t := by
  unfold typeSeen at h
  obtain ⟨⟨st', ev⟩, h1, h2⟩ := bind_eq_ok.mp h
  cases ev with
  | nil => cases h2
  | cons e ev =>
    simp only [List.head?_cons, Option.map_some, ok.injEq, Option.some.injEq] at h2
    exact ⟨st', e, ev, h1, h2⟩

theorem json_type : TypeOf [b!"Content-Type: application/json\r\n"] (some b!"application/json") := by
  have := TypeOf.field [] none b!"Content-Type: application/json\r\n" b!"Content-Type: application/json\r\n" b!"application/json"
    b!"application/json" .none ⟨by decide, Or.inl rfl⟩
    ⟨b!"Content-Type", b!" application/json\r\n", rfl, rfl, by
      rw [show b!"application/json" = strip b!" application/json\r\n" by decide]; exact isStrip_strip _⟩
    ⟨b!"application/json", [], rfl, by decide, Or.inl rfl, by
      have := isStrip_strip b!"application/json"
      rwa [show strip b!"application/json" = b!"application/json" by decide] at this⟩
  exact this

/-- C132 is false: for `Content-Type: application/json` the handler finds `application/json` with the line end. -/
theorem C132_refuted : ¬ C132_statement := by
  intro h
  have key : typeSeen (accept_request sampleRouterEnv (typeSt b!"Content-Type: application/json\r\n") 7 b!"10.0.0.1") =
      ok (some (some b!"application/json\r\n")) := by decide +kernel
  obtain ⟨st', e, ev, h1, h2⟩ := typeSeen_some key
  have hs := one_line_section (line := b!"Content-Type: application/json\r\n") (by decide) (by decide) (by decide) (by decide)
    (by decide) []
  have := h _ _ _ _ _ _ _ _ _ _ _ _ _ e ev (type_begins _) hs json_type h1
  rw [h2] at this
  exact absurd this (by decide)

/-- The hypotheses of `C132_partial` are met by a request with a parameter behind the media type, and the type is found. -/
example : ∃ st' e ev, accept_request sampleRouterEnv (typeSt b!"content-type: text/csv; charset=utf-8\r\n") 7 b!"10.0.0.1" =
      ok (st', e :: ev) ∧ e.request.content_type = some b!"text/csv" ∧
    (∃ n media r, b!"content-type: text/csv; charset=utf-8\r\n" = n ++ 58 :: 32 :: media ++ 59 :: r ∧ CaseEq n b!"Content-Type" ∧
      (59 : Byte) ∉ media ∧ IsStrip media media) := by
  have key : typeSeen (accept_request sampleRouterEnv (typeSt b!"content-type: text/csv; charset=utf-8\r\n") 7 b!"10.0.0.1") =
      ok (some (some b!"text/csv")) := by decide +kernel
  obtain ⟨st', e, ev, h1, h2⟩ := typeSeen_some key
  refine ⟨st', e, ev, h1, h2, b!"content-type", b!"text/csv", b!" charset=utf-8\r\n", rfl, rfl, by decide, ?_⟩
  have := isStrip_strip b!"text/csv"
  rwa [show strip b!"text/csv" = b!"text/csv" by decide] at this
/-- `C132_exact`: without a blank behind the colon the first letter is lost. -/
example : typeSeen (accept_request sampleRouterEnv (typeSt b!"Content-Type:text/csv ; header=absent\r\n") 7 b!"10.0.0.1") =
    ok (some (some b!"ext/csv ")) := by decide +kernel
/-- No `Content-Type` line: the pointer stays NULL. -/
example : typeSeen (accept_request sampleRouterEnv (typeSt b!"Accept: text/csv\r\n") 7 b!"10.0.0.1") = ok (some none) := by
  decide +kernel

/-! ### a line that is cut off -/

/-- C132, a `Content-Type:` at which the input ends: what is found is a piece of the line before it. -/
theorem C132_stale (env : Env) (st st' : St) (socket : Nat) (peer line text method url rest body : Str)
    (before : List (List Byte)) (l : Str) (e : Event) (ev : List Event)
    (hb : Begins st.input line text method url rest) (hs : Section rest (before ++ [l, b!"Content-Type:"]) body)
    (h0 : (0 : Byte) ∉ l) (hlen : 14 ≤ l.length) (hx : ¬ CasePrefix b!"X-Real-IP:" l)
    (h : accept_request env st socket peer = ok (st', e :: ev)) :
    e.request.content_type = some ((l.drop 14).takeWhile (· != 59)) := by
  rw [first_type hb hs h, List.foldl_append]
  have hb' : LineBuf (before.foldl Head.step (.init (lineBytes line) peer)).bs :=
    LineBuf.foldl ((lineBytes_buf hb.1.2.1).load (line := [65]) (by decide)) (fun x hx => hs.length_le x (by simp [hx]))
  generalize before.foldl Head.step (.init (lineBytes line) peer) = a at hb'
  have hl : l.length ≤ 1023 := hs.length_le l (by simp)
  have hu : untilNul l = l := (beforeNul_eq ⟨fun c hc => by rintro rfl; exact h0 hc, Or.inl rfl⟩).symm
  have e1 : (a.step l).bs = loadLine a.bs l := by
    show nextBuf (loadLine a.bs l) = _
    unfold nextBuf
    rw [untilNul_loadLine, hu, if_neg]
    exact fun hs => hx ((startswith_iff _ _).mp hs)
  show nextType (a.step l).ctype (loadLine (a.step l).bs b!"Content-Type:") = _
  rw [e1]
  unfold nextType
  rw [untilNul_loadLine, if_pos (by decide)]
  congr 2
  unfold tailAt loadLine
  rw [show (b!"Content-Type:" ++ 0 :: (l ++ 0 :: a.bs.drop (l.length + 1)).drop ((b!"Content-Type:").length + 1)).drop 14 =
    (l ++ 0 :: a.bs.drop (l.length + 1)).drop 14 from rfl, List.drop_append_of_le_length hlen]
  exact untilNul_append_zero (fun c hc => by rintro rfl; exact h0 (List.mem_of_mem_drop hc)) _

def cutSt : St :=
  { sampleSt with live := [⟨0, [], []⟩], input := b!"GET /api/user/7 HTTP/1.1\r\nUser-Agent: curl/8.0\r\nContent-Type:" }

example : typeSeen (accept_request sampleRouterEnv cutSt 7 b!"10.0.0.1") = ok (some (some b!"rl/8.0\r\n")) := by decide +kernel
example : Section b!"User-Agent: curl/8.0\r\nContent-Type:" ([] ++ [b!"User-Agent: curl/8.0\r\n", b!"Content-Type:"]) [] := by
  refine .line _ _ b!"Content-Type:" _ _ ⟨by decide, by decide, by decide, Or.inr (Or.inl rfl)⟩ (by decide) (by decide) (by decide) ?_
  exact .line _ _ [] _ _ ⟨by decide, by decide, by decide, Or.inr (Or.inr rfl)⟩ (by decide) (by decide) (by decide) .eof

end Wayuu
