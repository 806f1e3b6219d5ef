import Verif.Props.Admission
import Verif.Props.Multipart
/-
Property C70 (ws.c:540-656 with ws.c:244-311): a form sent as multipart/form-data, from the socket to the handler.
-/
namespace Wayuu
open C Spec

/-- A request METHOD /api/PATH?QUERY (the mount in any case) within the limits that is admitted, and for which the constant
route `r` is the earliest match. `body` is what follows the header section. -/
structure ApiCall (env : Env) (st : St) (peer method url path query body : Str) (lines : List (List Byte))
    (hs : List (Str × Str)) (regs : List Registration) (r : Registration) (h : Nat) : Prop where
  limits : env.limits.length ≤ 64 ∧ ∀ l ∈ env.limits, l.path ≠ []
  peerFits : peer.length < 16
  supported : Supported method
  admitted : Admits env.limits st.live peer url
  parts : ∃ mount, UrlParts url (mount ++ path) query ∧ CaseEq mount b!"/api" ∧ (63 : Byte) ∉ query
  len : method.length + path.length ≤ 253
  head : ∃ line text rest, Begins st.input line text method url rest ∧ Section rest lines body
  noOverrun : ∀ l ∈ lines, ∀ t, BeforeNul l t → ¬ Overrun t
  named : Named lines hs
  fits : FitsLog (hs.take 20)
  registered : (∀ r ∈ regs, r.template.Valid) ∧ register regs = ok env.routes
  route : ∃ t, r.template = .const t
  handler : r.handler = some h
  first : FirstMatch regs (method ++ b!":" ++ path) r

/-- What the handler is given: a request with these values. -/
structure Seen (st st0 : St) (socket : Nat) (method url path query : Str) (hs : List (Str × Str)) : Prop where
  method : st0.req.method = method
  path : st0.req.path = path
  query : st0.req.query_string = query
  headers : st0.req.HasHeaders (hs.take 20)
  url : st0.req.url = url
  socket : st0.req.socket = socket
  out : st0.out = st.out

/-- Any such request whose body can be read. -/
theorem api_call {env : Env} {st : St} {peer method url path query body : Str} {lines : List (List Byte)} {hs : List (Str × Str)}
    {regs : List Registration} {r : Registration} {h : Nat} (hc : ApiCall env st peer method url path query body lines hs regs r h)
    (socket : Nat) :
    ∃ (line : List Byte) (x : HdrSt) (st2 : St), LineBuf (lineBytes line) ∧
      x.boundary = (lines.foldl Head.step (.init (lineBytes line) peer)).boundary ∧
      x.content_length = (lines.foldl Head.step (.init (lineBytes line) peer)).clen ∧
      (∀ l ∈ lines, l.length ≤ 1023) ∧
      st2.input = body ∧ (st2.fs = st.fs ∧ st2.req.form = strdup []) ∧ Seen st st2 socket method url path query hs ∧
      ∀ st0 : St, readForm env st2 x.content_length x.boundary = ok st0 → st0.req.method = method → st0.req.path = path →
        ∀ st' ev, accept_request env st socket peer = ok (st', ev) ↔
          ∃ st1, Dispatched env h r.filter st0 st1 ev ∧ st' = connection_close st1 := by
  obtain ⟨line, text, rest, hb, hsec⟩ := hc.head
  obtain ⟨mount, hparts, hmount, hq⟩ := hc.parts
  obtain ⟨t, ht⟩ := hc.route
  obtain ⟨a, c, b, e1, e2, e3, hadd⟩ := (connection_add_admits (socket := socket) hc.limits.1 hc.limits.2
    (show url.length < 512 by have := hb.2.2.2.2; omega) hc.peerFits).1 hc.admitted
  obtain ⟨x, hh1, hh2, hh3⟩ := head_ok hsec hc.noOverrun hc.named hc.fits (lineBytes_buf hb.1.2.1) peer
  have hml : mount.length = 4 := by simpa using congrArg List.length hmount
  have hmne : mount ++ path ≠ [] := by
    intro e
    rw [List.append_eq_nil_iff.mp e |>.1] at hml
    cases hml
  have hget : get_path_and_query_string url = ok (mount ++ path, query) :=
    C36_partial url _ query hb.nulFree hb.2.2.2.2 hparts hmne hq
  have hpre : CasePrefix b!"/api" url := by
    rcases hparts with ⟨rfl, -⟩ | ⟨rfl, -⟩
    · exact ⟨mount, path, rfl, hmount⟩
    · exact ⟨mount, path ++ 63 :: query, by simp, hmount⟩
  have hz : NulFree path := by
    refine NulFree.mono hb.nulFree (fun c hin => ?_)
    rcases hparts with ⟨rfl, -⟩ | ⟨rfl, -⟩ <;> simp [hin]
  obtain ⟨last, -, -, -, -, -, f4, f5, -⟩ := parse_fields (lineBytes_buf hb.1.2.1) hsec hh1
  let st1 := servedSt st (a ++ ⟨socket, url, peer⟩ :: b) socket peer (text.take (text.length - 2)) method url x
  let st2 : St := { st1 with req := { st1.req with query_string := query, path := path } }
  refine ⟨line, x, st2, lineBytes_buf hb.1.2.1, f4, f5, hsec.length_le, hh2, ⟨rfl, rfl⟩,
    ⟨rfl, rfl, rfl, hh3 st2 rfl rfl, rfl, rfl, rfl⟩, ?_⟩
  intro st0 hform hm0 hp0 st' ev
  have hdisp : ∀ st' ev, router_handle_request env st0 = ok (st', ev) ↔ Dispatched env h r.filter st0 st' ev := by
    intro st' ev
    apply C25_const env st0 regs hc.registered.1 hc.registered.2 ?_ r t h ht hc.handler ?_
    · rw [hm0, hp0]; have := hc.len; show method.length + 1 + path.length < 255; omega
    · rw [hm0, hp0]; exact hc.first
  rw [served_eq hb (by have := hc.peerFits; omega) hc.supported hadd, hh1]
  show (dispatch env st1 url x.content_length x.boundary).bind _ = _ ↔ _
  rw [dispatch_api hpre hget hml hz]
  show ((readForm env st2 x.content_length x.boundary).bind (router_handle_request env)).bind _ = _ ↔ _
  rw [hform]
  show (router_handle_request env st0).bind _ = _ ↔ _
  constructor
  · intro h
    obtain ⟨⟨s, ev'⟩, h1, h2⟩ := bind_eq_ok.mp h
    simp only [ok.injEq, Prod.mk.injEq] at h2
    obtain ⟨rfl, rfl⟩ := h2
    exact ⟨s, (hdisp _ _).mp h1, rfl⟩
  · rintro ⟨s, h1, rfl⟩
    rw [(hdisp _ _).mpr h1]
    rfl

theorem readForm_multipart (env : Env) (st : St) (n : Nat) (hn : 0 < n) (boundary : Str) (hb : 2 ≤ boundary.length)
    (hlen : n ≤ st.input.length) (form : Buf) (fs : FS)
    (hm : multipart_parse env st.fs ((st.input.take n).map some ++ [some 0]) boundary n = ok (form, fs)) :
    readForm env st n boundary = ok { st with input := st.input.drop n, fs := fs, req := { st.req with form := form } } := by
  unfold readForm
  rw [if_pos (by omega)]
  have := bodyLoop_eq n (st.input.take n) (st.input.drop n) 0 [] (by simp; omega) (malloc (n + 1)) (by simp)
  rw [List.take_append_drop, if_neg (by omega)] at this
  simp only [Int.toNat_natCast]
  simp only [List.map_nil, List.nil_append, List.length_nil] at this
  rw [this]
  simp only [ok_bind]
  rw [if_pos hb, hm]
  rfl

/-- The boundary after a section: that of the last multipart line. -/
theorem foldl_boundary {before after : List (List Byte)} {line : List Byte} {text bound w : Str} (a : Head)
    (ht : BeforeNul line text) (hm : CasePrefix b!"Content-Type: multipart/form-data" text)
    (hbd : AfterCase text b!"boundary=" (bound ++ w)) (hl : ∀ c, bound.getLast? = some c → ws c = false) (hw : ∀ c ∈ w, ws c = true)
    (hafter : ∀ l ∈ after, ∀ t, BeforeNul l t → ¬ CasePrefix b!"Content-Type: multipart/form-data" t) :
    ((before ++ line :: after).foldl Head.step a).boundary = b!"--" ++ bound := by
  rw [List.foldl_append, List.foldl_cons, foldl_boundary_same after _ (fun l hl => hafter l hl _ (untilNul_before l))]
  show nextBoundary _ (untilNul (loadLine _ line)) = _
  rw [untilNul_loadLine, ← beforeNul_eq ht]
  unfold nextBoundary
  rw [if_pos ((startswith_iff _ _).mpr hm)]
  obtain ⟨r, h1, h2, -⟩ := (strcasestr_iff _ _ _).mpr hbd
  rw [h1]
  have h2 : r.drop 9 = bound ++ w := h2
  simp only [h2]
  refine (isStrip_eq ⟨[], w, by simp, by simp, hw, ?_, ?_⟩).symm
  · intro c hc
    have : (45 : Byte) = c := by simpa using hc
    rw [← this]; decide
  · intro c hc
    by_cases hb : bound = []
    · subst hb
      have : (45 : Byte) = c := by simpa using hc
      rw [← this]; decide
    · rw [List.getLast?_append_of_ne_nil _ hb] at hc
      exact hl c hc

/-- C70: a form sent to a handler arrives whole, whichever way its boundary is written. -/
def C70_statement : Prop :=
  ∀ (env : Env) (st : St) (socket : Nat) (peer method url path query body : Str) (before after : List (List Byte)) (line text bound : Str)
    (hs : List (Str × Str)) (regs : List Registration) (r : Registration) (h : Nat) (n : Nat) (fields : List (Str × Str)),
    ApiCall env st peer method url path query body (before ++ line :: after) hs regs r h →
    LengthOf (before ++ line :: after) (some n) → n < 2 ^ 31 → n ≤ body.length →
    BeforeNul line text → Announces text bound → (∀ l ∈ before ++ after, ∀ t v, BeforeNul l t → ¬ FieldLine b!"Content-Type" t v) →
    Multipart (fun f t => FieldPart f.1 f.2 t ∧ ¬ b!"; filename=\"" <:+: t) (b!"--" ++ bound) fields (body.take n) →
    (∀ f ∈ fields, (∀ c ∈ f.1, 35 ≤ c.toNat ∧ c.toNat ≤ 127) ∧ NulFree f.2) →
    ∃ st0 : St, Seen st st0 socket method url path query hs ∧ cstr st0.req.form = ok (formText fields) ∧ st0.fs = st.fs ∧
      st0.input = body.drop n ∧
      ∀ st' ev, accept_request env st socket peer = ok (st', ev) ↔
        ∃ st1, Dispatched env h r.filter st0 st1 ev ∧ st' = connection_close st1

/-- C70, what holds: the boundary is what follows `boundary=` up to the end of the line, in the last line that starts with
`Content-Type: multipart/form-data`; names are cut and values end as `C45_general` says. Missing: boundaries in quotes or followed by
further parameters, and `Content-Type:` or `Content-Length:` without a space behind it. -/
theorem C70_partial (env : Env) (st : St) (socket : Nat) (peer method url path query body : Str) (before after : List (List Byte))
    (line text bound w : Str) (hs : List (Str × Str)) (regs : List Registration) (r : Registration) (h : Nat) (n : Nat)
    (fields seen : List (Str × Str))
    (hc : ApiCall env st peer method url path query body (before ++ line :: after) hs regs r h)
    (hcl : LengthOf (before ++ line :: after) (some n)) (hlt : n < 2 ^ 31) (hbody : n ≤ body.length)
    (hsp : ∀ l ∈ before ++ line :: after, ∀ t, BeforeNul l t → CasePrefix b!"Content-Length:" t → CasePrefix b!"Content-Length: " t)
    (ht : BeforeNul line text) (hm : CasePrefix b!"Content-Type: multipart/form-data" text)
    (hbd : AfterCase text b!"boundary=" (bound ++ w)) (hl : ∀ c ∈ bound, ws c = false) (hw : ∀ c ∈ w, ws c = true)
    (hafter : ∀ l ∈ after, ∀ t, BeforeNul l t → ¬ CasePrefix b!"Content-Type: multipart/form-data" t)
    (hmp : Multipart (fun f t => FieldPart f.1 f.2 t ∧ ¬ b!"; filename=\"" <:+: t) (b!"--" ++ bound) fields (body.take n))
    (hseen : List.Forall₂ (fun f s => Cut f.1 s.1 ∧ BeforeNul f.2 s.2) fields seen) :
    ∃ st0 : St, Seen st st0 socket method url path query hs ∧ cstr st0.req.form = ok (formText seen) ∧ st0.fs = st.fs ∧
      st0.input = body.drop n ∧
      ∀ st' ev, accept_request env st socket peer = ok (st', ev) ↔
        ∃ st1, Dispatched env h r.filter st0 st1 ev ∧ st' = connection_close st1 := by
  obtain ⟨ln, x, st2, hlb, h1, h2, h3, h4, ⟨h5, -⟩, h6, h7⟩ := api_call hc socket
  have hb0 : LineBuf (Head.init (lineBytes ln) peer).bs := hlb.load (line := [65]) (by decide)
  have hclen := foldl_clen hcl _ hb0 rfl h3 (fun m hm => by cases hm; exact hlt) hsp
  have hclen : x.content_length = (n : Int) := by rw [h2]; exact hclen
  rw [foldl_boundary _ ht hm hbd (fun c hc => hl c (List.mem_of_getLast? hc)) hw hafter] at h1
  have hnf : NulFree text := by rw [beforeNul_eq ht]; exact nulFree_untilNul line
  have hd : Delimiter (b!"--" ++ bound) := by
    refine ⟨⟨bound, rfl⟩, fun c hc => ?_⟩
    rcases List.mem_append.mp hc with hc | hc
    · clear hseen hmp
      revert hc
      clear * -
      revert c; decide
    · constructor
      · obtain ⟨p, m, he, -⟩ := hbd
        refine hnf c ?_
        rw [he]; simp [hc]
      · rintro rfl
        exact absurd (hl _ hc) (by decide)
  obtain ⟨form, hf1, hf2, -⟩ := C45_general env st2.fs _ _ fields seen hd hmp hseen
  have hlen : (body.take n).length = n := by simp; omega
  have hpos : 0 < n := by
    obtain ⟨pre, tail, hb, -⟩ := hmp
    have := congrArg List.length hb
    rw [hlen] at this
    simp at this
    omega
  rw [hlen, ← h4] at hf1
  have hform := readForm_multipart env st2 n hpos (b!"--" ++ bound) (by simp) (by rw [h4]; exact hbody) form st2.fs hf1
  refine ⟨{ st2 with input := st2.input.drop n, req := { st2.req with form := form } }, ?_, ?_, ?_, ?_,
    h7 _ (by rw [hclen, h1]; exact hform) h6.method h6.path⟩
  · exact ⟨h6.method, h6.path, h6.query, ⟨h6.headers.1, h6.headers.2⟩, h6.url, h6.socket, h6.out⟩
  · exact hf2
  · exact h5
  · simp [h4]

/-- A request for the filtered route of `sampleRegs`, with a form. -/
theorem formCall {ct cl : Str} (body : Str) (h1 : ct.length ≤ 1023 ∧ (10 : Byte) ∉ ct.dropLast ∧ ct.getLast? = some 10 ∧ NulFree ct)
    (h2 : cl.length ≤ 1023 ∧ (10 : Byte) ∉ cl.dropLast ∧ cl.getLast? = some 10 ∧ NulFree cl)
    (h3 : ct ≠ [] ∧ ct ≠ [10] ∧ ct ≠ [13, 10]) (h4 : cl ≠ [] ∧ cl ≠ [10] ∧ cl ≠ [13, 10])
    (h5 : (58 : Byte) ∈ ct ∧ (58 : Byte) ∈ cl) (h6 : lineSafe ct = true ∧ lineSafe cl = true)
    (h7 : (headerPair ct).1.length < 64 ∧ (headerPair ct).2.length < 256 ∧ (headerPair cl).1.length < 64 ∧
      (headerPair cl).2.length < 256) :
    ApiCall sampleRouterEnv { sampleSt with live := [⟨0, [], []⟩], input := b!"GET /api/a HTTP/1.1\r\n" ++ (ct ++ (cl ++ 13 :: 10 :: body)) }
      b!"10.0.0.1" b!"GET" b!"/api/a" b!"/a" [] body ([] ++ ct :: [cl]) [headerPair ct, headerPair cl] sampleRegs
      ⟨.const b!"GET:/a", some 1, some 2⟩ 1 where
  limits := ⟨by decide, by intro l hl; cases hl⟩
  peerFits := by decide
  supported := ⟨b!"GET", by decide, (startswith_iff _ _).mp (by decide)⟩
  admitted := ⟨⟨_, List.mem_singleton.mpr rfl, rfl⟩, by intro l hl; cases hl⟩
  parts := ⟨b!"/api", Or.inl (by decide), rfl, by decide⟩
  len := by decide
  head := ⟨b!"GET /api/a HTTP/1.1\r\n", b!"GET /api/a HTTP/1.1\r\n", _,
    ⟨⟨rfl, by decide, by decide, Or.inr (Or.inl rfl)⟩, ⟨by decide, Or.inl rfl⟩,
    ⟨b!" ", 32, b!"HTTP/1.1\r\n", rfl, by unfold White; decide, by decide, by unfold White; decide, by decide,
      by unfold White; decide, by unfold White; decide⟩, by decide, by decide⟩,
    .line _ ct _ _ _ ⟨rfl, h1.1, h1.2.1, Or.inr (Or.inl h1.2.2.1)⟩ h3.1 h3.2.1 h3.2.2
      (.line _ cl _ _ _ ⟨rfl, h2.1, h2.2.1, Or.inr (Or.inl h2.2.2.1)⟩ h4.1 h4.2.1 h4.2.2
        (.blank _ [13, 10] body ⟨rfl, by decide, by decide, Or.inr (Or.inl rfl)⟩ (Or.inr rfl)))⟩
  noOverrun := by
    intro l hl t ht ho
    have ht := beforeNul_eq ht
    rw [← lineSafe_iff] at ho
    rcases (show l = ct ∨ l = cl by simpa using hl) with rfl | rfl
    · rw [ht, untilNul_of_nulFree h1.2.2.2, h6.1] at ho; cases ho
    · rw [ht, untilNul_of_nulFree h2.2.2.2, h6.2] at ho; cases ho
  named := .header _ ct _ _ _ _ ⟨h1.2.2.2, Or.inl rfl⟩ (headerLine_iff.mpr ⟨h5.1, rfl⟩)
    (.header _ cl _ _ _ _ ⟨h2.2.2.2, Or.inl rfl⟩ (headerLine_iff.mpr ⟨h5.2, rfl⟩) .nil)
  fits := by
    refine fitsLog_of_short fun p hp => ?_
    rcases (show p = headerPair ct ∨ p = headerPair cl by simpa using hp) with rfl | rfl
    · exact ⟨h7.1, h7.2.1⟩
    · exact ⟨h7.2.2.1, h7.2.2.2⟩
  registered := ⟨by decide, by decide +kernel⟩
  route := ⟨_, rfl⟩
  handler := rfl
  first := ⟨[], _, rfl, rfl, by simp⟩

theorem fieldLine_prefix {name text v : List Byte} (h : FieldLine name text v) : CasePrefix (name ++ [58]) text := by
  obtain ⟨n, b, rfl, h, -⟩ := h
  refine ⟨n ++ [58], b, by simp, ?_⟩
  unfold CaseEq at *
  rw [List.map_append, List.map_append, h]

/-- Its body, with the fields x=1 and y=2. -/
def formBody : List Byte := twoFields b!"x" b!"1" b!"y" b!"2"

theorem formBody_multipart :
    Multipart (fun f t => FieldPart f.1 f.2 t ∧ ¬ b!"; filename=\"" <:+: t) (b!"--" ++ b!"xY") [(b!"x", b!"1"), (b!"y", b!"2")]
      (formBody.take 140) :=
  twoFields_multipart (n1 := b!"x") (v1 := b!"1") (n2 := b!"y") (v2 := b!"2")
    ⟨⟨[], [], by simp, by simp, by decide, rfl⟩, by decide +kernel⟩
    ⟨⟨[], [b!"Content-Type: text/plain"], by simp, by unfold PartLine; decide, by decide, rfl⟩, by decide +kernel⟩ (by decide +kernel) (by decide +kernel)

def quotedType : Str := b!"Content-Type: multipart/form-data; boundary=\"xY\"\r\n"
def plainType : Str := b!"Content-Type: multipart/form-data; boundary=xY\r\n"
def formLength : Str := b!"Content-Length: 140\r\n"

theorem formLength_length (ct : Str) (h : NulFree ct) (hno : startswith ct b!"Content-Length:" = false) :
    LengthOf ([] ++ ct :: [formLength]) (some 140) := by
  have h0 := LengthOf.other [] none ct ct .none ⟨h, Or.inl rfl⟩ (fun v hv => by
    have := (startswith_iff _ _).mpr (fieldLine_prefix hv)
    have : startswith ct b!"Content-Length:" = true := this
    rw [hno] at this; cases this)
  exact LengthOf.field ([] ++ [ct]) none formLength formLength b!"140" h0 ⟨by decide, Or.inl rfl⟩
    ⟨b!"Content-Length", b!" 140\r\n", rfl, rfl, by rw [show b!"140" = strip b!" 140\r\n" by decide]; exact isStrip_strip _⟩
    (by decide) (by unfold digit; decide)

def formSt (ct : Str) : St :=
  { sampleSt with live := [⟨0, [], []⟩], input := b!"GET /api/a HTTP/1.1\r\n" ++ (ct ++ (formLength ++ 13 :: 10 :: formBody)) }

/-- The form the filter is given. -/
def givenForm (env : Env) (st : St) : C (Option Str) :=
  (accept_request env st 7 b!"10.0.0.1").bind fun x => match x.2 with
    | .filter _ r :: _ => (cstr r.form).bind (fun s => ok (some s))
    | _ => ok none

example : givenForm sampleRouterEnv (formSt plainType) = ok (some b!"x=1&y=2") := by decide +kernel

/-- C70 is false: with `boundary="xY"` in quotes the handler is given an empty form. -/
theorem C70_refuted : ¬ C70_statement := by
  intro h
  have hc := formCall (ct := quotedType) (cl := formLength) formBody (by decide +kernel) (by decide +kernel) (by decide +kernel)
    (by decide +kernel) (by decide +kernel) (by decide +kernel) (by decide +kernel)
  obtain ⟨st0, -, h2, -, -, h5⟩ := h _ _ 7 _ _ _ _ _ _ [] [formLength] quotedType quotedType b!"xY" _ _ _ _ 140 _ hc
    (formLength_length _ (by decide +kernel) (by decide +kernel)) (by decide) (by decide +kernel) ⟨by decide +kernel, Or.inl rfl⟩
    ⟨b!"multipart/form-data; boundary=\"xY\"", b!"multipart/form-data; boundary=",
      ⟨b!"Content-Type", b!" multipart/form-data; boundary=\"xY\"\r\n", rfl, rfl, by
        rw [show b!"multipart/form-data; boundary=\"xY\"" = strip b!" multipart/form-data; boundary=\"xY\"\r\n" by decide +kernel]
        exact isStrip_strip _⟩, rfl, Or.inr rfl, by decide, by decide⟩
    (by
      intro l hl t v ht hv
      have : l = formLength := by simpa using hl
      subst this
      rw [beforeNul_eq ht] at hv
      exact absurd ((startswith_iff _ _).mpr (fieldLine_prefix hv)) (by decide +kernel))
    formBody_multipart (by decide +kernel)
  have key : givenForm sampleRouterEnv (formSt quotedType) = ok (some []) := by decide +kernel
  unfold givenForm at key
  obtain ⟨⟨st', ev⟩, e1, e2⟩ := bind_eq_ok.mp key
  obtain ⟨st1, hd, -⟩ := (h5 st' ev).mp e1
  rcases hd with ⟨-, rfl⟩ | ⟨st2, -, -, rfl⟩
  · have e2 : (cstr st0.req.form).bind (fun s => ok (some s)) = ok (some []) := e2
    rw [h2] at e2
    exact absurd e2 (by decide)
  · have e2 : (cstr st0.req.form).bind (fun s => ok (some s)) = ok (some []) := e2
    rw [h2] at e2
    exact absurd e2 (by decide)

/-- The hypotheses of `C70_partial`. -/
example : ApiCall sampleRouterEnv (formSt plainType) b!"10.0.0.1" b!"GET" b!"/api/a" b!"/a" [] formBody ([] ++ plainType :: [formLength])
      [headerPair plainType, headerPair formLength] sampleRegs ⟨.const b!"GET:/a", some 1, some 2⟩ 1 ∧
    LengthOf ([] ++ plainType :: [formLength]) (some 140) ∧
    CasePrefix b!"Content-Type: multipart/form-data" plainType ∧ AfterCase plainType b!"boundary=" (b!"xY" ++ b!"\r\n") :=
  ⟨formCall formBody (by decide +kernel) (by decide +kernel) (by decide +kernel)
    (by decide +kernel) (by decide +kernel) (by decide +kernel) (by decide +kernel),
    formLength_length _ (by decide +kernel) (by decide +kernel), (startswith_iff _ _).mp (by decide +kernel),
    (strcasestr_iff _ _ _).mp ⟨b!"boundary=xY\r\n", by decide +kernel, rfl, by decide⟩⟩

end Wayuu
