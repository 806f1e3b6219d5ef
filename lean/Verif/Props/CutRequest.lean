import Verif.Props.Forms
import Verif.Props.Pipeline
import Verif.Props.MediaType
/-
C134: requests that were cut off (ws.c:411-456, 494-538, 552-556; a client that leaves, a failed TLS handshake).
-/
namespace Wayuu
open C Spec

/-- C134 in full: user code only runs for requests that came completely: request line, headers up to the blank line, and as many
bytes as the header section announces. -/
def C134_statement : Prop :=
  ∀ (env : Env) (st st' : St) (socket : Nat) (peer : Str) (ev : List Event), ¬ Complete st.input →
    accept_request env st socket peer = ok (st', ev) → ev = []

/-- A part of the request line from which the URL can be read: not its beginning, and it begins with `/api`. -/
def Spec.NamesApi (line : List Byte) : Prop := ∃ a u, line = a ++ u ∧ a ≠ [] ∧ CasePrefix b!"/api" u

theorem wordAt_infix (bs : List Byte) (n j : Nat) : ∃ b, bs = bs.take j ++ (wordAt bs n j ++ b) := by
  have h1 := (List.take_prefix n ((bs.drop j).takeWhile (fun c => !isSpace c))).trans (List.takeWhile_prefix _)
  obtain ⟨b, hb⟩ := h1
  refine ⟨b, ?_⟩
  unfold wordAt
  rw [hb, List.take_append_drop]

/-- Where the URL comes from. -/
theorem readUrl_part {line : List Byte} {j : Nat} {url : Str}
    (h : readUrl ((lineBytes line).map some) j = ok url) (hu : url ≠ []) : ∃ a b, line = a ++ url ++ b ∧ j ≤ a.length := by
  unfold readUrl at h
  obtain ⟨k, hk, h⟩ := bind_eq_ok.mp h
  obtain ⟨⟨u, m⟩, h1, h⟩ := bind_eq_ok.mp h
  simp only [ok.injEq] at h
  have hjk : j ≤ k ∧ k < (lineBytes line).length := by
    rw [skipSpaces_eq _ _ _ (by simp; omega)] at hk
    split at hk
    · cases hk; omega
    · simp at hk
  rw [scanWord_eq] at h1
  split at h1
  · cases h1
    obtain ⟨b, hb⟩ := wordAt_infix (lineBytes line) 254 k
    obtain ⟨c, hc⟩ : ∃ c, wordAt (lineBytes line) 254 k = url ++ c := by
      rw [← h]
      obtain ⟨-, e | ⟨r, e⟩⟩ := untilNul_before (wordAt (lineBytes line) 254 k)
      · exact ⟨[], by simp [← e]⟩
      · exact ⟨0 :: r, e⟩
    have hz : NulFree url := by rw [← h]; exact nulFree_untilNul _
    rw [hc] at hb
    have hkl : ((lineBytes line).take k).length = k := by rw [List.length_take]; omega
    have hb : line ++ List.replicate (1024 - line.length) 0 = (lineBytes line).take k ++ url ++ (c ++ b) := by
      rw [show line ++ List.replicate (1024 - line.length) 0 = lineBytes line from rfl]
      conv_lhs => rw [hb]
      simp
    generalize (lineBytes line).take k = a at hb hkl
    have hle : (a ++ url).length ≤ line.length := by
      by_contra hlt
      obtain ⟨v, x, rfl⟩ : ∃ v x, url = v ++ [x] := ⟨_, _, (List.dropLast_append_getLast hu).symm⟩
      have hx : (line ++ List.replicate (1024 - line.length) 0)[(a ++ v).length]? = some x := by
        rw [hb]
        simp
      rw [List.getElem?_append_right (by simp at hlt ⊢; omega)] at hx
      obtain ⟨hh, hx⟩ := List.getElem?_eq_some_iff.mp hx
      rw [List.getElem_replicate] at hx
      exact hz x (by simp) hx.symm
    have := congrArg (List.take line.length) hb
    rw [List.take_left, List.take_append, List.take_of_length_le hle] at this
    exact ⟨a, _, this, by omega⟩
  · cases h1

/-- C134, what holds: no user code runs as long as the `/api` of the URL has not come. Missing: requests cut off later, see
C134_refuted and C134_url. -/
theorem C134_partial (env : Env) (st st' : St) (socket : Nat) (peer line rest : Str) (ev : List Event)
    (hl : LineOf st.input 1023 line rest) (hn : ¬ NamesApi line) (h : accept_request env st socket peer = ok (st', ev)) :
    ev = [] := by
  obtain ⟨hp, hh⟩ := accept_request_cases h
  cases hh with
  | badMethod => rfl
  | tooMany => rfl
  | served buf inp rl m j u live hd st1 _ hr hm' hurl hadd hh h1 =>
    obtain ⟨rfl, rfl⟩ := readRequestLine_buf hl hr
    unfold dispatch at h1
    obtain ⟨⟨path, query⟩, -, h1⟩ := bind_eq_ok.mp h1
    dsimp only at h1
    by_cases hs : startswith u API_MOUNT = true
    · exfalso
      have hc : CasePrefix b!"/api" u := (startswith_iff _ _).mp hs
      have hu : u ≠ [] := by
        rintro rfl
        exact absurd hs (by decide)
      obtain ⟨a, b, e, hj⟩ := readUrl_part hurl hu
      refine hn ⟨a, u ++ b, by rw [e]; simp, ?_, casePrefix_trans_prefix hc ⟨b, rfl⟩⟩
      rintro rfl
      have hj : j = 0 := by simpa using hj
      subst hj
      by_cases h2 : 2 ≤ (untilNul line).length
      · rw [readRequestLine_eq hl (untilNul_before line) h2] at hr
        simp only [ok.injEq, Prod.mk.injEq, true_and] at hr
        obtain ⟨-, rfl, hj⟩ := hr
        have hw : wordAt (untilNul line) 254 0 = [] := by
          obtain ⟨r, hr⟩ := untilNul_prefix_lineBytes hl.2.1 (untilNul_before line)
          rw [← untilNul_wordAt (untilNul line) r (nulFree_untilNul _) 254 0 (by omega), ← hr, List.length_eq_zero_iff.mp hj]
          rfl
        rw [hw] at hm'
        exact absurd hm' (by decide)
      · rw [readRequestLine_short hl (untilNul_before line) (by omega)] at hr
        cases hr
    · simp only [hs, Bool.not_false, if_true] at h1
      split at h1
      · obtain ⟨s, -, h1⟩ := bind_eq_ok.mp h1
        cases h1; rfl
      · obtain ⟨s, -, h1⟩ := bind_eq_ok.mp h1
        cases h1; rfl

/-- C134, the beginning: whoever connects and leaves before two bytes have come (a health check, a port scan, a failed TLS
handshake) makes the server write before its copy of the request line. -/
theorem C134_early (env : Env) (st : St) (socket : Nat) (peer : Str) (hp : peer.length < 24) (hi : st.input.length < 2) :
    accept_request env st socket peer = ub .oob := by
  obtain ⟨line, rest, hl, -⟩ := get_line_first st.input
  have hlen := congrArg List.length hl.1
  rw [List.length_append] at hlen
  have hle : (untilNul line).length ≤ line.length := by
    obtain ⟨-, e | ⟨r, e⟩⟩ := untilNul_before line
    · rw [← e]
    · conv_rhs => rw [e]
      simp
  exact C41_short env st socket peer line rest _ hp hl (untilNul_before line) (by omega)

/-- A request that was cut off inside its URL: a supported method, white space and what came of the URL. -/
structure Spec.CutInUrl (input method url : List Byte) : Prop where
  parts : ∃ gap, input = method ++ gap ++ url ∧ gap ≠ [] ∧ ∀ c ∈ gap, White c ∧ c ≠ 10
  method : Supported method ∧ method.length ≤ 254 ∧ ∀ c ∈ method, ¬ White c
  url : url ≠ [] ∧ url.length ≤ 254 ∧ ∀ c ∈ url, ¬ White c
  nul : NulFree input
  fits : input.length ≤ 769

theorem Spec.CutInUrl.line {input method url : List Byte} (h : CutInUrl input method url) : LineOf input 1023 input [] := by
  refine ⟨by simp, by have := h.fits; omega, fun hm => ?_, by tauto⟩
  have hm := List.dropLast_subset _ hm
  obtain ⟨gap, rfl, -, hg⟩ := h.parts
  have w10 : White 10 := by unfold White; decide
  simp only [List.mem_append] at hm
  rcases hm with (hm | hm) | hm
  · exact h.method.2.2 _ hm w10
  · exact (hg _ hm).2 rfl
  · exact h.url.2.2 _ hm w10

/-- Reading what came of the request line. -/
theorem cutInUrl_eq {input method url : List Byte} (h : CutInUrl input method url) :
    readRequestLine input = ok ((lineBytes input).map some, [], input.take (input.length - 2), method, method.length) ∧
    readUrl ((lineBytes input).map some) method.length = ok url := by
  have hl := h.line
  have hb : BeforeNul input input := ⟨h.nul, Or.inl rfl⟩
  obtain ⟨gap, e, h2, h3⟩ := h.parts
  obtain ⟨g, gap, rfl⟩ := List.exists_cons_of_ne_nil h2
  obtain ⟨h4, hu, h5⟩ := h.url
  obtain ⟨u, url, rfl⟩ := List.exists_cons_of_ne_nil h4
  obtain ⟨r, hbytes⟩ := untilNul_prefix_lineBytes hl.2.1 hb
  have hlen := length_lineBytes hl.2.1
  have hg : White g := (h3 g (by simp)).1
  have hw1 : wordAt input 254 0 = method :=
    wordAt_eq (t := gap ++ u :: url) (c := g) (by rw [e]; simp) h.method.2.2 hg h.method.2.1
  have hw2 : wordAt (lineBytes input) 254 0 = method :=
    wordAt_eq (t := gap ++ u :: url ++ 0 :: r) (c := g) (by rw [hbytes, e]; simp) h.method.2.2 hg h.method.2.1
  have hw3 : gapAt (lineBytes input) method.length = g :: gap :=
    gapAt_eq (t := url ++ 0 :: r) (c := u)
      (by rw [hbytes, e, show method ++ g :: gap ++ u :: url ++ 0 :: r = method ++ ((g :: gap) ++ u :: (url ++ 0 :: r)) by simp,
            drop_length_append]) (fun c hc => (h3 c hc).1) (h5 u (by simp))
  have il : input.length = method.length + (gap.length + 1) + (url.length + 1) := by rw [e]; simp; omega
  have hw4 : untilNul (wordAt (lineBytes input) 254 (method.length + (g :: gap).length)) = u :: url := by
    rw [hbytes, untilNul_wordAt input r h.nul _ _ (by simp only [List.length_cons]; omega)]
    unfold wordAt
    rw [e, drop_at (by simp)]
    have : (u :: url).takeWhile (fun c => !isSpace c) = u :: url := by
      rw [List.takeWhile_eq_self_iff]
      intro c hc
      have := h5 c hc
      rw [← isSpace_iff] at this
      simpa using this
    rw [this, List.take_of_length_le hu]
  have hw5 := wordAt_length_le (lineBytes input) 254 (method.length + (g :: gap).length)
  have hgl : (g :: gap).length = gap.length + 1 := rfl
  have hml := h.method.2.1
  have hfit := h.fits
  constructor
  · rw [readRequestLine_eq hl hb (by omega), hw1, hw2]
  · unfold readUrl
    rw [skipSpaces_eq _ _ _ (by simp; omega), hw3, if_pos (by omega)]
    simp only [ok_bind]
    rw [scanWord_eq]
    have hin : method.length + (g :: gap).length + (wordAt (lineBytes input) 254 (method.length + (g :: gap).length)).length <
        (lineBytes input).length := by
      omega
    rw [if_pos hin]
    simp only [ok_bind, hw4]

/-- C134, what happens in the URL: a request that was cut off there runs the handler of the route that what came of the URL
leads to, with no headers and no form. -/
theorem C134_url (env : Env) (st : St) (socket : Nat) (peer method url mount path query : Str) (regs : List Registration)
    (r : Registration) (t : Str) (h : Nat) (hcut : CutInUrl st.input method url)
    (hlim : env.limits.length ≤ 64) (hne : ∀ l ∈ env.limits, l.path ≠ []) (hp : peer.length < 16)
    (hadm : Admits env.limits st.live peer url)
    (hparts : UrlParts url (mount ++ path) query) (hmount : CaseEq mount b!"/api") (hq : (63 : Byte) ∉ query)
    (hlen : method.length + path.length ≤ 253) (hv : ∀ r ∈ regs, r.template.Valid) (hreg : register regs = ok env.routes)
    (ht : r.template = .const t) (hd : r.handler = some h) (hfirst : FirstMatch regs (method ++ b!":" ++ path) r) :
    ∃ st0 : St, Seen st st0 socket method url path query [] ∧ st0.req.form = strdup [] ∧
      ∀ st' ev, accept_request env st socket peer = ok (st', ev) ↔
        ∃ st1, Dispatched env h r.filter st0 st1 ev ∧ st' = connection_close st1 := by
  obtain ⟨e1, e2⟩ := cutInUrl_eq hcut
  obtain ⟨a, c, b, -, -, -, hadd⟩ := (connection_add_admits (socket := socket) hlim hne
    (show url.length < 512 by have := hcut.url.2.1; omega) hp).1 hadm
  have hlb : LineBuf (lineBytes st.input) := lineBytes_buf hcut.line.2.1
  obtain ⟨x, hh1, hh2, hh3⟩ := head_ok (hs := []) Section.eof (by simp) Named.nil (by
    rintro n _ v ⟨a, b, e, -⟩
    exact absurd e (by simp)) hlb peer
  obtain ⟨last, -, -, -, -, -, f4, f5, -⟩ := parse_fields hlb Section.eof hh1
  have hz : NulFree url := by
    obtain ⟨gap, e, -⟩ := hcut.parts
    exact NulFree.mono hcut.nul (fun c hc => by rw [e]; simp [hc])
  have hml : mount.length = 4 := by simpa using congrArg List.length hmount
  have hmne : mount ++ path ≠ [] := by
    intro e
    rw [List.append_eq_nil_iff.mp e |>.1] at hml
    cases hml
  have hget : get_path_and_query_string url = ok (mount ++ path, query) :=
    C36_partial url _ query hz hcut.url.2.1 hparts hmne hq
  have hpre : CasePrefix b!"/api" url := by
    rcases hparts with ⟨rfl, -⟩ | ⟨rfl, -⟩
    · exact ⟨mount, path, rfl, hmount⟩
    · exact ⟨mount, path ++ 63 :: query, by simp, hmount⟩
  have hzp : NulFree path := by
    refine NulFree.mono hz (fun c hin => ?_)
    rcases hparts with ⟨rfl, -⟩ | ⟨rfl, -⟩ <;> simp [hin]
  let s1 := servedSt { st with input := [] } (a ++ ⟨socket, url, peer⟩ :: b) socket peer (st.input.take (st.input.length - 2)) method url x
  let st0 : St := { s1 with req := { s1.req with query_string := query, path := path } }
  have hform : readForm env st0 x.content_length x.boundary = ok st0 := by
    have hc : x.content_length = -1 := f5
    unfold readForm
    rw [hc, if_neg (by decide)]
  have hdisp : ∀ st' ev, router_handle_request env st0 = ok (st', ev) ↔ Dispatched env h r.filter st0 st' ev := by
    intro st' ev
    exact C25_const env st0 regs hv hreg (by show method.length + 1 + path.length < 255; omega) r t h ht hd hfirst st' ev
  refine ⟨st0, ⟨rfl, rfl, rfl, hh3 st0 rfl rfl, rfl, rfl, rfl⟩, rfl, fun st' ev => ?_⟩
  have hacc : accept_request env st socket peer = (router_handle_request env st0).bind (fun x => ok (connection_close x.1, x.2)) := by
    obtain ⟨bb, hb1, hb2⟩ := startswithany_methods method
    rw [hb2.mpr hcut.method.1] at hb1
    unfold accept_request
    rw [fmtInto_ok (by omega)]
    simp only [ok_bind]
    rw [e1]
    simp only [ok_bind, hb1, Bool.not_true, Bool.false_eq_true, if_false]
    rw [e2]
    simp only [ok_bind]
    show (connection_add env.limits st.live socket peer url).bind _ = _
    rw [hadd]
    show (parseHeaders ((lineBytes st.input).map some) [] peer).bind _ = _
    rw [hh1]
    show (dispatch env s1 url x.content_length x.boundary).bind _ = _
    rw [dispatch_api hpre hget hml hzp]
    show ((readForm env st0 x.content_length x.boundary).bind (router_handle_request env)).bind _ = _
    rw [hform]
    rfl
  rw [hacc]
  constructor
  · intro h
    obtain ⟨⟨s, ev'⟩, h1, h2⟩ := bind_eq_ok.mp h
    simp only [ok.injEq, Prod.mk.injEq] at h2
    obtain ⟨rfl, rfl⟩ := h2
    exact ⟨s, (hdisp _ _).mp h1, rfl⟩
  · rintro ⟨s, h1, rfl⟩
    rw [(hdisp _ _).mpr h1]
    rfl

/-! ### a witness -/

/-- A route that removes a user. -/
def removeRegs : List Registration := [⟨.param b!"DELETE:/user/" b!"id", some 3, none⟩]
def removeEnv : Env := { sampleEnv with routes := removeRegs.map regRoute }

/-- What came of `DELETE /api/user/12 HTTP/1.1` before the connection was lost. -/
def halfUrlSt : St := { sampleSt with live := [⟨0, [], []⟩], input := b!"DELETE /api/user/1" }

theorem halfUrl_run : (accept_request removeEnv halfUrlSt 7 b!"10.0.0.1").bind (fun x => ok (x.2.map fun e => cstr e.request.form)) =
    ok [ok b!"id=1"] := by decide +kernel

/-- An input without a newline is no complete request. -/
theorem not_complete {input : List Byte} (h : (10 : Byte) ∉ input) (hl : input.length < 1023) : ¬ Complete input := by
  rintro ⟨line, rest, lines, body, n, hline, hw, -⟩
  have hr : rest = [] := by
    obtain ⟨e, -, -, h3⟩ := hline
    rcases h3 with h3 | h3 | h3
    · rw [e] at hl; simp at hl; omega
    · exact absurd (List.mem_of_getLast? h3) (fun hm => h (by rw [e]; simp [hm]))
    · exact h3
  exact hw.ne_nil hr

/-- C134 is false: of the request to remove user 12 only `DELETE /api/user/1` comes, and user 1 is removed. -/
theorem C134_refuted : ¬ C134_statement := by
  intro h
  have key := halfUrl_run
  cases hr : accept_request removeEnv halfUrlSt 7 b!"10.0.0.1" with
  | ub f => rw [hr] at key; cases key
  | ok x =>
    rw [hr] at key
    have := h removeEnv halfUrlSt x.1 7 b!"10.0.0.1" x.2 (not_complete (by decide) (by decide)) hr
    rw [show C.bind (ok x) _ = ok (x.2.map fun e => cstr e.request.form) from rfl, this] at key
    exact absurd key (by decide)

/-- The hypotheses of `C134_partial` and `C134_early`: inputs that end early. -/
example : LineOf b!"GET /ap" 1023 b!"GET /ap" [] ∧ ([] : List Byte).length < 2 := ⟨⟨by decide, by decide, by decide, by decide⟩, by decide⟩
example : ¬ NamesApi b!"GET /ap" := by
  rintro ⟨a, u, e, -, x, y, rfl, hx⟩
  have hl : x.length = 4 := by simpa using congrArg List.length hx
  have hd : (b!"GET /ap").drop a.length = x ++ y := by rw [e]; simp
  have hx : (((b!"GET /ap").drop a.length).take 4).map lower = (b!"/api").map lower := by
    rw [hd, ← hl, List.take_left]; exact hx
  have : ∀ n ≤ 7, (((b!"GET /ap").drop n).take 4).map lower ≠ (b!"/api").map lower := by decide
  exact this a.length (by have := congrArg List.length e; simp at this; omega) hx

/-- The hypotheses of `C134_url`: `GET /api/ab HTTP/1.1` of which `GET /api/a` has come. -/
example : CutInUrl b!"GET /api/a" b!"GET" b!"/api/a" where
  parts := ⟨b!" ", rfl, by decide, by unfold White; decide⟩
  method := ⟨⟨b!"GET", by decide, b!"GET", [], rfl, rfl⟩, by decide, by unfold White; decide⟩
  url := ⟨by decide, by decide, by unfold White; decide⟩
  nul := by unfold NulFree; decide
  fits := by decide
example : UrlParts b!"/api/a" (b!"/api" ++ b!"/a") [] ∧ FirstMatch sampleRegs (b!"GET" ++ b!":" ++ b!"/a") ⟨.const b!"GET:/a", some 1, some 2⟩ :=
  ⟨Or.inl ⟨rfl, rfl, by decide⟩, [], _, rfl, rfl, by simp⟩

end Wayuu
