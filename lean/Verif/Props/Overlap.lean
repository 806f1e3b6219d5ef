import Verif.Model.Overlap
import Verif.Props.WholeEnding
import Verif.Props.FilesKept
/-
C150: requests that overlap in time. What is done for a client follows from its own bytes, the table of connections at the moment the
request was entered into it, and the files at the moment it was carried out; nothing else of what other requests do gets into it.
-/
namespace Wayuu.Overlap
open Wayuu C Spec

/-! ### the steps, one after another, are `accept_request` -/

/-- All steps of one request without anything in between. -/
def alone (env : Env) (st : St) (socket : Nat) (peer : Str) : C (St × List Event) := do
  let pc ← readLine env st socket peer
  let pc ← match pc with
    | .named st buf url => enter env st buf url
    | pc => ok pc
  let pc ← match pc with
    | .listed st buf url => readHeaders st buf url
    | pc => ok pc
  let pc ← match pc with
    | .parsed st url n b => act env st url n b
    | pc => ok pc
  match pc with
  | .answered st ev => ok (connection_close st, ev)
  | _ => ub .null

theorem bind_ub {α β : Type} (f : Fault) (g : α → C β) : ((ub f : C α) >>= g) = ub f := rfl

theorem alone_eq (env : Env) (st : St) (socket : Nat) (peer : Str) : alone env st socket peer = accept_request env st socket peer := by
  unfold alone accept_request readLine enter readHeaders act
  cases fmtInto 24 peer with
  | ub f => rfl
  | ok ip =>
    simp only [ok_bind]
    cases readRequestLine st.input with
    | ub f => rfl
    | ok y =>
      obtain ⟨buf, inp, rl, method, j⟩ := y
      simp only [ok_bind]
      cases startswithany method ALLOWED_HTTP_METHODS with
      | ub f => rfl
      | ok allowed =>
        simp only [ok_bind]
        cases allowed with
        | false =>
          simp only [Bool.not_false, if_true]
          cases bad_request env _ with
          | ub f => rfl
          | ok st1 => rfl
        | true =>
          simp only [Bool.not_true, Bool.false_eq_true, if_false]
          cases readUrl buf j with
          | ub f => rfl
          | ok url =>
            simp only [ok_bind]
            simp only [api_request_new]
            cases connection_add env.limits st.live socket ip url with
            | ub f => rfl
            | ok y =>
              obtain ⟨added, live⟩ := y
              simp only [ok_bind]
              cases added with
              | false =>
                simp only [Bool.not_false, if_true]
                cases too_many_connections env _ with
                | ub f => rfl
                | ok st1 => rfl
              | true =>
                simp only [Bool.not_true, Bool.false_eq_true, if_false, ok_bind]
                cases parseHeaders buf inp ip with
                | ub f => rfl
                | ok h =>
                  simp only [ok_bind]
                  cases dispatch env _ url h.content_length h.boundary with
                  | ub f => rfl
                  | ok y => rfl

/-! ### the single steps -/

/-- The request line `line` has been read, and it asks for `url` with `method`. -/
structure Reads (input peer : Str) (v : Nat) (line rest text method url : Str) : Prop where
  hline : LineOf input 1023 line rest
  htext : BeforeNul line text
  two : 2 ≤ text.length
  words : ∃ after, Words line method url after ∧ after ≠ []
  supported : Supported method
  short : peer.length < 16

/-- The request when the request line has been read. -/
def nameReq (v : Nat) (peer text method url : Str) : Req :=
  { lineReq v peer (text.take (text.length - 2)) method with url := url }

/-- What is required of a client whose request line has been read. -/
theorem bearable_read {limits : List PathLimit} {live : List Conn} {peer input line rest text method url : Str} {v : Nat}
    {regs : List Registration} (hr : Reads input peer v line rest text method url) :
    Bearable limits live peer regs input ↔ ∀ lines body hs, Section rest lines body → Named lines hs →
      Admits limits live peer url → Spec.Fits regs method url line lines hs body := by
  obtain ⟨after, hw, ha⟩ := hr.words
  constructor
  · intro h lines body hs hsec hn
    exact ((h line rest lines body hs hr.hline hsec hn).2 method url after hw hr.supported).2
  · intro h line' rest' lines body hs hl hsec hn
    obtain ⟨rfl, rfl⟩ := lineOf_unique hr.hline hl
    refine ⟨fun t ht => by rw [beforeNul_unique ht hr.htext]; exact hr.two, fun m u a hw' hsup => ?_⟩
    obtain ⟨rfl, rfl, rfl⟩ := words_unique hw hw'
    exact ⟨ha, h lines body hs hsec hn⟩

theorem readLine_ok {env : Env} {st : St} {socket : Nat} {peer : Str} {pc : Pc} (hp : peer.length < 16)
    (h : readLine env st socket peer = ok pc) :
    (∃ line rest text method url, Reads st.input peer socket line rest text method url ∧
      pc = .named { st with input := rest, req := nameReq socket peer text method url } ((lineBytes line).map some) url) ∨
    (∃ st', pc = .answered st' [] ∧
      (∀ limits live regs site fs, LeadsTo limits live peer regs site fs st.input (.status 400)) ∧
      (∀ limits live regs, Bearable limits live peer regs st.input) ∧
      EndsAs env st socket (connection_close st') [] (.status 400) ∧
      ∀ live, Entered env live peer st.input st (connection_close st') 400) := by
  obtain ⟨line, rest, hl, -⟩ := get_line_first st.input
  have hbn := untilNul_before line
  generalize untilNul line = text at hbn
  unfold readLine at h
  rw [fmtInto_ok (by omega)] at h
  simp only [ok_bind] at h
  by_cases h2 : 2 ≤ text.length
  swap
  · exfalso
    have := C41_short env st socket peer line rest text (by omega) hl hbn (by omega)
    unfold accept_request at this
    rw [fmtInto_ok (by omega)] at this
    simp only [ok_bind] at this
    obtain ⟨⟨buf, inp, rl, method, j⟩, h1, h⟩ := bind_eq_ok.mp h
    obtain ⟨line', rest', hl', hg⟩ := get_line_first st.input
    obtain ⟨rfl, rfl⟩ := lineOf_unique hl hl'
    unfold readRequestLine at h1
    rw [hg] at h1
    simp only [ok_bind, cstr_lineBytes hl.2.1 hbn] at h1
    obtain ⟨rlb, h3, -⟩ := bind_eq_ok.mp h1
    unfold Buf.storeI at h3
    rw [if_pos (by omega)] at h3
    cases h3
  rw [readRequestLine_eq hl hbn h2] at h
  simp only [ok_bind] at h
  obtain ⟨method, url, after, hw⟩ := words_exist line
  obtain ⟨w1, w2, w3, w4⟩ := words_read hw hl.2.1 hbn
  rw [← w1] at h
  obtain ⟨b, hb1, hb2⟩ := startswithany_methods method
  rw [hb1] at h
  simp only [ok_bind] at h
  cases b with
  | false =>
    right
    have hsup : ¬ Supported method := fun hs => by cases hb2.mpr hs
    obtain ⟨st', start, h1, e1, e2, -, -, -, e3, e4⟩ := bad_request_eq (env := env) (hs := []) (st := { st with input := rest, req :=
      { api_request_new socket peer with request_line := text.take (text.length - 2), method := method } }) (noHeaders rfl rfl)
    simp only [Bool.not_false, if_true] at h
    rw [h1] at h
    cases h
    refine ⟨st', rfl, fun limits live regs site fs => ?_, fun limits live regs line' rest' lines body hs hl' _ _ => ?_,
      ends_status e1 e2 e3 (by rw [e4]; rfl), fun live => ?_⟩
    rotate_left 2
    · obtain ⟨lines, body, hsec⟩ := section_exists rest
      obtain ⟨hs, hn⟩ := named_exists lines
      have hup := uptoNul_eq line
      rw [← beforeNul_eq hbn] at hup
      have hg := bad_logged (hs := []) (noHeaders rfl rfl) h1
      exact entered_line hl hsec hn hw hg rfl rfl rfl rfl (by show (text.take _) = _; rw [hup]) (Or.inr ⟨fun h => hsup h.1, rfl, rfl⟩)
    rotate_right
    · obtain ⟨rfl, rfl⟩ := lineOf_unique hl hl'
      refine ⟨fun t ht => by rw [beforeNul_unique ht hbn]; exact h2, fun m u a hw' hs' => ?_⟩
      obtain ⟨rfl, rfl, rfl⟩ := words_unique hw hw'
      exact absurd hs' hsup
    obtain ⟨lines, body, hsec⟩ := section_exists rest
    obtain ⟨hs, hn⟩ := named_exists lines
    obtain ⟨pieces, hr⟩ := runs_exists b!"?" url
    refine ⟨line, rest, lines, body, hs, method, url, after, pieces, hl, hsec, hn, hw, hr, ?_⟩
    rw [if_pos hsup]
  | true =>
    left
    simp only [Bool.not_true, Bool.false_eq_true, if_false] at h
    obtain ⟨u, hu, h⟩ := bind_eq_ok.mp h
    by_cases ha : after = []
    · rw [w4, if_pos ha] at hu
      cases hu
    · rw [w4, if_neg ha] at hu
      cases hu
      cases h
      exact ⟨line, rest, text, method, url, ⟨hl, hbn, h2, ⟨after, hw, ha⟩, hb2.mp rfl, hp⟩, rfl⟩

theorem enter_ok {env : Env} {st : St} {v : Nat} {peer input line rest text method url : Str} {pc : Pc} {regs : List Registration}
    (hset : SoundSetup env st regs) (hr : Reads input peer v line rest text method url) (hreq : st.req = nameReq v peer text method url)
    (h : enter env st ((lineBytes line).map some) url = ok pc) :
    (Admits env.limits st.live peer url ∧ ∃ live, pc = .listed { st with live := live } ((lineBytes line).map some) url) ∨
    (∃ st', pc = .answered st' [] ∧
      (∀ regs site fs, LeadsTo env.limits st.live peer regs site fs input (.status 429)) ∧
      (∀ regs, Bearable env.limits st.live peer regs input) ∧
      EndsAs env st v (connection_close st') [] (.status 429) ∧ Entered env st.live peer input st (connection_close st') 429) := by
  obtain ⟨after, hw, ha⟩ := hr.words
  obtain ⟨w1, w2, w3, w4⟩ := words_read hw hr.hline.2.1 hr.htext
  have hadmits := connection_add_admits (socket := v) hset.limits hset.paths
    (show url.length < 512 by omega) hr.short (live := st.live)
  unfold enter at h
  rw [show st.req.socket = v by rw [hreq]; rfl, show st.req.IP = peer by rw [hreq]; rfl] at h
  by_cases hadm : Admits env.limits st.live peer url
  · left
    obtain ⟨a, c, b, e1, e2, e3, hadd⟩ := hadmits.1 hadm
    rw [hadd] at h
    simp only [ok_bind, Bool.not_true, Bool.false_eq_true, if_false] at h
    cases h
    exact ⟨hadm, _, rfl⟩
  · right
    rw [hadmits.2 hadm] at h
    simp only [ok_bind, Bool.not_false, if_true] at h
    obtain ⟨start, hst⟩ := findStatus_some (n := 429) (by decide)
    obtain ⟨st', h1, e2, e4, -, -, -, -, e3⟩ := send_http_status_eq (env := env) (hs := []) (st := st)
      (noHeaders (by rw [hreq]; rfl) (by rw [hreq]; rfl)) hst (message := []) (by simp)
    unfold too_many_connections at h
    have h1' : send_http_status env { st with live := st.live } 429 [] = ok st' := h1
    rw [h1'] at h
    cases h
    refine ⟨st', rfl, fun regs site fs => ?_, fun regs => (bearable_read hr).mpr fun _ _ _ _ _ h => absurd h hadm, ends_status hst e2 e3 (by rw [e4, hreq]; rfl), ?_⟩
    swap
    · obtain ⟨lines, body, hsec⟩ := section_exists rest
      obtain ⟨hs, hn⟩ := named_exists lines
      have hup := uptoNul_eq line
      rw [← beforeNul_eq hr.htext] at hup
      obtain ⟨s', k1, k2, k3⟩ := C58_status env st [] (noHeaders (by rw [hreq]; rfl) (by rw [hreq]; rfl)) 429 (by decide) [] (by simp)
      rw [h1] at k1
      cases k1
      exact entered_line hr.hline hsec hn hw ⟨k2, k3⟩ rfl rfl (by rw [hreq]; rfl) rfl (by rw [hreq, hup]; rfl)
        (Or.inr ⟨fun h => hadm h.2, by rw [hreq]; rfl, rfl⟩)
    obtain ⟨lines, body, hsec⟩ := section_exists rest
    obtain ⟨hs, hn⟩ := named_exists lines
    obtain ⟨pieces, hrn⟩ := runs_exists b!"?" url
    refine ⟨line, rest, lines, body, hs, method, url, after, pieces, hr.hline, hsec, hn, hw, hrn, ?_⟩
    have hm := hr.supported
    rw [if_neg (by simpa using hm), if_pos hadm]

/-- A request whose headers do not fit the access log is never carried out. -/
theorem dispatch_long {env : Env} {st : St} {hs : List (Str × Str)} {regs : List Registration} {url boundary : Str} {n : Int}
    {y : St × List Event} (hset : SoundSetup env st regs) (hstored : st.req.Stored hs) (hz : ∀ p ∈ hs, NulFree p.1 ∧ NulFree p.2)
    (h1 : dispatch env st url n boundary = ok y) : FitsLog hs := by
  by_contra hfit
  obtain ⟨st1, ev⟩ := y
  unfold dispatch at h1
  obtain ⟨⟨path, query⟩, -, h1⟩ := bind_eq_ok.mp h1
  dsimp only at h1
  split at h1
  · split at h1
    · obtain ⟨s, h2, h1⟩ := bind_eq_ok.mp h1
      exact absurd h2 (handle_static_long (Stored.same (a := st) hstored ⟨rfl, rfl⟩) hz hfit (is_file_iff.mpr hset.index))
    · obtain ⟨s, h2, h1⟩ := bind_eq_ok.mp h1
      exact (bad_request_long h2 (by exact Stored.same (a := st) hstored ⟨rfl, rfl⟩) hz hfit).elim
  · obtain ⟨p, -, h1⟩ := bind_eq_ok.mp h1
    unfold handle_api_request at h1
    obtain ⟨s1, h2, h1⟩ := bind_eq_ok.mp h1
    have t := readForm_table h2
    exact (router_long (Stored.same (a := st) hstored t) hz hfit h1).2 hset.responds

/-- What the request hands on when its header section has been read. -/
theorem head_facts {env : Env} {st : St} {v : Nat} {peer input line rest text method url : Str} {regs : List Registration} {x : HdrSt}
    {lines : List (List Byte)} {body : List Byte} {hs : List (Str × Str)} (hset : SoundSetup env st regs) (hmax : 18 ≤ env.evpMax)
    (hr : Reads input peer v line rest text method url) (hx : parseHeaders ((lineBytes line).map some) rest peer = ok x)
    (hreq : st.req = headReq v peer (text.take (text.length - 2)) method url x) (hin : st.input = x.input)
    (hsec : Section rest lines body) (hn : Named lines hs) :
    (act env st url x.content_length x.boundary).IsOk ↔ Spec.Fits regs method url line lines hs body := by
  obtain ⟨after, hw, ha⟩ := hr.words
  obtain ⟨w1, w2, w3, -⟩ := words_read hw hr.hline.2.1 hr.htext
  have hl := hr.hline
  have hbn := hr.htext
  obtain ⟨pieces, hrn⟩ := runs_exists b!"?" url
  obtain ⟨g1, g2, g3⟩ := lineBytes_buf hl.2.1
  have hg : (lineBytes line).getLast? = some 0 := by rw [g3]; simp
  have ho := (C69_defined (lineBytes line) rest body lines peer g1 hg hsec).1.mp ⟨x, hx⟩
  have hz : ∀ p ∈ hs.take 20, NulFree p.1 ∧ NulFree p.2 := fun p hp => headers_nulFree hn p (List.mem_of_mem_take hp)
  obtain ⟨f0, f1, f2, f3, f4, f5, f6⟩ := parse_told hl.2.1 hsec hx
  have hstored : st.req.Stored (hs.take 20) := by
    rw [hreq]
    exact stored_of g1 hg hsec hn hx ⟨rfl, rfl⟩
  have em : st.req.method = method := by rw [hreq]; rfl
  have ei : st.input = body := by rw [hin]; exact f0
  have hmz : NulFree st.req.method := by
    rw [em, w1]
    exact NulFree.mono hbn.1 (fun c hc => by
      obtain ⟨t, ht⟩ := wordAt_zero_prefix text 254
      rw [ht]; simp [hc])
  have hbo : x.boundary = [] ∨ 2 ≤ x.boundary.length ∧ NulFree x.boundary := by rw [f5]; exact noted_boundary line lines
  have hse : cstr st.req.session = ok (told peer line lines).session := by rw [hreq]; exact f1
  have hform : st.req.form = [some 0] := by rw [hreq]; rfl
  have hd : (act env st url x.content_length x.boundary).IsOk ↔ (dispatch env st url x.content_length x.boundary).IsOk := by
    unfold act
    constructor
    · rintro ⟨y, hy⟩
      obtain ⟨z, hz, -⟩ := bind_eq_ok.mp hy
      exact ⟨z, hz⟩
    · rintro ⟨⟨z, ev⟩, hz⟩
      rw [hz]
      exact ⟨_, rfl⟩
  rw [hd]
  have key := fun hfit => dispatch_bears (st := st) (st0 := st) (hs := hs.take 20) (url := url) (boundary := x.boundary)
    (session := (told peer line lines).session) (n := x.content_length) (pieces := pieces) hset hmax rfl ⟨hstored, hz, hfit⟩
    hse f2 hmz hform hbo w3 w2 hrn
  rw [em, ei, f5, f6] at key
  rw [f5, f6]
  constructor
  · rintro ⟨y, hy⟩
    have hfit := dispatch_long hset hstored hz hy
    refine ⟨ho, hfit, fun ps hps => ?_⟩
    rw [← runs_unique hrn hps]
    exact (key hfit).mp ⟨y, hy⟩
  · intro h
    exact (key h.2.1).mpr (h.2.2 pieces hrn)

theorem act_ok {env : Env} {st : St} {v : Nat} {peer input line rest text method url s : Str} {pc : Pc} {regs : List Registration}
    {x : HdrSt} {limits : List PathLimit} {live : List Conn}
    (hset : SoundSetup env st regs) (hmax : 18 ≤ env.evpMax) (hs1 : Stack env s) (hs2 : s ≠ [])
    (hr : Reads input peer v line rest text method url) (hx : parseHeaders ((lineBytes line).map some) rest peer = ok x)
    (hreq : st.req = headReq v peer (text.take (text.length - 2)) method url x) (hin : st.input = x.input)
    (hlim : limits = env.limits) (hadm : Admits limits live peer url) (h : act env st url x.content_length x.boundary = ok pc) :
    ∃ o st' ev, pc = .answered st' ev ∧ LeadsTo limits live peer regs (siteOf env s) st.fs input o ∧
      Bearable limits live peer regs input ∧ EndsAs env st v (connection_close st') ev o ∧
      LogsAs env live peer input st (connection_close st') o := by
  subst hlim
  obtain ⟨after, hw, ha⟩ := hr.words
  obtain ⟨w1, w2, w3, -⟩ := words_read hw hr.hline.2.1 hr.htext
  have hl := hr.hline
  have hbn := hr.htext
  obtain ⟨lines, body, hsec⟩ := section_exists rest
  obtain ⟨hs, hn⟩ := named_exists lines
  obtain ⟨pieces, hrn⟩ := runs_exists b!"?" url
  have hup := uptoNul_eq line
  rw [← beforeNul_eq hbn] at hup
  obtain ⟨g1, g2, g3⟩ := lineBytes_buf hl.2.1
  have hg : (lineBytes line).getLast? = some 0 := by rw [g3]; simp
  have hz : ∀ p ∈ hs.take 20, NulFree p.1 ∧ NulFree p.2 := fun p hp => headers_nulFree hn p (List.mem_of_mem_take hp)
  obtain ⟨f0, f1, f2, f3, f4, f5, f6⟩ := parse_told hl.2.1 hsec hx
  have hstored : st.req.Stored (hs.take 20) := by
    rw [hreq]
    exact stored_of g1 hg hsec hn hx ⟨rfl, rfl⟩
  have em : st.req.method = method := by rw [hreq]; rfl
  have ei : st.input = body := by rw [hin]; exact f0
  have eip : st.req.IP = (told peer line lines).address := by rw [hreq]; exact f3
  have ect : st.req.content_type = (told peer line lines).ctype := by rw [hreq]; exact f4
  have eu : st.req.url = url := by rw [hreq]; rfl
  have el : st.req.request_line = (uptoNul line).take ((uptoNul line).length - 2) := by
    rw [hreq, hup]
    rfl
  have hmz : NulFree st.req.method := by
    rw [em, w1]
    exact NulFree.mono hbn.1 (fun c hc => by
      obtain ⟨t, ht⟩ := wordAt_zero_prefix text 254
      rw [ht]; simp [hc])
  have hbo : x.boundary = [] ∨ 2 ≤ x.boundary.length ∧ NulFree x.boundary := by rw [f5]; exact noted_boundary line lines
  have hse : cstr st.req.session = ok (told peer line lines).session := by rw [hreq]; exact f1
  have hform : st.req.form = [some 0] := by rw [hreq]; rfl
  have hbear : Bearable env.limits live peer regs input := (bearable_read hr).mpr fun lines body hs hsec hn _ =>
    (head_facts hset hmax hr hx hreq hin hsec hn).mp ⟨_, h⟩
  unfold act at h
  obtain ⟨y, hy, h⟩ := bind_eq_ok.mp h
  have hfit := dispatch_long hset hstored hz hy
  have hfits := (dispatch_bears (st := st) (st0 := st) (hs := hs.take 20) (url := url) (boundary := x.boundary)
    (session := (told peer line lines).session) (n := x.content_length) (pieces := pieces) hset hmax rfl ⟨hstored, hz, hfit⟩
    hse f2 hmz hform hbo w3 w2 hrn).mp ⟨_, hy⟩
  obtain ⟨o, st', ev, h3, ⟨h4, h8⟩, h5, h6, h7⟩ := dispatch_ends (st := st) (st0 := st) (hs := hs.take 20) (url := url) (boundary := x.boundary)
    (session := (told peer line lines).session) (n := x.content_length) (s := s) (socket := v)
    (pieces := pieces) hset hmax rfl ⟨hstored, hz, hfit⟩ hse f2 hmz hform hbo w3 w2 hrn hs1 hs2 (by rw [hreq]; rfl) rfl rfl rfl hfits
  rw [em, eip, ect, ei, f5, f6, eu, el] at h7
  rw [em] at h5 h6
  rw [h3] at hy
  cases hy
  cases h
  refine ⟨o, st', ev, rfl, ⟨line, rest, lines, body, hs, method, url, after, pieces, hl, hsec, hn, hw, hrn, ?_⟩, hbear, h4, ?_⟩
  swap
  · have key : ∀ n, Logged env st st' (hs.take 20) n → Entered env live peer input st (connection_close st') n := fun n hg =>
      entered_line hl hsec hn hw hg rfl rfl (by rw [hreq]; rfl) rfl el (Or.inl ⟨⟨hr.supported, hadm⟩, eip, rfl⟩)
    cases o with
    | status n => exact key n h8
    | page a b => exact key 200 h8
    | code a b c => trivial
  have hsup := hr.supported
  rw [if_neg (by simpa using hsup), if_neg (by simpa using hadm)]
  by_cases hu : CasePrefix b!"/api" url
  · rw [if_neg (by simpa using hu)]
    exact h7 hu
  · rw [if_pos hu]
    by_cases hget : CaseEq method b!"GET"
    · rw [if_pos hget]; exact h5 hu hget
    · rw [if_neg hget]; exact h6 hu hget

/-! ### runs -/

/-- Request `k` took a step in the state `w1` which the run `evs` went through. -/
def Before (x : World) (w0 : Sys) (evs : List Ev) (k : Nat) (evs1 : List Ev) (w1 : Sys) : Prop :=
  evs1 ++ [.step k] <+: evs ∧ Runs x w0 evs1 w1

theorem Before.more {x : World} {w0 w1 : Sys} {evs evs1 : List Ev} {k : Nat} (h : Before x w0 evs k evs1 w1) (e : Ev) :
    Before x w0 (evs ++ [e]) k evs1 w1 :=
  ⟨h.1.trans (List.prefix_append _ _), h.2⟩

/-- Request `k` is about to read its request line. -/
def Sys.reads (w : Sys) (k : Nat) : Prop := ∃ v, w.task k = some ⟨v, .arrived⟩

/-- Request `k` is about to ask for admission. -/
def Sys.asks (w : Sys) (k : Nat) : Prop := ∃ v st buf url, w.task k = some ⟨v, .named st buf url⟩

/-- Request `k` is about to be carried out. -/
def Sys.acts (w : Sys) (k : Nat) : Prop := ∃ v st url n b, w.task k = some ⟨v, .parsed st url n b⟩

/-- Request `k` asked for admission in `w1` and was carried out in `w2`, unless it was refused before that. -/
def Timed (k : Nat) (w1 w2 : Sys) (o : Ending) : Prop :=
  (w1.asks k ∧ w2.acts k) ∨ (w1.asks k ∧ o = .status 429) ∨ (w1.reads k ∧ o = .status 400)

/-- What the answer `sent` and the user code `ev` have to be for client `k`: what its bytes lead to with the connections there were when
its request asked for admission (`w1`) and the files there were when it was carried out (`w2`). -/
def Fate (x : World) (w0 : Sys) (regs : List Registration) (s : Str) (evs : List Ev) (k : Nat) (sent : List Byte) (ev : List Event) : Prop :=
  ∃ evs1 w1 evs2 w2 o, Before x w0 evs k evs1 w1 ∧ Before x w0 evs k evs2 w2 ∧ evs1 <+: evs2 ∧ Timed k w1 w2 o ∧
    LeadsTo (x.env k).limits w1.live (x.peer k) regs (siteOf (x.env k) s) w2.fs (x.input k) o ∧
    Bearable (x.env k).limits w1.live (x.peer k) regs (x.input k) ∧ Whole.DoneAs (x.env k) w2.fs ⟨k, sent, ev⟩ o

theorem Fate.more {x : World} {w0 : Sys} {regs : List Registration} {s : Str} {evs : List Ev} {k : Nat} {sent : List Byte} {ev : List Event}
    (h : Fate x w0 regs s evs k sent ev) (e : Ev) : Fate x w0 regs s (evs ++ [e]) k sent ev := by
  obtain ⟨evs1, w1, evs2, w2, o, h1, h2, h3, h4⟩ := h
  exact ⟨evs1, w1, evs2, w2, o, h1.more e, h2.more e, h3, h4⟩

/-- What is known of a request that has come as far as `pc`. -/
def Known (x : World) (w0 : Sys) (regs : List Registration) (s : Str) (evs : List Ev) (k v : Nat) : Pc → Prop
  | .arrived => True
  | .named st buf url => ∃ line rest text method, Reads (x.input k) (x.peer k) v line rest text method url ∧
      buf = (lineBytes line).map some ∧ st.input = rest ∧ st.out = [] ∧ st.req = nameReq v (x.peer k) text method url
  | .listed st buf url => ∃ line rest text method evs1 w1, Reads (x.input k) (x.peer k) v line rest text method url ∧
      buf = (lineBytes line).map some ∧ st.input = rest ∧ st.out = [] ∧ st.req = nameReq v (x.peer k) text method url ∧
      Before x w0 evs k evs1 w1 ∧ w1.asks k ∧ Admits (x.env k).limits w1.live (x.peer k) url
  | .parsed st url n b => ∃ line rest text method evs1 w1 h, Reads (x.input k) (x.peer k) v line rest text method url ∧
      parseHeaders ((lineBytes line).map some) rest (x.peer k) = ok h ∧ n = h.content_length ∧ b = h.boundary ∧ st.input = h.input ∧
      st.out = [] ∧ st.req = headReq v (x.peer k) (text.take (text.length - 2)) method url h ∧
      Before x w0 evs k evs1 w1 ∧ w1.asks k ∧ Admits (x.env k).limits w1.live (x.peer k) url
  | .answered st ev => Fate x w0 regs s evs k st.sent ev
  | .closed st ev => Fate x w0 regs s evs k st.sent ev
  | .gone st ev => Fate x w0 regs s evs k st.sent ev

theorem Known.more {x : World} {w0 : Sys} {regs : List Registration} {s : Str} {evs : List Ev} {k v : Nat} {pc : Pc}
    (h : Known x w0 regs s evs k v pc) (e : Ev) : Known x w0 regs s (evs ++ [e]) k v pc := by
  cases pc with
  | arrived => trivial
  | named st buf url => exact h
  | listed st buf url =>
    obtain ⟨line, rest, text, method, evs1, w1, h1, h2, h3, h4, h5, h6, h7⟩ := h
    exact ⟨line, rest, text, method, evs1, w1, h1, h2, h3, h4, h5, h6.more e, h7⟩
  | parsed st url n b =>
    obtain ⟨line, rest, text, method, evs1, w1, h0, h1, h2, h3, h4, h5, h6, h7, h8, h9⟩ := h
    exact ⟨line, rest, text, method, evs1, w1, h0, h1, h2, h3, h4, h5, h6, h7, h8.more e, h9⟩
  | answered st ev => exact Fate.more h e
  | closed st ev => exact Fate.more h e
  | gone st ev => exact Fate.more h e

/-- The server is set up well: routes, limits and site fit each other, clients have addresses. -/
structure Sound (x : World) (w : Sys) (regs : List Registration) : Prop where
  setup : ∀ k, SoundSetup (x.env k) (w.first (x.input k)) regs
  digest : ∀ k, 18 ≤ (x.env k).evpMax
  peer : ∀ k, (x.peer k).length < 16

/-- The server is set up well before every step of the run. -/
def AlwaysSound (x : World) (w0 : Sys) (evs : List Ev) (regs : List Registration) : Prop :=
  ∀ evs1 e w1, evs1 ++ [e] <+: evs → Runs x w0 evs1 w1 → Sound x w1 regs

theorem put_task {w : Sys} {k v : Nat} {pc : Pc} (i : Nat) : (w.put k v pc).task i = if i = k then some ⟨v, pc⟩ else w.task i := by
  unfold Sys.put
  dsimp only
  cases pc <;> rfl

/-- One step of a request. -/
theorem known_next {x : World} {w0 w : Sys} {regs : List Registration} {s : Str} {evs : List Ev} {k v : Nat} {pc pc' : Pc}
    (hr : Runs x w0 evs w) (ht : w.task k = some ⟨v, pc⟩) (hset : Sound x w regs) (hs : Stack (x.env k) s ∧ s ≠ [])
    (h : Known x w0 regs s evs k v pc) (hn : next (x.env k) v (x.peer k) (w.first (x.input k)) w.fresh pc = some (ok pc')) :
    Known x w0 regs s (evs ++ [.step k]) k v pc' := by
  have here : Before x w0 (evs ++ [.step k]) k evs w := ⟨List.prefix_rfl, hr⟩
  cases pc with
  | arrived =>
    rcases readLine_ok (hset.peer k) (Option.some.inj hn) with ⟨line, rest, text, method, url, h1, rfl⟩ | ⟨st', rfl, h1, h0, h2, -⟩
    · exact ⟨line, rest, text, method, h1, rfl, rfl, rfl, rfl⟩
    · exact ⟨evs, w, evs, w, _, here, here, List.prefix_rfl, .inr (.inr ⟨⟨_, ht⟩, rfl⟩), h1 _ _ _ _ _, h0 _ _ _, Whole.done_of_ends (st := w.first (x.input k)) (st' := connection_close st') rfl h2⟩
  | named st buf url =>
    obtain ⟨line, rest, text, method, h1, rfl, h2, h3, h4⟩ := h
    rcases enter_ok (st := w.fresh st) (Whole.setup_move (hset.setup k) rfl) h1 h4 (Option.some.inj hn) with ⟨h5, live, rfl⟩ | ⟨st', rfl, h5, h0, h6, -⟩
    · exact ⟨line, rest, text, method, evs, w, h1, rfl, h2, h3, h4, here, ⟨_, _, _, _, ht⟩, h5⟩
    · exact ⟨evs, w, evs, w, _, here, here, List.prefix_rfl, .inr (.inl ⟨⟨_, _, _, _, ht⟩, rfl⟩), h5 _ _ _, h0 _,
        Whole.done_of_ends (st := w.fresh st) (st' := connection_close st') (by show st.out.flatten = []; rw [h3]; rfl) h6⟩
  | listed st buf url =>
    obtain ⟨line, rest, text, method, evs1, w1, h1, rfl, h2, h3, h4, h5, h6⟩ := h
    have hn := Option.some.inj hn
    unfold readHeaders at hn
    obtain ⟨y, hy, hn⟩ := bind_eq_ok.mp hn
    cases hn
    rw [show (w.fresh st).input = rest from h2, show (w.fresh st).req.IP = x.peer k by show st.req.IP = _; rw [h4]; rfl] at hy
    refine ⟨line, rest, text, method, evs1, w1, y, h1, hy, rfl, rfl, rfl, h3, ?_, h5.more _, h6⟩
    show ({ st.req with headers := y.headers, n_headers := y.headers.length, content_type := y.content_type, IP := y.IP, session := y.session } : Req) = _
    rw [h4]
    rfl
  | parsed st url n b =>
    obtain ⟨line, rest, text, method, evs1, w1, y, h1, hy, rfl, rfl, h2, h3, h4, h5, h6⟩ := h
    obtain ⟨o, st', ev, rfl, g1, g0, g2, -⟩ := act_ok (st := w.fresh st) (Whole.setup_move (hset.setup k) rfl) (hset.digest k) hs.1 hs.2 h1 hy h4 h2 rfl h6.2
      (Option.some.inj hn)
    refine ⟨evs1, w1, evs, w, o, h5.more _, here, ?_, .inl ⟨h6.1, _, _, _, _, _, ht⟩, g1, g0,
      Whole.done_of_ends (st := w.fresh st) (st' := connection_close st') (by show st.out.flatten = []; rw [h3]; rfl) g2⟩
    exact (List.prefix_append _ _).trans h5.1
  | answered st ev =>
    cases Option.some.inj hn
    exact Fate.more h _
  | closed st ev =>
    cases Option.some.inj hn
    exact Fate.more h _
  | gone st ev => cases hn

theorem known {x : World} {w0 w : Sys} {regs : List Registration} {s : Nat → Str} {evs : List Ev}
    (h0 : ∀ k, w0.task k = none) (h : Runs x w0 evs w) (hset : AlwaysSound x w0 evs regs) (hs : ∀ k, Stack (x.env k) (s k) ∧ s k ≠ []) :
    ∀ k v pc, w.task k = some ⟨v, pc⟩ → Known x w0 regs (s k) evs k v pc := by
  induction h with
  | nil => intro k v pc h; rw [h0] at h; cases h
  | @snoc w w' e evs hr hstep ih =>
    intro k v pc hk
    have ih := ih (fun evs1 e1 w1 hp => hset evs1 e1 w1 (hp.trans (List.prefix_append _ _)))
    have hnow := hset evs e w List.prefix_rfl hr
    cases e with
    | accept i u =>
      unfold step at hstep
      dsimp only at hstep
      split at hstep
      · cases hstep
      · cases hstep
        dsimp only at hk
        split at hk
        · cases hk; trivial
        · exact (ih k v pc hk).more _
    | files fs =>
      cases hstep
      exact (ih k v pc hk).more _
    | step i =>
      unfold step at hstep
      dsimp only at hstep
      split at hstep
      · cases hstep
      · rename_i t ht
        obtain ⟨c, hc, hstep⟩ := Option.map_eq_some_iff.mp hstep
        obtain ⟨pc', rfl, hw⟩ := bind_eq_ok.mp hstep
        cases hw
        rw [put_task] at hk
        split at hk
        · rename_i e
          subst e
          cases hk
          exact known_next hr ht hnow (hs k) (ih k _ _ ht) hc
        · exact (ih k v pc hk).more _

/-- C150: requests that overlap. Whatever other requests do between the steps of a request, a request that is through has got what its own
bytes lead to, with the connections there were when it asked for admission and the files there were when it was carried out; and there is
only one such ending. -/
theorem C150_overlap (x : World) (live : List Conn) (fs : FS) (evs : List Ev) (w : Sys) (s : Nat → Str) (regs : List Registration)
    (h : Runs x (initial live fs) evs w) (hset : AlwaysSound x (initial live fs) evs regs) (hs : ∀ k, Stack (x.env k) (s k) ∧ s k ≠ [])
    (k v : Nat) (st : St) (ev : List Event) (hk : w.task k = some ⟨v, .gone st ev⟩) :
    ∃ evs1 w1 evs2 w2 o, evs1 ++ [.step k] <+: evs ∧ Runs x (initial live fs) evs1 w1 ∧ evs2 ++ [.step k] <+: evs ∧
      Runs x (initial live fs) evs2 w2 ∧ evs1 <+: evs2 ∧ Timed k w1 w2 o ∧
      LeadsTo (x.env k).limits w1.live (x.peer k) regs (siteOf (x.env k) (s k)) w2.fs (x.input k) o ∧
      (∀ o', LeadsTo (x.env k).limits w1.live (x.peer k) regs (siteOf (x.env k) (s k)) w2.fs (x.input k) o' → o' = o) ∧
      Bearable (x.env k).limits w1.live (x.peer k) regs (x.input k) ∧
      Whole.DoneAs (x.env k) w2.fs ⟨k, st.sent, ev⟩ o := by
  obtain ⟨evs1, w1, evs2, w2, o, h1, h2, h3, h0, h4, h5⟩ := known (fun _ => rfl) h hset hs k v _ hk
  exact ⟨evs1, w1, evs2, w2, o, h1.1, h1.2, h2.1, h2.2, h3, h0, h4, fun o' h' => leadsTo_unique h' h4, h5⟩

/-- C150, undefined behaviour: if the next step of a request leaves defined behaviour, then because of what its own client sent, with the
connections there were at the moment it asked for admission. -/
theorem C150_undefined (x : World) (live : List Conn) (fs : FS) (evs : List Ev) (w : Sys) (s : Nat → Str) (regs : List Registration)
    (h : Runs x (initial live fs) evs w) (k : Nat) (hset : AlwaysSound x (initial live fs) (evs ++ [.step k]) regs)
    (hs : ∀ k, Stack (x.env k) (s k) ∧ s k ≠ []) (f : Fault) (hu : step x w (.step k) = some (ub f)) :
    ∃ evs1 w1, evs1 ++ [.step k] <+: evs ++ [.step k] ∧ Runs x (initial live fs) evs1 w1 ∧ (w1.reads k ∨ w1.asks k) ∧
      ¬ Bearable (x.env k).limits w1.live (x.peer k) regs (x.input k) := by
  have hnow := hset evs (.step k) w List.prefix_rfl h
  have here : Before x (initial live fs) (evs ++ [.step k]) k evs w := ⟨List.prefix_rfl, h⟩
  unfold step at hu
  dsimp only at hu
  split at hu
  · cases hu
  rename_i t ht
  obtain ⟨v, pc⟩ := t
  have hk := known (fun _ => rfl) h (fun evs1 e1 w1 hp => hset evs1 e1 w1 (hp.trans (List.prefix_append _ _))) hs k v pc ht
  obtain ⟨c, hc, hu⟩ := Option.map_eq_some_iff.mp hu
  cases c with
  | ok pc' => cases hu
  | ub f' =>
    cases pc with
    | arrived =>
      refine ⟨evs, w, here.1, here.2, .inl ⟨_, ht⟩, fun hb => ?_⟩
      have := (C145_total (x.env k) (w.first (x.input k)) v (x.peer k) regs (hnow.setup k) (hnow.digest k) (hnow.peer k)).mpr hb
      rw [← alone_eq] at this
      obtain ⟨y, hy⟩ := this
      unfold alone at hy
      obtain ⟨z, hz, -⟩ := bind_eq_ok.mp hy
      rw [Option.some.inj hc] at hz
      cases hz
    | named st buf url =>
      exfalso
      obtain ⟨line, rest, text, method, h1, rfl, h2, h3, h4⟩ := hk
      obtain ⟨after, hw, ha⟩ := h1.words
      obtain ⟨w1, w2, w3, w4⟩ := words_read hw h1.hline.2.1 h1.htext
      have hadmits := connection_add_admits (socket := v) (hnow.setup k).limits (hnow.setup k).paths
        (show url.length < 512 by omega) h1.short (live := w.live)
      have hc := Option.some.inj hc
      unfold enter at hc
      rw [show (w.fresh st).req.socket = v by show st.req.socket = v; rw [h4]; rfl,
        show (w.fresh st).req.IP = x.peer k by show st.req.IP = _; rw [h4]; rfl, show (w.fresh st).live = w.live from rfl] at hc
      by_cases hadm : Admits (x.env k).limits w.live (x.peer k) url
      · obtain ⟨a, c, b, e1, e2, e3, hadd⟩ := hadmits.1 hadm
        rw [hadd] at hc
        cases hc
      · rw [hadmits.2 hadm] at hc
        simp only [ok_bind, Bool.not_false, if_true] at hc
        obtain ⟨start, hst⟩ := findStatus_some (n := 429) (by decide)
        obtain ⟨st', g1, -⟩ := send_http_status_eq (env := x.env k) (hs := []) (st := w.fresh st)
          (noHeaders (by show st.req.n_headers = _; rw [h4]; rfl) (by show st.req.headers = _; rw [h4]; rfl)) hst (message := []) (by simp)
        unfold too_many_connections at hc
        have g1' : send_http_status (x.env k) { w.fresh st with live := w.live } 429 [] = ok st' := g1
        rw [g1'] at hc
        cases hc
    | listed st buf url =>
      obtain ⟨line, rest, text, method, evs1, w1, h1, rfl, h2, h3, h4, h5, h6⟩ := hk
      refine ⟨evs1, w1, (h5.more _).1, h5.2, .inr h6.1, fun hb => ?_⟩
      obtain ⟨lines, body, hsec⟩ := section_exists rest
      obtain ⟨hs', hn⟩ := named_exists lines
      have hf := (bearable_read h1).mp hb lines body hs' hsec hn h6.2
      obtain ⟨g1, g2, g3⟩ := lineBytes_buf h1.hline.2.1
      obtain ⟨y, hy⟩ := (C69_defined (lineBytes line) rest body lines (x.peer k) g1 (by rw [g3]; simp) hsec).1.mpr hf.1
      have hc := Option.some.inj hc
      unfold readHeaders at hc
      rw [show (w.fresh st).input = rest from h2, show (w.fresh st).req.IP = x.peer k by show st.req.IP = _; rw [h4]; rfl, hy] at hc
      cases hc
    | parsed st url n b =>
      obtain ⟨line, rest, text, method, evs1, w1, y, h1, hy, rfl, rfl, h2, h3, h4, h5, h6⟩ := hk
      refine ⟨evs1, w1, (h5.more _).1, h5.2, .inr h6.1, fun hb => ?_⟩
      obtain ⟨lines, body, hsec⟩ := section_exists rest
      obtain ⟨hs', hn⟩ := named_exists lines
      have hf := (bearable_read h1).mp hb lines body hs' hsec hn h6.2
      obtain ⟨z, hz⟩ := (head_facts (st := w.fresh st) (Whole.setup_move (hnow.setup k) rfl) (hnow.digest k) h1 hy h4 h2 hsec hn).mpr hf
      rw [Option.some.inj hc] at hz
      cases hz
    | answered st ev => cases hc
    | closed st ev => cases hc
    | gone st ev => cases hc

/-! ### one after another -/

theorem Runs.cons {x : World} {w w' w'' : Sys} {e : Ev} {evs : List Ev} (h : step x w e = some (ok w')) (hr : Runs x w' evs w'') :
    Runs x w (e :: evs) w'' := by
  induction hr with
  | nil => exact .snoc (.nil _) h
  | snoc _ h2 ih => exact .snoc ih h2

theorem step_next {x : World} {w : Sys} {k v : Nat} {pc pc' : Pc} (hk : w.task k = some ⟨v, pc⟩)
    (h : next (x.env k) v (x.peer k) (w.first (x.input k)) w.fresh pc = some (ok pc')) : step x w (.step k) = some (ok (w.put k v pc')) := by
  unfold step
  simp only [hk, h]
  rfl

theorem put_fresh {w : Sys} {k v : Nat} {pc : Pc} {st : St} (h : pc.st? = some st) : (w.put k v pc).fresh st = st := by
  unfold Sys.put
  dsimp only
  rw [h]
  rfl

theorem put_fds {w : Sys} {k v : Nat} {pc : Pc} (h : ∀ st ev, pc ≠ .closed st ev) : (w.put k v pc).fds = w.fds := by
  unfold Sys.put
  dsimp only
  cases pc with
  | closed st ev => exact absurd rfl (h st ev)
  | _ => rfl

/-- From `w` the request of client `k` was finished as in `st'`, and nothing else has changed. -/
structure Through (w w' : Sys) (k v : Nat) (st' : St) (ev : List Event) : Prop where
  gone : w'.task k = some ⟨v, .gone st' ev⟩
  live : w'.live = st'.live
  fs : w'.fs = st'.fs
  log : w'.log = st'.log
  fds : w'.fds = w.fds.erase v
  others : ∀ i, i ≠ k → w'.task i = w.task i

theorem Through.hop {w w' : Sys} {k v : Nat} {pc : Pc} {st' : St} {ev : List Event} (h : Through (w.put k v pc) w' k v st' ev)
    (hpc : ∀ st ev, pc ≠ .closed st ev) : Through w w' k v st' ev where
  gone := h.gone
  live := h.live
  fs := h.fs
  log := h.log
  fds := by rw [h.fds, put_fds hpc]
  others := fun i hi => by rw [h.others i hi, put_task, if_neg hi]

theorem finish {x : World} {w : Sys} {k v : Nat} {st : St} {ev : List Event} (hk : w.task k = some ⟨v, .answered st ev⟩) (hf : w.fresh st = st) :
    ∃ w', Runs x w [.step k, .step k] w' ∧ Through w w' k v (connection_close st) ev := by
  have h1 := step_next (x := x) (pc' := .closed { st with closed := st.closed ++ [st.req.socket] } ev) hk (by show some (ok _) = _; rw [hf])
  generalize hw1 : w.put k v (.closed { st with closed := st.closed ++ [st.req.socket] } ev) = w1 at h1
  have hk1 : w1.task k = some ⟨v, .closed { st with closed := st.closed ++ [st.req.socket] } ev⟩ := by rw [← hw1, put_task, if_pos rfl]
  have hf1 : w1.fresh { st with closed := st.closed ++ [st.req.socket] } = { st with closed := st.closed ++ [st.req.socket] } := by
    rw [← hw1]; exact put_fresh rfl
  have h2 := step_next (x := x) (pc' := .gone (connection_close st) ev) hk1 (by show some (ok _) = _; rw [hf1]; rfl)
  refine ⟨_, .cons h1 (.cons h2 (.nil _)), ⟨by rw [put_task, if_pos rfl], rfl, rfl, rfl, ?_, fun i hi => ?_⟩⟩
  · rw [put_fds (by intro _ _ h; cases h), ← hw1]; rfl
  · rw [put_task, if_neg hi, ← hw1, put_task, if_neg hi]

theorem readLine_form {env : Env} {st : St} {v : Nat} {peer : Str} {pc : Pc} (h : readLine env st v peer = ok pc) :
    (∃ st' buf url, pc = .named st' buf url) ∨ ∃ st', pc = .answered st' [] := by
  unfold readLine at h
  obtain ⟨_, -, h⟩ := bind_eq_ok.mp h
  obtain ⟨⟨buf, inp, rl, method, j⟩, -, h⟩ := bind_eq_ok.mp h
  obtain ⟨b, -, h⟩ := bind_eq_ok.mp h
  cases b with
  | false =>
    obtain ⟨s1, h1, h⟩ := bind_eq_ok.mp h
    cases h
    exact .inr ⟨_, rfl⟩
  | true =>
    obtain ⟨u, -, h⟩ := bind_eq_ok.mp h
    cases h
    exact .inl ⟨_, _, _, rfl⟩

theorem enter_form {env : Env} {st : St} {buf : Buf} {url : Str} {pc : Pc} (h : enter env st buf url = ok pc) :
    (∃ st', pc = .listed st' buf url) ∨ ∃ st', pc = .answered st' [] := by
  unfold enter at h
  obtain ⟨⟨added, live⟩, -, h⟩ := bind_eq_ok.mp h
  cases added with
  | false =>
    obtain ⟨s1, h1, h⟩ := bind_eq_ok.mp h
    cases h
    exact .inr ⟨_, rfl⟩
  | true =>
    cases h
    exact .inl ⟨_, rfl⟩

/-- C150: a request whose steps no other comes between is handled as `accept_request` does: the same bytes sent, the same table, files and
log, its descriptor closed, nothing else touched. -/
theorem C150_alone (x : World) (w : Sys) (k v : Nat) (st' : St) (ev : List Event) (hk : w.task k = some ⟨v, .arrived⟩)
    (h : accept_request (x.env k) (w.first (x.input k)) v (x.peer k) = ok (st', ev)) :
    ∃ n w', Runs x w (List.replicate n (.step k)) w' ∧ Through w w' k v st' ev := by
  rw [← alone_eq] at h
  have last : ∀ (w : Sys) (st : St), st' = connection_close st →
      ∃ n w', Runs x (w.put k v (.answered st ev)) (List.replicate n (.step k)) w' ∧ Through (w.put k v (.answered st ev)) w' k v st' ev := by
    rintro w st rfl
    obtain ⟨w', g1, g2⟩ := finish (x := x) (w := w.put k v (.answered st ev)) (k := k) (v := v) (by rw [put_task, if_pos rfl]) (put_fresh rfl)
    exact ⟨2, w', g1, g2⟩
  have hop : ∀ (w : Sys) (pc pc' : Pc), w.task k = some ⟨v, pc⟩ → next (x.env k) v (x.peer k) (w.first (x.input k)) w.fresh pc = some (ok pc') →
      (∀ st ev, pc' ≠ .closed st ev) →
      (∃ n w', Runs x (w.put k v pc') (List.replicate n (.step k)) w' ∧ Through (w.put k v pc') w' k v st' ev) →
      ∃ n w', Runs x w (List.replicate n (.step k)) w' ∧ Through w w' k v st' ev := by
    rintro w pc pc' hk hn hc ⟨n, w', g1, g2⟩
    exact ⟨n + 1, w', .cons (step_next hk hn) g1, g2.hop hc⟩
  have hput : ∀ (w : Sys) (pc : Pc), (w.put k v pc).task k = some ⟨v, pc⟩ := fun w pc => by rw [put_task, if_pos rfl]
  unfold alone at h
  obtain ⟨pc1, h1, h⟩ := bind_eq_ok.mp h
  refine hop w _ pc1 hk (congrArg some h1) ?_ ?_
  · rcases readLine_form h1 with ⟨st, buf, url, rfl⟩ | ⟨st, rfl⟩ <;> (intro _ _ h; cases h)
  rcases readLine_form h1 with ⟨st1, buf, url, rfl⟩ | ⟨st, rfl⟩
  swap
  · cases h
    exact last w st rfl
  obtain ⟨pc2, h2, h⟩ := bind_eq_ok.mp h
  refine hop _ _ pc2 (hput _ _) (by show some (enter _ _ _ _) = _; rw [put_fresh rfl, h2]) ?_ ?_
  · rcases enter_form h2 with ⟨st, rfl⟩ | ⟨st, rfl⟩ <;> (intro _ _ h; cases h)
  rcases enter_form h2 with ⟨st2, rfl⟩ | ⟨st, rfl⟩
  swap
  · cases h
    exact last _ st rfl
  obtain ⟨pc3, h3, h⟩ := bind_eq_ok.mp h
  have h3' := h3
  unfold readHeaders at h3'
  obtain ⟨y, -, h3'⟩ := bind_eq_ok.mp h3'
  cases h3'
  refine hop _ _ _ (hput _ _) (by show some (readHeaders _ _ _) = _; rw [put_fresh rfl, h3]) (by intro _ _ h; cases h) ?_
  obtain ⟨pc4, h4, h⟩ := bind_eq_ok.mp h
  have h4' := h4
  unfold act at h4'
  obtain ⟨⟨st4, ev4⟩, -, h4'⟩ := bind_eq_ok.mp h4'
  cases h4'
  cases h
  refine hop _ _ _ (hput _ _) (by show some (act _ _ _ _ _) = _; rw [put_fresh rfl, h4]) (by intro _ _ h; cases h) (last _ st4 rfl)

/-! ### descriptors -/

/-- The request has closed its socket. -/
def Pc.done : Pc → Bool
  | .closed _ _ | .gone _ _ => true
  | _ => false

/-- What is closed so far. -/
def Own (v : Nat) (pc : Pc) : Prop := ∀ st, pc.st? = some st → st.req.socket = v ∧ st.closed = if pc.done then [v] else []

theorem own_next {env : Env} {w : Sys} {v : Nat} {peer : Str} {input : List Byte} {pc pc' : Pc} (hu : UserKeeps env) (ho : Own v pc)
    (h : next env v peer (w.first input) w.fresh pc = some (ok pc')) :
    Own v pc' ∧ (pc'.done = true ↔ (∃ st ev, pc' = .closed st ev) ∨ pc.done = true) ∧ ((∃ st ev, pc' = .closed st ev) → pc.done = false) := by
  cases pc with
  | arrived =>
    have h := Option.some.inj h
    unfold readLine at h
    obtain ⟨_, -, h⟩ := bind_eq_ok.mp h
    obtain ⟨⟨buf, inp, rl, method, j⟩, -, h⟩ := bind_eq_ok.mp h
    obtain ⟨b, -, h⟩ := bind_eq_ok.mp h
    cases b with
    | false =>
      obtain ⟨s1, h1, h⟩ := bind_eq_ok.mp h
      cases h
      have k := send_http_status_keeps (show send_http_status _ _ _ _ = _ from h1)
      refine ⟨?_, by simp [Pc.done], by simp⟩
      rintro st ⟨rfl⟩
      exact ⟨k.2.2, k.2.1⟩
    | true =>
      obtain ⟨u, -, h⟩ := bind_eq_ok.mp h
      cases h
      refine ⟨?_, by simp [Pc.done], by simp⟩
      rintro st ⟨rfl⟩
      exact ⟨rfl, rfl⟩
  | named st buf url =>
    have h := Option.some.inj h
    have ho := ho st rfl
    unfold enter at h
    obtain ⟨⟨added, live⟩, -, h⟩ := bind_eq_ok.mp h
    cases added with
    | false =>
      obtain ⟨s1, h1, h⟩ := bind_eq_ok.mp h
      cases h
      have k := send_http_status_keeps (show send_http_status _ _ _ _ = _ from h1)
      refine ⟨?_, by simp [Pc.done], by simp⟩
      rintro st ⟨rfl⟩
      exact ⟨k.2.2.trans ho.1, k.2.1.trans ho.2⟩
    | true =>
      cases h
      refine ⟨?_, by simp [Pc.done], by simp⟩
      rintro st ⟨rfl⟩
      exact ho
  | listed st buf url =>
    have h := Option.some.inj h
    have ho := ho st rfl
    unfold readHeaders at h
    obtain ⟨y, -, h⟩ := bind_eq_ok.mp h
    cases h
    refine ⟨?_, by simp [Pc.done], by simp⟩
    rintro st ⟨rfl⟩
    exact ho
  | parsed st url n b =>
    have h := Option.some.inj h
    have ho := ho st rfl
    unfold act at h
    obtain ⟨⟨s1, ev⟩, h1, h⟩ := bind_eq_ok.mp h
    cases h
    have k := dispatch_keeps hu h1
    refine ⟨?_, by simp [Pc.done], by simp⟩
    rintro st ⟨rfl⟩
    exact ⟨k.2.2.trans ho.1, k.2.1.trans ho.2⟩
  | answered st ev =>
    cases h
    have ho := ho st rfl
    refine ⟨?_, by simp [Pc.done], by simp [Pc.done]⟩
    rintro st' ⟨rfl⟩
    refine ⟨ho.1, ?_⟩
    show st.closed ++ [st.req.socket] = [v]
    rw [ho.2, ho.1]
    rfl
  | closed st ev =>
    cases h
    have ho := ho st rfl
    refine ⟨?_, by simp [Pc.done], by simp⟩
    rintro st' ⟨rfl⟩
    exact ho
  | gone st ev => cases h

/-- The open descriptors are those of the requests that have not closed theirs, and these are different. -/
structure Descriptors (w : Sys) : Prop where
  own : ∀ k v pc, w.task k = some ⟨v, pc⟩ → v ≠ 0 ∧ Own v pc
  nodup : w.fds.Nodup
  open_iff : ∀ v, v ∈ w.fds ↔ ∃ k pc, w.task k = some ⟨v, pc⟩ ∧ pc.done = false
  one : ∀ k k' v pc pc', w.task k = some ⟨v, pc⟩ → w.task k' = some ⟨v, pc'⟩ → pc.done = false → pc'.done = false → k = k'

theorem descriptors {x : World} {w0 w : Sys} {evs : List Ev} (hu : ∀ k, UserKeeps (x.env k)) (h : Runs x w0 evs w) (h0 : Descriptors w0) :
    Descriptors w := by
  classical
  induction h with
  | nil => exact h0
  | @snoc w w' e evs hr hstep ih =>
    cases e with
    | files fs => cases hstep; exact ⟨ih.own, ih.nodup, ih.open_iff, ih.one⟩
    | accept i u =>
      unfold step at hstep
      dsimp only at hstep
      split at hstep
      · cases hstep
      rename_i hc
      simp only [not_or, not_not] at hc
      obtain ⟨hc1, hc2, hc3⟩ := hc
      cases hstep
      refine ⟨fun k v pc hk => ?_, List.nodup_cons.mpr ⟨hc3, ih.nodup⟩, fun v => ?_, fun k k' v pc pc' hk hk' hd hd' => ?_⟩
      · dsimp only at hk
        split at hk
        · cases hk; exact ⟨hc2, fun st h => by cases h⟩
        · exact ih.own k v pc hk
      · dsimp only
        rw [List.mem_cons, ih.open_iff]
        constructor
        · rintro (rfl | ⟨k, pc, hk, hd⟩)
          · exact ⟨i, .arrived, if_pos rfl, rfl⟩
          · refine ⟨k, pc, ?_, hd⟩
            rw [if_neg (by rintro rfl; rw [hc1] at hk; cases hk)]
            exact hk
        · rintro ⟨k, pc, hk, hd⟩
          split at hk
          · cases hk; exact .inl rfl
          · exact .inr ⟨k, pc, hk, hd⟩
      · dsimp only at hk hk'
        split at hk
        · rename_i e1
          split at hk'
          · rename_i e2; rw [e1, e2]
          · cases hk
            exact absurd ((ih.open_iff _).mpr ⟨k', pc', hk', hd'⟩) hc3
        · split at hk'
          · cases hk'
            exact absurd ((ih.open_iff _).mpr ⟨k, pc, hk, hd⟩) hc3
          · exact ih.one k k' v pc pc' hk hk' hd hd'
    | step i =>
      unfold step at hstep
      dsimp only at hstep
      split at hstep
      · cases hstep
      rename_i t ht
      obtain ⟨u, pc0⟩ := t
      obtain ⟨c, hc, hstep⟩ := Option.map_eq_some_iff.mp hstep
      obtain ⟨pc1, rfl, hw⟩ := bind_eq_ok.mp hstep
      cases hw
      obtain ⟨o1, o2, o3⟩ := own_next (hu i) (ih.own i u pc0 ht).2 hc
      have hfds : (w.put i u pc1).fds = if (∃ st ev, pc1 = .closed st ev) then w.fds.erase u else w.fds := by
        split
        · rename_i hcl
          obtain ⟨st, ev, rfl⟩ := hcl
          rfl
        · rename_i hcl
          exact put_fds (fun st ev h => hcl ⟨st, ev, h⟩)
      refine ⟨fun k v pc hk => ?_, ?_, fun v => ?_, fun k k' v pc pc' hk hk' hd hd' => ?_⟩
      · rw [put_task] at hk
        split at hk
        · cases hk; exact ⟨(ih.own i u pc0 ht).1, o1⟩
        · exact ih.own k v pc hk
      · rw [hfds]
        split
        · exact ih.nodup.erase _
        · exact ih.nodup
      · rw [hfds]
        simp only [put_task]
        by_cases hcl : ∃ st ev, pc1 = .closed st ev
        · rw [if_pos hcl, ih.nodup.mem_erase_iff, ih.open_iff]
          constructor
          · rintro ⟨hne, k, pc, hk, hd⟩
            refine ⟨k, pc, ?_, hd⟩
            rw [if_neg (by rintro rfl; rw [ht] at hk; cases hk; exact hne rfl)]
            exact hk
          · rintro ⟨k, pc, hk, hd⟩
            split at hk
            · cases hk
              rw [o2.mpr (.inl hcl)] at hd
              cases hd
            · rename_i hne
              refine ⟨?_, k, pc, hk, hd⟩
              rintro rfl
              exact hne (ih.one k i v pc pc0 hk ht hd (o3 hcl))
        · rw [if_neg hcl, ih.open_iff]
          have hdone : pc1.done = pc0.done := by
            have : pc1.done = true ↔ pc0.done = true := by rw [o2]; exact ⟨fun h => h.resolve_left hcl, .inr⟩
            cases h1 : pc1.done <;> cases h2 : pc0.done <;> simp_all
          constructor
          · rintro ⟨k, pc, hk, hd⟩
            by_cases hki : k = i
            · subst hki
              rw [ht] at hk
              cases hk
              exact ⟨k, pc1, if_pos rfl, hdone.trans hd⟩
            · exact ⟨k, pc, by rw [if_neg hki]; exact hk, hd⟩
          · rintro ⟨k, pc, hk, hd⟩
            split at hk
            · rename_i hki
              cases hk
              exact ⟨i, pc0, ht, hdone.symm.trans hd⟩
            · exact ⟨k, pc, hk, hd⟩
      · rw [put_task] at hk hk'
        have was : pc1.done = false → pc0.done = false := by
          intro h
          by_contra h'
          rw [Bool.not_eq_false] at h'
          rw [o2.mpr (.inr h')] at h
          cases h
        split at hk
        · rename_i e1
          split at hk'
          · rename_i e2; rw [e1, e2]
          · cases hk
            rw [e1]
            exact ih.one i k' _ pc0 pc' ht hk' (was hd) hd'
        · split at hk'
          · rename_i e2
            cases hk'
            rw [e2]
            exact ih.one k i _ pc pc0 hk ht hd (was hd')
          · exact ih.one k k' v pc pc' hk hk' hd hd'

/-- C150, descriptors: at any time the open descriptors are those of the requests that have not closed theirs, no two of which share one;
a request that is through has closed its own descriptor, once, and no other. -/
theorem C150_descriptors (x : World) (live : List Conn) (fs : FS) (evs : List Ev) (w : Sys) (hu : ∀ k, UserKeeps (x.env k))
    (h : Runs x (initial live fs) evs w) :
    (∀ v, v ∈ w.fds ↔ ∃ k pc, w.task k = some ⟨v, pc⟩ ∧ pc.done = false) ∧ w.fds.Nodup ∧
    (∀ k k' v pc pc', w.task k = some ⟨v, pc⟩ → w.task k' = some ⟨v, pc'⟩ → pc.done = false → pc'.done = false → k = k') ∧
    ∀ k v st ev, w.task k = some ⟨v, .gone st ev⟩ → st.closed = [v] := by
  have d := descriptors hu h
    { own := fun k v pc h => by cases h
      nodup := List.nodup_nil
      open_iff := fun v => ⟨fun h => (by cases h), fun ⟨_, _, h, _⟩ => (by cases h)⟩
      one := fun k k' v pc pc' h => by cases h }
  exact ⟨d.open_iff, d.nodup, d.one, fun k v st ev hk => ((d.own k v _ hk).2 st rfl).2⟩

/-! ### files -/

/-- Nobody else changes the files. -/
def Undisturbed (evs : List Ev) : Prop := ∀ e ∈ evs, ∀ fs, e ≠ .files fs

theorem put_fs {w : Sys} {k v : Nat} {pc : Pc} (h : ∀ st, pc.st? = some st → st.fs = w.fs) : (w.put k v pc).fs = w.fs := by
  unfold Sys.put
  dsimp only
  cases pc with
  | arrived => rfl
  | _ => exact h _ rfl

theorem next_fs {env : Env} {w : Sys} {v : Nat} {peer : Str} {input : List Byte} {pc pc' : Pc} (hmax : 18 ≤ env.evpMax) (hu : UserLeaves env)
    (h : next env v peer (w.first input) w.fresh pc = some (ok pc')) : ∀ st, pc'.st? = some st → st.fs = w.fs := by
  cases pc with
  | arrived =>
    have h := Option.some.inj h
    unfold readLine at h
    obtain ⟨_, -, h⟩ := bind_eq_ok.mp h
    obtain ⟨⟨buf, inp, rl, method, j⟩, -, h⟩ := bind_eq_ok.mp h
    obtain ⟨b, -, h⟩ := bind_eq_ok.mp h
    cases b with
    | false =>
      obtain ⟨s1, h1, h⟩ := bind_eq_ok.mp h
      cases h
      rintro st ⟨rfl⟩
      exact (send_http_status_sameFs (show send_http_status _ _ _ _ = _ from h1) :)
    | true =>
      obtain ⟨u, -, h⟩ := bind_eq_ok.mp h
      cases h
      rintro st ⟨rfl⟩
      rfl
  | named st buf url =>
    have h := Option.some.inj h
    unfold enter at h
    obtain ⟨⟨added, live⟩, -, h⟩ := bind_eq_ok.mp h
    cases added with
    | false =>
      obtain ⟨s1, h1, h⟩ := bind_eq_ok.mp h
      cases h
      rintro st ⟨rfl⟩
      exact (send_http_status_sameFs (show send_http_status _ _ _ _ = _ from h1) :)
    | true =>
      cases h
      rintro st ⟨rfl⟩
      rfl
  | listed st buf url =>
    have h := Option.some.inj h
    unfold readHeaders at h
    obtain ⟨y, -, h⟩ := bind_eq_ok.mp h
    cases h
    rintro st ⟨rfl⟩
    rfl
  | parsed st url n b =>
    have h := Option.some.inj h
    unfold act at h
    obtain ⟨⟨s1, ev⟩, h1, h⟩ := bind_eq_ok.mp h
    cases h
    rintro st ⟨rfl⟩
    exact (dispatch_kept hmax hu h1 :)
  | answered st ev => cases h; rintro st ⟨rfl⟩; rfl
  | closed st ev => cases h; rintro st ⟨rfl⟩; rfl
  | gone st ev => cases h

theorem files_kept {x : World} {w0 w : Sys} {evs : List Ev} (hmax : ∀ k, 18 ≤ (x.env k).evpMax) (hu : ∀ k, UserLeaves (x.env k))
    (h : Runs x w0 evs w) (hf : Undisturbed evs) : w.fs = w0.fs := by
  induction h with
  | nil => rfl
  | @snoc w w' e evs hr hstep ih =>
    have ih := ih (fun e he => hf e (List.mem_append_left _ he))
    cases e with
    | accept i u =>
      unfold step at hstep
      dsimp only at hstep
      split at hstep
      · cases hstep
      · cases hstep; exact ih
    | files fs => exact absurd rfl (hf (.files fs) (by simp) fs)
    | step i =>
      unfold step at hstep
      dsimp only at hstep
      split at hstep
      · cases hstep
      · obtain ⟨c, hc, hstep⟩ := Option.map_eq_some_iff.mp hstep
        obtain ⟨pc', rfl, hw⟩ := bind_eq_ok.mp hstep
        cases hw
        exact (put_fs (next_fs (hmax i) (hu i) hc)).trans ih

theorem always_sound {x : World} {live : List Conn} {fs : FS} {evs : List Ev} {regs : List Registration}
    (hset : Sound x (initial live fs) regs) (hu : ∀ k, UserLeaves (x.env k)) (hf : Undisturbed evs) :
    AlwaysSound x (initial live fs) evs regs := by
  intro evs1 e w1 hp hr
  have hfs : w1.fs = fs := files_kept hset.digest hu hr (fun e he => hf e (hp.subset (List.mem_append_left _ he)))
  exact ⟨fun k => Whole.setup_move (hset.setup k) hfs, hset.digest, hset.peer⟩

/-- C150 from the start of the server: it is set up well when it starts, nobody else changes the files, and user code leaves them alone.
Then a request that is through, whatever the others did meanwhile, has got what its bytes lead to with the files there were at the start
and the connections there were when it asked for admission. -/
theorem C150_start (x : World) (live : List Conn) (fs : FS) (evs : List Ev) (w : Sys) (s : Nat → Str) (regs : List Registration)
    (h : Runs x (initial live fs) evs w) (hset : Sound x (initial live fs) regs) (hu : ∀ k, UserLeaves (x.env k)) (hf : Undisturbed evs)
    (hs : ∀ k, Stack (x.env k) (s k) ∧ s k ≠ []) (k v : Nat) (st : St) (ev : List Event) (hk : w.task k = some ⟨v, .gone st ev⟩) :
    ∃ evs1 w1 o, evs1 ++ [.step k] <+: evs ∧ Runs x (initial live fs) evs1 w1 ∧ (w1.asks k ∨ w1.reads k ∧ o = .status 400) ∧
      LeadsTo (x.env k).limits w1.live (x.peer k) regs (siteOf (x.env k) (s k)) fs (x.input k) o ∧
      (∀ o', LeadsTo (x.env k).limits w1.live (x.peer k) regs (siteOf (x.env k) (s k)) fs (x.input k) o' → o' = o) ∧
      Whole.DoneAs (x.env k) fs ⟨k, st.sent, ev⟩ o := by
  obtain ⟨evs1, w1, evs2, w2, o, h1, h2, h3, h4, -, h5, h6, h7, -, h8⟩ := C150_overlap x live fs evs w s regs h (always_sound hset hu hf) hs k v st ev hk
  have hfs : w2.fs = fs := files_kept hset.digest hu h4 (fun e he => hf e (h3.subset (List.mem_append_left _ he)))
  rw [hfs] at h6 h7 h8
  exact ⟨evs1, w1, o, h1, h2, h5.elim (fun h => .inl h.1) fun h => h.elim (fun h => .inl h.1) .inr, h6, h7, h8⟩

/-! ### an example -/

def run (x : World) (w : Sys) : List Ev → Option Sys
  | [] => some w
  | e :: evs =>
    match step x w e with
    | some (ok w') => run x w' evs
    | _ => none

theorem runs_of_run {x : World} : ∀ {evs : List Ev} {w w' : Sys}, run x w evs = some w' → Runs x w evs w' := by
  intro evs
  induction evs with
  | nil => intro w w' h; cases h; exact .nil _
  | cons e evs ih =>
    intro w w' h
    simp only [run] at h
    split at h
    · rename_i w1 h1
      exact .cons h1 (ih h)
    · cases h

/-- Client 0 asks for a page, client 1 uses the interface of the application, client 2 sends something else, the others say nothing. -/
def pairWorld : World where
  peer := fun _ => b!"10.0.0.1"
  input := fun k => match k with
    | 0 => b!"GET /a.txt?x HTTP/1.1\r\nX-Session: abc\r\n\r\n"
    | 1 => b!"GET /api/a HTTP/1.1\r\nContent-Length: 3\r\n\r\na=b"
    | 2 => b!"BREW /pot HTTP/1.1\r\n\r\n"
    | _ => []
  env := fun _ => soundEnv

/-- The three requests take turns. -/
def turns : List Ev :=
  [.accept 0 5, .step 0, .accept 1 6, .step 1, .step 0, .accept 2 7, .step 2, .step 1, .step 0, .step 1, .step 1, .step 0, .step 2, .step 1,
   .step 0, .step 2, .step 1, .step 0]

/-- How many bytes were sent to client `k`, and which code ran, if its request is through. -/
def outcome (w : Sys) (k : Nat) : Option (List Byte × List Event) :=
  match w.task k with
  | some ⟨_, .gone st ev⟩ => some (st.sent, ev)
  | _ => none

theorem pair_runs : ∃ w, Runs pairWorld (initial [⟨0, [], []⟩, ⟨0, [], []⟩] docsFs) turns w ∧ (outcome w 0).isSome ∧
    (outcome w 1).map (fun o => o.2.length) = some 2 ∧ (outcome w 2).isSome := by
  have e : (run pairWorld (initial [⟨0, [], []⟩, ⟨0, [], []⟩] docsFs) turns).map (fun w =>
      ((outcome w 0).isSome, (outcome w 1).map (fun o => o.2.length), (outcome w 2).isSome)) = some (true, some 2, true) := by decide +kernel
  obtain ⟨w, hw, h⟩ := Option.map_eq_some_iff.mp e
  simp only [Prod.mk.injEq] at h
  exact ⟨w, runs_of_run hw, h⟩

/-- Three requests that overlap, all of them through, on a server that is set up well. -/
example : ∃ w s, Runs pairWorld (initial [⟨0, [], []⟩, ⟨0, [], []⟩] docsFs) turns w ∧ (∃ v st ev, w.task 1 = some ⟨v, .gone st ev⟩) ∧
    Sound pairWorld (initial [⟨0, [], []⟩, ⟨0, [], []⟩] docsFs) sampleRegs ∧ (∀ k, UserLeaves (pairWorld.env k)) ∧ Undisturbed turns ∧
    ∀ k, Stack (pairWorld.env k) s ∧ s ≠ [] := by
  obtain ⟨w, hr, -, h1, -⟩ := pair_runs
  obtain ⟨s, h3, h4⟩ := (soundEnv_setup [] []).stack
  refine ⟨w, s, hr, ?_, ⟨fun k => Whole.setup_move (soundEnv_setup [] []) rfl, fun _ => show 18 ≤ soundEnv.evpMax by decide,
    fun _ => show (b!"10.0.0.1").length < 16 by decide⟩, fun _ => Whole.soundEnv_leaves, by unfold Undisturbed turns; simp, fun _ => ⟨h3, h4⟩⟩
  unfold outcome at h1
  split at h1
  · exact ⟨_, _, _, by assumption⟩
  · cases h1

/-- The first step of a silent client's request is not defined. -/
example : ∃ w, Runs pairWorld (initial [⟨0, [], []⟩, ⟨0, [], []⟩] docsFs) [.accept 1 5, .step 1, .accept 3 6] w ∧
    (∃ f, step pairWorld w (.step 3) = some (ub f)) ∧ Sound pairWorld (initial [⟨0, [], []⟩, ⟨0, [], []⟩] docsFs) sampleRegs := by
  have e : (run pairWorld (initial [⟨0, [], []⟩, ⟨0, [], []⟩] docsFs) [.accept 1 5, .step 1, .accept 3 6]).map (fun w =>
      (step pairWorld w (.step 3)).map (fun c => c.bind (fun _ => ok ()))) = some (some (ub .oob)) := by decide +kernel
  obtain ⟨w, hw, h⟩ := Option.map_eq_some_iff.mp e
  obtain ⟨c, hc, h⟩ := Option.map_eq_some_iff.mp h
  refine ⟨w, runs_of_run hw, ⟨.oob, ?_⟩, ⟨fun k => Whole.setup_move (soundEnv_setup [] []) rfl,
    fun _ => show 18 ≤ soundEnv.evpMax by decide, fun _ => show (b!"10.0.0.1").length < 16 by decide⟩⟩
  rw [hc]
  cases c with
  | ok y => cases h
  | ub f => cases h; rfl

/-- A request that is about to be taken up, and could be handled to its end. -/
example : ∃ w, Runs pairWorld (initial [⟨0, [], []⟩, ⟨0, [], []⟩] docsFs) [.accept 1 5, .step 1, .accept 0 6] w ∧
    w.task 0 = some ⟨6, .arrived⟩ ∧ (accept_request (pairWorld.env 0) (w.first (pairWorld.input 0)) 6 (pairWorld.peer 0)).IsOk ∧
    ∀ k, UserKeeps (pairWorld.env k) := by
  have e : (run pairWorld (initial [⟨0, [], []⟩, ⟨0, [], []⟩] docsFs) [.accept 1 5, .step 1, .accept 0 6]).map (fun w =>
      ((match w.task 0 with | some ⟨v, .arrived⟩ => v | _ => 0),
        (accept_request (pairWorld.env 0) (w.first (pairWorld.input 0)) 6 (pairWorld.peer 0)).bind (fun _ => ok ()))) = some (6, ok ()) := by
    decide +kernel
  obtain ⟨w, hw, h⟩ := Option.map_eq_some_iff.mp e
  simp only [Prod.mk.injEq] at h
  refine ⟨w, runs_of_run hw, ?_, ?_, fun _ => Whole.soundEnv_keeps⟩
  · have h1 := h.1
    split at h1
    · rename_i heq; rw [heq, h1]
    · cases h1
  · obtain ⟨y, hy, -⟩ := bind_eq_ok.mp h.2
    exact ⟨y, hy⟩

end Wayuu.Overlap
