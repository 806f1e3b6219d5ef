import Verif.Spec.Ending
import Verif.Props.Bearable
import Verif.Props.PageSession
/-
Property C148 (ws.c:463-656): what every byte sequence leads to, in full.
-/
namespace Wayuu
open C Spec

/-! ### the header lines -/

theorem told_step {a : Head} {s : Told} (hb : LineBuf a.bs)
    (h : (s.noted.array = a.bs ∧ s.noted.boundary = a.boundary ∧ s.noted.length = a.clen) ∧ s.session = a.sess ∧ s.address = a.ip ∧ s.ctype = a.ctype)
    {l : List Byte} (hl : l.length ≤ 1023) :
    ((s.line l).noted.array = (a.step l).bs ∧ (s.line l).noted.boundary = (a.step l).boundary ∧ (s.line l).noted.length = (a.step l).clen) ∧
      (s.line l).session = (a.step l).sess ∧ (s.line l).address = (a.step l).ip ∧ (s.line l).ctype = (a.step l).ctype := by
  have hb' := hb.load hl
  have hu := untilNul_loadLine a.bs l
  obtain ⟨h1, h2, h3, h4⟩ := h
  have hnoted := noted_step hb h1 hl
  refine ⟨hnoted, ?_, ?_, ?_⟩
  · show _ = nextSession a.sess (loadLine a.bs l)
    unfold Told.line nextSession
    simp only [uptoNul_eq, starts_eq, h1.1, h2, hu]
    have hi : (startswith (untilNul l) b!"X-Session:" || startswith (untilNul l) b!"Authorization:") = isSess (untilNul l) := rfl
    rw [hi]
    by_cases hs : isSess (untilNul l) = true
    · rw [if_pos hs, if_pos hs, hb'.tail (by rw [hu]; exact isSess_length hs), hu]
      unfold strip
      rw [isSpace_fun]
    · rw [if_neg hs, if_neg hs]
      simp only [Bool.and_eq_true, decide_eq_true_eq, and_assoc]
      rfl
  · show _ = nextIP a.ip (loadLine a.bs l)
    unfold nextIP tailAt
    have e : nextBuf (loadLine a.bs l) = (s.noted.line l).array := hnoted.1.symm
    rw [e]
    unfold Told.line
    simp only [uptoNul_eq, starts_eq, h3, hu]
  · show _ = nextType a.ctype (loadLine a.bs l)
    unfold Told.line nextType tailAt
    have e : (fun x : Byte => decide (x ≠ 59)) = fun x => x != 59 := by
      funext x
      by_cases h : x = 59 <;> simp [h]
    simp only [uptoNul_eq, starts_eq, h1.1, h4, hu, e]
    rfl

theorem told_eq {line : List Byte} (hl : line.length ≤ 1023) {lines : List (List Byte)} (hls : ∀ l ∈ lines, l.length ≤ 1023) (ip : Str) :
    (told ip line lines).session = (lines.foldl Head.step (.init (lineBytes line) ip)).sess ∧
    (told ip line lines).address = (lines.foldl Head.step (.init (lineBytes line) ip)).ip ∧
    (told ip line lines).ctype = (lines.foldl Head.step (.init (lineBytes line) ip)).ctype := by
  have key : ∀ (lines : List (List Byte)) (a : Head) (s : Told), (∀ l ∈ lines, l.length ≤ 1023) → LineBuf a.bs →
      ((s.noted.array = a.bs ∧ s.noted.boundary = a.boundary ∧ s.noted.length = a.clen) ∧ s.session = a.sess ∧ s.address = a.ip ∧ s.ctype = a.ctype) →
      (lines.foldl Told.line s).session = (lines.foldl Head.step a).sess ∧
      (lines.foldl Told.line s).address = (lines.foldl Head.step a).ip ∧
      (lines.foldl Told.line s).ctype = (lines.foldl Head.step a).ctype := by
    intro lines
    induction lines with
    | nil => exact fun a s _ _ h => h.2
    | cons l lines ih =>
      intro a s hls hb h
      exact ih _ _ (fun x hx => hls x (by simp [hx])) (LineBuf.foldl (lines := [l]) hb (by simpa using hls l (by simp)))
        (told_step hb h (hls l (by simp)))
  exact key lines _ _ hls ((lineBytes_buf hl).load (line := [65]) (by decide)) ⟨⟨rfl, rfl, rfl⟩, rfl, rfl, rfl⟩

/-- C43, C100, C132 for all header sections: session, address and media type are those that `told` reads. -/
theorem parse_told {line input rest : List Byte} {lines : List (List Byte)} {ip : Str} {h : HdrSt} (hl : line.length ≤ 1023)
    (hs : Section input lines rest) (hok : parseHeaders ((lineBytes line).map some) input ip = ok h) :
    h.input = rest ∧ cstr h.session = ok (told ip line lines).session ∧ (told ip line lines).session.length < 64 ∧
      h.IP = (told ip line lines).address ∧ h.content_type = (told ip line lines).ctype ∧
      h.boundary = (noted line lines).boundary ∧ h.content_length = (noted line lines).length := by
  obtain ⟨last, f0, -, -, -, f3, f4, f5, f6, f7⟩ := parse_fields (lineBytes_buf hl) hs hok
  obtain ⟨t1, t2, t3⟩ := told_eq hl hs.length_le ip
  obtain ⟨n1, n2⟩ := noted_eq hl hs.length_le ip
  have f7' := f7
  obtain ⟨-, r, -, hr⟩ := f7
  refine ⟨f0, ?_, ?_, f6.trans t2.symm, f3.trans t3.symm, f4.trans n1.symm, f5.trans n2.symm⟩
  · rw [t1]; exact f7'.cstr
  · rw [t1]
    have : ((lines.foldl Head.step (.init (lineBytes line) ip)).load last).sess = (lines.foldl Head.step (.init (lineBytes line) ip)).sess := rfl
    rw [this] at hr
    omega

/-! ### pages -/

theorem served_exists (fs : FS) (root index page : Str) : ∃ name, Served fs root index page name := by
  by_cases h : ∃ c, fs.lookup (root ++ b!"/" ++ page) = some (.file c)
  · exact ⟨_, Or.inl ⟨h, rfl⟩⟩
  · exact ⟨_, Or.inr ⟨fun c hc => h ⟨c, hc⟩, rfl⟩⟩

theorem served_unique {fs : FS} {root index page n m : Str} (h : Served fs root index page n) (h' : Served fs root index page m) : n = m := by
  rcases h with ⟨⟨c, h1⟩, rfl⟩ | ⟨h1, rfl⟩ <;> rcases h' with ⟨⟨d, h2⟩, rfl⟩ | ⟨h2, rfl⟩
  · rfl
  · exact absurd h1 (h2 c)
  · exact absurd h2 (h1 d)
  · rfl

/-- The entry of the access log, and the length it shows. -/
def Logged (env : Env) (st st' : St) (hs : List (Str × Str)) (n : Nat) : Prop :=
  Recorded env st st' hs n ∧ (st.req.response_length = 0 → st'.req.response_length + st.sent.length = st'.sent.length)

theorem direct_file_blank {env : Env} {st : St} {hs : List (Str × Str)} (hh : st.req.HasHeaders hs)
    {session filename : Str} (hse : cstr st.req.session = ok session) (hsl : session.length ≤ 490)
    (hf : is_file st.fs filename = true) (hopen : st.fs.openRead filename = none) :
    ∃ st', direct_file env st filename = ok (0, st') ∧
      st'.log = if env.logOk then st.log ++ [logLine env st'.req hs 200] else st.log := by
  obtain ⟨chunks, e1, e2⟩ := return_headers_eq hse hsl filename
  have h1 : fileHead.length = 38 := by decide
  have h3 := content_type_length filename
  have h4 := length_sessionText session
  have hcl : chunks.flatten.length ≤ 1200 := by
    rw [e2]; simp only [List.length_append, List.length_cons, List.length_nil]; omega
  unfold direct_file
  simp only [hf, Bool.not_true, Bool.false_eq_true, if_false]
  rw [e1]
  simp only [ok_bind]
  unfold return_file
  simp only [hopen, ok_bind]
  rw [addInt_ok (by omega) (by omega)]
  simp only [ok_bind]
  rw [log_access_eq (hs := hs) (by exact hh)]
  refine ⟨_, rfl, ?_⟩
  rw [appendLog_req]
  unfold appendLog
  split <;> rfl

theorem bad_logged {env : Env} {st st' : St} {hs : List (Str × Str)} (hh : st.req.HasHeaders hs) (h : bad_request env st = ok st') :
    Logged env st st' hs 400 := by
  obtain ⟨s, h1, h2, h3⟩ := C58_status env st hs hh 400 (by decide) [] (by simp)
  have h' : send_http_status env st (400 : Nat) [] = ok st' := h
  rw [h'] at h1
  cases h1
  exact ⟨h2, h3⟩

theorem Logged.move {env : Env} {st st1 st' : St} {hs : List (Str × Str)} {n : Nat} (h : Logged env st1 st' hs n) (h1 : st1.log = st.log)
    (h2 : st1.sent = st.sent) (h3 : st1.req.IP = st.req.IP) (h4 : st1.req.request_line = st.req.request_line)
    (h5 : st1.req.response_length = st.req.response_length) : Logged env st st' hs n := by
  unfold Logged Recorded at h ⊢
  rw [h1, h2, h3, h4, h5] at h
  exact h

/-- One file, readable or not. -/
theorem direct_ends {env : Env} {st : St} {hs : List (Str × Str)} (hh : st.req.HasHeaders hs) {session name : Str}
    (hse : cstr st.req.session = ok session) (hsl : session.length < 64)
    (hsmall : ∀ name c, st.fs.openRead name = some c → c.length + 1200 < 2 ^ 31) (hf : is_file st.fs name = true) :
    ∃ st', direct_file env st name = ok (0, st') ∧ st'.sent = st.sent ++ fileReply name session ((st.fs.openRead name).getD []) ∧
      st'.closed = st.closed ∧ st'.req.socket = st.req.socket ∧ Logged env st st' hs 200 := by
  cases ho : st.fs.openRead name with
  | none =>
    obtain ⟨st', h1, h2, h3, h4⟩ := direct_file_unreadable (env := env) hh hse (by omega) hf ho
    obtain ⟨s, h5, h6⟩ := direct_file_blank (env := env) hh hse (by omega) hf ho
    rw [h1] at h5
    cases h5
    exact ⟨st', h1, h2, h4, by rw [h3], recorded_of h3 h6, fun _ => by rw [h2, h3, List.length_append]; simp only; omega⟩
  | some c =>
    obtain ⟨st', h1, h2, h3, h5, -, -, -, h4⟩ := direct_file_eq (env := env) hh hse (by omega) ho (hsmall _ _ ho)
    exact ⟨st', h1, h2, h4, by rw [h3], recorded_of h3 h5, fun _ => by rw [h2, h3, List.length_append]; simp only; omega⟩

/-- The site as it is set up; `s` is the text that happens to be on the stack. -/
def siteOf (env : Env) (s : Str) : Site := ⟨env.staticRoot, env.wwwIndex, env.favicon, s.getLast? = some 47⟩

theorem static_ends {env : Env} {st : St} {hl : List (Str × Str)} (hh : st.req.HasHeaders hl) {session s name : Str}
    (hse : cstr st.req.session = ok session) (hsl : session.length < 64)
    (hsmall : ∀ name c, st.fs.openRead name = some c → c.length + 1200 < 2 ^ 31)
    (hroot : env.staticRoot.length ≤ 256) (hidx : env.wwwIndex.length ≤ 256) (hicon : env.favicon.length ≤ 256)
    (hs : Stack env s) (hne : s ≠ []) (hp : st.req.path.length ≤ 254)
    (hindex : ∃ c, st.fs.lookup (env.staticRoot ++ b!"/" ++ env.wwwIndex) = some (.file c))
    (hserved : Served st.fs env.staticRoot env.wwwIndex ((siteOf env s).page st.req.path) name) :
    ∃ st', handle_static_routes env st = ok st' ∧ st'.sent = st.sent ++ fileReply name session ((st.fs.openRead name).getD []) ∧
      st'.closed = st.closed ∧ st'.req.socket = st.req.socket ∧ Logged env st st' hl 200 := by
  have hpage : rewritePath env st.req.path = ok ((siteOf env s).page st.req.path) := by
    rw [rewritePath_eq hs _ hp, if_neg hne]
    unfold Site.page siteOf
    simp only [decide_eq_true_eq]
    split
    · rfl
    · split
      · rfl
      · split <;> rfl
  have hpl : ((siteOf env s).page st.req.path).length ≤ 300 := by
    unfold Site.page
    have h1 : (siteOf env s).index.length ≤ 256 := hidx
    have h2 : (siteOf env s).icon.length ≤ 256 := hicon
    split
    · omega
    · split
      · omega
      · split
        · simp; omega
        · omega
  generalize (siteOf env s).page st.req.path = page at hpage hpl hserved
  have hh' : ({ st with req := { st.req with path := page } } : St).req.HasHeaders _ := HasHeaders.congr hh rfl rfl
  unfold handle_static_routes
  rw [hpage]
  simp only [ok_bind]
  rw [fmtInto_ok (by simp; omega)]
  simp only [ok_bind]
  rcases hserved with ⟨hf, rfl⟩ | ⟨hno, rfl⟩
  · obtain ⟨st', h1, h2, h3, h4, h5⟩ := direct_ends (env := env) (name := env.staticRoot ++ b!"/" ++ page) hh' hse hsl hsmall (is_file_iff.mpr hf)
    rw [h1]
    exact ⟨st', rfl, h2, h3, h4, h5⟩
  · have hf : is_file st.fs (env.staticRoot ++ b!"/" ++ page) = false := by
      rw [← Bool.not_eq_true, is_file_iff]
      rintro ⟨c, hc⟩
      exact hno c hc
    have h0 : direct_file env { st with req := { st.req with path := page } } (env.staticRoot ++ b!"/" ++ page) =
        ok (-1, { st with req := { st.req with path := page } }) := by
      unfold direct_file
      simp only [hf, Bool.not_false, if_true]
    rw [h0]
    simp only [ok_bind, show (-1 : Int) < 0 by decide, if_true]
    rw [fmtInto_ok (by simp; omega)]
    simp only [ok_bind]
    obtain ⟨st', h1, h2, h3, h4, h5⟩ := direct_ends (env := env) (name := env.staticRoot ++ b!"/" ++ env.wwwIndex) hh' hse hsl hsmall
      (is_file_iff.mpr hindex)
    rw [h1]
    exact ⟨st', rfl, h2, h3, h4, h5⟩

/-! ### routes -/

theorem cstr_form (form : Str) : cstr (form.map some ++ [some 0]) = ok (untilNul form) := by
  have : form.map some ++ [some 0] = (form ++ [0]).map some := by simp
  rw [this, cstr_bytes (by simp)]
  exact congrArg ok (untilNul_loadLine [] form)

/-- The form with the parameter. -/
theorem addParam_text {form qs : Str} {b : Buf} (hq : NulFree qs) (h : addParam (form.map some ++ [some 0]) qs = ok b) :
    cstr b = ok (joined (uptoNul form) ++ qs) := by
  rw [uptoNul_eq]
  unfold joined
  have hf := untilNul_before form
  by_cases h0 : untilNul form = []
  · rw [if_pos h0]
    rw [addParam_empty (by rw [cstr_form, h0])] at h
    cases h
    exact cstr_mk hq []
  · rw [if_neg h0]
    have hn := nulFree_untilNul form
    have key : ∀ r : Buf, addParam ((untilNul form).map some ++ some 0 :: r) qs = ok b → cstr b = ok (untilNul form ++ b!"&" ++ qs) := by
      intro r h
      rw [addParam_room hn h0] at h
      split at h
      · cases h
        exact cstr_mk (nulFree_append.mpr ⟨nulFree_append.mpr ⟨hn, by decide⟩, hq⟩) _
      · cases h
    rcases hf.2 with e | ⟨r, e⟩
    · refine key [] ?_
      rw [← e]; exact h
    · refine key (r.map some ++ [some 0]) ?_
      rw [← h]
      conv_rhs => rw [e]
      simp

/-- A request that is routed. -/
theorem router_ends {env : Env} {st : St} {hs : List (Str × Str)} {regs : List Registration} {form : Str}
    (hh : st.req.HasHeaders hs) (hv : ∀ r ∈ regs, r.template.Valid) (hreg : register regs = ok env.routes)
    (hname : ∀ r ∈ regs, ∀ pre name, r.template = .param pre name → name.length ≤ 2 * pre.length + 8)
    (hu : UserResponds env) (hd : UserDefined env) (hz : NulFree st.req.method ∧ NulFree st.req.path)
    (hform : st.req.form = form.map some ++ [some 0]) (hfit : PathFits regs st.req.method st.req.path form) :
    ∃ st' ev, router_handle_request env st = ok (st', ev) ∧
      (((∀ r, FirstMatch regs (st.req.method ++ b!":" ++ st.req.path) r → r.handler = none) ∧ ev = [] ∧
          (∃ start, findStatus (400 : Nat) HTTP_STATUS_TABLE = some start ∧ st'.sent = st.sent ++ statusReply start []) ∧
          st'.closed = st.closed ∧ st'.req.socket = st.req.socket ∧ Logged env st st' hs 400) ∨
       ∃ r h b, FirstMatch regs (st.req.method ++ b!":" ++ st.req.path) r ∧ r.handler = some h ∧
          cstr b = ok (r.template.form (st.req.method ++ b!":" ++ st.req.path) form) ∧
          Dispatched env h r.filter { st with req := { st.req with form := b } } st' ev) := by
  obtain ⟨⟨st', ev⟩, hrun⟩ := (router_fits hh hv hreg hname hu hd hz hform).mpr hfit
  refine ⟨st', ev, hrun, ?_⟩
  have hr := ((register_eq hv).mp hreg).2.2
  have hlen := hfit.1
  have hT : NulFree st.target := by
    unfold St.target
    rw [nulFree_append, nulFree_append]
    exact ⟨⟨hz.1, by decide⟩, hz.2⟩
  have hbad : ∀ b : Buf, bad_request env { st with req := { st.req with form := b } } = ok st' →
      (∃ start, findStatus (400 : Nat) HTTP_STATUS_TABLE = some start ∧ st'.sent = st.sent ++ statusReply start []) ∧
      st'.closed = st.closed ∧ st'.req.socket = st.req.socket ∧ Logged env st st' hs 400 := by
    intro b hb
    have hlog := (bad_logged (st := { st with req := { st.req with form := b } }) (hs := hs) (HasHeaders.congr hh rfl rfl) hb).move
      (st := st) rfl rfl rfl rfl rfl
    obtain ⟨s, start, h1, h2, h3, -, -, -, h4, h5⟩ := bad_request_eq (env := env) (st := { st with req := { st.req with form := b } })
      (HasHeaders.congr hh rfl rfl)
    rw [hb] at h1
    cases h1
    exact ⟨⟨start, h2, h3⟩, h4, by rw [h5], hlog⟩
  rcases firstMatch_cases regs st.target with hno | ⟨r, hm⟩
  · left
    rw [router_none hr (by omega) hno] at hrun
    obtain ⟨s, h1, h2⟩ := bind_eq_ok.mp hrun
    cases h2
    refine ⟨fun r hm => ?_, rfl, hbad st.req.form h1⟩
    obtain ⟨a, b, rfl, h2, -⟩ := hm
    exact absurd h2 (hno r (by simp))
  · rw [router_some hr (by omega) hm] at hrun
    obtain ⟨b, hb, hrun⟩ := bind_eq_ok.mp hrun
    cases hh' : r.handler with
    | none =>
      left
      rw [hh'] at hrun
      simp only at hrun
      obtain ⟨s, h1, h2⟩ := bind_eq_ok.mp hrun
      cases h2
      exact ⟨fun r' hm' => by rw [← hm.unique hm']; exact hh', rfl, hbad b h1⟩
    | some h =>
      right
      rw [hh'] at hrun
      simp only at hrun
      refine ⟨r, h, b, hm, hh', ?_, runUser_dispatched.mp hrun⟩
      have hmem : r ∈ regs := by
        obtain ⟨a, b, rfl, -⟩ := hm
        simp
      have hmat : r.template.Matches st.target := by
        obtain ⟨a, b, -, h, -⟩ := hm
        exact h
      cases ht : r.template with
      | const t =>
        have e : formFor st.target (regRoute r) st.req.form = ok st.req.form := by
          unfold formFor regRoute
          rw [ht]
          rfl
        rw [e] at hb
        cases hb
        rw [hform, cstr_form]
        show _ = ok (uptoNul form)
        rw [uptoNul_eq]
      | param pre name =>
        have e : formFor st.target (regRoute r) st.req.form = addParam st.req.form (name ++ b!"=" ++ st.target.drop pre.length) := by
          unfold formFor
          rw [if_pos (by unfold regRoute; rw [ht]), extract_any ht hT (hname r hmem _ _ ht) hmat]
          rfl
        rw [e, hform] at hb
        have hv' := hv r hmem
        rw [ht] at hv'
        have hq : NulFree (name ++ b!"=" ++ st.target.drop pre.length) :=
          nulFree_append.mpr ⟨nulFree_append.mpr ⟨hv'.2, by decide⟩, hT.drop _⟩
        rw [addParam_text hq hb]
        show _ = ok (joined (uptoNul form) ++ name ++ b!"=" ++ st.target.drop pre.length)
        simp

/-! ### the connection -/

/-- The request holds what the handler is to get. -/
structure Req.Is (req : Req) (q : Handed) : Prop where
  line : req.request_line = q.line
  url : req.url = q.url
  method : req.method = q.method
  path : req.path = q.path
  query : req.query_string = q.query
  headers : req.Stored q.headers
  session : cstr req.session = ok q.session
  address : req.IP = q.address
  ctype : req.content_type = q.ctype
  form : cstr req.form = ok q.form

/-- The connection on `socket` ends like this: nothing but the answer is sent, no user code runs unless it is to, the socket is closed
once. `st` is the state when the connection was accepted, `st'` the one after it was closed, `ev` lists the user code that ran. -/
def EndsAs (env : Env) (st : St) (socket : Nat) (st' : St) (ev : List Event) : Ending → Prop
  | .status n => ev = [] ∧ st'.closed = st.closed ++ [socket] ∧
      ∃ reply fields, st'.sent = st.sent ++ reply ∧ Response reply n fields [] ∧ Sized fields []
  | .page name session => ev = [] ∧ st'.closed = st.closed ++ [socket] ∧
      ∃ reply, st'.sent = st.sent ++ reply ∧ b!"HTTP/1.1 200 OK\r\n" <+: reply ∧ PageFor reply session ((st.fs.openRead name).getD [])
  | .code h f q => ∃ st1 st2, st1.req.Is q ∧ st1.req.socket = socket ∧ st1.sent = st.sent ∧ st1.closed = st.closed ∧
      st1.log = st.log ∧ Dispatched env h f st1 st2 ev ∧ st' = connection_close st2

theorem ends_status {env : Env} {st st1 : St} {socket n : Nat} {start : Str} (hst : findStatus (n : Int) HTTP_STATUS_TABLE = some start)
    (hs : st1.sent = st.sent ++ statusReply start []) (hc : st1.closed = st.closed) (hk : st1.req.socket = socket) :
    EndsAs env st socket (connection_close st1) [] (.status n) := by
  obtain ⟨fields, h8, h9⟩ := statusReply_response hst []
  refine ⟨rfl, ?_, _, fields, hs, by simpa using h8, by simpa using h9⟩
  show st1.closed ++ [st1.req.socket] = _
  rw [hc, hk]

theorem ends_page {env : Env} {st st1 : St} {socket : Nat} {name session : Str}
    (hs : st1.sent = st.sent ++ fileReply name session ((st.fs.openRead name).getD [])) (hc : st1.closed = st.closed)
    (hk : st1.req.socket = socket) : EndsAs env st socket (connection_close st1) [] (.page name session) := by
  refine ⟨rfl, ?_, _, hs, ?_, pageFor_file _ _ _⟩
  · show st1.closed ++ [st1.req.socket] = _
    rw [hc, hk]
  · exact ⟨WAYUU_HTTP_SERVER_STRING ++ fileHead ++ get_content_type name ++ sessionText session ++ [13, 10] ++ (st.fs.openRead name).getD [], by
      simp [fileReply, fileHead, HTTP_OK_START]⟩

theorem readForm_closed {env : Env} {st st' : St} {n : Int} {b : Str} (h : readForm env st n b = ok st') :
    st'.closed = st.closed := by
  unfold readForm at h
  split at h
  · obtain ⟨⟨form, inp⟩, -, h⟩ := bind_eq_ok.mp h
    simp only at h
    split at h
    · obtain ⟨⟨form, fs⟩, -, h⟩ := bind_eq_ok.mp h
      cases h; rfl
    · cases h; rfl
  · cases h; rfl

theorem readForm_log {env : Env} {st st' : St} {n : Int} {b : Str} (h : readForm env st n b = ok st') : st'.log = st.log := by
  unfold readForm at h
  split at h
  · obtain ⟨⟨form, inp⟩, -, h⟩ := bind_eq_ok.mp h
    simp only at h
    split at h
    · obtain ⟨⟨form, fs⟩, -, h⟩ := bind_eq_ok.mp h
      cases h; rfl
    · cases h; rfl
  · cases h; rfl

/-- What is added to the access log once the header section has been read. -/
def LogsIn (env : Env) (st st' : St) (hs : List (Str × Str)) : Ending → Prop
  | .status n => Logged env st st' hs n
  | .page _ _ => Logged env st st' hs 200
  | .code _ _ _ => True

theorem dispatch_ends {env : Env} {st st0 : St} {hs : List (Str × Str)} {regs : List Registration} {url boundary session s : Str}
    {n : Int} {pieces : List Str} {socket : Nat} (hset : SoundSetup env st regs) (hmax : 18 ≤ env.evpMax) (hfs : st0.fs = st.fs)
    (hh : st0.req.HasHeaders hs) (hse : cstr st0.req.session = ok session) (hsl : session.length < 64) (hm : NulFree st0.req.method)
    (hform : st0.req.form = [some 0]) (hb : boundary = [] ∨ 2 ≤ boundary.length ∧ NulFree boundary) (hz : NulFree url) (hl : url.length ≤ 254)
    (hr : Runs b!"?" url pieces) (hs1 : Stack env s) (hs2 : s ≠ []) (hk : st0.req.socket = socket)
    (hsent : st0.sent = st.sent) (hclosed : st0.closed = st.closed) (hlog : st0.log = st.log)
    (hfit : pieces ≠ [] ∧ pieces.length ≤ 50 ∧ (CasePrefix b!"/api" url → ∃ form, StoredForm boundary n st0.input form ∧
        ∀ mount path, pieces.head? = some (mount ++ path) → mount.length = 4 → PathFits regs st0.req.method path form)) :
    ∃ o st' ev, dispatch env st0 url n boundary = ok (st', ev) ∧ (EndsAs env st socket (connection_close st') ev o ∧ LogsIn env st0 st' hs o) ∧
      (¬ CasePrefix b!"/api" url → CaseEq st0.req.method b!"GET" →
        ∃ name, Served st.fs env.staticRoot env.wwwIndex ((siteOf env s).page (pieces.head?.getD [])) name ∧ o = .page name session) ∧
      (¬ CasePrefix b!"/api" url → ¬ CaseEq st0.req.method b!"GET" → o = .status 400) ∧
      (CasePrefix b!"/api" url → ∃ mount path, pieces.head? = some (mount ++ path) ∧ mount.length = 4 ∧
        (((∀ r, FirstMatch regs (st0.req.method ++ b!":" ++ path) r → r.handler = none) ∧ o = .status 400) ∨
         ∃ r h stored, FirstMatch regs (st0.req.method ++ b!":" ++ path) r ∧ r.handler = some h ∧ StoredForm boundary n st0.input stored ∧
          o = .code h r.filter
            { line := st0.req.request_line, url := st0.req.url
              method := st0.req.method, path := path, query := (pieces.drop 1).head?.getD [], headers := hs
              session := session, address := st0.req.IP, ctype := st0.req.content_type
              form := r.template.form (st0.req.method ++ b!":" ++ path) stored })) := by
  obtain ⟨hne, hn, hapi⟩ := hfit
  obtain ⟨t, ts, hpc⟩ := List.exists_cons_of_ne_nil hne
  obtain ⟨hget, htl, htz⟩ := (url_pieces hz hl hr).2.2 t ts hpc hn
  by_cases hu : CasePrefix b!"/api" url
  · obtain ⟨form, g0, g1⟩ := hapi hu
    have hu' := hu
    obtain ⟨mount, b, rfl, hmount⟩ := hu'
    have hml : mount.length = 4 := by simpa using congrArg List.length hmount
    have hmq : (63 : Byte) ∉ mount := by
      intro h
      have : lower 63 ∈ mount.map lower := List.mem_map_of_mem h
      rw [show mount.map lower = (b!"/api").map lower from hmount] at this
      revert this
      decide
    have hm0 : mount ≠ [] := by
      rintro rfl
      cases hml
    subst hpc
    obtain ⟨path, rfl⟩ := mount_piece hm0 hmq hr
    have hpz : NulFree path := (nulFree_append.mp htz).2
    have hfit := g1 mount path rfl hml
    rw [dispatch_api hu hget hml hpz]
    unfold handle_api_request
    rcases form_stored (env := env) (n := n) (b := boundary)
      (st := { st0 with req := { st0.req with query_string := ts.head?.getD [], path := path } }) hmax hb hform with
      ⟨form', st1, f0, f1, f2⟩ | ⟨f0, -⟩
    swap
    · exact absurd g0 (f0 form)
    cases storedForm_unique f0 g0
    rw [f1, ok_bind]
    have c1 : st1.sent = st.sent := (readForm_sent f1).trans hsent
    have c2 : st1.closed = st.closed := (readForm_closed f1).trans hclosed
    have c3 : st1.req.socket = socket := by rw [f2]; exact hk
    have c4 : st1.log = st0.log := (readForm_log f1 :)
    have e1 : st1.req.method = st0.req.method := by rw [f2]
    have e2 : st1.req.path = path := by rw [f2]
    have hh1 : st1.req.HasHeaders hs := by refine HasHeaders.congr hh ?_ ?_ <;> rw [f2]
    obtain ⟨st', ev, h1, h2⟩ := router_ends (env := env) (st := st1) (hs := hs) (regs := regs) (form := form)
      hh1 hset.valid hset.registered hset.names hset.responds hset.defined
      (by rw [f2]; exact ⟨hm, hpz⟩) (by rw [f2]) (by rw [e1, e2]; exact hfit)
    rw [e1, e2] at h2
    rcases h2 with ⟨h2, rfl, ⟨start, h3, h4⟩, h5, h6, h7⟩ | ⟨r, h, b, h2, h3, h4, h5⟩
    · have h8 : Logged env st0 st' hs 400 := by
        refine h7.move c4 (readForm_sent f1 :) ?_ ?_ ?_ <;> rw [f2]
      refine ⟨.status 400, st', [], h1, ⟨ends_status h3 (by rw [h4, c1]) (h5.trans c2) (h6.trans c3), h8⟩, fun h => absurd hu h, fun h => absurd hu h,
        fun _ => ⟨mount, path, rfl, hml, Or.inl ⟨h2, rfl⟩⟩⟩
    · refine ⟨.code h r.filter
            { line := st0.req.request_line, url := st0.req.url
              method := st0.req.method, path := path, query := ts.head?.getD [], headers := hs
              session := session, address := st0.req.IP, ctype := st0.req.content_type
              form := r.template.form (st0.req.method ++ b!":" ++ path) form }, st', ev, h1, ?_, fun h => absurd hu h, fun h => absurd hu h,
        fun _ => ⟨mount, path, rfl, hml, Or.inr ⟨r, h, form, h2, h3, g0, rfl⟩⟩⟩
      refine ⟨⟨{ st1 with req := { st1.req with form := b } }, st', ?_, ?_, ?_, ?_, c4.trans hlog, h5, rfl⟩, trivial⟩
      · refine ⟨by show st1.req.request_line = _; rw [f2], by show st1.req.url = _; rw [f2], e1, e2, ?_, Stored.same hh1.1 ⟨rfl, rfl⟩, ?_, ?_, ?_, h4⟩
        · show st1.req.query_string = _; rw [f2]
        · show cstr st1.req.session = _; rw [f2]; exact hse
        · show st1.req.IP = _; rw [f2]
        · show st1.req.content_type = _; rw [f2]
      · exact c3
      · exact c1
      · exact c2
  · rw [dispatch_static hu hget]
    have hh0 : ({ st0 with req := { st0.req with query_string := ts.head?.getD [], path := t } } : St).req.HasHeaders hs :=
      HasHeaders.congr hh rfl rfl
    by_cases hg : CaseEq st0.req.method b!"GET"
    · rw [if_pos ((strcaseEq_iff _ _).mpr hg)]
      obtain ⟨name, hname⟩ := served_exists st.fs env.staticRoot env.wwwIndex ((siteOf env s).page t)
      obtain ⟨st', h1, h2, h3, h4, h5⟩ := static_ends (env := env)
          (st := { st0 with req := { st0.req with query_string := ts.head?.getD [], path := t } }) hh0 (s := s) (name := name)
          hse hsl (by rw [hfs]; exact hset.small) hset.root hset.idx hset.icon hs1 hs2 htl (by rw [hfs]; exact hset.index) (by rw [hfs]; exact hname)
      rw [h1]
      refine ⟨.page name session, st', [], rfl, ⟨ends_page ?_ (h3.trans hclosed) (h4.trans hk), h5.move rfl rfl rfl rfl rfl⟩, fun _ _ => ⟨name, by rw [hpc]; exact hname, rfl⟩,
        fun _ h => absurd hg h, fun h => absurd h hu⟩
      rw [h2]
      show st0.sent ++ fileReply name session ((st0.fs.openRead name).getD []) = _
      rw [hsent, hfs]
    · rw [if_neg (by rw [strcaseEq_iff]; exact hg)]
      obtain ⟨st', start, h1, h2, h3, -, -, -, h4, h5⟩ := bad_request_eq (env := env) hh0
      rw [h1]
      refine ⟨.status 400, st', [], rfl, ⟨ends_status h2 (by rw [h3]; exact congrArg (· ++ _) hsent) (h4.trans hclosed) ?_, (bad_logged hh0 h1).move rfl rfl rfl rfl rfl⟩, fun _ h => absurd h hg,
        fun _ _ => rfl, fun h => absurd h hu⟩
      rw [h5]
      exact hk

/-- Nothing leads to two endings. -/
theorem leadsTo_unique {limits : List PathLimit} {live : List Conn} {peer : Str} {regs : List Registration} {site : Site} {fs : FS}
    {input : Str} {o o' : Ending} (h : LeadsTo limits live peer regs site fs input o) (h' : LeadsTo limits live peer regs site fs input o') :
    o = o' := by
  obtain ⟨line, rest, lines, body, hs, method, url, after, pieces, a1, a2, a3, a4, a5, a6⟩ := h
  obtain ⟨line', rest', lines', body', hs', method', url', after', pieces', b1, b2, b3, b4, b5, b6⟩ := h'
  obtain ⟨rfl, rfl⟩ := lineOf_unique a1 b1
  obtain ⟨rfl, rfl⟩ := a2.unique b2
  obtain rfl : hs = hs' := by rw [named_eq a3, named_eq b3]
  obtain ⟨rfl, rfl, rfl⟩ := words_unique a4 b4
  obtain rfl := runs_unique a5 b5
  split at a6
  · rename_i c
    rw [if_pos c] at b6
    rw [a6, b6]
  · rename_i c
    rw [if_neg c] at b6
    clear c
    split at a6
    · rename_i c
      rw [if_pos c] at b6
      rw [a6, b6]
    · rename_i c
      rw [if_neg c] at b6
      clear c
      split at a6
      · rename_i c
        rw [if_pos c] at b6
        clear c
        split at a6
        · rename_i c
          rw [if_pos c] at b6
          obtain ⟨n1, c1, rfl⟩ := a6
          obtain ⟨n2, c2, rfl⟩ := b6
          rw [served_unique c1 c2]
        · rename_i c
          rw [if_neg c] at b6
          rw [a6, b6]
      · rename_i c
        rw [if_neg c] at b6
        obtain ⟨mount, path, c1, c2, c3⟩ := a6
        obtain ⟨mount', path', d1, d2, d3⟩ := b6
        rw [c1, Option.some.injEq] at d1
        obtain ⟨rfl, rfl⟩ := List.append_inj d1 (by omega)
        rcases c3 with ⟨c3, rfl⟩ | ⟨r, h, f, c3, c4, c5, rfl⟩ <;> rcases d3 with ⟨d3, rfl⟩ | ⟨r', h', f', d3, d4, d5, rfl⟩
        · rfl
        · rw [c3 _ d3] at d4; cases d4
        · rw [d3 _ c3] at c4; cases c4
        · obtain rfl := c3.unique d3
          rw [c4] at d4
          cases d4
          obtain rfl := storedForm_unique c5 d5
          rfl

/-- One entry is added, if the log can be opened. -/
def Entered (env : Env) (live : List Conn) (peer input : Str) (st st' : St) (n : Nat) : Prop :=
  (env.logOk = false → st'.log = st.log) ∧
  (env.logOk = true → ∃ entry, st'.log = st.log ++ [entry] ∧
    LineFor env.limits live peer input env.ts env.rt n (st'.sent.length - st.sent.length) entry)

/-- What a connection that ends like this adds to the access log; what user code adds is its own affair. -/
def LogsAs (env : Env) (live : List Conn) (peer input : Str) (st st' : St) : Ending → Prop
  | .status n => Entered env live peer input st st' n
  | .page _ _ => Entered env live peer input st st' 200
  | .code _ _ _ => True

theorem entered_line {env : Env} {st st0 st' : St} {live : List Conn} {peer input line rest body method url after : Str} {lines : List Str} {hs hl : List (Str × Str)} {n : Nat}
    (h1 : LineOf input 1023 line rest) (h2 : Section rest lines body) (h3 : Named lines hs) (h4 : Words line method url after)
    (hg : Logged env st0 st' hl n) (hsent : st0.sent = st.sent) (hlog : st0.log = st.log) (hzero : st0.req.response_length = 0)
    {st2 : St} (hst2 : st2 = connection_close st')
    (hline : st0.req.request_line = (uptoNul line).take ((uptoNul line).length - 2))
    (hcase : ((Supported method ∧ Admits env.limits live peer url) ∧ st0.req.IP = (told peer line lines).address ∧ hl = hs.take 20) ∨
      ¬ (Supported method ∧ Admits env.limits live peer url) ∧ st0.req.IP = peer ∧ hl = []) : Entered env live peer input st st2 n := by
  subst hst2
  obtain ⟨⟨g1, g2⟩, g3⟩ := hg
  have g3 := g3 hzero
  refine ⟨fun h => (g1 h).trans hlog, fun h => ?_⟩
  obtain ⟨entry, referer, ua, e1, e2, e3, e4⟩ := g2 h
  have el : st'.req.response_length = (connection_close st').sent.length - st.sent.length := by
    rw [← hsent]
    show _ = st'.sent.length - _
    omega
  rw [el, hline] at e2
  refine ⟨entry, by rw [← hlog]; exact e1, line, rest, lines, body, hs, method, url, after, h1, h2, h3, h4, fun hc => ?_, fun hc => ?_⟩
  · rcases hcase with ⟨-, k1, rfl⟩ | ⟨k, -⟩
    · rw [k1] at e2
      exact ⟨referer, ua, e3, e4, e2⟩
    · exact absurd hc k
  · rcases hcase with ⟨k, -⟩ | ⟨-, k1, rfl⟩
    · exact absurd k hc
    · have none_of : ∀ {name : Str} {v : Option Str}, FirstHeader [] name v → v.getD [] = [] := by
        intro name v hv
        cases v with
        | none => rfl
        | some v =>
          obtain ⟨a, b, hab, -⟩ := hv
          simp at hab
      rw [k1, none_of e3, none_of e4] at e2
      exact e2

theorem ends_total (env : Env) (st : St) (socket : Nat) (peer s : Str) (regs : List Registration) (hset : SoundSetup env st regs)
    (hmax : 18 ≤ env.evpMax) (hp : peer.length < 16) (hs1 : Stack env s) (hs2 : s ≠ [])
    (hb : Bearable env.limits st.live peer regs st.input) :
    ∃ o st' ev, LeadsTo env.limits st.live peer regs (siteOf env s) st.fs st.input o ∧
      accept_request env st socket peer = ok (st', ev) ∧ EndsAs env st socket st' ev o ∧ LogsAs env st.live peer st.input st st' o := by
  obtain ⟨line, rest, hl, -⟩ := get_line_first st.input
  obtain ⟨lines, body, hsec⟩ := section_exists rest
  obtain ⟨hs, hn⟩ := named_exists lines
  obtain ⟨q1, q2⟩ := hb line rest lines body hs hl hsec hn
  have hbn := untilNul_before line
  have hup := uptoNul_eq line
  generalize untilNul line = text at hbn hup
  have h2 := q1 text hbn
  obtain ⟨method, url, after, hw⟩ := words_exist line
  obtain ⟨w1, w2, w3, -⟩ := words_read hw hl.2.1 hbn
  obtain ⟨pieces, hr⟩ := runs_exists b!"?" url
  have hq := q2 method url after hw
  by_cases hsup : Supported method
  swap
  · obtain ⟨b, hb1, hb2⟩ := startswithany_methods method
    have hbf : b = false := by
      cases b with
      | false => rfl
      | true => exact absurd (hb2.mp rfl) hsup
    subst hbf
    obtain ⟨st', start, h1, e1, e2, -, -, -, e3, e4⟩ := bad_request_eq (env := env) (hs := []) (st := { st with input := rest, req :=
      { api_request_new socket peer with request_line := text.take (text.length - 2), method := method } }) (noHeaders rfl rfl)
    refine ⟨.status 400, connection_close st', [], ⟨line, rest, lines, body, hs, method, url, after, pieces, hl, hsec, hn, hw, hr, ?_⟩, ?_,
      ends_status e1 e2 e3 (by rw [e4]; rfl), ?_⟩
    · rw [if_pos hsup]
    · unfold accept_request
      rw [fmtInto_ok (by omega)]
      simp only [ok_bind]
      rw [readRequestLine_eq hl hbn h2, ← w1]
      simp only [ok_bind, hb1, Bool.not_false, if_true]
      rw [h1]
      rfl
    · have hg := bad_logged (hs := []) (noHeaders rfl rfl) h1
      exact entered_line hl hsec hn hw hg rfl rfl rfl rfl (by show (text.take _) = _; rw [hup]) (Or.inr ⟨fun h => hsup h.1, rfl, rfl⟩)
  obtain ⟨ha, hq⟩ := hq hsup
  rw [words_line hl hbn h2 hw (by omega) hsup ha]
  have hadmits := connection_add_admits (socket := socket) hset.limits hset.paths
    (show url.length < 512 by omega) hp (live := st.live)
  by_cases hadm : Admits env.limits st.live peer url
  swap
  · rw [hadmits.2 hadm]
    simp only [ok_bind, Bool.not_false, if_true]
    obtain ⟨start, hst⟩ := findStatus_some (n := 429) (by decide)
    obtain ⟨st', h1, e2, e4, -, -, -, -, e3⟩ := send_http_status_eq (env := env) (hs := [])
      (st := { st with input := rest, req := { lineReq socket peer (text.take (text.length - 2)) method with url := url } })
      (noHeaders rfl rfl) hst (message := []) (by simp)
    unfold too_many_connections
    have h1' : send_http_status env { st with input := rest, live := st.live, req :=
        { lineReq socket peer (text.take (text.length - 2)) method with url := url } } 429 [] = ok st' := h1
    rw [h1']
    refine ⟨.status 429, connection_close st', [], ⟨line, rest, lines, body, hs, method, url, after, pieces, hl, hsec, hn, hw, hr, ?_⟩, rfl,
      ends_status hst e2 e3 (by rw [e4]; rfl), ?_⟩
    · rw [if_neg (by simpa using hsup), if_pos hadm]
    · obtain ⟨s', k1, k2, k3⟩ := C58_status env { st with input := rest, req :=
        { lineReq socket peer (text.take (text.length - 2)) method with url := url } } [] (noHeaders rfl rfl) 429 (by decide) [] (by simp)
      rw [h1] at k1
      cases k1
      exact entered_line hl hsec hn hw ⟨k2, k3⟩ rfl rfl rfl rfl (by show (text.take _) = _; rw [hup]) (Or.inr ⟨fun h => hadm h.2, rfl, rfl⟩)
  obtain ⟨a, c, b, e1, e2, e3, hadd⟩ := hadmits.1 hadm
  rw [hadd]
  simp only [ok_bind, Bool.not_true, Bool.false_eq_true, if_false]
  obtain ⟨ho, hfit, hq⟩ := hq hadm
  have hbuf := lineBytes_buf hl.2.1
  obtain ⟨g1, g2, g3⟩ := hbuf
  have hg : (lineBytes line).getLast? = some 0 := by rw [g3]; simp
  obtain ⟨x, hx⟩ := (C69_defined (lineBytes line) rest body lines peer g1 hg hsec).1.mpr ho
  rw [hx]
  simp only [ok_bind]
  have hz : ∀ p ∈ hs.take 20, NulFree p.1 ∧ NulFree p.2 := fun p hp => headers_nulFree hn p (List.mem_of_mem_take hp)
  obtain ⟨f0, f1, f2, f3, f4, f5, f6⟩ := parse_told hl.2.1 hsec hx
  generalize hst0 : servedSt st (a ++ ⟨socket, url, peer⟩ :: b) socket peer (text.take (text.length - 2)) method url x = st0
  have hstored : st0.req.Stored (hs.take 20) := by
    subst hst0
    exact stored_of g1 hg hsec hn hx ⟨rfl, rfl⟩
  have em : st0.req.method = method := by subst hst0; rfl
  have ei : st0.input = body := by subst hst0; exact f0
  have eip : st0.req.IP = (told peer line lines).address := by subst hst0; exact f3
  have ect : st0.req.content_type = (told peer line lines).ctype := by subst hst0; exact f4
  obtain ⟨o, st', ev, h3, ⟨h4, h8⟩, h5, h6, h7⟩ := dispatch_ends (st0 := st0) (hs := hs.take 20) (url := url) (boundary := x.boundary)
    (session := (told peer line lines).session) (n := x.content_length) (s := s) (socket := socket)
    (pieces := pieces) hset hmax (by subst hst0; rfl) ⟨hstored, hz, hfit⟩ (by subst hst0; exact f1) f2
    (by rw [em, w1]
        exact NulFree.mono hbn.1 (fun c hc => by
          obtain ⟨t, ht⟩ := wordAt_zero_prefix text 254
          rw [ht]; simp [hc]))
    (by subst hst0; rfl) (by rw [f5]; exact noted_boundary line lines) w3 w2 hr hs1 hs2 (by subst hst0; rfl) (by subst hst0; rfl) (by subst hst0; rfl) (by subst hst0; rfl)
    (by rw [em, ei, f5, f6]; exact hq pieces hr)
  have eu : st0.req.url = url := by subst hst0; rfl
  have el : st0.req.request_line = (uptoNul line).take ((uptoNul line).length - 2) := by
    subst hst0
    rw [hup]
    rfl
  rw [em, eip, ect, ei, f5, f6, eu, el] at h7
  rw [em] at h5 h6
  rw [h3]
  refine ⟨o, connection_close st', ev, ⟨line, rest, lines, body, hs, method, url, after, pieces, hl, hsec, hn, hw, hr, ?_⟩, rfl, h4, ?_⟩
  swap
  · have key : ∀ n, Logged env st0 st' (hs.take 20) n → Entered env st.live peer st.input st (connection_close st') n := fun n hg =>
      entered_line hl hsec hn hw hg (by subst hst0; rfl) (by subst hst0; rfl) (by subst hst0; rfl) rfl el (Or.inl ⟨⟨hsup, hadm⟩, eip, rfl⟩)
    cases o with
    | status n => exact key n h8
    | page a b => exact key 200 h8
    | code a b c => trivial
  rw [if_neg (by simpa using hsup), if_neg (by simpa using hadm)]
  by_cases hu : CasePrefix b!"/api" url
  · rw [if_neg (by simpa using hu)]
    exact h7 hu
  · rw [if_pos hu]
    by_cases hget : CaseEq method b!"GET"
    · rw [if_pos hget]; exact h5 hu hget
    · rw [if_neg hget]; exact h6 hu hget

/-- C148. On a server set up well, bytes that can be borne (C145 says that all others leave defined behaviour) lead to exactly one
ending, and it is the one that `LeadsTo` says. -/
theorem C148_total (env : Env) (st : St) (socket : Nat) (peer s : Str) (regs : List Registration) (hset : SoundSetup env st regs)
    (hmax : 18 ≤ env.evpMax) (hp : peer.length < 16) (hs1 : Stack env s) (hs2 : s ≠ [])
    (hb : Bearable env.limits st.live peer regs st.input) :
    ∃ o st' ev, LeadsTo env.limits st.live peer regs (siteOf env s) st.fs st.input o ∧
      (∀ o', LeadsTo env.limits st.live peer regs (siteOf env s) st.fs st.input o' → o' = o) ∧
      accept_request env st socket peer = ok (st', ev) ∧ EndsAs env st socket st' ev o := by
  obtain ⟨o, st', ev, h1, h2, h3, -⟩ := ends_total env st socket peer s regs hset hmax hp hs1 hs2 hb
  exact ⟨o, st', ev, h1, fun o' h' => leadsTo_unique h' h1, h2, h3⟩

/-- C148. Whenever the handling of a connection comes to its end, it has ended as `LeadsTo` says. -/
theorem C148_ending (env : Env) (st st' : St) (socket : Nat) (peer s : Str) (regs : List Registration) (ev : List Event)
    (hset : SoundSetup env st regs) (hmax : 18 ≤ env.evpMax) (hp : peer.length < 16) (hs1 : Stack env s) (hs2 : s ≠ [])
    (h : accept_request env st socket peer = ok (st', ev)) :
    ∃ o, LeadsTo env.limits st.live peer regs (siteOf env s) st.fs st.input o ∧
      (∀ o', LeadsTo env.limits st.live peer regs (siteOf env s) st.fs st.input o' → o' = o) ∧ EndsAs env st socket st' ev o := by
  obtain ⟨o, x, e, h1, h2, h3, h4⟩ := C148_total env st socket peer s regs hset hmax hp hs1 hs2
    ((C145_total env st socket peer regs hset hmax hp).mp ⟨_, h⟩)
  rw [h3] at h
  cases h
  exact ⟨o, h1, h2, h4⟩

/-- Two servers with the same routes, limits, connections and site treat the same bytes alike, whatever is different in them
otherwise (their configurations, how many connections they have served, their handlers). -/
theorem C148_alike (env env' : Env) (st st' : St) (socket socket' : Nat) (peer s : Str) (regs : List Registration) (hset : SoundSetup env st regs)
    (hset' : SoundSetup env' st' regs) (hmax : 18 ≤ env.evpMax) (hmax' : 18 ≤ env'.evpMax) (hp : peer.length < 16)
    (hs1 : Stack env s) (hs1' : Stack env' s) (hs2 : s ≠ []) (hsite : siteOf env s = siteOf env' s) (hfs : st.fs = st'.fs)
    (hlim : env.limits = env'.limits) (hlive : st.live = st'.live) (hin : st.input = st'.input)
    (hb : Bearable env.limits st.live peer regs st.input) :
    ∃ o x ev x' ev', accept_request env st socket peer = ok (x, ev) ∧ EndsAs env st socket x ev o ∧
      accept_request env' st' socket' peer = ok (x', ev') ∧ EndsAs env' st' socket' x' ev' o := by
  obtain ⟨o, x, ev, h1, -, h2, h3⟩ := C148_total env st socket peer s regs hset hmax hp hs1 hs2 hb
  obtain ⟨o', x', ev', h1', -, h2', h3'⟩ := C148_total env' st' socket' peer s regs hset' hmax' hp hs1' hs2 (by rw [← hlim, ← hlive, ← hin]; exact hb)
  rw [hsite, hfs, hlim, hlive, hin] at h1
  cases leadsTo_unique h1 h1'
  exact ⟨o, x, ev, x', ev', h2, h3, h2', h3'⟩

/-- A form in parts for a route with a parameter meets the hypotheses. -/
example : ∃ s, SoundSetup soundEnv { docsSt [] with input := whole, live := [⟨0, [], []⟩] } sampleRegs ∧ 18 ≤ soundEnv.evpMax ∧
    (b!"10.0.0.1").length < 16 ∧ Stack soundEnv s ∧ s ≠ [] ∧ Bearable soundEnv.limits [⟨0, [], []⟩] b!"10.0.0.1" sampleRegs whole := by
  obtain ⟨s, h1, h2⟩ := (soundEnv_setup whole [⟨0, [], []⟩]).stack
  refine ⟨s, soundEnv_setup _ _, by decide, by decide, h1, h2, ?_⟩
  refine (C145_total soundEnv { docsSt [] with input := whole, live := [⟨0, [], []⟩] } 7 b!"10.0.0.1" sampleRegs (soundEnv_setup _ _)
    (by decide) (by decide)).mp ?_
  have : (accept_request soundEnv { docsSt [] with input := whole, live := [⟨0, [], []⟩] } 7 b!"10.0.0.1").bind (fun _ => ok ()) = ok () := by
    decide +kernel
  cases hx : accept_request soundEnv { docsSt [] with input := whole, live := [⟨0, [], []⟩] } 7 b!"10.0.0.1" with
  | ok x => exact ⟨x, rfl⟩
  | ub f => rw [hx] at this; cases this

/-- What lines tell: the session of a header, the address a proxy reports, the media type without its parameters. -/
example : let t := told b!"10.0.0.1" b!"POST / HTTP/1.1\r\n" [b!"Host: x\r\n", b!"X-Session: abc\r\n", b!"X-Real-IP: 1.2.3.4\r\n", b!"Content-Type: text/plain; charset=utf-8\r\n"]
    t.session = b!"abc" ∧ t.address = b!"1.2.3.4" ∧ t.ctype = some b!"text/plain" := by
  decide +kernel

end Wayuu
