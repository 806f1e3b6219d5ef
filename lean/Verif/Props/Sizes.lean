import Verif.Props.LongHeader
/-
Property C126: files and responses of any size.
-/
namespace Wayuu
open C Spec

/-- What reaches a C function that takes its length as an `int`: the length modulo 2^32. -/
theorem http_print_any (st : St) (d : List Byte) :
    http_print st d d.length = if d.length % 2 ^ 32 < 2 ^ 31 then ok { st with out := st.out ++ [d.take (d.length % 2 ^ 32)] }
      else ub .oob := by
  unfold http_print
  have hm : d.length % 2 ^ 32 ≤ d.length := Nat.mod_le _ _
  by_cases h : d.length % 2 ^ 32 < 2 ^ 31
  · have e : toInt32 (d.length : Int) = ((d.length % 2 ^ 32 : Nat) : Int) := by
      unfold toInt32
      rw [Int.bmod_def]
      omega
    rw [if_pos h, e]
    dsimp only
    rw [if_neg (by omega), Int.toNat_natCast]
  · have e : toInt32 (d.length : Int) < 0 := by
      unfold toInt32
      rw [Int.bmod_def]
      omega
    rw [if_neg h]
    dsimp only
    rw [if_pos (Or.inl e)]

theorem toInt32_mod {n : Nat} (h : n % 2 ^ 32 < 2 ^ 31) : toInt32 (n : Int) = ((n % 2 ^ 32 : Nat) : Int) := by
  unfold toInt32
  rw [Int.bmod_def]
  omega

theorem addInt_over {a b : Int} (h : 2 ^ 31 ≤ a + b) : addInt a b = ub .overflow := by
  unfold addInt
  rw [if_neg (by omega)]

/-- The head sent before a file. -/
theorem fileReply_head (filename session content : Str) :
    fileReply filename session content = fileReply filename session [] ++ content := by simp [fileReply]

/-- C126, what becomes of a file of any size: of its n bytes the first n mod 2^32 are sent, and nothing says that there are more; if
that number is 2^31 or more memory past the file is read, and if with the head it is, a signed number overflows. -/
theorem C126_exact (env : Env) (st : St) (hs : List (Str × Str)) (hh : st.req.HasHeaders hs)
    (session filename content : Str) (hse : cstr st.req.session = ok session) (hsl : session.length ≤ 490)
    (hopen : st.fs.openRead filename = some content) (r : Nat) (hr : r = content.length % 2 ^ 32) :
    (2 ^ 31 ≤ r → direct_file env st filename = ub .oob) ∧
    (r < 2 ^ 31 → 2 ^ 31 ≤ (fileReply filename session []).length + r → direct_file env st filename = ub .overflow) ∧
    ((fileReply filename session []).length + r < 2 ^ 31 → ∃ st', direct_file env st filename = ok (0, st') ∧
      st'.sent = st.sent ++ fileReply filename session [] ++ content.take r ∧
      st'.req = { st.req with response_length := (fileReply filename session []).length + r } ∧
      st'.input = st.input ∧ st'.fs = st.fs ∧ st'.live = st.live ∧ st'.closed = st.closed) := by
  have hf : is_file st.fs filename = true := is_file_iff.mpr ⟨content, openRead_of_lookup hopen⟩
  obtain ⟨chunks, e1, e2⟩ := return_headers_eq hse hsl filename
  have hrep : fileReply filename session [] = chunks.flatten := by rw [e2]; simp [fileReply]
  rw [hrep]
  subst hr
  unfold direct_file
  simp only [hf, Bool.not_true, Bool.false_eq_true, if_false]
  rw [e1]
  simp only [ok_bind]
  unfold return_file
  simp only [hopen]
  rw [http_print_any]
  refine ⟨fun h => ?_, fun h h' => ?_, fun h => ?_⟩
  · rw [if_neg (by omega)]; rfl
  · rw [if_pos h]
    simp only [ok_bind]
    rw [toInt32_mod h, addInt_over (by omega)]
    rfl
  · rw [if_pos (by omega)]
    simp only [ok_bind]
    rw [toInt32_mod (by omega), addInt_ok (by omega) (by omega)]
    simp only [ok_bind]
    rw [log_access_eq (hs := hs) (by exact hh)]
    refine ⟨_, rfl, ?_, ?_, by simp, by simp, by simp, by simp⟩
    · simp [St.sent]
    · rw [appendLog_req]
      refine congrArg (fun n => { st.req with response_length := n }) (toUInt32_of ?_ ?_)
      · omega
      · omega

/-- The code for static files, once the file for the path is known. -/
theorem handle_static_direct {env : Env} {st : St} {page name content : Str} (hpage : rewritePath env st.req.path = ok page)
    (hserved : Served st.fs env.staticRoot env.wwwIndex page name) (hopen : st.fs.openRead name = some content)
    (hroot : env.staticRoot.length ≤ 256) (hidx : env.wwwIndex.length ≤ 256) (hpl : page.length ≤ 300) :
    handle_static_routes env st =
      (direct_file env { st with req := { st.req with path := page } } name).bind (fun p => ok p.2) := by
  have hl1 : (env.staticRoot ++ b!"/" ++ page).length + 1 ≤ 1024 := by simp; omega
  have hl2 : (env.staticRoot ++ b!"/" ++ env.wwwIndex).length + 1 ≤ 1024 := by simp; omega
  have hnn : ∀ {s s' : St} {r : Int}, s.fs.openRead name = some content → direct_file env s name = ok (r, s') → r = 0 := by
    intro s s' r ho h
    unfold direct_file at h
    rw [is_file_iff.mpr ⟨content, openRead_of_lookup ho⟩] at h
    simp only [Bool.not_true, Bool.false_eq_true, if_false] at h
    obtain ⟨_, -, h⟩ := bind_eq_ok.mp h
    obtain ⟨_, -, h⟩ := bind_eq_ok.mp h
    obtain ⟨_, -, h⟩ := bind_eq_ok.mp h
    obtain ⟨_, -, h⟩ := bind_eq_ok.mp h
    simp only [ok.injEq, Prod.mk.injEq] at h
    exact h.1.symm
  unfold handle_static_routes
  rw [hpage]
  simp only [ok_bind]
  rw [fmtInto_ok hl1]
  simp only [ok_bind]
  rcases hserved with ⟨⟨c, hc⟩, rfl⟩ | ⟨hno, rfl⟩
  · cases e : direct_file env { st with req := { st.req with path := page } } (env.staticRoot ++ b!"/" ++ page) with
    | ub f => rfl
    | ok p =>
      obtain ⟨r, s'⟩ := p
      have := hnn (by exact hopen) e
      subst this
      rfl
  · have hf : is_file st.fs (env.staticRoot ++ b!"/" ++ page) = false := by
      rw [← Bool.not_eq_true, is_file_iff]
      rintro ⟨c, hc⟩
      exact hno c hc
    have hd : direct_file env { st with req := { st.req with path := page } } (env.staticRoot ++ b!"/" ++ page) =
        ok (-1, { st with req := { st.req with path := page } }) := by
      unfold direct_file
      simp only [hf, Bool.not_false, if_true]
    rw [hd]
    simp only [ok_bind, show (-1 : Int) < 0 by decide, if_true]
    rw [fmtInto_ok hl2]
    rfl

/-- C126 in full: whatever its size, the file of the site that a request asks for is delivered whole. (The stack holds something, see
C55.) -/
def C126_statement : Prop :=
  ∀ (env : Env) (st : St) (socket : Nat) (peer path body page name content s : Str),
    StaticGet env st peer path body → Page env.wwwIndex env.favicon path page →
    Served st.fs env.staticRoot env.wwwIndex page name → st.fs.openRead name = some content →
    env.staticRoot.length ≤ 256 → env.wwwIndex.length ≤ 256 → env.favicon.length ≤ 256 →
    path = b!"/" ∨ path.getLast? ≠ some 47 → Stack env s → s ≠ [] → s.getLast? ≠ some 47 →
    ∃ st' head, accept_request env st socket peer = ok (st', []) ∧ st'.sent = st.sent ++ head ++ content

/-- C126, requests: what a request for a file of any size leads to. -/
theorem C126_request (env : Env) (st : St) (socket : Nat) (peer path body page name content s : Str)
    (hreq : StaticGet env st peer path body) (hpage : Page env.wwwIndex env.favicon path page)
    (hserved : Served st.fs env.staticRoot env.wwwIndex page name) (hopen : st.fs.openRead name = some content)
    (hroot : env.staticRoot.length ≤ 256) (hidx : env.wwwIndex.length ≤ 256) (hicon : env.favicon.length ≤ 256)
    (hfolder : path = b!"/" ∨ path.getLast? ≠ some 47) (hs : Stack env s) (hne : s ≠ []) (hlast : s.getLast? ≠ some 47)
    (r : Nat) (hr : r = content.length % 2 ^ 32) :
    ∃ head, b!"HTTP/1.1 200 OK\r\n" <+: head ∧ head.length ≤ 1200 ∧
      (2 ^ 31 ≤ r → accept_request env st socket peer = ub .oob) ∧
      (r < 2 ^ 31 → 2 ^ 31 ≤ head.length + r → accept_request env st socket peer = ub .overflow) ∧
      (head.length + r < 2 ^ 31 → ∃ st', accept_request env st socket peer = ok (st', []) ∧
        st'.sent = st.sent ++ head ++ content.take r ∧ st'.req.response_length = head.length + r ∧
        st'.fs = st.fs ∧ st'.closed = st.closed ++ [socket]) := by
  obtain ⟨st0, hds, session, h1, h2, h3, h4, h5, h6, h7, h8, h9, h10, h11⟩ := static_reaches (socket := socket) hreq
  have hp := rewritePath_page hpage hfolder hs hne hlast h10
  have hpl : page.length ≤ 300 := by
    rcases rewritePath_cases hp with rfl | rfl | rfl | rfl
    · omega
    · omega
    · simp; omega
    · omega
  rw [← h1] at hp
  rw [← h6] at hserved hopen
  rw [h11, handle_static_direct hp hserved hopen hroot hidx hpl]
  obtain ⟨e1, e2, e3⟩ := C126_exact env { st0 with req := { st0.req with path := page } } hds (HasHeaders.congr h2 rfl rfl) session name
    content h3 (by omega) hopen r hr
  refine ⟨fileReply name session [], ?_, ?_, fun h => ?_, fun h h' => ?_, fun h => ?_⟩
  · rw [fileReply, show fileHead = b!"HTTP/1.1 200 OK\r\n" ++ WAYUU_HTTP_SERVER_STRING from rfl]
    simp only [List.append_assoc]
    exact List.prefix_append _ _
  · have k1 : fileHead.length = 38 := by decide
    have k3 := content_type_length name
    have k4 := length_sessionText session
    simp only [fileReply, List.length_append, List.length_cons, List.length_nil]
    omega
  · rw [e1 h]; rfl
  · rw [e2 h h']; rfl
  · obtain ⟨st', g1, g2, g3, g4, g5, g6, g7⟩ := e3 h
    rw [g1]
    refine ⟨connection_close st', rfl, ?_, ?_, ?_, ?_⟩
    · show st'.sent = _
      rw [g2]
      have : St.sent { st0 with req := { st0.req with path := page } } = st.sent := by simp [St.sent, h5]
      rw [this]
    · show st'.req.response_length = _
      rw [g3]
    · show st'.fs = _
      rw [g5, ← h6]
    · show st'.closed ++ [st'.req.socket] = _
      rw [g7, g3]
      show st0.closed ++ [st0.req.socket] = _
      rw [h7, h8]

/-- C126, what holds: a file below 2^31 - 1200 bytes is delivered whole. Missing: larger ones. -/
theorem C126_partial (env : Env) (st : St) (socket : Nat) (peer path body page name content s : Str)
    (hreq : StaticGet env st peer path body) (hpage : Page env.wwwIndex env.favicon path page)
    (hserved : Served st.fs env.staticRoot env.wwwIndex page name) (hopen : st.fs.openRead name = some content)
    (hroot : env.staticRoot.length ≤ 256) (hidx : env.wwwIndex.length ≤ 256) (hicon : env.favicon.length ≤ 256)
    (hfolder : path = b!"/" ∨ path.getLast? ≠ some 47) (hs : Stack env s) (hne : s ≠ []) (hlast : s.getLast? ≠ some 47)
    (hlen : content.length + 1200 < 2 ^ 31) :
    ∃ st' head, accept_request env st socket peer = ok (st', []) ∧ st'.sent = st.sent ++ head ++ content ∧
      b!"HTTP/1.1 200 OK\r\n" <+: head ∧ st'.req.response_length = head.length + content.length := by
  obtain ⟨head, k1, k2, -, -, k5⟩ := C126_request env st socket peer path body page name content s hreq hpage hserved hopen hroot hidx
    hicon hfolder hs hne hlast _ rfl
  have hm : content.length % 2 ^ 32 = content.length := Nat.mod_eq_of_lt (by omega)
  rw [hm] at k5
  obtain ⟨st', e1, e2, e3, -⟩ := k5 (by omega)
  exact ⟨st', head, e1, by rw [e2, List.take_length], k1, e3⟩

/-- A folder /www with the file "big". -/
def bigFs (content : Str) : FS :=
  ⟨fun p => if p = [b!"www"] then some .dir else if p = [b!"www", b!"big"] then some (.file content) else none,
   fun _ => true, fun _ => true⟩

/-- A request for it. -/
def bigSt (content : Str) : St := { docsSt b!"/big" with fs := bigFs content }

theorem big_get (content : Str) : StaticGet sampleEnv (bigSt content) b!"10.0.0.1" b!"/big" [] :=
  docs_get (url := b!"/big") (by decide) (by decide) (by unfold White; decide) (by decide)

theorem big_open (content : Str) : (bigFs content).openRead b!"/www//big" = some content := by
  rfl

theorem big_lookup (content : Str) : (bigFs content).lookup b!"/www//big" = some (.file content) := openRead_of_lookup (big_open content)

theorem big_request (content : Str) :
    ∃ head, b!"HTTP/1.1 200 OK\r\n" <+: head ∧ head.length ≤ 1200 ∧
      (2 ^ 31 ≤ content.length % 2 ^ 32 → accept_request sampleEnv (bigSt content) 7 b!"10.0.0.1" = ub .oob) ∧
      (content.length % 2 ^ 32 < 2 ^ 31 → 2 ^ 31 ≤ head.length + content.length % 2 ^ 32 →
        accept_request sampleEnv (bigSt content) 7 b!"10.0.0.1" = ub .overflow) ∧
      (head.length + content.length % 2 ^ 32 < 2 ^ 31 → ∃ st', accept_request sampleEnv (bigSt content) 7 b!"10.0.0.1" = ok (st', []) ∧
        st'.sent = (bigSt content).sent ++ head ++ content.take (content.length % 2 ^ 32) ∧
        st'.req.response_length = head.length + content.length % 2 ^ 32 ∧
        st'.fs = (bigSt content).fs ∧ st'.closed = (bigSt content).closed ++ [7]) :=
  C126_request sampleEnv (bigSt content) 7 b!"10.0.0.1" b!"/big" [] b!"/big" b!"/www//big" content b!"A" (big_get content)
    (Or.inr (Or.inr (Or.inr ⟨by decide, by decide, by decide, rfl⟩)))
    (Or.inl ⟨⟨content, big_lookup content⟩, rfl⟩) (big_open content)
    (by decide) (by decide) (by decide) (Or.inr (by decide)) ⟨[], rfl, by decide⟩ (by decide) (by decide) _ rfl

/-- C126 is false: of a file of 4 GiB and one byte a single byte is delivered, with the status 200. -/
theorem C126_refuted : ¬ C126_statement := by
  intro h
  obtain ⟨content, hl⟩ : ∃ content : Str, content.length = 2 ^ 32 + 1 := ⟨List.replicate (2 ^ 32 + 1) 65, List.length_replicate ..⟩
  obtain ⟨st', head, e1, e2⟩ := h sampleEnv (bigSt content) 7 b!"10.0.0.1" b!"/big" [] b!"/big" b!"/www//big" content b!"A" (big_get content)
    (Or.inr (Or.inr (Or.inr ⟨by decide, by decide, by decide, rfl⟩)))
    (Or.inl ⟨⟨content, big_lookup content⟩, rfl⟩) (big_open content)
    (by decide) (by decide) (by decide) (Or.inr (by decide)) ⟨[], rfl, by decide⟩ (by decide) (by decide)
  obtain ⟨head', -, k2, -, -, k5⟩ := big_request content
  have hm : content.length % 2 ^ 32 = 1 := by omega
  rw [hm] at k5
  obtain ⟨st'', g1, g2, -⟩ := k5 (by omega)
  rw [g1, ok.injEq, Prod.mk.injEq] at e1
  rw [e1.1] at g2
  have := congrArg List.length (g2.symm.trans e2)
  simp only [List.length_append, List.length_take] at this
  omega

/-- C126, empty-looking files: of a file of exactly 4 GiB the head alone is sent. -/
example (content : Str) (hl : content.length = 2 ^ 32) : ∃ st' head, accept_request sampleEnv (bigSt content) 7 b!"10.0.0.1" = ok (st', []) ∧
    st'.sent = (bigSt content).sent ++ head := by
  obtain ⟨head, -, k2, -, -, k5⟩ := big_request content
  rw [hl, Nat.mod_self] at k5
  obtain ⟨st', e1, e2, -⟩ := k5 (by omega)
  exact ⟨st', head, e1, by simpa using e2⟩

/-- C126, 2 GiB: memory past the copy of the file is read. -/
example (content : Str) (hl : content.length = 2 ^ 31) : accept_request sampleEnv (bigSt content) 7 b!"10.0.0.1" = ub .oob := by
  obtain ⟨head, -, -, k3, -⟩ := big_request content
  exact k3 (by omega)

/-! ### JSON responses -/

theorem fgetsAux_short (n : Nat) (s : Str) : (fgetsAux n s).1.length ≤ n := by
  induction n generalizing s with
  | zero => simp [fgetsAux]
  | succ n ih =>
    cases s with
    | nil => simp [fgetsAux]
    | cons c s =>
      simp only [fgetsAux]
      split
      · simp
      · simpa using ih s

theorem streamLoop_over (n : Nat) (st : St) (len : Nat) (content : Str) (hn : content.length < n)
    (hz : NulFree content) (hlen : len < 2 ^ 31) (hl : 2 ^ 31 ≤ len + content.length) : streamLoop n st len content = ub .overflow := by
  induction n generalizing st len content with
  | zero => omega
  | succ n ih =>
    cases content with
    | nil => simp at hl; omega
    | cons c s =>
      have hap := fgetsAux_append 1022 (c :: s)
      have hpos := fgetsAux_pos 1021 c s
      have hle : (fgetsAux 1022 (c :: s)).1.length ≤ 1022 := fgetsAux_short _ _
      generalize hr : fgetsAux 1022 (c :: s) = r at hap hle
      rw [hr] at hpos
      obtain ⟨line, rest⟩ := r
      simp only at hap hpos hle
      have hlen2 : line.length + rest.length = (c :: s).length := by rw [← hap]; simp
      have hlp : 0 < line.length := List.length_pos_iff.mpr hpos
      have hz2 : NulFree line ∧ NulFree rest := by rw [← hap] at hz; simpa using hz
      have hf : fgets 1023 (c :: s) = some (line, rest) := by
        rw [← hr]
        exact fgets_cons 1023 c s
      simp only [streamLoop, hf]
      rw [untilNul_of_nulFree hz2.1]
      by_cases ho : len + line.length < 2 ^ 31
      · rw [addInt_ok (by omega) (by omega)]
        simp only [ok_bind]
        rw [http_print_all (by omega)]
        simp only [ok_bind]
        have e : ((len : Int) + (line.length : Int)) = ((len + line.length : Nat) : Int) := by omega
        rw [e]
        exact ih _ (len + line.length) rest (by omega) hz2.2 ho (by omega)
      · rw [addInt_over (by omega)]
        rfl

/-- C126, streams: a stream is delivered whole, or, if head and text have 2^31 bytes or more, a signed number overflows. -/
theorem C126_stream (env : Env) (st : St) (hs : List (Str × Str)) (hh : st.req.HasHeaders hs) (status : Int) (start content : Str)
    (hst : findStatus status HTTP_STATUS_TABLE = some start) (hz : NulFree content) :
    ((streamReply start content).length < 2 ^ 31 → ∃ st', return_json_stream env st status content = ok st' ∧
      st'.sent = st.sent ++ streamReply start content ∧ st'.req.response_length = (streamReply start content).length) ∧
    (2 ^ 31 ≤ (streamReply start content).length → return_json_stream env st status content = ub .overflow) := by
  have hl : start.length ≤ 36 := (table_lines _ (findStatus_cases hst)).1
  have h1 : WAYUU_HTTP_SERVER_STRING.length = 21 := by decide
  have h2 : HTTP_ACCESS_CONTROL.length = 130 := by decide +kernel
  have h3 : CONTENT_TYPE_JSON.length = 32 := by decide
  have hc : CRLF.length = 2 := by decide
  have hw : (streamReply start content).length = start.length + content.length + 187 := by
    simp only [streamReply, List.length_append, List.length_cons, List.length_nil]
    omega
  have hb : (start ++ WAYUU_HTTP_SERVER_STRING ++ HTTP_ACCESS_CONTROL ++ CONTENT_TYPE_JSON).length = start.length + 183 := by
    simp only [List.length_append]; omega
  unfold return_json_stream
  rw [json_headers_eq hst]
  simp only [ok_bind]
  rw [http_print_all (by omega)]
  simp only [ok_bind]
  by_cases h4 : content.length + 2 < 2 ^ 31
  · obtain ⟨chunks, e1, e2⟩ := send_stream_eq
      { st with out := st.out ++ [start ++ WAYUU_HTTP_SERVER_STRING ++ HTTP_ACCESS_CONTROL ++ CONTENT_TYPE_JSON] ++ [CRLF] }
      content hz h4
    rw [e1]
    simp only [ok_bind]
    refine ⟨fun h => ?_, fun h => ?_⟩
    · rw [addInt_ok (by omega) (by omega)]
      simp only [ok_bind]
      rw [addInt_ok (by omega) (by omega)]
      simp only [ok_bind]
      rw [log_access_eq (hs := hs) (by exact hh)]
      refine ⟨_, rfl, ?_, ?_⟩
      · simp [St.sent, streamReply, e2, CRLF]
      · rw [appendLog_req, hw]
        dsimp only
        refine toUInt32_of ?_ ?_
        · omega
        · omega
    · by_cases h5 : start.length + 183 + (content.length + 2) < 2 ^ 31
      · rw [addInt_ok (by omega) (by omega)]
        simp only [ok_bind]
        rw [addInt_over (by omega)]
        rfl
      · rw [addInt_over (by omega)]
        rfl
  · refine ⟨fun h => by omega, fun _ => ?_⟩
    have : ∀ s : St, send_stream s content = ub .overflow := by
      intro s
      unfold send_stream
      by_cases h6 : content.length < 2 ^ 31
      · obtain ⟨chunks, e1, e2⟩ := streamLoop_eq (content.length + 1) s 0 content (by omega) hz (by omega)
        have e1' : streamLoop (content.length + 1) s 0 content = _ := e1
        rw [e1']
        simp only [ok_bind]
        rw [http_print_all (by omega)]
        simp only [ok_bind]
        rw [addInt_over (by omega)]
        rfl
      · have e1 := streamLoop_over (content.length + 1) s 0 content (by omega) hz (by omega) (by omega)
        have e1' : streamLoop (content.length + 1) s 0 content = _ := e1
        rw [e1']
        rfl
    rw [this]
    rfl

/-- C126_stream applies: a short stream. -/
example : ∃ st', return_json_stream sampleEnv sampleSt 200 b!"[1,\n2]" = ok st' ∧
    st'.sent = sampleSt.sent ++ streamReply HTTP_OK_START b!"[1,\n2]" := by
  obtain ⟨h, -⟩ := C126_stream sampleEnv sampleSt [] sample_headers 200 HTTP_OK_START b!"[1,\n2]" (by decide) (by decide)
  obtain ⟨st', e1, e2, -⟩ := h (by decide +kernel)
  exact ⟨st', e1, e2⟩

/-- C126, JSON: a text of n bytes is announced as n + 2 bytes, and of it n mod 2^32 bytes are sent (if that is below 2^31; otherwise
memory past it is read). -/
theorem C126_json (env : Env) (st : St) (hs : List (Str × Str)) (hh : st.req.HasHeaders hs) (status : Int) (start data : Str)
    (hst : findStatus status HTTP_STATUS_TABLE = some start) (hd : data.length < 2 ^ 64) :
    (2 ^ 31 ≤ data.length % 2 ^ 32 → return_json_with_status env st status data = ub .oob) ∧
    (data.length % 2 ^ 32 < 2 ^ 31 → ∃ st' head, return_json_with_status env st status data = ok st' ∧
      st'.sent = st.sent ++ (head ++ b!"Content-Length: " ++ fmtNat (data.length + 2) ++ b!"\r\n\r\n") ++
        data.take (data.length % 2 ^ 32) ++ b!"\r\n" ∧ start <+: head) := by
  have hn := fmtNat_length (data.length + 2) 20 (by omega)
  have hb : (b!"Content-Length: " ++ fmtNat (data.length + 2) ++ b!"\r\n\r\n").length ≤ 60 := by
    simp only [List.length_append]; simp only [List.length_cons, List.length_nil]; omega
  have hc : CRLF.length = 2 := by decide
  unfold return_json_with_status
  rw [json_headers_eq hst]
  simp only [ok_bind]
  rw [fmtInto_ok (by omega)]
  simp only [ok_bind]
  rw [http_print_str_eq (by omega)]
  simp only [ok_bind]
  unfold http_print_str
  rw [http_print_any]
  refine ⟨fun h => ?_, fun h => ?_⟩
  · rw [if_neg (by omega)]; rfl
  · rw [if_pos h]
    simp only [ok_bind]
    rw [http_print_all (by omega)]
    simp only [ok_bind]
    rw [log_access_eq (hs := hs) (by exact hh)]
    refine ⟨_, start ++ WAYUU_HTTP_SERVER_STRING ++ HTTP_ACCESS_CONTROL ++ CONTENT_TYPE_JSON, rfl, ?_, ?_⟩
    · simp [St.sent, CRLF]
    · simp only [List.append_assoc]
      exact List.prefix_append _ _

/-- C126_json: a text of 4 GiB is announced in full, and none of it is sent. -/
example (data : Str) (hl : data.length = 2 ^ 32) : ∃ st' head, return_json sampleEnv sampleSt data = ok st' ∧
    st'.sent = sampleSt.sent ++ (head ++ b!"Content-Length: " ++ fmtNat (data.length + 2) ++ b!"\r\n\r\n") ++ [] ++ b!"\r\n" := by
  obtain ⟨-, h⟩ := C126_json sampleEnv sampleSt [] sample_headers 200 HTTP_OK_START data (by decide) (by omega)
  obtain ⟨st', head, e1, e2, -⟩ := h (by omega)
  rw [show data.length % 2 ^ 32 = 0 by omega, List.take_zero] at e2
  exact ⟨st', head, e1, e2⟩

end Wayuu
