import Verif.Model.Changing
import Verif.Props.Sizes
import Verif.Props.Writes
/-
C162: pages that are changed while they are delivered (http_utils.c:174-215, ws.c:313-350).
-/
namespace Wayuu.Changing
open C Spec

/-- Which file is asked for at which moments: the page if there is such a file, otherwise the index. -/
def Asks (m1 m2 : Moments) (root index page name : List Byte) (m : Moments) : Prop :=
  ((∃ c, m1.stat.lookup (root ++ b!"/" ++ page) = some (.file c)) ∧ name = root ++ b!"/" ++ page ∧ m = m1) ∨
  ((∀ c, m1.stat.lookup (root ++ b!"/" ++ page) ≠ some (.file c)) ∧ (∃ c, m2.stat.lookup (root ++ b!"/" ++ index) = some (.file c)) ∧
    name = root ++ b!"/" ++ index ∧ m = m2)

/-- The head of a response of status 200, up to its empty line. -/
def Head200 (head : List Byte) : Prop := b!"HTTP/1.1 200 OK\r\n" <+: head ∧ b!"\r\n\r\n" <:+ head

theorem fileReply_head200 (name session : Str) : Head200 (fileReply name session []) := by
  refine ⟨?_, ?_⟩
  · rw [fileReply, show fileHead = b!"HTTP/1.1 200 OK\r\n" ++ WAYUU_HTTP_SERVER_STRING from rfl]
    simp only [List.append_assoc]
    exact List.prefix_append _ _
  · obtain ⟨t, ht, -⟩ := content_type_field name
    unfold fileReply sessionText
    split
    · exact ⟨fileHead ++ fileHead ++ (b!"Content-Type: " ++ t), by simp [ht]⟩
    · exact ⟨fileHead ++ fileHead ++ get_content_type name ++ (b!"X-Session: " ++ session ++ b!"\r\nSet-Cookie:WSSESSION=" ++ session), by simp⟩

theorem then_congr {α β : Type} {c : C α} {f g : α → C β} (h : ∀ a, f a = g a) : (c >>= f) = (c >>= g) := by
  cases c with
  | ub e => rfl
  | ok a => exact h a

/-- How a request for a page reaches the code for static files. -/
theorem reaches {m1 m2 : Moments} {env : Env} {st : St} {socket : Nat} {peer path body : Str} (h : StaticGet env st peer path body) :
    ∃ (st0 : St) (hs : List (Str × Str)) (session : Str), st0.req.path = path ∧ st0.req.HasHeaders hs ∧
      cstr st0.req.session = ok session ∧ session.length < 64 ∧ st0.out = st.out ∧ st0.fs = st.fs ∧ st0.closed = st.closed ∧
      st0.req.socket = socket ∧ path.length ≤ 254 ∧
      accept_request m1 m2 env st socket peer = (handle_static_routes m1 m2 env st0).bind (fun s => ok (connection_close s, [])) := by
  obtain ⟨lines, line, text, method, url, rest, query, hs, hlim, hne, hp, hb, hm, hu, hparts, hpath, hq, hadm, hsec, ho, hn, hfit⟩ := h
  have hsup : Supported method := ⟨b!"GET", by simp, method, [], by simp, hm⟩
  obtain ⟨a, c, b, e1, e2, e3, hadd⟩ := (connection_add_admits (socket := socket) hlim hne
    (show url.length < 512 by have := hb.2.2.2.2; omega) hp).1 hadm
  obtain ⟨x, hh1, hh2, hh3⟩ := head_ok hsec ho hn hfit (lineBytes_buf hb.1.2.1) peer
  have hget : get_path_and_query_string url = ok (path, query) :=
    C36_partial url path query hb.nulFree hb.2.2.2.2 hparts hpath hq
  obtain ⟨g1, g2, g3⟩ := lineBytes_buf hb.1.2.1
  obtain ⟨-, session, s1, s2⟩ := C43_bounded (lineBytes line) rest body lines peer x g1 (by rw [g3]; simp) hsec hh1
  refine ⟨{ servedSt st (a ++ ⟨socket, url, peer⟩ :: b) socket peer (text.take (text.length - 2)) method url x with
    req := { headReq socket peer (text.take (text.length - 2)) method url x with query_string := query, path := path } },
    hs.take 20, session, rfl, hh3 _ rfl rfl, s1, s2, rfl, rfl, rfl, rfl, ?_, ?_⟩
  · have := hb.2.2.2.2
    rcases hparts with ⟨rfl, -⟩ | ⟨rfl, -⟩
    · exact this
    · simp at this; omega
  · have hserved : accept_request m1 m2 env st socket peer = (dispatch m1 m2 env
        (servedSt st (a ++ ⟨socket, url, peer⟩ :: b) socket peer (text.take (text.length - 2)) method url x) url x.content_length x.boundary).bind
        (fun p => ok (connection_close p.1, p.2)) := by
      have hb' := hb
      obtain ⟨h1, h2, h3, h4, h5⟩ := hb'
      obtain ⟨k1, k2⟩ := requestLine_eq h1 h2 h3 h4 h5
      obtain ⟨l, hb1, hb2⟩ := startswithany_methods method
      rw [hb2.mpr hsup] at hb1
      unfold accept_request
      rw [fmtInto_ok (by omega)]
      simp only [ok_bind]
      rw [k1]
      simp only [ok_bind, hb1, Bool.not_true, Bool.false_eq_true, if_false]
      rw [k2]
      simp only [ok_bind]
      rw [show connection_add env.limits st.live socket (api_request_new socket peer).IP url = _ from hadd]
      simp only [ok_bind, Bool.not_true, Bool.false_eq_true, if_false]
      rw [show parseHeaders (List.map some (lineBytes line)) rest (api_request_new socket peer).IP = _ from hh1]
      rfl
    rw [hserved]
    unfold dispatch
    rw [hget]
    simp only [ok_bind, not_startswith_api hu, Bool.not_false, if_true]
    rw [if_pos (show strcaseEq (servedSt st (a ++ ⟨socket, url, peer⟩ :: b) socket peer (text.take (text.length - 2)) method url x).req.method b!"GET" = true
      from (strcaseEq_iff _ _).mpr hm)]
    show C.bind (C.bind _ _) _ = _
    generalize hx : handle_static_routes m1 m2 env _ = y
    have : handle_static_routes m1 m2 env { servedSt st (a ++ ⟨socket, url, peer⟩ :: b) socket peer (text.take (text.length - 2)) method url x with
      req := { headReq socket peer (text.take (text.length - 2)) method url x with query_string := query, path := path } } = y := hx
    rw [this]
    cases y <;> rfl

theorem direct_absent {m : Moments} {env : Env} {st : St} {name : Str} (h : ∀ c, m.stat.lookup name ≠ some (.file c)) :
    direct_file m env st name = ok (-1, st) := by
  have hf : is_file m.stat name = false := by
    rw [← Bool.not_eq_true, is_file_iff]
    rintro ⟨c, hc⟩
    exact h c hc
  unfold direct_file
  simp only [hf, Bool.not_false, if_true]

/-- The code for static files, once the file is known. -/
theorem handle_direct {m1 m2 m : Moments} {env : Env} {st : St} {page name : Str} (hpage : rewritePath env st.req.path = ok page)
    (ha : Asks m1 m2 env.staticRoot env.wwwIndex page name m)
    (hroot : env.staticRoot.length ≤ 256) (hidx : env.wwwIndex.length ≤ 256) (hpl : page.length ≤ 300) :
    handle_static_routes m1 m2 env st =
      (direct_file m env { st with req := { st.req with path := page } } name).bind (fun p => ok p.2) := by
  have hl1 : (env.staticRoot ++ b!"/" ++ page).length + 1 ≤ 1024 := by simp; omega
  have hl2 : (env.staticRoot ++ b!"/" ++ env.wwwIndex).length + 1 ≤ 1024 := by simp; omega
  unfold handle_static_routes
  rw [hpage]
  simp only [ok_bind]
  rw [fmtInto_ok hl1]
  simp only [ok_bind]
  rcases ha with ⟨⟨c, hc⟩, rfl, rfl⟩ | ⟨hno, -, rfl, rfl⟩
  · cases e : direct_file m env { st with req := { st.req with path := page } } (env.staticRoot ++ b!"/" ++ page) with
    | ub f => rfl
    | ok p =>
      obtain ⟨r, s'⟩ := p
      have : r = 0 := by
        unfold direct_file at e
        rw [is_file_iff.mpr ⟨c, hc⟩] at e
        simp only [Bool.not_true, Bool.false_eq_true, if_false] at e
        obtain ⟨_, -, e⟩ := bind_eq_ok.mp e
        obtain ⟨_, -, e⟩ := bind_eq_ok.mp e
        obtain ⟨_, -, e⟩ := bind_eq_ok.mp e
        obtain ⟨_, -, e⟩ := bind_eq_ok.mp e
        simp only [ok.injEq, Prod.mk.injEq] at e
        exact e.1.symm
      subst this
      rfl
  · rw [direct_absent hno]
    simp only [ok_bind, show (-1 : Int) < 0 by decide, if_true]
    rw [fmtInto_ok hl2]
    rfl

theorem block_length (m : Moments) (c : List Byte) : (block m c).length = (m.tell c).length := by
  simp [block]; omega

/-- What is sent of a file: head and block. -/
theorem direct_sends {m : Moments} {env : Env} {st : St} {hs : List (Str × Str)} (hh : st.req.HasHeaders hs)
    {session filename : Str} (hse : cstr st.req.session = ok session) (hsl : session.length ≤ 490)
    (hf : ∃ c, m.stat.lookup filename = some (.file c)) (hnd : m.open_.lookup filename ≠ some .dir)
    {sent : Str} (hsent : (match m.open_.openRead filename with | some c => block m c | none => []) = sent)
    (hlen : (fileReply filename session []).length + sent.length < 2 ^ 31) :
    ∃ st', direct_file m env st filename = ok (0, st') ∧ st'.sent = st.sent ++ fileReply filename session [] ++ sent ∧
      st'.req = { st.req with response_length := (fileReply filename session []).length + sent.length } ∧
      st'.fs = st.fs ∧ st'.closed = st.closed := by
  obtain ⟨chunks, e1, e2⟩ := return_headers_eq hse hsl filename
  have hrep : fileReply filename session [] = chunks.flatten := by rw [e2]; simp [fileReply]
  rw [hrep] at hlen ⊢
  unfold direct_file
  simp only [is_file_iff.mpr hf, Bool.not_true, Bool.false_eq_true, if_false]
  rw [e1]
  simp only [ok_bind]
  unfold return_file
  rw [if_neg hnd]
  cases ho : m.open_.openRead filename with
  | none =>
    rw [ho] at hsent
    subst hsent
    simp only [ok_bind]
    have hlen : chunks.flatten.length < 2 ^ 31 := by rw [List.length_nil] at hlen; omega
    rw [addInt_ok (by omega) (by omega)]
    simp only [ok_bind]
    rw [log_access_eq (hs := hs) (by exact hh)]
    refine ⟨_, rfl, ?_, ?_, by simp, by simp⟩
    · simp [St.sent]
    · rw [appendLog_req]
      refine congrArg (fun n => { st.req with response_length := n }) (toUInt32_of ?_ ?_)
      · simp
      · rw [List.length_nil]; omega
  | some c =>
    rw [ho] at hsent
    simp only at hsent
    subst hsent
    simp only
    rw [http_print_any, if_pos (by omega)]
    simp only [ok_bind]
    rw [toInt32_mod (by omega), addInt_ok (by omega) (by omega)]
    simp only [ok_bind]
    rw [log_access_eq (hs := hs) (by exact hh)]
    refine ⟨_, rfl, ?_, ?_, by simp, by simp⟩
    · simp only [St.sent]
      rw [Nat.mod_eq_of_lt (by omega)]
      simp
    · rw [appendLog_req]
      refine congrArg (fun n => { st.req with response_length := n }) (toUInt32_of ?_ ?_)
      · omega
      · omega

/-- A request for a file of the site, with what is under its name when it is opened. -/
theorem request {m1 m2 m : Moments} {env : Env} {st : St} {socket : Nat} {peer path body page name s : Str}
    (hreq : StaticGet env st peer path body) (hpage : Page env.wwwIndex env.favicon path page)
    (ha : Asks m1 m2 env.staticRoot env.wwwIndex page name m) (hnd : m.open_.lookup name ≠ some .dir)
    (hroot : env.staticRoot.length ≤ 256) (hidx : env.wwwIndex.length ≤ 256) (hicon : env.favicon.length ≤ 256)
    (hfolder : path = b!"/" ∨ path.getLast? ≠ some 47) (hs : Stack env s) (hne : s ≠ []) (hlast : s.getLast? ≠ some 47)
    {sent : Str} (hsent : (match m.open_.openRead name with | some c => block m c | none => []) = sent)
    (hlen : sent.length + 1200 < 2 ^ 31) :
    ∃ st' head, accept_request m1 m2 env st socket peer = ok (st', []) ∧ Head200 head ∧
      st'.sent = st.sent ++ head ++ sent ∧ st'.req.response_length = head.length + sent.length ∧
      st'.fs = st.fs ∧ st'.closed = st.closed ++ [socket] := by
  obtain ⟨st0, hds, session, h1, h2, h3, h4, h5, h6, h7, h8, h10, h11⟩ := reaches (m1 := m1) (m2 := m2) (socket := socket) hreq
  have hp := rewritePath_page hpage hfolder hs hne hlast h10
  have hpl : page.length ≤ 300 := by
    rcases rewritePath_cases hp with rfl | rfl | rfl | rfl
    · omega
    · omega
    · simp; omega
    · omega
  rw [← h1] at hp
  have hf : ∃ c, m.stat.lookup name = some (.file c) := by
    rcases ha with ⟨h, rfl, rfl⟩ | ⟨-, h, rfl, rfl⟩ <;> exact h
  have hhead : (fileReply name session []).length ≤ 1200 := by
    have k1 : fileHead.length = 38 := by decide
    have k3 := content_type_length name
    have k4 := length_sessionText session
    simp only [fileReply, List.length_append, List.length_cons, List.length_nil]
    omega
  rw [h11, handle_direct hp ha hroot hidx hpl]
  obtain ⟨st', g1, g2, g3, g5, g7⟩ := direct_sends (env := env) (st := { st0 with req := { st0.req with path := page } })
    (HasHeaders.congr h2 rfl rfl) (session := session) (filename := name) h3 (by omega) hf hnd hsent (by omega)
  rw [g1]
  refine ⟨connection_close st', fileReply name session [], rfl, fileReply_head200 _ _, ?_, ?_, ?_, ?_⟩
  · show st'.sent = _
    rw [g2]
    have : St.sent { st0 with req := { st0.req with path := page } } = st.sent := by simp [St.sent, h5]
    rw [this]
  · show st'.req.response_length = _
    rw [g3]
  · show st'.fs = _
    rw [g5, ← h6]
  · show st'.closed ++ [st'.req.socket] = _
    rw [g7, g3]
    show st0.closed ++ [st0.req.socket] = _
    rw [h7, h8]

theorem open_not_dir {fs : FS} {name : Str} {c : List Byte} (h : fs.openRead name = some c) : fs.lookup name ≠ some .dir := by
  rw [openRead_of_lookup h]; simp

/-- C162 in full: what is delivered under a 200 head is the file as it was when it was opened, or when its length was taken, or when it was
read. -/
def C162_statement : Prop :=
  ∀ (m1 m2 m : Moments) (env : Env) (st : St) (socket : Nat) (peer path body page name content s : Str),
    StaticGet env st peer path body → Page env.wwwIndex env.favicon path page →
    Asks m1 m2 env.staticRoot env.wwwIndex page name m → m.open_.openRead name = some content →
    env.staticRoot.length ≤ 256 → env.wwwIndex.length ≤ 256 → env.favicon.length ≤ 256 →
    path = b!"/" ∨ path.getLast? ≠ some 47 → Stack env s → s ≠ [] → s.getLast? ≠ some 47 →
    (m.tell content).length + 1200 < 2 ^ 31 →
    ∃ st' head sent, accept_request m1 m2 env st socket peer = ok (st', []) ∧ Head200 head ∧
      st'.sent = st.sent ++ head ++ sent ∧ (sent = content ∨ sent = m.tell content ∨ sent = m.read content)

/-- C162, exactly: as many bytes as the file had when its length was taken; they are the first ones it has when it is read, and zeros for
what it does not have by then. -/
theorem C162_exact (m1 m2 m : Moments) (env : Env) (st : St) (socket : Nat) (peer path body page name content s : Str)
    (hreq : StaticGet env st peer path body) (hpage : Page env.wwwIndex env.favicon path page)
    (ha : Asks m1 m2 env.staticRoot env.wwwIndex page name m) (hopen : m.open_.openRead name = some content)
    (hroot : env.staticRoot.length ≤ 256) (hidx : env.wwwIndex.length ≤ 256) (hicon : env.favicon.length ≤ 256)
    (hfolder : path = b!"/" ∨ path.getLast? ≠ some 47) (hs : Stack env s) (hne : s ≠ []) (hlast : s.getLast? ≠ some 47)
    (hlen : (m.tell content).length + 1200 < 2 ^ 31) :
    ∃ st' head sent, accept_request m1 m2 env st socket peer = ok (st', []) ∧ Head200 head ∧
      st'.sent = st.sent ++ head ++ sent ∧ sent.length = (m.tell content).length ∧
      (∀ i, i < (m.tell content).length → sent[i]? = some ((m.read content)[i]?.getD 0)) ∧
      st'.req.response_length = head.length + sent.length ∧ st'.fs = st.fs ∧ st'.closed = st.closed ++ [socket] := by
  obtain ⟨st', head, e1, e2, e3, e4, e5, e6⟩ := request (sent := block m content) (socket := socket) hreq hpage ha (open_not_dir hopen) hroot hidx hicon
    hfolder hs hne hlast (by rw [hopen]) (by rw [block_length]; exact hlen)
  refine ⟨st', head, block m content, e1, e2, e3, block_length m content, fun i hi => ?_, e4, e5, e6⟩
  simp only [block, List.getElem?_append, List.length_take, List.getElem?_take]
  by_cases h : i < (m.read content).length
  · rw [if_pos (by omega), if_pos hi, List.getElem?_eq_getElem h]
    rfl
  · rw [if_neg (by omega), List.getElem?_replicate, if_pos (by omega), List.getElem?_eq_none (by omega : (m.read content).length ≤ i)]
    rfl

/-- C162, what holds: if a file, once there, is not changed but by adding to its end (pages are replaced by renaming new files over them), it is
delivered whole, as it was when its length was taken. Missing: files written anew in place. -/
theorem C162_partial (m1 m2 m : Moments) (env : Env) (st : St) (socket : Nat) (peer path body page name content s : Str)
    (hreq : StaticGet env st peer path body) (hpage : Page env.wwwIndex env.favicon path page)
    (ha : Asks m1 m2 env.staticRoot env.wwwIndex page name m) (hopen : m.open_.openRead name = some content)
    (hroot : env.staticRoot.length ≤ 256) (hidx : env.wwwIndex.length ≤ 256) (hicon : env.favicon.length ≤ 256)
    (hfolder : path = b!"/" ∨ path.getLast? ≠ some 47) (hs : Stack env s) (hne : s ≠ []) (hlast : s.getLast? ≠ some 47)
    (hlen : (m.tell content).length + 1200 < 2 ^ 31) (hgrow : m.tell content <+: m.read content) :
    ∃ st' head, accept_request m1 m2 env st socket peer = ok (st', []) ∧ Head200 head ∧
      st'.sent = st.sent ++ head ++ m.tell content ∧ st'.req.response_length = head.length + (m.tell content).length ∧
      st'.fs = st.fs ∧ st'.closed = st.closed ++ [socket] := by
  have hb : block m content = m.tell content := by
    obtain ⟨t, ht⟩ := hgrow
    simp [block, ← ht]
  rw [← hb] at hlen ⊢
  exact request hreq hpage ha (open_not_dir hopen) hroot hidx hicon hfolder hs hne hlast (by rw [hopen]) hlen

/-- C162, pages that go: if the file is there when it is looked for and cannot be opened any more, the answer is a 200 head with nothing after it, not
the index and not an error. -/
theorem C162_gone (m1 m2 m : Moments) (env : Env) (st : St) (socket : Nat) (peer path body page name s : Str)
    (hreq : StaticGet env st peer path body) (hpage : Page env.wwwIndex env.favicon path page)
    (ha : Asks m1 m2 env.staticRoot env.wwwIndex page name m) (hopen : m.open_.lookup name = none)
    (hroot : env.staticRoot.length ≤ 256) (hidx : env.wwwIndex.length ≤ 256) (hicon : env.favicon.length ≤ 256)
    (hfolder : path = b!"/" ∨ path.getLast? ≠ some 47) (hs : Stack env s) (hne : s ≠ []) (hlast : s.getLast? ≠ some 47) :
    ∃ st' head, accept_request m1 m2 env st socket peer = ok (st', []) ∧ Head200 head ∧
      st'.sent = st.sent ++ head ∧ st'.req.response_length = head.length ∧ st'.closed = st.closed ++ [socket] := by
  have hno : m.open_.openRead name = none := by
    cases h : m.open_.openRead name with
    | none => rfl
    | some c => rw [openRead_of_lookup h] at hopen; cases hopen
  obtain ⟨st', head, e1, e2, e3, e4, e5, e6⟩ := request (sent := []) (socket := socket) hreq hpage ha (by rw [hopen]; simp) hroot hidx hicon
    hfolder hs hne hlast (by rw [hno]) (by simp)
  exact ⟨st', head, e1, e2, by simpa using e3, by simpa using e4, e6⟩

theorem direct_still {env : Env} {st : St} {fs : FS} (h : st.fs = fs) (name : Str) :
    direct_file ⟨fs, fs, id, id⟩ env st name = Wayuu.direct_file env st name := by
  subst h
  unfold direct_file Wayuu.direct_file
  split
  · rfl
  · rename_i hf
    obtain ⟨c, hc⟩ := is_file_iff.mp (by simpa using hf : is_file st.fs name = true)
    have key : ∀ s : St, return_file ⟨st.fs, st.fs, id, id⟩ { s with fs := st.fs } name = Wayuu.return_file { s with fs := st.fs } name := by
      intro s
      unfold return_file Wayuu.return_file
      simp only [hc]
      cases st.fs.openRead name with
      | none => rfl
      | some c => simp [block]
    cases hr : return_headers st name with
    | ub f => rfl
    | ok p =>
      obtain ⟨hl, s⟩ := p
      have hs : s.fs = st.fs := return_headers_sameFs hr
      have := key s
      rw [← hs] at this ⊢
      simp only [ok_bind]
      rw [show return_file ⟨s.fs, s.fs, id, id⟩ s name = Wayuu.return_file s name from this]

theorem handle_still {env : Env} {st : St} {fs : FS} (h : st.fs = fs) :
    handle_static_routes ⟨fs, fs, id, id⟩ ⟨fs, fs, id, id⟩ env st = Wayuu.handle_static_routes env st := by
  unfold handle_static_routes Wayuu.handle_static_routes
  cases rewritePath env st.req.path with
  | ub f => rfl
  | ok p =>
    simp only [ok_bind]
    cases fmtInto 1024 (env.staticRoot ++ b!"/" ++ p) with
    | ub f => rfl
    | ok name =>
      simp only [ok_bind]
      rw [direct_still (by exact h)]
      cases hd : Wayuu.direct_file env { st with req := { st.req with path := p } } name with
      | ub f => rfl
      | ok x =>
        obtain ⟨r, s⟩ := x
        have hs : s.fs = fs := by rw [direct_file_sameFs hd]; exact h
        simp only [ok_bind, direct_still hs]

/-- C162, trees at rest: if nobody changes the tree, requests of every kind are served as the other properties say. -/
theorem C162_still (env : Env) (st : St) (socket : Nat) (peer : Str) :
    accept_request ⟨st.fs, st.fs, id, id⟩ ⟨st.fs, st.fs, id, id⟩ env st socket peer = Wayuu.accept_request env st socket peer := by
  have hd : ∀ (s : St) (url : Str) (n : Int) (b : Str), s.fs = st.fs →
      dispatch ⟨st.fs, st.fs, id, id⟩ ⟨st.fs, st.fs, id, id⟩ env s url n b = Wayuu.dispatch env s url n b := by
    intro s url n b h
    unfold dispatch Wayuu.dispatch
    cases get_path_and_query_string url with
    | ub f => rfl
    | ok x =>
      obtain ⟨path, query⟩ := x
      simp only [ok_bind]
      rw [handle_still (by exact h)]
  unfold accept_request Wayuu.accept_request
  refine then_congr fun ip => then_congr fun x => ?_
  obtain ⟨buf, inp, rl, method, j⟩ := x
  refine then_congr fun al => ?_
  simp only
  split
  · rfl
  · refine then_congr fun url => then_congr fun y => ?_
    obtain ⟨added, live⟩ := y
    simp only
    split
    · rfl
    · refine then_congr fun h => ?_
      refine congrArg (fun c => c >>= fun x => ok (connection_close x.1, x.2)) (hd _ _ _ _ ?_)
      rfl

/-- The tree of `bigFs`, whose file becomes other bytes. -/
def bigMoments (stat opened : Str) (tell read : List Byte → List Byte) : Moments := ⟨bigFs stat, bigFs opened, tell, read⟩

theorem big_asks (stat opened : Str) (tell read : List Byte → List Byte) (m2 : Moments) :
    Asks (bigMoments stat opened tell read) m2 sampleEnv.staticRoot sampleEnv.wwwIndex b!"/big" b!"/www//big"
      (bigMoments stat opened tell read) :=
  Or.inl ⟨⟨stat, big_lookup stat⟩, rfl, rfl⟩

/-- C162 is false: a page "ab" that is being written anew is delivered as two zero bytes, which it never was. -/
theorem C162_refuted : ¬ C162_statement := by
  intro h
  obtain ⟨st', head, sent, e1, ⟨-, t, e2⟩, e3, e4⟩ := h (bigMoments b!"ab" b!"ab" id (fun _ => [])) (bigMoments b!"ab" b!"ab" id (fun _ => []))
    (bigMoments b!"ab" b!"ab" id (fun _ => [])) sampleEnv (bigSt b!"ab") 7 b!"10.0.0.1" b!"/big" [] b!"/big" b!"/www//big" b!"ab" b!"A" (big_get _)
    (Or.inr (Or.inr (Or.inr ⟨by decide, by decide, by decide, rfl⟩))) (big_asks _ _ _ _ _) (big_open _)
    (by decide) (by decide) (by decide) (Or.inr (by decide)) ⟨[], rfl, by decide⟩ (by decide) (by decide) (by decide)
  have hw : (accept_request (bigMoments b!"ab" b!"ab" id (fun _ => [])) (bigMoments b!"ab" b!"ab" id (fun _ => [])) sampleEnv (bigSt b!"ab") 7
      b!"10.0.0.1").bind (fun x => ok x.1.sent.getLast?) = ok (some 0) := by
    decide +kernel
  rw [e1] at hw
  have hw : st'.sent.getLast? = some 0 := by simpa [C.bind] using hw
  rw [e3, ← e2] at hw
  rcases e4 with rfl | rfl | rfl <;> simp [bigMoments] at hw

/-- C162, a page replaced by another one between two calls: the new one is delivered. -/
example (old new : Str) (h : new.length + 1200 < 2 ^ 31) (m2 : Moments) :
    ∃ st' head, accept_request (bigMoments old new id id) m2 sampleEnv (bigSt old) 7 b!"10.0.0.1" = ok (st', []) ∧
      st'.sent = (bigSt old).sent ++ head ++ new := by
  obtain ⟨st', head, e1, -, e3, -⟩ := C162_partial (bigMoments old new id id) m2 _ sampleEnv (bigSt old) 7 b!"10.0.0.1" b!"/big" [] b!"/big"
    b!"/www//big" new b!"A" (big_get _) (Or.inr (Or.inr (Or.inr ⟨by decide, by decide, by decide, rfl⟩))) (big_asks _ _ _ _ _) (big_open _)
    (by decide) (by decide) (by decide) (Or.inr (by decide)) ⟨[], rfl, by decide⟩ (by decide) (by decide) h (List.prefix_refl _)
  exact ⟨st', head, e1, e3⟩

/-- C162, a page written anew by a shorter one after its length was taken: the shorter one and zeros. -/
example : (accept_request (bigMoments b!"hello" b!"hello" id (fun _ => b!"new")) (bigMoments b!"" b!"" id id) sampleEnv (bigSt b!"hello") 7
    b!"10.0.0.1").bind (fun x => ok (x.1.sent.drop (x.1.sent.length - 5))) = ok (b!"new" ++ [0, 0]) := by
  decide +kernel

/-- C162, a page removed after it was found. -/
example : ∃ st' head, accept_request ⟨bigFs b!"ab", ⟨fun _ => none, fun _ => true, fun _ => true⟩, id, id⟩ (bigMoments b!"" b!"" id id) sampleEnv
    (bigSt b!"ab") 7 b!"10.0.0.1" = ok (st', []) ∧ st'.sent = (bigSt b!"ab").sent ++ head := by
  obtain ⟨st', head, e1, -, e3, -⟩ := C162_gone ⟨bigFs b!"ab", ⟨fun _ => none, fun _ => true, fun _ => true⟩, id, id⟩ (bigMoments b!"" b!"" id id) _
    sampleEnv (bigSt b!"ab") 7 b!"10.0.0.1" b!"/big" [] b!"/big" b!"/www//big" b!"A" (big_get _)
    (Or.inr (Or.inr (Or.inr ⟨by decide, by decide, by decide, rfl⟩))) (Or.inl ⟨⟨b!"ab", big_lookup _⟩, rfl, rfl⟩) (by decide +kernel)
    (by decide) (by decide) (by decide) (Or.inr (by decide)) ⟨[], rfl, by decide⟩ (by decide) (by decide)
  exact ⟨st', head, e1, e3⟩

end Wayuu.Changing
