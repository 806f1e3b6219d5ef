import Verif.Lemmas.Static
import Verif.Props.Admission
/-
Properties C54, C55, C62 (ws.c:313-350 and what is sent for a request in any case).
-/
namespace Wayuu
open C Spec

/-! ### C54 -/

/-- C54 in full: what a request outside /api does depends on no file outside the static root. -/
def C54_statement : Prop :=
  ∀ (env : Env) (st : St) (fs : FS) (socket : Nat) (peer line text method url rest : Str),
    peer.length < 24 → Begins st.input line text method url rest → Supported method → ¬ CasePrefix b!"/api" url →
    NoDotDot env.staticRoot → NoDotDot env.wwwIndex → NoDotDot env.favicon →
    SameUnder (place env.staticRoot) st.fs fs →
    accept_request env (st.withFs fs) socket peer =
      (accept_request env st socket peer).bind (fun x => ok (x.1.withFs fs, x.2))

/-- A directory with the static root /www and a file /secret. -/
def secretFs (content : Option (List Byte)) : FS :=
  ⟨fun p => if p = [b!"www"] then some .dir else if p = [b!"secret"] then content.map .file else none,
   fun _ => true, fun _ => true⟩

/-- A request for that file. -/
def secretSt (content : Option (List Byte)) : St :=
  { sampleSt with live := [⟨0, [], []⟩], input := b!"GET /../secret HTTP/1.1\r\n\r\n", fs := secretFs content }

theorem noDotDot_of {path : Str} (h : b!".." ∉ FS.comps path) : NoDotDot path := by
  rintro ⟨a, b, rfl, h1, h2⟩
  apply h
  have hb : ∀ t : Str, b!".." ∈ FS.comps (t ++ b!"..") → b!".." ∈ FS.comps (t ++ b!".." ++ b) := by
    intro t ht
    rcases h2 with rfl | h2
    · simpa using ht
    · cases b with
      | nil => simp at h2
      | cons c b =>
        simp only [List.head?_cons, Option.some.injEq] at h2
        subst h2
        rw [comps_append]
        exact List.mem_append_left _ ht
  rcases h1 with rfl | h1
  · exact hb [] (by decide)
  · apply hb
    obtain ⟨a', rfl⟩ : ∃ a', a = a' ++ [47] := by
      have hne : a ≠ [] := by rintro rfl; simp at h1
      rw [List.getLast?_eq_some_getLast hne, Option.some.injEq] at h1
      exact ⟨a.dropLast, by rw [← h1, List.dropLast_concat_getLast]⟩
    rw [List.append_assoc]
    show _ ∈ FS.comps (a' ++ 47 :: b!"..")
    rw [comps_append]
    exact List.mem_append_right _ (by decide)

theorem begins_secret : Begins b!"GET /../secret HTTP/1.1\r\n\r\n" b!"GET /../secret HTTP/1.1\r\n"
    b!"GET /../secret HTTP/1.1\r\n" b!"GET" b!"/../secret" b!"\r\n" :=
  ⟨⟨by decide, by decide, by decide, by decide⟩, ⟨by decide, Or.inl rfl⟩,
    ⟨b!" ", 32, b!"HTTP/1.1\r\n", rfl, by unfold White; decide, by decide, by unfold White; decide, by decide,
      by unfold White; decide, by unfold White; decide⟩, by decide, by decide⟩

/-- The file outside the root is sent. -/
theorem C54_leak : (accept_request sampleEnv (secretSt (some b!"pw")) 7 b!"10.0.0.1").bind (fun x => ok (x.1.sent.drop 102)) =
    ok b!"pw" := by decide +kernel

theorem C54_refuted : ¬ C54_statement := by
  intro h
  have := h sampleEnv (secretSt none) (secretFs (some b!"pw")) 7 b!"10.0.0.1" _ _ _ _ _ (by decide) begins_secret
    ⟨b!"GET", by decide, (startswith_iff _ _).mp (by decide)⟩ (by rw [← startswith_iff]; decide)
    (noDotDot_of (by decide)) (noDotDot_of (by decide)) (noDotDot_of (by decide)) (by
      rw [show place sampleEnv.staticRoot = [b!"www"] by decide]
      intro p hp
      refine ⟨?_, rfl⟩
      have hne : p ≠ [b!"secret"] := by
        rintro rfl
        rcases hp with hp | hp <;> revert hp <;> decide
      simp [secretSt, secretFs, hne])
  have key := C54_leak
  change (accept_request sampleEnv ((secretSt none).withFs (secretFs (some b!"pw"))) 7 b!"10.0.0.1").bind _ = _ at key
  rw [this] at key
  have k2 : (accept_request sampleEnv (secretSt none) 7 b!"10.0.0.1").bind (fun x => ok x.1.sent) = ok [] := by decide +kernel
  cases hx : accept_request sampleEnv (secretSt none) 7 b!"10.0.0.1" with
  | ub f => rw [hx] at k2; cases k2
  | ok x =>
    rw [hx] at k2 key
    simp only [C.bind, ok.injEq] at k2 key
    have : (x.1.withFs (secretFs (some b!"pw"))).sent = x.1.sent := rfl
    rw [this, k2] at key
    cases key

/-- C54, what holds: if no component of the path is "..", the outcome of a request outside /api is the same in any two
file trees that agree under the static root (in particular no byte of any other file can be sent). Missing: paths with "..". -/
theorem C54_partial (env : Env) (st : St) (fs : FS) (socket : Nat) (peer line text method url rest path query : Str)
    (hp : peer.length < 24) (hb : Begins st.input line text method url rest) (hs : Supported method)
    (hu : ¬ CasePrefix b!"/api" url) (hparts : UrlParts url path query) (hpath : path ≠ []) (hq : (63 : Byte) ∉ query)
    (hdd : NoDotDot path) (hroot : NoDotDot env.staticRoot) (hidx : NoDotDot env.wwwIndex) (hicon : NoDotDot env.favicon)
    (hfs : SameUnder (place env.staticRoot) st.fs fs) :
    accept_request env (st.withFs fs) socket peer =
      (accept_request env st socket peer).bind (fun x => ok (x.1.withFs fs, x.2)) := by
  show Via (fsAnd fs) _ _
  have hget : get_path_and_query_string url = ok (path, query) :=
    C36_partial url path query hb.nulFree hb.2.2.2.2 hparts hpath hq
  have hname : ∀ p, NoDotDot p → is_file st.fs (env.staticRoot ++ b!"/" ++ p) = is_file fs (env.staticRoot ++ b!"/" ++ p) ∧
      st.fs.openRead (env.staticRoot ++ b!"/" ++ p) = fs.openRead (env.staticRoot ++ b!"/" ++ p) := by
    intro p hp
    rw [show env.staticRoot ++ b!"/" ++ p = env.staticRoot ++ 47 :: p by simp]
    exact sameUnder_file hroot hp hfs
  rw [begins_line hb hp hs, begins_line (st := st.withFs fs) hb hp hs]
  refine .same (x := connection_add env.limits st.live socket peer url) fun a _ => ?_
  obtain ⟨added, live⟩ := a
  dsimp only
  cases added with
  | false =>
    simp only [Bool.not_false, if_true]
    exact .bind (send_http_status_fs env fs { st with input := rest, live := live, req :=
          { lineReq socket peer (text.take (text.length - 2)) method with url := url } } 429 []) fun _ _ => .ok rfl
  | true =>
    simp only [Bool.not_true, Bool.false_eq_true, if_false]
    refine .same fun h _ => ?_
    refine .bind (T := fsAnd fs) ?_ fun _ _ => .ok rfl
    rw [dispatch_static hu hget, dispatch_static hu hget]
    refine .bind (T := (St.withFs · fs)) ?_ fun _ _ => .ok rfl
    show Via _ (if strcaseEq method b!"GET" = true then _ else _) (if strcaseEq method b!"GET" = true then _ else _)
    split
    · refine handle_static_fs env fs _ ?_
      rintro p (hp | rfl)
      · apply hname
        rcases rewritePath_cases hp with rfl | rfl | rfl | rfl
        · exact hidx
        · exact hicon
        · exact hdd.index
        · exact hdd
      · exact hname _ hidx
    · exact send_http_status_fs env fs { servedSt st live socket peer (text.take (text.length - 2)) method url h with
        req := { headReq socket peer (text.take (text.length - 2)) method url h with query_string := query, path := path } } 400 []

example : NoDotDot b!"/a..b/.../c" ∧ ¬ NoDotDot b!"/a/../b" :=
  ⟨noDotDot_of (by decide), fun h => h ⟨b!"/a/", b!"/b", rfl, Or.inr rfl, Or.inr rfl⟩⟩
example : SameUnder (place b!"/www/") (secretFs none) (secretFs (some b!"pw")) := by
  rw [show place b!"/www/" = [b!"www"] by decide]
  intro p hp
  refine ⟨?_, rfl⟩
  have hne : p ≠ [b!"secret"] := by
    rintro rfl
    rcases hp with hp | hp <;> revert hp <;> decide
  simp [secretFs, hne]

/-! ### C55 -/

/-- An admitted GET request outside /api for this path, with these header lines, which fit; `body` is what follows it. -/
def StaticHead (env : Env) (st : St) (peer path body : Str) (lines : List (List Byte)) : Prop :=
  ∃ line text method url rest query hs,
    env.limits.length ≤ 64 ∧ (∀ l ∈ env.limits, l.path ≠ []) ∧ peer.length < 16 ∧
    Begins st.input line text method url rest ∧ CaseEq method b!"GET" ∧ ¬ CasePrefix b!"/api" url ∧
    UrlParts url path query ∧ path ≠ [] ∧ (63 : Byte) ∉ query ∧ Admits env.limits st.live peer url ∧
    Section rest lines body ∧ (∀ l ∈ lines, ∀ t, BeforeNul l t → ¬ Overrun t) ∧ Named lines hs ∧
    FitsLog (hs.take 20)

/-- The same with any header lines. -/
def StaticGet (env : Env) (st : St) (peer path body : Str) : Prop := ∃ lines, StaticHead env st peer path body lines

/-- How such a request reaches the code for static files. -/
theorem static_head_reaches {env : Env} {st : St} {socket : Nat} {peer path body : Str} {lines : List (List Byte)}
    (h : StaticHead env st peer path body lines) :
    ∃ (st0 : St) (hs : List (Str × Str)) (session : Str), st0.req.path = path ∧ st0.req.HasHeaders hs ∧
      cstr st0.req.session = ok session ∧ session.length < 64 ∧ st0.out = st.out ∧ st0.fs = st.fs ∧ st0.closed = st.closed ∧
      st0.req.socket = socket ∧ st0.input = body ∧ path.length ≤ 254 ∧
      accept_request env st socket peer = (handle_static_routes env st0).bind (fun s => ok (connection_close s, [])) ∧
      ∃ (line rest : List Byte) (x : HdrSt), LineBuf (lineBytes line) ∧ Section rest lines body ∧
        parseHeaders ((lineBytes line).map some) rest peer = ok x ∧ cstr x.session = ok session := by
  obtain ⟨line, text, method, url, rest, query, hs, hlim, hne, hp, hb, hm, hu, hparts, hpath, hq, hadm, hsec, ho, hn, hfit⟩ := h
  have hsup : Supported method := ⟨b!"GET", by simp, method, [], by simp, hm⟩
  obtain ⟨a, c, b, e1, e2, e3, hadd⟩ := (connection_add_admits (socket := socket) hlim hne
    (show url.length < 512 by have := hb.2.2.2.2; omega) hp).1 hadm
  obtain ⟨x, hh1, hh2, hh3⟩ := head_ok hsec ho hn hfit (lineBytes_buf hb.1.2.1) peer
  have hget : get_path_and_query_string url = ok (path, query) :=
    C36_partial url path query hb.nulFree hb.2.2.2.2 hparts hpath hq
  obtain ⟨g1, g2, g3⟩ := lineBytes_buf hb.1.2.1
  obtain ⟨-, session, s1, s2⟩ := C43_bounded (lineBytes line) rest body lines peer x g1 (by rw [g3]; simp) hsec hh1
  refine ⟨{ servedSt st (a ++ ⟨socket, url, peer⟩ :: b) socket peer (text.take (text.length - 2)) method url x with
    req := { headReq socket peer (text.take (text.length - 2)) method url x with query_string := query, path := path } },
    hs.take 20, session, rfl, hh3 _ rfl rfl, s1, s2, rfl, rfl, rfl, rfl, hh2, ?_, ?_,
    line, rest, x, lineBytes_buf hb.1.2.1, hsec, hh1, s1⟩
  · have := hb.2.2.2.2
    rcases hparts with ⟨rfl, -⟩ | ⟨rfl, -⟩
    · exact this
    · simp at this; omega
  · rw [served_eq hb (by omega) hsup hadd, hh1]
    show (dispatch _ _ _ _ _).bind _ = _
    rw [dispatch_static hu hget, if_pos (show strcaseEq (servedSt st (a ++ ⟨socket, url, peer⟩ :: b) socket peer (text.take (text.length - 2)) method url x).req.method b!"GET" = true from (strcaseEq_iff _ _).mpr hm)]
    show C.bind (C.bind _ _) _ = _
    generalize hx : handle_static_routes env _ = y
    have : handle_static_routes env { servedSt st (a ++ ⟨socket, url, peer⟩ :: b) socket peer (text.take (text.length - 2)) method url x with
      req := { headReq socket peer (text.take (text.length - 2)) method url x with query_string := query, path := path } } = y := hx
    rw [this]
    cases y <;> rfl

theorem static_reaches {env : Env} {st : St} {socket : Nat} {peer path body : Str} (h : StaticGet env st peer path body) :
    ∃ (st0 : St) (hs : List (Str × Str)) (session : Str), st0.req.path = path ∧ st0.req.HasHeaders hs ∧
      cstr st0.req.session = ok session ∧ session.length < 64 ∧ st0.out = st.out ∧ st0.fs = st.fs ∧ st0.closed = st.closed ∧
      st0.req.socket = socket ∧ st0.input = body ∧ path.length ≤ 254 ∧
      accept_request env st socket peer = (handle_static_routes env st0).bind (fun s => ok (connection_close s, [])) := by
  obtain ⟨lines, h⟩ := h
  obtain ⟨st0, hs, session, h1, h2, h3, h4, h5, h6, h7, h8, h9, h10, h11, -⟩ := static_head_reaches (socket := socket) h
  exact ⟨st0, hs, session, h1, h2, h3, h4, h5, h6, h7, h8, h9, h10, h11⟩

/-- C55 in full: the file for the page the path asks for is sent after a 200 head. -/
def C55_statement : Prop :=
  ∀ (env : Env) (st : St) (socket : Nat) (peer path body page name content : Str),
    StaticGet env st peer path body → Page env.wwwIndex env.favicon path page →
    Served st.fs env.staticRoot env.wwwIndex page name → st.fs.openRead name = some content →
    env.staticRoot.length ≤ 256 → env.wwwIndex.length ≤ 256 → env.favicon.length ≤ 256 → content.length + 1200 < 2 ^ 31 →
    ∃ st' head, accept_request env st socket peer = ok (st', []) ∧ st'.sent = st.sent ++ head ++ content ∧
      b!"HTTP/1.1 200 OK\r\n" <+: head

/-- What was on the stack before the path is built, up to its first NUL. -/
def Stack (env : Env) (s : Str) : Prop := ∃ r, env.junk = s ++ 0 :: r ∧ NulFree s

theorem rewritePath_eq {env : Env} {s : Str} (hs : Stack env s) (path : Str) (hlen : path.length ≤ 254) :
    rewritePath env path =
      if path = b!"/" ∨ path = b!"/index.html" then ok env.wwwIndex
      else if path = b!"/favicon.ico" then ok env.favicon
      else if s = [] then ub .oob
      else if s.getLast? = some 47 then ok (path ++ b!"index.html") else ok path := by
  obtain ⟨r, hj, hz⟩ := hs
  unfold rewritePath
  have e : cstr (env.junk.map some) = ok s := by
    rw [hj, List.map_append]
    exact cstr_mk hz _
  rw [e]
  simp only [ok_bind, Bool.or_eq_true, strEq, beq_iff_eq]
  split
  · rfl
  · split
    · rfl
    · by_cases h0 : s = []
      · subst h0
        simp [Buf.loadI]
      · rw [if_neg h0]
        have hl : 0 < s.length := List.length_pos_iff.mpr h0
        have hld : Buf.loadI (env.junk.map some) ((s.length : Int) - 1) = ok (s.getLast h0) := by
          unfold Buf.loadI
          rw [if_neg (by omega), show ((s.length : Int) - 1).toNat = s.length - 1 by omega, hj]
          unfold Buf.load
          simp only [List.map_append, List.getElem?_append, List.length_map]
          simp [show s.length - 1 < s.length by omega, List.getLast_eq_getElem]
        rw [hld]
        simp only [ok_bind, List.getLast?_eq_some_getLast h0, Option.some.injEq]
        split
        · exact fmtInto_ok (by simp only [List.length_append, List.length_cons, List.length_nil]; omega)
        · rfl

/-- What `handle_static_routes` sends once the path is rewritten. -/
theorem handle_static_serves {env : Env} {st : St} {hs : List (Str × Str)} {session page name content : Str}
    (hh : st.req.HasHeaders hs) (hse : cstr st.req.session = ok session) (hsl : session.length < 64)
    (hpage : rewritePath env st.req.path = ok page) (hserved : Served st.fs env.staticRoot env.wwwIndex page name)
    (hopen : st.fs.openRead name = some content) (hroot : env.staticRoot.length ≤ 256) (hidx : env.wwwIndex.length ≤ 256)
    (hpl : page.length ≤ 300) (hlen : content.length + 1200 < 2 ^ 31) :
    ∃ st', handle_static_routes env st = ok st' ∧ st'.sent = st.sent ++ fileReply name session content ∧
      st'.fs = st.fs ∧ st'.input = st.input ∧ st'.closed = st.closed ∧ st'.live = st.live ∧ st'.req.socket = st.req.socket := by
  have hl1 : (env.staticRoot ++ b!"/" ++ page).length + 1 ≤ 1024 := by simp; omega
  have hl2 : (env.staticRoot ++ b!"/" ++ env.wwwIndex).length + 1 ≤ 1024 := by simp; omega
  unfold handle_static_routes
  rw [hpage]
  simp only [ok_bind]
  rw [fmtInto_ok hl1]
  simp only [ok_bind]
  rcases hserved with ⟨⟨c, hc⟩, rfl⟩ | ⟨hno, rfl⟩
  · obtain ⟨st', e1, e2, e3, -, e5, e6, e7, e8⟩ := direct_file_eq (env := env) (st := { st with req := { st.req with path := page } })
      (HasHeaders.congr hh rfl rfl) hse (by omega) hopen hlen
    rw [e1]
    exact ⟨st', rfl, e2, e6, e5, e8, e7, by rw [e3]⟩
  · have hf : is_file st.fs (env.staticRoot ++ b!"/" ++ page) = false := by
      rw [← Bool.not_eq_true, is_file_iff]
      rintro ⟨c, hc⟩
      exact hno c hc
    have hd : direct_file env { st with req := { st.req with path := page } } (env.staticRoot ++ b!"/" ++ page) =
        ok (-1, { st with req := { st.req with path := page } }) := by
      unfold direct_file
      simp only [hf, Bool.not_false, if_true]
    rw [hd]
    simp only [ok_bind, show (-1 : Int) < 0 by decide, if_true]
    rw [fmtInto_ok hl2]
    simp only [ok_bind]
    obtain ⟨st', e1, e2, e3, -, e5, e6, e7, e8⟩ := direct_file_eq (env := env) (st := { st with req := { st.req with path := page } })
      (HasHeaders.congr hh rfl rfl) hse (by omega) hopen hlen
    rw [e1]
    exact ⟨st', rfl, e2, e6, e5, e8, e7, by rw [e3]⟩

/-- The whole request, once the path is known to be rewritten to `page`. -/
theorem static_serves {env : Env} {st : St} {socket : Nat} {peer path body page name content : Str}
    (hreq : StaticGet env st peer path body) (hpage : path.length ≤ 254 → rewritePath env path = ok page)
    (hserved : Served st.fs env.staticRoot env.wwwIndex page name) (hopen : st.fs.openRead name = some content)
    (hroot : env.staticRoot.length ≤ 256) (hidx : env.wwwIndex.length ≤ 256) (hicon : env.favicon.length ≤ 256)
    (hlen : content.length + 1200 < 2 ^ 31) :
    ∃ st' head, accept_request env st socket peer = ok (st', []) ∧ st'.sent = st.sent ++ head ++ content ∧
      b!"HTTP/1.1 200 OK\r\n" <+: head ∧ st'.fs = st.fs ∧ st'.closed = st.closed ++ [socket] := by
  obtain ⟨st0, hs, session, h1, h2, h3, h4, h5, h6, h7, h8, h9, h10, h11⟩ := static_reaches (socket := socket) hreq
  have hp := hpage h10
  have hpl : page.length ≤ 300 := by
    rcases rewritePath_cases hp with rfl | rfl | rfl | rfl
    · omega
    · omega
    · simp; omega
    · omega
  rw [← h1] at hp
  rw [← h6] at hserved hopen
  obtain ⟨st1, g1, g2, g3, g4, g5, g6, g7⟩ := handle_static_serves h2 h3 h4 hp hserved hopen hroot hidx hpl hlen
  refine ⟨connection_close st1, fileHead ++ fileHead ++ get_content_type name ++ sessionText session ++ [13, 10], ?_, ?_, ?_, ?_, ?_⟩
  · rw [h11, g1]; rfl
  · show st1.sent = _
    rw [g2]
    have : st0.sent = st.sent := by simp [St.sent, h5]
    rw [this, fileReply]
    simp
  · rw [show fileHead = b!"HTTP/1.1 200 OK\r\n" ++ WAYUU_HTTP_SERVER_STRING from rfl]
    simp only [List.append_assoc]
    exact List.prefix_append _ _
  · show st1.fs = _
    rw [g3, h6]
  · show st1.closed ++ [st1.req.socket] = _
    rw [g5, g7, h7, h8]

theorem rewritePath_page {env : Env} {path page s : Str} (hpage : Page env.wwwIndex env.favicon path page)
    (hfolder : path = b!"/" ∨ path.getLast? ≠ some 47) (hs : Stack env s) (hne : s ≠ []) (hlast : s.getLast? ≠ some 47)
    (hl : path.length ≤ 254) : rewritePath env path = ok page := by
  rw [rewritePath_eq hs path hl]
  rcases hpage with ⟨h1, rfl⟩ | ⟨rfl, rfl⟩ | ⟨h1, h2, rfl⟩ | ⟨h1, h2, h3, rfl⟩
  · rw [if_pos h1]
  · rw [if_neg (by decide), if_pos rfl]
  · rcases hfolder with h | h
    · exact absurd h h1
    · exact absurd h2 h
  · have : page ≠ b!"/" := by rintro rfl; exact h3 rfl
    rw [if_neg (by tauto), if_neg h2, if_neg hne, if_neg hlast]

/-- C55, what holds for every path that does not end in '/' (and for "/" itself), if the stack happens to hold a
non-empty string without a final '/': the file of that name, or else the site index. Missing: folders; other stacks. -/
theorem C55_partial (env : Env) (st : St) (socket : Nat) (peer path body page name content s : Str)
    (hreq : StaticGet env st peer path body) (hpage : Page env.wwwIndex env.favicon path page)
    (hserved : Served st.fs env.staticRoot env.wwwIndex page name) (hopen : st.fs.openRead name = some content)
    (hroot : env.staticRoot.length ≤ 256) (hidx : env.wwwIndex.length ≤ 256) (hicon : env.favicon.length ≤ 256)
    (hlen : content.length + 1200 < 2 ^ 31)
    (hfolder : path = b!"/" ∨ path.getLast? ≠ some 47) (hs : Stack env s) (hne : s ≠ []) (hlast : s.getLast? ≠ some 47) :
    ∃ st' head, accept_request env st socket peer = ok (st', []) ∧ st'.sent = st.sent ++ head ++ content ∧
      b!"HTTP/1.1 200 OK\r\n" <+: head ∧ st'.fs = st.fs ∧ st'.closed = st.closed ++ [socket] := by
  exact static_serves hreq (rewritePath_page hpage hfolder hs hne hlast) hserved hopen hroot hidx hicon hlen

/-- C55, the three rewritten paths: right whatever the stack (if it holds a string at all). -/
theorem C55_rewritten (env : Env) (st : St) (socket : Nat) (peer path body page name content s : Str)
    (hreq : StaticGet env st peer path body)
    (hpath : path = b!"/" ∨ path = b!"/index.html" ∨ path = b!"/favicon.ico") (hpage : Page env.wwwIndex env.favicon path page)
    (hserved : Served st.fs env.staticRoot env.wwwIndex page name) (hopen : st.fs.openRead name = some content)
    (hroot : env.staticRoot.length ≤ 256) (hidx : env.wwwIndex.length ≤ 256) (hicon : env.favicon.length ≤ 256)
    (hlen : content.length + 1200 < 2 ^ 31) (hs : Stack env s) :
    ∃ st' head, accept_request env st socket peer = ok (st', []) ∧ st'.sent = st.sent ++ head ++ content ∧
      b!"HTTP/1.1 200 OK\r\n" <+: head ∧ st'.fs = st.fs ∧ st'.closed = st.closed ++ [socket] := by
  refine static_serves hreq (fun hl => ?_) hserved hopen hroot hidx hicon hlen
  rw [rewritePath_eq hs path hl]
  rcases hpage with ⟨h1, rfl⟩ | ⟨rfl, rfl⟩ | ⟨h1, h2, rfl⟩ | ⟨h1, h2, h3, rfl⟩
  · rw [if_pos h1]
  · rw [if_neg (by decide), if_pos rfl]
  · exfalso
    rcases hpath with rfl | rfl | rfl
    · exact h1 rfl
    · revert h2; decide
    · revert h2; decide
  · exfalso
    rcases hpath with rfl | rfl | rfl
    · exact h3 rfl
    · exact h1 rfl
    · exact h2 rfl

/-- C55, the other stacks: with a string that ends in '/', every other path (folder or not) gets "index.html" appended;
with an empty string the byte before the array is read. -/
theorem C55_stack (env : Env) (st : St) (socket : Nat) (peer path body s : Str)
    (hreq : StaticGet env st peer path body)
    (hpath : path ≠ b!"/" ∧ path ≠ b!"/index.html" ∧ path ≠ b!"/favicon.ico") (hs : Stack env s) :
    (s = [] → accept_request env st socket peer = ub .oob) ∧
    (s.getLast? = some 47 → ∀ name content, Served st.fs env.staticRoot env.wwwIndex (path ++ b!"index.html") name →
      st.fs.openRead name = some content → env.staticRoot.length ≤ 256 → env.wwwIndex.length ≤ 256 →
      env.favicon.length ≤ 256 → content.length + 1200 < 2 ^ 31 →
      ∃ st' head, accept_request env st socket peer = ok (st', []) ∧ st'.sent = st.sent ++ head ++ content) := by
  constructor
  · rintro rfl
    obtain ⟨st0, hs', session, h1, h2, h3, h4, h5, h6, h7, h8, h9, h10, h11⟩ := static_reaches (socket := socket) hreq
    have : rewritePath env st0.req.path = ub .oob := by
      rw [h1, rewritePath_eq hs path h10, if_neg (by tauto), if_neg hpath.2.2, if_pos rfl]
    rw [h11]
    unfold handle_static_routes
    rw [this]
    rfl
  · intro hl name content hserved hopen hroot hidx hicon hlen
    obtain ⟨st', head, h1, h2, -⟩ := static_serves (socket := socket) hreq (fun h => by
      rw [rewritePath_eq hs path h, if_neg (by tauto), if_neg hpath.2.2, if_neg (by rintro rfl; simp at hl), if_pos hl])
      hserved hopen hroot hidx hicon hlen
    exact ⟨st', head, h1, h2⟩

/-- A tree with a folder that has an index page, the site index and a plain file. -/
def docsFs : FS :=
  ⟨fun p => if p = [b!"www"] ∨ p = [b!"www", b!"docs"] then some .dir
    else if p = [b!"www", b!"docs", b!"index.html"] then some (.file b!"folder")
    else if p = [b!"www", b!"index.html"] then some (.file b!"site")
    else if p = [b!"www", b!"a.txt"] then some (.file b!"plain") else none,
   fun _ => true, fun _ => true⟩

/-- A GET request in that tree. -/
def docsSt (url : Str) : St :=
  { sampleSt with live := [⟨0, [], []⟩], input := b!"GET " ++ url ++ b!" HTTP/1.1\r\n\r\n", fs := docsFs }

theorem docs_get {url : Str} (h1 : url.length ≤ 254) (h2 : url ≠ []) (h3 : ∀ c ∈ url, ¬ White c ∧ c ≠ 0 ∧ c ≠ 63)
    (h4 : startswith url b!"/api" = false) :
    StaticGet sampleEnv (docsSt url) b!"10.0.0.1" url [] := by
  have hn10 : ∀ c ∈ url, c ≠ 10 := by
    rintro c hc rfl
    exact (h3 _ hc).1 (Or.inr (by decide))
  refine ⟨[], b!"GET " ++ url ++ b!" HTTP/1.1\r\n", b!"GET " ++ url ++ b!" HTTP/1.1\r\n", b!"GET", url, b!"\r\n", [], [], by decide, by decide, by decide,
    ⟨⟨by show b!"GET " ++ url ++ b!" HTTP/1.1\r\n\r\n" = _; simp, by simp; omega, ?_, Or.inr (Or.inl (by rw [List.getLast?_append_of_ne_nil _ (by decide)]; rfl))⟩, ⟨?_, Or.inl rfl⟩,
    ⟨b!" ", 32, b!"HTTP/1.1\r\n", by simp, by unfold White; decide, by decide, by unfold White; decide, h2,
      fun c hc => (h3 c hc).1, by unfold White; decide⟩, by decide, h1⟩, rfl, ?_, Or.inl ⟨rfl, rfl, fun h => (h3 _ h).2.2 rfl⟩, h2, by simp,
    ⟨⟨⟨0, [], []⟩, by simp [docsSt], rfl⟩, by intro l hl; simp [sampleEnv] at hl⟩, .blank _ b!"\r\n" _ ⟨by decide, by decide, by decide, by decide⟩ (by decide),
    by simp, .nil, fitsLog_of_short (by simp)⟩
  · intro h
    rw [List.dropLast_append_of_ne_nil (by decide)] at h
    rcases List.mem_append.mp h with h | h
    · rcases List.mem_append.mp h with h | h
      · revert h; decide
      · exact hn10 _ h rfl
    · revert h; decide
  · intro c hc
    rcases List.mem_append.mp hc with h | h
    · clear hc
      rcases List.mem_append.mp h with h2 | h
      · clear h; revert h2; revert c; decide
      · exact (h3 c h).2.1
    · clear hc; revert h; revert c; decide
  · rw [← startswith_iff, h4]; simp

theorem C55_refuted : ¬ C55_statement := by
  intro h
  obtain ⟨st', head, h1, h2, -⟩ := h sampleEnv (docsSt b!"/docs/") 7 b!"10.0.0.1" b!"/docs/" [] b!"/docs/index.html"
    b!"/www//docs/index.html" b!"folder" (docs_get (by decide) (by decide) (by unfold White; decide) (by decide))
    (Or.inr (Or.inr (Or.inl ⟨by decide, by decide, by decide⟩)))
    (Or.inl ⟨⟨b!"folder", by decide +kernel⟩, by decide⟩) (by decide +kernel) (by decide) (by decide) (by decide) (by decide)
  have key : (accept_request sampleEnv (docsSt b!"/docs/") 7 b!"10.0.0.1").bind (fun x => ok (x.1.sent.reverse.take 4)) =
      ok b!"etis" := by decide +kernel
  rw [h1] at key
  simp only [C.bind, h2, ok.injEq] at key
  rw [List.reverse_append] at key
  simp at key

example : StaticGet sampleEnv (docsSt b!"/a.txt") b!"10.0.0.1" b!"/a.txt" [] ∧ Stack sampleEnv b!"A" ∧
    Page sampleEnv.wwwIndex sampleEnv.favicon b!"/a.txt" b!"/a.txt" ∧
    Served docsFs sampleEnv.staticRoot sampleEnv.wwwIndex b!"/a.txt" b!"/www//a.txt" ∧
    docsFs.openRead b!"/www//a.txt" = some b!"plain" :=
  ⟨docs_get (by decide) (by decide) (by unfold White; decide) (by decide), ⟨[], rfl, by decide⟩,
    Or.inr (Or.inr (Or.inr ⟨by decide, by decide, by decide, rfl⟩)), Or.inl ⟨⟨b!"plain", by decide +kernel⟩, rfl⟩, by decide +kernel⟩
example : Page sampleEnv.wwwIndex sampleEnv.favicon b!"/none" b!"/none" ∧
    Served docsFs sampleEnv.staticRoot sampleEnv.wwwIndex b!"/none" b!"/www/index.html" := by
  refine ⟨Or.inr (Or.inr (Or.inr ⟨by decide, by decide, by decide, rfl⟩)), Or.inr ⟨?_, rfl⟩⟩
  intro c
  rw [show docsFs.lookup (sampleEnv.staticRoot ++ b!"/" ++ b!"/none") = none by decide +kernel]
  simp

/-! ### C62 -/

/-- Something was sent, and it begins like an HTTP response. -/
def Answered (st st' : St) : Prop := ∃ reply, st'.sent = st.sent ++ reply ∧ b!"HTTP/1.1 " <+: reply

/-- Handlers answer, filters answer if they reject and otherwise leave that to the handler. -/
def UserAnswers (env : Env) : Prop :=
  (∀ id st st', env.handle id st = ok st' → Answered st st') ∧
  (∀ id st st', env.filt id st = ok (st', false) → Answered st st') ∧
  ∀ id st st', env.filt id st = ok (st', true) → st'.sent = st.sent

/-- C62 in full (user code answering). -/
def C62_statement : Prop :=
  ∀ (env : Env) (st st' : St) (socket : Nat) (peer : Str) (ev : List Event), UserAnswers env →
    accept_request env st socket peer = ok (st', ev) → Answered st st'

theorem Answered.trans_same {a b c : St} (h : Answered a b) (e : c.sent = b.sent) : Answered a c := by
  obtain ⟨r, h1, h2⟩ := h
  exact ⟨r, by rw [e, h1], h2⟩

theorem Answered.of_same {a b c : St} (e : b.sent = a.sent) (h : Answered b c) : Answered a c := by
  obtain ⟨r, h1, h2⟩ := h
  exact ⟨r, by rw [h1, e], h2⟩

theorem http_print_more {st st' : St} {d : List Byte} {n : Int} (h : http_print st d n = ok st') :
    ∃ x, st'.sent = st.sent ++ x := by
  unfold http_print at h
  simp only at h
  split at h
  · cases h
  · cases h; exact ⟨d.take (toInt32 n).toNat, by simp [St.sent]⟩

theorem log_access_sent {env : Env} {st st' : St} {n : Int} (h : log_access env st n = ok st') : st'.sent = st.sent := by
  unfold log_access at h
  obtain ⟨r, -, h⟩ := bind_eq_ok.mp h
  obtain ⟨u, -, h⟩ := bind_eq_ok.mp h
  obtain ⟨_, -, h⟩ := bind_eq_ok.mp h
  obtain ⟨_, -, h⟩ := bind_eq_ok.mp h
  cases h
  simp

theorem table_prefix : ∀ p ∈ HTTP_STATUS_TABLE, b!"HTTP/1.1 " <+: p.2 := by decide +kernel

theorem fmtInto_len {n : Nat} {s t : Str} (h : fmtInto n s = ok t) : t = s ∧ t.length < n := by
  obtain ⟨h1, h2⟩ := fmtInto_eq_ok.mp h
  exact ⟨h2, by rw [h2]; exact h1⟩

/-- A status that is in the table is sent. -/
theorem send_http_status_answers {env : Env} {st st' : St} {n : Int} {m : Str} (hn : (findStatus n HTTP_STATUS_TABLE).isSome = true)
    (h : send_http_status env st n m = ok st') : Answered st st' := by
  obtain ⟨start, hstart⟩ := Option.isSome_iff_exists.mp hn
  unfold send_http_status at h
  simp only [hstart] at h
  obtain ⟨b1, hb1, h'⟩ := bind_eq_ok.mp h
  obtain ⟨b2, hb2, h''⟩ := bind_eq_ok.mp h'
  obtain ⟨b3, hb3, h3'⟩ := bind_eq_ok.mp h''
  obtain ⟨s1, h1, h4'⟩ := bind_eq_ok.mp h3'
  obtain ⟨s2, h2, hlast⟩ := bind_eq_ok.mp h4'
  clear h h' h'' h3' h4'
  obtain ⟨rfl, -⟩ := fmtInto_len hb1
  obtain ⟨rfl, -⟩ := fmtInto_len hb2
  have h3 : (∃ x, b3 = b1 ++ WAYUU_HTTP_SERVER_STRING ++ x) ∧ b3.length < 1024 := by
    unfold statusBody at hb3
    split at hb3
    · obtain ⟨c1, hc1, hb3⟩ := bind_eq_ok.mp hb3
      obtain ⟨c2, hc2, hb3⟩ := bind_eq_ok.mp hb3
      obtain ⟨rfl, -⟩ := fmtInto_len hc2
      obtain ⟨e, hl⟩ := fmtInto_len hb3
      exact ⟨⟨c1 ++ m, by rw [e]; simp⟩, hl⟩
    · obtain ⟨e, hl⟩ := fmtInto_len hb3
      exact ⟨⟨_, e⟩, hl⟩
  obtain ⟨⟨x, hx⟩, hl⟩ := h3
  unfold http_print_str at h1
  rw [http_print_all (by omega)] at h1
  simp only [ok.injEq] at h1
  obtain ⟨y, hy⟩ := http_print_more h2
  obtain ⟨z, hz⟩ := table_prefix _ (findStatus_cases hstart)
  refine ⟨b3 ++ y, ?_, ?_⟩
  · rw [log_access_sent hlast]
    show s2.sent = _
    rw [hy, ← h1]
    simp [St.sent]
  · rw [hx]
    simp only at hz
    rw [← hz]
    simp only [List.append_assoc]
    exact List.prefix_append _ _

theorem sessionHeaders_more {st st' : St} {n m : Nat} {s : Str} (h : sessionHeaders st n s = ok (m, st')) :
    ∃ x, st'.sent = st.sent ++ x := by
  unfold sessionHeaders at h
  split at h
  · obtain ⟨_, -, h⟩ := bind_eq_ok.mp h
    obtain ⟨s1, h1, h⟩ := bind_eq_ok.mp h
    cases h
    exact http_print_more h1
  · cases h; exact ⟨[], by simp⟩

theorem return_headers_answers {st st' : St} {n : Nat} {f : Str} (h : return_headers st f = ok (n, st')) : Answered st st' := by
  unfold return_headers at h
  obtain ⟨b1, hb1, h⟩ := bind_eq_ok.mp h
  obtain ⟨s1, h1, h⟩ := bind_eq_ok.mp h
  obtain ⟨_, -, h⟩ := bind_eq_ok.mp h
  obtain ⟨s2, h2, h⟩ := bind_eq_ok.mp h
  obtain ⟨_, -, h⟩ := bind_eq_ok.mp h
  obtain ⟨⟨_, s3⟩, h3, h⟩ := bind_eq_ok.mp h
  obtain ⟨s4, h4, h⟩ := bind_eq_ok.mp h
  simp only [ok.injEq, Prod.mk.injEq] at h
  obtain ⟨-, rfl⟩ := h
  obtain ⟨e, hl⟩ := fmtInto_len hb1
  rw [http_print_all (by omega)] at h1
  simp only [ok.injEq] at h1
  obtain ⟨x2, e2⟩ := http_print_more h2
  obtain ⟨x3, e3⟩ := sessionHeaders_more h3
  obtain ⟨x4, e4⟩ := http_print_more h4
  refine ⟨b1 ++ (x2 ++ (x3 ++ x4)), ?_, ?_⟩
  · rw [e4, e3, e2, ← h1]
    simp [St.sent]
  · rw [e, show HTTP_OK_START = b!"HTTP/1.1 " ++ b!"200 OK\r\n" by decide]
    simp only [List.append_assoc]
    exact List.prefix_append _ _

/-- If it is a regular file, `direct_file` answers (even if it cannot be read). -/
theorem direct_file_answers {env : Env} {st st' : St} {f : Str} {r : Int} (hf : is_file st.fs f = true)
    (h : direct_file env st f = ok (r, st')) : Answered st st' := by
  unfold direct_file at h
  simp only [hf, Bool.not_true, Bool.false_eq_true, if_false] at h
  obtain ⟨⟨_, s1⟩, h1, h⟩ := bind_eq_ok.mp h
  obtain ⟨⟨_, s2⟩, h2, h⟩ := bind_eq_ok.mp h
  obtain ⟨_, -, h⟩ := bind_eq_ok.mp h
  obtain ⟨s3, h3, h⟩ := bind_eq_ok.mp h
  simp only [ok.injEq, Prod.mk.injEq] at h
  obtain ⟨-, rfl⟩ := h
  obtain ⟨r, a1, a2⟩ := return_headers_answers h1
  have : ∃ x, s2.sent = s1.sent ++ x := by
    unfold return_file at h2
    split at h2
    · obtain ⟨s4, h4, h2⟩ := bind_eq_ok.mp h2
      simp only [ok.injEq, Prod.mk.injEq] at h2
      rw [← h2.2]
      exact http_print_more h4
    · simp only [ok.injEq, Prod.mk.injEq] at h2
      exact ⟨[], by rw [← h2.2]; simp⟩
  obtain ⟨x, hx⟩ := this
  refine ⟨r ++ x, ?_, a2.trans (List.prefix_append _ _)⟩
  rw [log_access_sent h3]
  show s2.sent = _
  rw [hx, a1, List.append_assoc]

theorem handle_static_answers {env : Env} {st st' : St} (hidx : is_file st.fs (env.staticRoot ++ b!"/" ++ env.wwwIndex) = true)
    (h : handle_static_routes env st = ok st') : Answered st st' := by
  unfold handle_static_routes at h
  obtain ⟨p, -, h⟩ := bind_eq_ok.mp h
  obtain ⟨q, hq, h⟩ := bind_eq_ok.mp h
  obtain ⟨⟨r, s1⟩, h1, h⟩ := bind_eq_ok.mp h
  simp only at h
  rcases direct_file_neg h1 with ⟨hr, -, rfl⟩ | ⟨rfl, hf⟩
  · rw [if_pos hr] at h
    obtain ⟨i, hi, h'⟩ := bind_eq_ok.mp h
    obtain ⟨⟨_, s2⟩, h2, h''⟩ := bind_eq_ok.mp h'
    clear h h'
    obtain ⟨rfl, -⟩ := fmtInto_len hi
    simp only [ok.injEq] at h''
    subst h''
    have k := direct_file_answers (by exact hidx) h2
    exact Answered.of_same rfl k
  · rw [if_neg (by omega)] at h
    simp only [ok.injEq] at h
    subst h
    have k := direct_file_answers hf h1
    exact Answered.of_same rfl k

theorem readForm_sent {env : Env} {st st' : St} {n : Int} {b : Str} (h : readForm env st n b = ok st') : st'.sent = st.sent := by
  unfold readForm at h
  split at h
  · obtain ⟨⟨form, inp⟩, -, h⟩ := bind_eq_ok.mp h
    simp only at h
    split at h
    · obtain ⟨⟨form, fs⟩, -, h⟩ := bind_eq_ok.mp h
      cases h; rfl
    · cases h; rfl
  · cases h; rfl

theorem router_answers {env : Env} (hu : UserAnswers env) {st st' : St} {ev : List Event}
    (h : router_handle_request env st = ok (st', ev)) : Answered st st' := by
  unfold router_handle_request at h
  obtain ⟨_, -, h⟩ := bind_eq_ok.mp h
  obtain ⟨⟨hd, fl, form⟩, -, h⟩ := bind_eq_ok.mp h
  simp only at h
  cases hd with
  | none =>
    simp only at h
    obtain ⟨s1, h1, h⟩ := bind_eq_ok.mp h
    cases h
    unfold reject_routing_request bad_request at h1
    have k := send_http_status_answers (by decide) h1
    exact Answered.of_same rfl k
  | some hd =>
    cases fl with
    | none =>
      simp only at h
      obtain ⟨s1, h1, h⟩ := bind_eq_ok.mp h
      cases h
      have k := hu.1 _ _ _ h1
      exact Answered.of_same rfl k
    | some f =>
      simp only at h
      obtain ⟨⟨s1, b⟩, h1, h⟩ := bind_eq_ok.mp h
      cases b with
      | false =>
        simp only [Bool.not_false, if_true, ok.injEq, Prod.mk.injEq] at h
        rw [← h.1]
        have k := hu.2.1 _ _ _ h1
        exact Answered.of_same rfl k
      | true =>
        simp only [Bool.not_true, Bool.false_eq_true, if_false] at h
        obtain ⟨s2, h2, h⟩ := bind_eq_ok.mp h
        cases h
        have e := hu.2.2 _ _ _ h1
        have k := hu.1 _ _ _ h2
        exact Answered.of_same e k

/-- C62, what holds: with a site index in place (a regular file, readable or not), every request whose handling ends is
answered. Missing: a static root without that page. -/
theorem C62_partial (env : Env) (st st' : St) (socket : Nat) (peer : Str) (ev : List Event) (hu : UserAnswers env)
    (hidx : ∃ c, st.fs.lookup (env.staticRoot ++ b!"/" ++ env.wwwIndex) = some (.file c))
    (h : accept_request env st socket peer = ok (st', ev)) : Answered st st' := by
  obtain ⟨-, hc⟩ := accept_request_cases h
  cases hc with
  | badMethod buf inp rl method j st1 hr hm h1 =>
    have k := send_http_status_answers (by decide) h1
    exact Answered.of_same rfl k
  | tooMany buf inp rl method j url live st1 hr hm hurl hadd h1 =>
    have k := send_http_status_answers (by decide) h1
    exact Answered.of_same rfl k
  | served buf inp rl method j url live x st1 ev hr hm hurl hadd hh h1 =>
    refine Answered.trans_same (b := st1) ?_ rfl
    unfold dispatch at h1
    obtain ⟨⟨path, query⟩, -, h1⟩ := bind_eq_ok.mp h1
    dsimp only at h1
    split at h1
    · split at h1
      · obtain ⟨s, h2, h1⟩ := bind_eq_ok.mp h1
        simp only [ok.injEq, Prod.mk.injEq] at h1
        rw [← h1.1]
        have k := handle_static_answers (by exact is_file_iff.mpr hidx) h2
        exact Answered.of_same rfl k
      · obtain ⟨s, h2, h1⟩ := bind_eq_ok.mp h1
        simp only [ok.injEq, Prod.mk.injEq] at h1
        rw [← h1.1]
        have k := send_http_status_answers (by decide) h2
        exact Answered.of_same rfl k
    · obtain ⟨p, -, h1⟩ := bind_eq_ok.mp h1
      unfold handle_api_request at h1
      obtain ⟨s1, h2, h1⟩ := bind_eq_ok.mp h1
      have k := router_answers hu h1
      have e := readForm_sent h2
      exact Answered.of_same e k

/-- User code that answers: handlers send a 200 status, filters accept. -/
def answerEnv : Env := { sampleEnv with handle := fun _ st => ok { st with out := st.out ++ [b!"HTTP/1.1 200 OK\r\n\r\n"] } }

theorem answerEnv_answers : UserAnswers answerEnv := by
  refine ⟨?_, ?_, ?_⟩
  · intro id st st' h
    cases h
    exact ⟨b!"HTTP/1.1 200 OK\r\n\r\n", by simp [St.sent], by decide⟩
  · intro id st st' h
    cases h
  · intro id st st' h
    cases h; rfl

/-- C62 is false: without a site index nothing is sent for a file that does not exist. -/
theorem C62_refuted : ¬ C62_statement := by
  intro h
  have key : (accept_request answerEnv (secretSt none) 7 b!"10.0.0.1").bind (fun x => ok (x.1.sent, x.1.closed)) = ok ([], [7]) := by
    decide +kernel
  cases hx : accept_request answerEnv (secretSt none) 7 b!"10.0.0.1" with
  | ub f => rw [hx] at key; cases key
  | ok x =>
    obtain ⟨r, h1, h2⟩ := h answerEnv (secretSt none) x.1 7 b!"10.0.0.1" x.2 answerEnv_answers hx
    rw [hx] at key
    simp only [C.bind, ok.injEq, Prod.mk.injEq] at key
    rw [key.1] at h1
    have : r = [] := by
      have := congrArg List.length h1
      simp at this
      exact List.length_eq_zero_iff.mp (by omega)
    subst this
    revert h2
    decide

example : ∃ c, (docsSt b!"/x").fs.lookup (answerEnv.staticRoot ++ b!"/" ++ answerEnv.wwwIndex) = some (.file c) :=
  ⟨b!"site", by decide +kernel⟩
example : (accept_request answerEnv (docsSt b!"/x") 7 b!"10.0.0.1").bind (fun x => ok (x.1.sent.take 15)) = ok b!"HTTP/1.1 200 OK" := by
  decide +kernel

end Wayuu
