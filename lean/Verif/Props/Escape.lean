import Verif.Props.Evasion
/-
C54, C62: everything can be fetched; what is not answered. C112: files that can not be read.
-/
namespace Wayuu
open C Spec FS

/-! ### C54 -/

/-- A walk that starts below directories only ends below directories only. -/
theorem walk_parents (fs : FS) : ∀ (cs cur q : List Str), (∀ p, p <+: cur → p ≠ cur → fs.nodeAt p = some .dir) → fs.walk cur cs = some q →
    ∀ p, p <+: q → p ≠ q → fs.nodeAt p = some .dir
  | [], cur, q, hc, h => by
      simp only [walk, Option.some.injEq] at h
      subst h; exact hc
  | c :: cs, cur, q, hc, h => by
      rw [walk] at h
      split at h
      · cases h
      · rename_i hd
        simp only [ne_eq, not_not] at hd
        have hall : ∀ p, p <+: cur → fs.nodeAt p = some .dir := by
          intro p hp
          by_cases e : p = cur
          · rw [e]; exact hd
          · exact hc p hp e
        split at h
        · exact walk_parents fs cs cur q hc h
        · split at h
          · refine walk_parents fs cs cur.dropLast q (fun p hp _ => hall p (hp.trans (List.dropLast_prefix _))) h
          · refine walk_parents fs cs (cur ++ [c]) q (fun p hp hne => ?_) h
            rcases List.prefix_concat_iff.mp hp with e | e
            · exact absurd e hne
            · exact hall p e

/-- From a directory enough ".." lead to the root. -/
theorem walk_up (fs : FS) (cs : List Str) : ∀ (k : Nat) (cur : List Str), (∀ p, p <+: cur → fs.nodeAt p = some .dir) → cur.length ≤ k →
    fs.walk cur (List.replicate k b!".." ++ cs) = fs.walk [] cs
  | 0, cur, _, hl => by
      have : cur = [] := List.length_eq_zero_iff.mp (by omega)
      subst this; rfl
  | k + 1, cur, h, hl => by
      rw [List.replicate_succ, List.cons_append, walk, if_neg (by simp [h cur (List.prefix_refl _)]), if_neg (by decide), if_pos rfl]
      exact walk_up fs cs k cur.dropLast (fun p hp => h p (hp.trans (List.dropLast_prefix _))) (by simp; omega)

theorem comps_up (name : Str) : ∀ k : Nat, comps ((List.replicate k b!"../").flatten ++ name) = List.replicate k b!".." ++ comps name
  | 0 => by simp
  | k + 1 => by
      rw [List.replicate_succ, List.flatten_cons, List.append_assoc,
        show b!"../" ++ ((List.replicate k b!"../").flatten ++ name) = b!".." ++ 47 :: ((List.replicate k b!"../").flatten ++ name) by simp,
        comps_append, comps_up name k, List.replicate_succ]
      rfl

theorem resolve_up {fs : FS} {root : Str} (name : Str) {k : Nat} (hd : fs.lookup root = some .dir)
    (hk : ∀ p, fs.resolve root = some p → p.length ≤ k) :
    fs.resolve (root ++ b!"/" ++ (b!"/" ++ ((List.replicate k b!"../").flatten ++ name))) = fs.resolve (47 :: name) := by
  rw [resolve_two]
  unfold lookup at hd
  cases hr : fs.resolve root with
  | none => rw [hr] at hd; cases hd
  | some p =>
    have hpd : fs.nodeAt p = some .dir := by rw [hr] at hd; exact hd
    have hw : fs.walk [] (comps root) = some p := by
      unfold resolve at hr
      split at hr
      · cases hr
      · exact hr
    have hpar := walk_parents fs (comps root) [] p (by
      intro q hq hne
      exact absurd (List.prefix_nil.mp hq) hne) hw
    have hall : ∀ q, q <+: p → fs.nodeAt q = some .dir := by
      intro q hq
      by_cases e : q = p
      · rw [e]; exact hpd
      · exact hpar q hq e
    unfold resolve
    rw [if_neg (by simp), if_neg (by simp)]
    have e1 : comps (root ++ b!"/" ++ ((List.replicate k b!"../").flatten ++ name)) = comps root ++ (List.replicate k b!".." ++ comps name) := by
      rw [← comps_up]
      simpa using comps_append root ((List.replicate k b!"../").flatten ++ name)
    have e2 : comps (47 :: name) = [] :: comps name := by simp [comps]
    rw [e1, e2, FS.walk_append, hw]
    show fs.walk p _ = _
    rw [walk_up fs _ k p hall (hk p hr), walk, if_neg (by simp [nodeAt]), if_pos (Or.inl rfl)]

/-- C54, what happens instead: every file of the machine that the server may read is sent to everyone who asks for it with
enough "../" in front of its name (more than enough do no harm, so that one need not know where the static root is). -/
theorem C54_everything (env : Env) (st : St) (socket : Nat) (peer name content s : Str) (k : Nat)
    (hlim : env.limits.length ≤ 64) (hne : ∀ l ∈ env.limits, l.path ≠ []) (hp : peer.length < 16)
    (hadm : Admits env.limits st.live peer (b!"/" ++ ((List.replicate k b!"../").flatten ++ name)))
    (hin : st.input = b!"GET " ++ (b!"/" ++ ((List.replicate k b!"../").flatten ++ name)) ++ b!" HTTP/1.1\r\n\r\n")
    (hlen : 3 * k + name.length ≤ 253) (hk : 0 < k) (hname : ∀ c ∈ name, ¬ White c ∧ c ≠ 0 ∧ c ≠ 63)
    (hdir : st.fs.lookup env.staticRoot = some .dir) (hdepth : ∀ p, st.fs.resolve env.staticRoot = some p → p.length ≤ k)
    (hopen : st.fs.openRead (47 :: name) = some content) (hc : content.length + 1200 < 2 ^ 31)
    (hroot : env.staticRoot.length ≤ 256) (hidx : env.wwwIndex.length ≤ 256) (hicon : env.favicon.length ≤ 256)
    (hs : Stack env s) (hs1 : s ≠ []) (hs2 : s.getLast? ≠ some 47) :
    ∃ st' head, accept_request env st socket peer = ok (st', []) ∧ st'.sent = st.sent ++ head ++ content ∧
      b!"HTTP/1.1 200 OK\r\n" <+: head := by
  have hopen' : st.fs.openRead (env.staticRoot ++ b!"/" ++ (b!"/" ++ ((List.replicate k b!"../").flatten ++ name))) = some content := by
    unfold openRead at hopen ⊢
    rw [resolve_up name hdir hdepth]
    exact hopen
  have hfl : ((List.replicate k b!"../").flatten).length = 3 * k := by simp [Nat.mul_comm]
  obtain ⟨k, rfl⟩ : ∃ j, k = j + 1 := ⟨k - 1, by omega⟩
  generalize hurl : b!"/" ++ ((List.replicate (k + 1) b!"../").flatten ++ name) = url at *
  have hdot : ∃ r, url = 47 :: 46 :: r := by
    rw [← hurl, List.replicate_succ, List.flatten_cons]
    exact ⟨_, rfl⟩
  obtain ⟨r, hr⟩ := hdot
  have hlast : url.getLast? ≠ some 47 := by
    intro h
    have : st.fs.openRead (env.staticRoot ++ b!"/" ++ url) = none := by
      apply Embed.openRead_folder
      rw [List.getLast?_append_of_ne_nil _ (by rw [hr]; simp)]
      exact h
    rw [this] at hopen'
    cases hopen'
  have hget : StaticGet env st peer url [] := by
    refine plain_get hlim hne hadm hp hin ?_ (by rw [hr]; simp) ?_ ?_
    · rw [← hurl]; simp only [List.length_append, hfl, List.length_cons, List.length_nil]; omega
    · rw [← hurl]
      intro c hc
      simp only [List.mem_append] at hc
      rcases hc with h | h | h
      · exact (show ∀ c ∈ b!"/", ¬ ((c : Byte) = 32 ∨ (9 ≤ c.toNat ∧ c.toNat ≤ 13)) ∧ c ≠ 0 ∧ c ≠ 63 by decide) c h
      · obtain ⟨l, hl, hcl⟩ := List.mem_flatten.mp h
        rw [List.eq_of_mem_replicate hl] at hcl
        exact (show ∀ c ∈ b!"../", ¬ ((c : Byte) = 32 ∨ (9 ≤ c.toNat ∧ c.toNat ≤ 13)) ∧ c ≠ 0 ∧ c ≠ 63 by decide) c hcl
      · exact hname c h
    · rw [casePrefix_map, hr]
      intro h
      simp only [List.map_cons, List.cons_prefix_cons] at h
      exact absurd h.2.1 (by decide)
  obtain ⟨st', head, e1, e2, e3, -⟩ := C55_partial env st socket peer _ [] _ _ content s hget
    (Or.inr (Or.inr (Or.inr ⟨by rw [hr]; simp, by rw [hr]; simp, hlast, rfl⟩)))
    (Or.inl ⟨⟨content, Embed.openRead_lookup hopen'⟩, rfl⟩) hopen' hroot hidx hicon hc (Or.inr hlast) hs hs1 hs2
  exact ⟨st', head, e1, e2, e3⟩

/-- C54_everything applies: three times more ".." than needed. -/
def deepSt : St := { secretSt (some b!"pw") with input := b!"GET /../../../secret HTTP/1.1\r\n\r\n" }

example : ∃ st' head, accept_request sampleEnv deepSt 7 b!"10.0.0.1" = ok (st', []) ∧ st'.sent = deepSt.sent ++ head ++ b!"pw" ∧
    b!"HTTP/1.1 200 OK\r\n" <+: head :=
  C54_everything sampleEnv deepSt 7 b!"10.0.0.1" b!"secret" b!"pw" b!"A" 3 (by decide) (by decide) (by decide)
    ⟨⟨⟨0, [], []⟩, by simp [deepSt, secretSt], rfl⟩, by intro l hl; simp [sampleEnv] at hl⟩ rfl (by decide) (by decide)
    (by unfold White; decide) (by decide +kernel) (by
      intro p hp
      have : deepSt.fs.resolve sampleEnv.staticRoot = some [b!"www"] := by decide +kernel
      rw [this] at hp
      cases hp
      decide) (by decide +kernel) (by decide) (by decide) (by decide) (by decide) ⟨[], rfl, by decide⟩ (by decide) (by decide)

/-! ### C62 and C112 -/

/-- What becomes of a static request, once the path is known to be rewritten to `page`: neither the page nor the site index
is a file. -/
theorem static_silent {env : Env} {st : St} {socket : Nat} {peer path body page : Str}
    (hreq : StaticGet env st peer path body) (hpage : path.length ≤ 254 → rewritePath env path = ok page)
    (h1 : ∀ c, st.fs.lookup (env.staticRoot ++ b!"/" ++ page) ≠ some (.file c))
    (h2 : ∀ c, st.fs.lookup (env.staticRoot ++ b!"/" ++ env.wwwIndex) ≠ some (.file c))
    (hroot : env.staticRoot.length ≤ 256) (hidx : env.wwwIndex.length ≤ 256) (hicon : env.favicon.length ≤ 256) :
    ∃ st', accept_request env st socket peer = ok (st', []) ∧ st'.sent = st.sent ∧ st'.closed = st.closed ++ [socket] := by
  obtain ⟨st0, hs, session, k1, k2, k3, k4, k5, k6, k7, k8, k9, k10, k11⟩ := static_reaches (socket := socket) hreq
  have hp := hpage k10
  have hpl : page.length ≤ 300 := by
    rcases rewritePath_cases hp with rfl | rfl | rfl | rfl
    · omega
    · omega
    · simp; omega
    · omega
  have hl1 : (env.staticRoot ++ b!"/" ++ page).length + 1 ≤ 1024 := by simp; omega
  have hl2 : (env.staticRoot ++ b!"/" ++ env.wwwIndex).length + 1 ≤ 1024 := by simp; omega
  have no : ∀ (st1 : St) (name : Str), st1.fs = st.fs → (∀ c, st.fs.lookup name ≠ some (.file c)) → direct_file env st1 name = ok (-1, st1) := by
    intro st1 name hfs hno
    have hf : is_file st1.fs name = false := by
      rw [← Bool.not_eq_true, is_file_iff, hfs]
      rintro ⟨c, hc⟩
      exact hno c hc
    unfold direct_file
    simp only [hf, Bool.not_false, if_true]
  refine ⟨connection_close { st0 with req := { st0.req with path := page } }, ?_, ?_, ?_⟩
  · rw [k11]
    unfold handle_static_routes
    rw [k1, hp]
    simp only [ok_bind]
    rw [fmtInto_ok hl1]
    simp only [ok_bind]
    rw [no _ _ (by exact k6) h1]
    simp only [ok_bind, show (-1 : Int) < 0 by decide, if_true]
    rw [fmtInto_ok hl2]
    simp only [ok_bind]
    rw [no _ _ (by exact k6) h2]
    rfl
  · show st0.out.flatten = st.out.flatten
    rw [k5]
  · show st0.closed ++ [st0.req.socket] = _
    rw [k7, k8]

/-- C62, the rest: a page that is no file is not answered at all if there is no site index either; the connection is closed. -/
theorem C62_silent (env : Env) (st : St) (socket : Nat) (peer path body page s : Str) (hreq : StaticGet env st peer path body)
    (hpage : Page env.wwwIndex env.favicon path page) (hfolder : path = b!"/" ∨ path.getLast? ≠ some 47)
    (hs : Stack env s) (hs1 : s ≠ []) (hs2 : s.getLast? ≠ some 47)
    (h1 : ∀ c, st.fs.lookup (env.staticRoot ++ b!"/" ++ page) ≠ some (.file c))
    (h2 : ∀ c, st.fs.lookup (env.staticRoot ++ b!"/" ++ env.wwwIndex) ≠ some (.file c))
    (hroot : env.staticRoot.length ≤ 256) (hidx : env.wwwIndex.length ≤ 256) (hicon : env.favicon.length ≤ 256) :
    ∃ st', accept_request env st socket peer = ok (st', []) ∧ st'.sent = st.sent ∧ st'.closed = st.closed ++ [socket] :=
  static_silent hreq (rewritePath_page hpage hfolder hs hs1 hs2) h1 h2 hroot hidx hicon

/-- `direct_file` for a file that can not be opened. -/
theorem direct_file_unreadable {env : Env} {st : St} {hs : List (Str × Str)} (hh : st.req.HasHeaders hs)
    {session filename : Str} (hse : cstr st.req.session = ok session) (hsl : session.length ≤ 490)
    (hf : is_file st.fs filename = true) (hopen : st.fs.openRead filename = none) :
    ∃ st', direct_file env st filename = ok (0, st') ∧ st'.sent = st.sent ++ fileReply filename session [] ∧
      st'.req = { st.req with response_length := (fileReply filename session []).length } ∧ st'.closed = st.closed := by
  obtain ⟨chunks, e1, e2⟩ := return_headers_eq hse hsl filename
  have h1 : fileHead.length = 38 := by decide
  have h3 := content_type_length filename
  have h4 := length_sessionText session
  have hcl : chunks.flatten.length ≤ 1200 := by
    rw [e2]; simp only [List.length_append, List.length_cons, List.length_nil]; omega
  unfold direct_file
  simp only [hf, Bool.not_true, Bool.false_eq_true, if_false]
  rw [e1]
  simp only [ok_bind]
  unfold return_file
  simp only [hopen, ok_bind]
  rw [addInt_ok (by omega) (by omega)]
  simp only [ok_bind]
  rw [log_access_eq (hs := hs) (by exact hh)]
  have hrep : fileReply filename session [] = chunks.flatten := by rw [e2]; simp [fileReply]
  refine ⟨_, rfl, ?_, ?_, by simp⟩
  · rw [hrep]; simp [St.sent]
  · rw [appendLog_req, hrep]
    refine congrArg (fun n => { st.req with response_length := n }) (toUInt32_of ?_ ?_)
    · omega
    · omega

theorem static_unreadable {env : Env} {st : St} {socket : Nat} {peer path body page name : Str}
    (hreq : StaticGet env st peer path body) (hpage : path.length ≤ 254 → rewritePath env path = ok page)
    (hserved : Served st.fs env.staticRoot env.wwwIndex page name) (hfile : ∃ c, st.fs.lookup name = some (.file c))
    (hopen : st.fs.openRead name = none)
    (hroot : env.staticRoot.length ≤ 256) (hidx : env.wwwIndex.length ≤ 256) (hicon : env.favicon.length ≤ 256) :
    ∃ st' session, session.length < 64 ∧ accept_request env st socket peer = ok (st', []) ∧ st'.sent = st.sent ++ fileReply name session [] ∧
      st'.closed = st.closed ++ [socket] := by
  obtain ⟨st0, hs, session, k1, k2, k3, k4, k5, k6, k7, k8, k9, k10, k11⟩ := static_reaches (socket := socket) hreq
  have hp := hpage k10
  have hpl : page.length ≤ 300 := by
    rcases rewritePath_cases hp with rfl | rfl | rfl | rfl
    · omega
    · omega
    · simp; omega
    · omega
  have hl1 : (env.staticRoot ++ b!"/" ++ page).length + 1 ≤ 1024 := by simp; omega
  have hl2 : (env.staticRoot ++ b!"/" ++ env.wwwIndex).length + 1 ≤ 1024 := by simp; omega
  have hf : is_file st0.fs name = true := by rw [is_file_iff, k6]; exact hfile
  obtain ⟨st1, e1, e2, e3, e4⟩ := direct_file_unreadable (env := env) (st := { st0 with req := { st0.req with path := page } })
      (HasHeaders.congr k2 rfl rfl) k3 (by omega) hf (by rw [k6]; exact hopen)
  have hh : handle_static_routes env st0 = ok st1 := by
    unfold handle_static_routes
    rw [k1, hp]
    simp only [ok_bind]
    rw [fmtInto_ok hl1]
    simp only [ok_bind]
    rcases hserved with ⟨-, rfl⟩ | ⟨hno, rfl⟩
    · rw [e1]; rfl
    · have hf' : is_file st0.fs (env.staticRoot ++ b!"/" ++ page) = false := by
        rw [← Bool.not_eq_true, is_file_iff, k6]
        rintro ⟨c, hc⟩
        exact hno c hc
      have hd : direct_file env { st0 with req := { st0.req with path := page } } (env.staticRoot ++ b!"/" ++ page) =
          ok (-1, { st0 with req := { st0.req with path := page } }) := by
        unfold direct_file
        simp only [hf', Bool.not_false, if_true]
      rw [hd]
      simp only [ok_bind, show (-1 : Int) < 0 by decide, if_true]
      rw [fmtInto_ok hl2]
      simp only [ok_bind]
      rw [e1]; rfl
  refine ⟨connection_close st1, session, k4, by rw [k11, hh]; rfl, ?_, ?_⟩
  · show st1.sent = _
    rw [e2]
    show st0.out.flatten ++ _ = st.out.flatten ++ _
    rw [k5]
  · show st1.closed ++ [st1.req.socket] = _
    rw [e4, e3]
    show st0.closed ++ [st0.req.socket] = _
    rw [k7, k8]

/-- What C112 is about: an ordinary page request, on a stack that leaves it alone (C55), that is handled to its end. -/
def Asked (env : Env) (st : St) (socket : Nat) (peer page reply : Str) : Prop :=
  ∃ path body s st', StaticGet env st peer path body ∧ Page env.wwwIndex env.favicon path page ∧
    (path = b!"/" ∨ path.getLast? ≠ some 47) ∧ Stack env s ∧ s ≠ [] ∧ s.getLast? ≠ some 47 ∧
    env.staticRoot.length ≤ 256 ∧ env.wwwIndex.length ≤ 256 ∧ env.favicon.length ≤ 256 ∧
    (∀ p c, st.fs.node p = some (.file c) → c.length + 1200 < 2 ^ 31) ∧
    accept_request env st socket peer = ok (st', []) ∧ st'.sent = st.sent ++ reply

/-- C112 in full: a 200 response to a page request ends with the content of the file for the page. -/
def C112_statement : Prop :=
  ∀ (env : Env) (st : St) (socket : Nat) (peer page reply : Str), Asked env st socket peer page reply →
    b!"HTTP/1.1 200" <+: reply →
    ∃ name c head, Served st.fs env.staticRoot env.wwwIndex page name ∧ st.fs.lookup name = some (.file c) ∧ reply = head ++ c

/-- C112, what happens instead: whatever file may not be read, the answer is a 200 head and nothing else. -/
theorem C112_unreadable (env : Env) (st : St) (socket : Nat) (peer page reply name : Str) (h : Asked env st socket peer page reply)
    (hserved : Served st.fs env.staticRoot env.wwwIndex page name) (hfile : ∃ c, st.fs.lookup name = some (.file c))
    (hopen : st.fs.openRead name = none) :
    b!"HTTP/1.1 200 OK\r\n" <+: reply ∧ reply.length < 1000 := by
  obtain ⟨path, body, s, st', h1, h2, h3, h4, h5, h6, h7, h8, h9, -, h10, h11⟩ := h
  obtain ⟨st1, session, e0, e1, e2, -⟩ := static_unreadable (socket := socket) h1 (rewritePath_page h2 h3 h4 h5 h6) hserved hfile hopen h7 h8 h9
  rw [h10] at e1
  have e := C.ok.inj e1
  simp only [Prod.mk.injEq, and_true] at e
  subst e
  rw [h11] at e2
  have e3 := List.append_cancel_left e2
  have a1 : fileHead.length = 38 := by decide
  have a3 := content_type_length name
  have a4 := length_sessionText session
  rw [e3]
  constructor
  · unfold fileReply
    rw [show fileHead = b!"HTTP/1.1 200 OK\r\n" ++ WAYUU_HTTP_SERVER_STRING from rfl]
    simp only [List.append_assoc]
    exact List.prefix_append _ _
  · unfold fileReply
    simp only [List.length_append, List.length_cons, List.length_nil]
    omega

theorem openRead_of_node {fs : FS} {name c : Str} (h : fs.openRead name = some c) : fs.lookup name = some (.file c) :=
  Embed.openRead_lookup h

/-- C112, what holds: files that may be read. -/
theorem C112_partial (env : Env) (st : St) (socket : Nat) (peer page reply : Str) (h : Asked env st socket peer page reply)
    (hread : ∀ name, Served st.fs env.staticRoot env.wwwIndex page name → (∃ c, st.fs.lookup name = some (.file c)) →
      ∃ c, st.fs.openRead name = some c)
    (h200 : b!"HTTP/1.1 200" <+: reply) :
    ∃ name c head, Served st.fs env.staticRoot env.wwwIndex page name ∧ st.fs.lookup name = some (.file c) ∧ reply = head ++ c := by
  obtain ⟨path, body, s, st', h1, h2, h3, h4, h5, h6, h7, h8, h9, hbig, h10, h11⟩ := h
  have served : ∃ name, Served st.fs env.staticRoot env.wwwIndex page name := by
    by_cases hc : ∃ c, st.fs.lookup (env.staticRoot ++ b!"/" ++ page) = some (.file c)
    · exact ⟨_, Or.inl ⟨hc, rfl⟩⟩
    · exact ⟨_, Or.inr ⟨fun c hh => hc ⟨c, hh⟩, rfl⟩⟩
  obtain ⟨name, hserved⟩ := served
  by_cases hfile : ∃ c, st.fs.lookup name = some (.file c)
  · obtain ⟨c, hc⟩ := hread name hserved hfile
    have hlook := openRead_of_node hc
    have hlen : c.length + 1200 < 2 ^ 31 := by
      unfold lookup at hlook
      obtain ⟨p, -, hp⟩ := Option.bind_eq_some_iff.mp hlook
      unfold nodeAt at hp
      split at hp
      · cases hp
      · exact hbig p c hp
    obtain ⟨st1, head, e1, e2, -⟩ := static_serves (socket := socket) h1 (rewritePath_page h2 h3 h4 h5 h6) hserved hc h7 h8 h9 hlen
    rw [h10] at e1
    have e := C.ok.inj e1
    simp only [Prod.mk.injEq, and_true] at e
    subst e
    rw [h11, List.append_assoc] at e2
    exact ⟨name, c, head, hserved, hlook, List.append_cancel_left e2⟩
  · exfalso
    rcases hserved with ⟨hc, rfl⟩ | ⟨hno, rfl⟩
    · exact hfile hc
    · obtain ⟨st1, e1, e2, -⟩ := static_silent (socket := socket) h1 (rewritePath_page h2 h3 h4 h5 h6) hno (fun c hc => hfile ⟨c, hc⟩) h7 h8 h9
      rw [h10] at e1
      have e := C.ok.inj e1
      simp only [Prod.mk.injEq, and_true] at e
      subst e
      rw [h11] at e2
      have : reply = [] := by simpa using e2
      rw [this] at h200
      revert h200; decide

/-! ### Examples -/

/-- A site whose file /a.txt may not be read. -/
def lockedSt (url : Str) : St := { docsSt url with fs := { docsFs with canRead := fun p => decide (p ≠ [b!"www", b!"a.txt"]) } }

theorem locked_reply : (accept_request sampleEnv (lockedSt b!"/a.txt") 7 b!"10.0.0.1").bind (fun x => ok (x.1.sent, x.2)) =
    ok (fileReply b!"/www//a.txt" [] [], []) := by decide +kernel

theorem docs_small {p : List Str} {c : Str} (h : docsFs.node p = some (.file c)) : c.length + 1200 < 2 ^ 31 := by
  simp only [docsFs] at h
  split at h
  · cases h
  · split at h
    · cases h; decide
    · split at h
      · cases h; decide
      · split at h
        · cases h; decide
        · cases h

theorem locked_asked : Asked sampleEnv (lockedSt b!"/a.txt") 7 b!"10.0.0.1" b!"/a.txt" (fileReply b!"/www//a.txt" [] []) := by
  have key := locked_reply
  cases hx : accept_request sampleEnv (lockedSt b!"/a.txt") 7 b!"10.0.0.1" with
  | ub f => rw [hx] at key; cases key
  | ok x =>
    obtain ⟨st', ev⟩ := x
    rw [hx] at key
    have key := C.ok.inj key
    simp only [Prod.mk.injEq] at key
    obtain ⟨k1, rfl⟩ := key
    exact ⟨b!"/a.txt", [], b!"A", st', docs_get (url := b!"/a.txt") (by decide) (by decide) (by unfold White; decide) (by decide),
      Or.inr (Or.inr (Or.inr ⟨by decide, by decide, by decide, rfl⟩)), Or.inr (by decide), ⟨[], rfl, by decide⟩, by decide, by decide,
      by decide, by decide, by decide, fun p c h => docs_small h, hx, k1⟩

theorem locked_served {name : Str} (h : Served (lockedSt b!"/a.txt").fs sampleEnv.staticRoot sampleEnv.wwwIndex b!"/a.txt" name) :
    name = b!"/www//a.txt" := by
  rcases h with ⟨-, rfl⟩ | ⟨h, -⟩
  · decide
  · exact absurd (by decide +kernel) (h b!"plain")

/-- C112 is false: a file that may not be read. -/
theorem C112_refuted : ¬ C112_statement := by
  intro h
  obtain ⟨name, c, head, h1, h2, h3⟩ := h _ _ _ _ _ _ locked_asked (by decide)
  have hn := locked_served h1
  subst hn
  have : (lockedSt b!"/a.txt").fs.lookup b!"/www//a.txt" = some (.file b!"plain") := by decide +kernel
  rw [this] at h2
  cases h2
  have hl : (fileReply b!"/www//a.txt" [] []).getLast? = some 110 := by rw [h3]; simp
  revert hl
  decide

/-- C112_unreadable and C112_partial apply. -/
example : b!"HTTP/1.1 200 OK\r\n" <+: fileReply b!"/www//a.txt" [] [] ∧ (fileReply b!"/www//a.txt" [] []).length < 1000 :=
  C112_unreadable sampleEnv (lockedSt b!"/a.txt") 7 b!"10.0.0.1" b!"/a.txt" _ b!"/www//a.txt" locked_asked
    (Or.inl ⟨⟨b!"plain", by decide +kernel⟩, by decide⟩) ⟨b!"plain", by decide +kernel⟩ (by decide +kernel)

theorem open_asked : ∃ reply, Asked sampleEnv (docsSt b!"/a.txt") 7 b!"10.0.0.1" b!"/a.txt" reply ∧ b!"HTTP/1.1 200" <+: reply := by
  have key : (accept_request sampleEnv (docsSt b!"/a.txt") 7 b!"10.0.0.1").bind (fun x => ok (x.1.sent, x.2)) =
    ok (fileReply b!"/www//a.txt" [] b!"plain", []) := by decide +kernel
  cases hx : accept_request sampleEnv (docsSt b!"/a.txt") 7 b!"10.0.0.1" with
  | ub f => rw [hx] at key; cases key
  | ok x =>
    obtain ⟨st', ev⟩ := x
    rw [hx] at key
    have key := C.ok.inj key
    simp only [Prod.mk.injEq] at key
    obtain ⟨k1, rfl⟩ := key
    exact ⟨fileReply b!"/www//a.txt" [] b!"plain", ⟨b!"/a.txt", [], b!"A", st',
      docs_get (url := b!"/a.txt") (by decide) (by decide) (by unfold White; decide) (by decide),
      Or.inr (Or.inr (Or.inr ⟨by decide, by decide, by decide, rfl⟩)), Or.inr (by decide), ⟨[], rfl, by decide⟩, by decide, by decide,
      by decide, by decide, by decide, fun p c h => docs_small h, hx, k1⟩, by decide⟩

example : ∃ reply name c head, Asked sampleEnv (docsSt b!"/a.txt") 7 b!"10.0.0.1" b!"/a.txt" reply ∧
    Served docsFs sampleEnv.staticRoot sampleEnv.wwwIndex b!"/a.txt" name ∧ docsFs.lookup name = some (.file c) ∧ reply = head ++ c := by
  obtain ⟨reply, h1, h2⟩ := open_asked
  obtain ⟨name, c, head, h3⟩ := C112_partial _ _ _ _ _ _ h1 (fun name h ⟨c, hc⟩ => ⟨c, by
    unfold openRead
    unfold lookup at hc
    obtain ⟨p, e1, e2⟩ := Option.bind_eq_some_iff.mp hc
    rw [e1]
    simp only [e2]
    rfl⟩) h2
  exact ⟨reply, name, c, head, h1, h3⟩

/-- C62_silent applies: a folder without pages. -/
example : ∃ st', accept_request sampleEnv { docsSt b!"/a.txt" with fs := secretFs none } 7 b!"10.0.0.1" = ok (st', []) ∧
    st'.sent = (docsSt b!"/a.txt").sent ∧ st'.closed = [] ++ [7] :=
  C62_silent sampleEnv { docsSt b!"/a.txt" with fs := secretFs none } 7 b!"10.0.0.1" b!"/a.txt" [] b!"/a.txt" b!"A"
    (docs_get (url := b!"/a.txt") (by decide) (by decide) (by unfold White; decide) (by decide))
    (Or.inr (Or.inr (Or.inr ⟨by decide, by decide, by decide, rfl⟩))) (Or.inr (by decide)) ⟨[], rfl, by decide⟩ (by decide) (by decide)
    (fun c => by
      have : (secretFs none).lookup (sampleEnv.staticRoot ++ b!"/" ++ b!"/a.txt") = none := by decide +kernel
      rw [this]; exact fun h => nomatch h)
    (fun c => by
      have : (secretFs none).lookup (sampleEnv.staticRoot ++ b!"/" ++ sampleEnv.wwwIndex) = none := by decide +kernel
      rw [this]; exact fun h => nomatch h) (by decide) (by decide) (by decide)

end Wayuu
