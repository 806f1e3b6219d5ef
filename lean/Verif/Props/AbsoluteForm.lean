import Verif.Props.Evasion
/-
C167: requests that name the whole URL, and C103 once more: requests without the first slash (ws.c:525-538, 624-652).
-/
namespace Wayuu
open C Spec FS

theorem lower_slash {c : Byte} (h : lower 47 = lower c) : c = 47 := by
  have key : ∀ n : Fin 256, lower 47 = lower (UInt8.ofNat n.val) → UInt8.ofNat n.val = 47 := by decide +kernel
  have := key ⟨c.toNat, c.toNat_lt⟩
  simp only [UInt8.ofNat_toNat] at this
  exact this h

/-- What begins with '/' is no prefix of what does not. -/
theorem not_prefix_slash {p u : List Byte} (hp : p.head? = some 47) (hu : u.head? ≠ some 47) : ¬ CasePrefix p u := by
  rw [casePrefix_map]
  intro h
  cases p with
  | nil => cases hp
  | cons a p =>
    simp only [List.head?_cons, Option.some.injEq] at hp
    subst hp
    cases u with
    | nil => simp at h
    | cons c u =>
      simp only [List.map_cons, List.cons_prefix_cons] at h
      exact hu (by rw [lower_slash h.1]; rfl)

/-- C103, what happens instead, whatever the rules, also for all of "/": if all of them begin with '/', every file can be fetched however many connections
are open, by leaving out the first '/' of its path. -/
theorem C103_slashless (env : Env) (st : St) (socket : Nat) (peer name content s : Str)
    (hlim : env.limits.length ≤ 64) (hrules : ∀ l ∈ env.limits, l.path.head? = some 47)
    (hfree : ∃ c ∈ st.live, c.socket = 0) (hp : peer.length < 16)
    (hin : st.input = b!"GET " ++ name ++ b!" HTTP/1.1\r\n\r\n") (hlen : name.length ≤ 254) (hne : name ≠ [])
    (hname : ∀ c ∈ name, ¬ White c ∧ c ≠ 0 ∧ c ≠ 63) (hfirst : name.head? ≠ some 47)
    (hopen : st.fs.openRead (env.staticRoot ++ b!"/" ++ name) = some content) (hc : content.length + 1200 < 2 ^ 31)
    (hroot : env.staticRoot.length ≤ 256) (hidx : env.wwwIndex.length ≤ 256) (hicon : env.favicon.length ≤ 256)
    (hs : Stack env s) (hs1 : s ≠ []) (hs2 : s.getLast? ≠ some 47) :
    ∃ st' head, accept_request env st socket peer = ok (st', []) ∧ st'.sent = st.sent ++ head ++ content ∧
      b!"HTTP/1.1 200 OK\r\n" <+: head := by
  have hlast : name.getLast? ≠ some 47 := by
    intro h
    have : st.fs.openRead (env.staticRoot ++ b!"/" ++ name) = none := by
      apply Embed.openRead_folder
      rw [List.getLast?_append_of_ne_nil _ hne]
      exact h
    rw [this] at hopen
    cases hopen
  have hget : StaticGet env st peer name [] := by
    refine plain_get hlim (fun l hl e => ?_) ⟨hfree, fun l hl hpre => ?_⟩ hp (by rw [hin]) hlen hne hname (not_prefix_slash rfl hfirst)
    · have := hrules l hl
      rw [e] at this; cases this
    · exact absurd hpre (not_prefix_slash (hrules l hl) hfirst)
  obtain ⟨st', head, e1, e2, e3, -⟩ := C55_partial env st socket peer _ [] _ _ content s hget
    (Or.inr (Or.inr (Or.inr ⟨by rintro rfl; exact hfirst rfl, by rintro rfl; exact hfirst rfl, hlast, rfl⟩)))
    (Or.inl ⟨⟨content, Embed.openRead_lookup hopen⟩, rfl⟩) hopen hroot hidx hicon hc (Or.inr hlast) hs hs1 hs2
  exact ⟨st', head, e1, e2, e3⟩

/-- A server with a rule for all of "/", and one connection open. -/
def fullEnv : Env := { sampleEnv with limits := [⟨b!"/", 0, 0, 0⟩] }

/-- The page is refused, and sent without the first slash. -/
theorem C103_slashless_witness :
    (accept_request fullEnv (busySt b!"/docs/index.html") 7 b!"10.0.0.1").bind (fun x => ok (x.1.sent.take 12)) = ok b!"HTTP/1.1 429" ∧
    (accept_request fullEnv (busySt b!"/./docs/index.html") 7 b!"10.0.0.1").bind (fun x => ok (x.1.sent.take 12)) = ok b!"HTTP/1.1 429" ∧
    (accept_request fullEnv (busySt b!"docs/index.html") 7 b!"10.0.0.1").bind (fun x => ok (x.1.sent.take 12)) = ok b!"HTTP/1.1 200" := by
  decide +kernel

example : (∀ l ∈ fullEnv.limits, l.path.head? = some 47) ∧ (∃ c ∈ (busySt b!"docs/index.html").live, c.socket = 0) ∧
    (busySt b!"docs/index.html").fs.openRead (fullEnv.staticRoot ++ b!"/" ++ b!"docs/index.html") = some b!"folder" ∧ Stack fullEnv b!"A" :=
  ⟨by simp [fullEnv], ⟨⟨0, [], []⟩, by simp [busySt], rfl⟩, by decide +kernel, ⟨[], rfl, by decide⟩⟩

/-! ### C167 -/

/-- `full` is the whole URL of `url`. -/
def WholeUrl (full url : List Byte) : Prop :=
  ∃ host, full = b!"http://" ++ host ++ url ∧ host ≠ [] ∧ (∀ c ∈ host, c ≠ 47 ∧ c ≠ 63) ∧ url.head? = some 47

/-- C167 in full: a request that names the whole URL is answered as the one that names its path, and runs the same user code. -/
def C167_statement : Prop :=
  ∀ (env : Env) (st st' : St) (input : List Byte) (socket : Nat) (peer line text line2 text2 method url full rest : Str) (ev : List Event),
    WholeUrl full url → Supported method → peer.length < 16 → Begins st.input line text method url rest → Begins input line2 text2 method full rest →
    accept_request env st socket peer = ok (st', ev) →
    ∃ st2, accept_request env { st with input := input } socket peer = ok (st2, ev) ∧ st2.sent = st'.sent

theorem WholeUrl.first {full url : Str} (h : WholeUrl full url) : full.head? ≠ some 47 := by
  obtain ⟨host, rfl, -⟩ := h
  simp

/-- No handler and no filter ever runs for a request that names the whole URL, whatever the path in it, and its outcome does not depend on the routes. -/
theorem C167_handlers (env : Env) (st : St) (socket : Nat) (peer line text method url full rest : Str) (routes : List Route)
    (handle : Nat → St → C St) (filt : Nat → St → C (St × Bool)) (hp : peer.length < 24) (hw : WholeUrl full url)
    (hb : Begins st.input line text method full rest) (hs : Supported method) :
    accept_request { env with routes := routes, handle := handle, filt := filt } st socket peer = accept_request env st socket peer ∧
    ∀ st' ev, accept_request env st socket peer = ok (st', ev) → ev = [] :=
  C64_static env st socket peer line text method full rest routes handle filt hp hb hs (not_prefix_slash rfl hw.first)

/-- No rule that begins with '/' concerns such a request: it is refused exactly if there is no room in the table, and otherwise registered and handled. -/
theorem C167_limits (env : Env) (st : St) (socket : Nat) (peer line text method url full rest : Str) (hw : WholeUrl full url)
    (hlim : env.limits.length ≤ 64) (hrules : ∀ l ∈ env.limits, l.path.head? = some 47) (hp : peer.length < 16)
    (hb : Begins st.input line text method full rest) (hs : Supported method) (hsock : ∀ c ∈ st.live, c.socket ≠ socket) :
    ((∀ c ∈ st.live, c.socket ≠ 0) → Refused env st socket peer) ∧
    ((∃ c ∈ st.live, c.socket = 0) → ∃ a c b, st.live = a ++ c :: b ∧ c.socket = 0 ∧
      ∀ st' ev, accept_request env st socket peer = ok (st', ev) → ∃ st0 st1 n boundary,
        st0.live = a ++ ⟨socket, full, peer⟩ :: b ∧ st0.req.url = full ∧
        dispatch env st0 full n boundary = ok (st1, ev) ∧ st' = connection_close st1) := by
  have hne : ∀ l ∈ env.limits, l.path ≠ [] := by
    intro l hl e
    have := hrules l hl
    rw [e] at this; cases this
  obtain ⟨k1, k2⟩ := C65_admission env st socket peer line text method full rest hlim hne hp hb hs hsock
  refine ⟨fun hno => ?_, fun hfree => k2 ⟨hfree, fun l hl hpre => absurd hpre (not_prefix_slash (hrules l hl) hw.first)⟩⟩
  obtain ⟨st', reply, fields, h1, h2, h3, -⟩ := k1 (fun h => by
    obtain ⟨c, hc, e⟩ := h.1
    exact hno c hc e)
  exact ⟨st', reply, fields, h1, h2, h3⟩

/-- A GET request that names a whole URL gets the site index, whatever it asks for (if there is no file whose path is the URL). -/
theorem C167_index (env : Env) (st : St) (socket : Nat) (peer url full body content s : Str) (hw : WholeUrl full url)
    (hreq : StaticGet env st peer full body)
    (hnone : ∀ c, st.fs.lookup (env.staticRoot ++ b!"/" ++ full) ≠ some (.file c))
    (hnone2 : ∀ c, st.fs.lookup (env.staticRoot ++ b!"/" ++ (full ++ b!"index.html")) ≠ some (.file c))
    (hopen : st.fs.openRead (env.staticRoot ++ b!"/" ++ env.wwwIndex) = some content)
    (hroot : env.staticRoot.length ≤ 256) (hidx : env.wwwIndex.length ≤ 256) (hicon : env.favicon.length ≤ 256)
    (hlen : content.length + 1200 < 2 ^ 31) (hs : Stack env s) (hne : s ≠ []) :
    ∃ st' head, accept_request env st socket peer = ok (st', []) ∧ st'.sent = st.sent ++ head ++ content ∧
      b!"HTTP/1.1 200 OK\r\n" <+: head := by
  have hf := hw.first
  have h1 : full ≠ b!"/" := by rintro rfl; exact hf rfl
  have h2 : full ≠ b!"/index.html" := by rintro rfl; exact hf rfl
  have h3 : full ≠ b!"/favicon.ico" := by rintro rfl; exact hf rfl
  by_cases hl : s.getLast? = some 47
  · obtain ⟨st', head, e1, e2, e3, -⟩ := static_serves (socket := socket) (page := full ++ b!"index.html") hreq
      (fun h => by rw [rewritePath_eq hs full h, if_neg (by tauto), if_neg h3, if_neg hne, if_pos hl])
      (Or.inr ⟨hnone2, rfl⟩) hopen hroot hidx hicon hlen
    exact ⟨st', head, e1, e2, e3⟩
  · obtain ⟨st', head, e1, e2, e3, -⟩ := static_serves (socket := socket) (page := full) hreq
      (fun h => by rw [rewritePath_eq hs full h, if_neg (by tauto), if_neg h3, if_neg hne, if_neg hl])
      (Or.inr ⟨hnone, rfl⟩) hopen hroot hidx hicon hlen
    exact ⟨st', head, e1, e2, e3⟩

/-- C167, what holds: who asks for the front page by its whole URL gets the front page, as who asks for "/" or "/index.html". Missing: all other pages, and
the API (`C167_index`, `C167_handlers`). -/
theorem C167_partial (env : Env) (st st2 : St) (socket : Nat) (peer url full body body2 content s : Str) (hw : WholeUrl full url)
    (hurl : url = b!"/" ∨ url = b!"/index.html") (hreq : StaticGet env st peer url body) (hreq2 : StaticGet env st2 peer full body2)
    (hfs : st2.fs = st.fs) (hsent : st2.sent = st.sent)
    (hnone : ∀ c, st.fs.lookup (env.staticRoot ++ b!"/" ++ full) ≠ some (.file c))
    (hnone2 : ∀ c, st.fs.lookup (env.staticRoot ++ b!"/" ++ (full ++ b!"index.html")) ≠ some (.file c))
    (hopen : st.fs.openRead (env.staticRoot ++ b!"/" ++ env.wwwIndex) = some content)
    (hroot : env.staticRoot.length ≤ 256) (hidx : env.wwwIndex.length ≤ 256) (hicon : env.favicon.length ≤ 256)
    (hlen : content.length + 1200 < 2 ^ 31) (hs : Stack env s) (hne : s ≠ []) :
    ∃ r r2 head head2, accept_request env st socket peer = ok (r, []) ∧ accept_request env st2 socket peer = ok (r2, []) ∧
      r.sent = st.sent ++ head ++ content ∧ r2.sent = st.sent ++ head2 ++ content ∧
      b!"HTTP/1.1 200 OK\r\n" <+: head ∧ b!"HTTP/1.1 200 OK\r\n" <+: head2 := by
  obtain ⟨r2, head2, a1, a2, a3⟩ := C167_index env st2 socket peer url full body2 content s hw hreq2 (by rwa [hfs]) (by rwa [hfs]) (by rwa [hfs])
    hroot hidx hicon hlen hs hne
  have hserved : Served st.fs env.staticRoot env.wwwIndex env.wwwIndex (env.staticRoot ++ b!"/" ++ env.wwwIndex) :=
    Or.inl ⟨⟨content, Embed.openRead_lookup hopen⟩, rfl⟩
  obtain ⟨r, head, b1, b2, b3, -⟩ := C55_rewritten env st socket peer url body env.wwwIndex _ content s hreq (by tauto)
    (Or.inl ⟨hurl, rfl⟩) hserved hopen hroot hidx hicon hlen hs
  exact ⟨r, r2, head, head2, b1, a1, b2, by rw [a2, hsent], b3, a3⟩

/-- The two requests of the refutation. -/
theorem begins_docs {url : Str} (h1 : url.length ≤ 254) (h2 : url ≠ []) (h3 : ∀ c ∈ url, ¬ White c ∧ c ≠ 0 ∧ c ≠ 63) :
    Begins (docsSt url).input (b!"GET " ++ url ++ b!" HTTP/1.1\r\n") (b!"GET " ++ url ++ b!" HTTP/1.1\r\n") b!"GET" url b!"\r\n" := by
  have hn10 : ∀ c ∈ url, c ≠ 10 := by
    rintro c hc rfl
    exact (h3 _ hc).1 (Or.inr (by decide))
  refine ⟨⟨by show b!"GET " ++ url ++ b!" HTTP/1.1\r\n\r\n" = _; simp, by simp; omega, ?_, Or.inr (Or.inl (by rw [List.getLast?_append_of_ne_nil _ (by decide)]; rfl))⟩,
    ⟨?_, Or.inl rfl⟩, ⟨b!" ", 32, b!"HTTP/1.1\r\n", by simp, by unfold White; decide, by decide, by unfold White; decide, h2,
      fun c hc => (h3 c hc).1, by unfold White; decide⟩, by decide, h1⟩
  · intro h
    rw [List.dropLast_append_of_ne_nil (by decide)] at h
    rcases List.mem_append.mp h with h | h
    · rcases List.mem_append.mp h with h | h
      · revert h; decide
      · exact hn10 _ h rfl
    · revert h; decide
  · intro c hc
    rcases List.mem_append.mp hc with h | h
    · clear hc
      rcases List.mem_append.mp h with h2 | h
      · clear h; revert h2; revert c; decide
      · exact (h3 c h).2.1
    · clear hc; revert h; revert c; decide

theorem C167_witness :
    (accept_request sampleEnv (docsSt b!"/a.txt") 7 b!"10.0.0.1").bind (fun x => ok (x.1.sent.reverse.take 5, x.2)) = ok (b!"nialp", []) ∧
    (accept_request sampleEnv (docsSt b!"http://h/a.txt") 7 b!"10.0.0.1").bind (fun x => ok (x.1.sent.reverse.take 4, x.2)) = ok (b!"etis", []) := by
  decide +kernel

theorem C167_refuted : ¬ C167_statement := by
  intro h
  obtain ⟨k1, k2⟩ := C167_witness
  cases h1 : accept_request sampleEnv (docsSt b!"/a.txt") 7 b!"10.0.0.1" with
  | ub f => rw [h1] at k1; cases k1
  | ok p =>
    obtain ⟨st', ev⟩ := p
    obtain ⟨st2, e1, e2⟩ := h sampleEnv (docsSt b!"/a.txt") st' (docsSt b!"http://h/a.txt").input 7 b!"10.0.0.1" _ _ _ _ b!"GET" b!"/a.txt" b!"http://h/a.txt"
      b!"\r\n" ev ⟨b!"h", by decide, by decide, by decide, by decide⟩ ⟨b!"GET", by simp, b!"GET", [], by simp, rfl⟩ (by decide)
      (begins_docs (by decide) (by decide) (by unfold White; decide)) (begins_docs (by decide) (by decide) (by unfold White; decide)) h1
    have e1 : accept_request sampleEnv (docsSt b!"http://h/a.txt") 7 b!"10.0.0.1" = ok (st2, ev) := e1
    rw [h1] at k1
    rw [e1] at k2
    simp only [C.bind, ok.injEq, Prod.mk.injEq] at k1 k2
    have h5 := congrArg (List.take 4) k1.1
    rw [List.take_take, ← e2] at h5
    rw [show min 4 5 = 4 from rfl, k2.1] at h5
    revert h5
    decide

/-- The hypotheses hold for the front page of the sample site under a whole URL. -/
example : WholeUrl b!"http://h/" b!"/" ∧ StaticGet sampleEnv (docsSt b!"/") b!"10.0.0.1" b!"/" [] ∧
    StaticGet sampleEnv (docsSt b!"http://h/") b!"10.0.0.1" b!"http://h/" [] ∧ (docsSt b!"http://h/").fs = (docsSt b!"/").fs ∧
    docsFs.lookup (sampleEnv.staticRoot ++ b!"/" ++ b!"http://h/") = none ∧
    docsFs.lookup (sampleEnv.staticRoot ++ b!"/" ++ (b!"http://h/" ++ b!"index.html")) = none ∧
    docsFs.openRead (sampleEnv.staticRoot ++ b!"/" ++ sampleEnv.wwwIndex) = some b!"site" ∧ Stack sampleEnv b!"A" :=
  ⟨⟨b!"h", by decide, by decide, by decide, by decide⟩, docs_get (by decide) (by decide) (by unfold White; decide) (by decide),
    docs_get (by decide) (by decide) (by unfold White; decide) (by decide), rfl, by decide +kernel, by decide +kernel, by decide +kernel,
    ⟨[], rfl, by decide⟩⟩
/-- `C167_limits`: a rule for all of "/" that allows no connection refuses the path and not the whole URL. -/
example : (∀ l ∈ fullEnv.limits, l.path.head? = some 47) ∧ (∀ c ∈ (busySt b!"http://h/docs/index.html").live, c.socket ≠ 7) ∧
    (∃ c ∈ (busySt b!"http://h/docs/index.html").live, c.socket = 0) ∧
    (accept_request fullEnv (busySt b!"/docs/index.html") 7 b!"10.0.0.1").bind (fun x => ok (x.1.sent.take 12)) = ok b!"HTTP/1.1 429" ∧
    (accept_request fullEnv (busySt b!"http://h/docs/index.html") 7 b!"10.0.0.1").bind (fun x => ok (x.1.sent.take 12)) ≠
      ok b!"HTTP/1.1 429" :=
  ⟨by simp [fullEnv], by simp [busySt], ⟨⟨0, [], []⟩, by simp [busySt], rfl⟩, by decide +kernel, by decide +kernel⟩

end Wayuu
