import Verif.Props.Links
/-
C103: limits and the spelling of a URL.
-/
namespace Wayuu
open C Spec FS

/-- The request is answered with one 429 response, and no user code runs. -/
def Refused (env : Env) (st : St) (socket : Nat) (peer : Str) : Prop :=
  ∃ st' reply fields, accept_request env st socket peer = ok (st', []) ∧ st'.sent = st.sent ++ reply ∧ Response reply 429 fields []

/-- C103 in full: if the rules refuse a URL, they refuse every other URL (outside /api, without "..") for the same file. -/
def C103_statement : Prop :=
  ∀ (env : Env) (st : St) (socket : Nat) (peer line text method url rest url' path query path' query' : Str),
    env.limits.length ≤ 64 → (∀ l ∈ env.limits, l.path ≠ []) → peer.length < 16 → (∀ c ∈ st.live, c.socket ≠ socket) →
    Begins st.input line text method url rest → Supported method →
    UrlParts url path query → UrlParts url' path' query' → ¬ CasePrefix b!"/api" url → ¬ CasePrefix b!"/api" url' →
    path.head? = some 47 → path'.head? = some 47 → NoDotDot path → NoDotDot path' → place path = place path' →
    ¬ Admits env.limits st.live peer url' → Refused env st socket peer

/-- A path as it is usually spelt: it begins with '/', and no component after it is empty, "." or "..". -/
def Canonical (path : List Byte) : Prop :=
  ∃ names : List (List Byte), names ≠ [] ∧ path = names.flatMap (fun n => 47 :: n) ∧
    ∀ n ∈ names, n ≠ [] ∧ n ≠ b!"." ∧ n ≠ b!".." ∧ (47 : Byte) ∉ n

theorem comps_name {n : Str} (h : (47 : Byte) ∉ n) : comps n = [n] := by
  induction n with
  | nil => rfl
  | cons c n ih =>
    simp only [List.mem_cons, not_or] at h
    rw [comps, if_neg (fun e => h.1 e.symm), ih h.2]

theorem comps_names {names : List Str} (h : ∀ n ∈ names, (47 : Byte) ∉ n) :
    comps (names.flatMap (fun n => 47 :: n)) = [] :: names := by
  have key : ∀ (names : List Str) (a : Str), (47 : Byte) ∉ a → (∀ n ∈ names, (47 : Byte) ∉ n) →
      comps (a ++ names.flatMap (fun n => 47 :: n)) = a :: names := by
    intro names
    induction names with
    | nil => intro a ha _; simpa using comps_name ha
    | cons n names ih =>
      intro a ha h
      rw [List.flatMap_cons, List.cons_append, comps_append, comps_name ha,
        ih n (h n (by simp)) (fun m hm => h m (by simp [hm]))]
      rfl
  simpa using key names [] (by simp) h

theorem place_canonical {names : List Str} (h : ∀ n ∈ names, n ≠ [] ∧ n ≠ b!"." ∧ n ≠ b!".." ∧ (47 : Byte) ∉ n) :
    place (names.flatMap (fun n => 47 :: n)) = names := by
  unfold place
  rw [comps_names fun n hn => (h n hn).2.2.2]
  rw [List.filter_cons_of_neg (by simp), List.filter_eq_self]
  intro n hn
  have := h n hn
  simp [this.1, this.2.1]

/-- The same place spelt the usual way is the same path. -/
theorem canonical_unique {path path' : Str} (h : Canonical path) (h' : Canonical path') (e : place path = place path') :
    path = path' := by
  obtain ⟨names, -, rfl, h⟩ := h
  obtain ⟨names', -, rfl, h'⟩ := h'
  rw [place_canonical h, place_canonical h'] at e
  rw [e]

theorem casePrefix_map {p s : Str} : CasePrefix p s ↔ p.map lower <+: s.map lower := by
  constructor
  · rintro ⟨a, b, rfl, h⟩
    exact ⟨b.map lower, by rw [List.map_append, h]⟩
  · rintro ⟨t, h⟩
    refine ⟨s.take p.length, s.drop p.length, (List.take_append_drop _ _).symm, ?_⟩
    unfold CaseEq
    rw [List.map_take, ← h, List.take_append_of_le_length (by simp), List.take_of_length_le (by simp)]

theorem lower_question {c : Byte} (h : lower c = 63) : c = 63 := by
  have key : ∀ n : Fin 256, lower (UInt8.ofNat n.val) = 63 → UInt8.ofNat n.val = 63 := by decide +kernel
  have := key ⟨c.toNat, c.toNat_lt⟩
  simp only [UInt8.ofNat_toNat] at this
  exact this h

/-- The query is nothing to a rule without '?'. -/
theorem casePrefix_query {l url path query : Str} (hp : UrlParts url path query) (hl : (63 : Byte) ∉ l) :
    CasePrefix l url ↔ CasePrefix l path := by
  rcases hp with ⟨rfl, -⟩ | ⟨rfl, -⟩
  · rfl
  · rw [casePrefix_map, casePrefix_map, List.map_append]
    constructor
    · intro h
      rcases List.prefix_or_prefix_of_prefix h (show path.map lower ++ [63] <+: path.map lower ++ (63 :: query).map lower from
        ⟨query.map lower, by simp [lower]⟩) with h | h
      · rcases List.prefix_concat_iff.mp h with h | h
        · exfalso
          have : (63 : Byte) ∈ l.map lower := by rw [h]; simp
          obtain ⟨c, hc, e⟩ := List.mem_map.mp this
          rw [lower_question e] at hc
          exact hl hc
        · exact h
      · exfalso
        have : (63 : Byte) ∈ l.map lower := h.subset (by simp)
        obtain ⟨c, hc, e⟩ := List.mem_map.mp this
        rw [lower_question e] at hc
        exact hl hc
    · exact fun h => h.trans (List.prefix_append _ _)

/-- C103, what holds: paths spelt the usual way, and rules without '?' – whatever the queries. Missing: other spellings. -/
theorem C103_partial (env : Env) (st : St) (socket : Nat) (peer line text method url rest url' path query path' query' : Str)
    (hlim : env.limits.length ≤ 64) (hne : ∀ l ∈ env.limits, l.path ≠ []) (hp : peer.length < 16)
    (hsock : ∀ c ∈ st.live, c.socket ≠ socket) (hb : Begins st.input line text method url rest) (hs : Supported method)
    (hu : UrlParts url path query) (hu' : UrlParts url' path' query') (hc : Canonical path) (hc' : Canonical path')
    (hq : ∀ l ∈ env.limits, (63 : Byte) ∉ l.path) (hpl : place path = place path')
    (hadm : ¬ Admits env.limits st.live peer url') : Refused env st socket peer := by
  have e := canonical_unique hc hc' hpl
  subst e
  have hno : ¬ Admits env.limits st.live peer url := by
    rintro ⟨h1, h2⟩
    refine hadm ⟨h1, fun l hl hpre => h2 l hl ?_⟩
    rw [casePrefix_query hu (hq l hl), ← casePrefix_query hu' (hq l hl)]
    exact hpre
  obtain ⟨st', reply, fields, h1, h2, h3, -⟩ := (C65_admission env st socket peer line text method url rest hlim hne hp hb hs hsock).1 hno
  exact ⟨st', reply, fields, h1, h2, h3⟩

theorem resolve_dot (fs : FS) (a b : Str) : fs.resolve (a ++ b!"/" ++ (b!"/." ++ (b!"/" ++ b))) = fs.resolve (a ++ b!"/" ++ b) := by
  rw [show b!"/." ++ (b!"/" ++ b) = b!"/" ++ (b!"./" ++ b) by simp, resolve_two]
  unfold resolve
  rw [if_neg (by simp), if_neg (by simp)]
  have e1 : comps (a ++ b!"/" ++ (b!"./" ++ b)) = comps a ++ (b!"." :: comps b) := by
    have := comps_append a (46 :: 47 :: b)
    rw [show comps (46 :: 47 :: b) = b!"." :: comps b from comps_append b!"." b] at this
    simpa using this
  have e2 : comps (a ++ b!"/" ++ b) = comps a ++ comps b := by simpa using comps_append a b
  rw [e1, e2, FS.walk_append, FS.walk_append]
  cases fs.walk [] (comps a) with
  | none => rfl
  | some cur =>
    show fs.walk cur (b!"." :: comps b) = fs.walk cur (comps b)
    conv_lhs => unfold walk
    obtain ⟨x, t, e⟩ := List.exists_cons_of_ne_nil (comps_ne_nil b)
    rw [e]
    by_cases hd : fs.nodeAt cur = some .dir
    · simp [hd]
    · simp [hd, walk]

/-- C103, what happens instead: unless there is a rule for all of "/" (or for names that begin with '.'), every file can be
fetched whatever the limits and however many connections are open, by putting "/." before its path. -/
theorem C103_evaded (env : Env) (st : St) (socket : Nat) (peer name content s : Str)
    (hlim : env.limits.length ≤ 64) (hrules : ∀ l ∈ env.limits, ∃ c r, l.path = 47 :: c :: r ∧ c ≠ 46)
    (hfree : ∃ c ∈ st.live, c.socket = 0) (hp : peer.length < 16)
    (hin : st.input = b!"GET /./" ++ name ++ b!" HTTP/1.1\r\n\r\n") (hlen : name.length ≤ 251)
    (hname : ∀ c ∈ name, ¬ White c ∧ c ≠ 0 ∧ c ≠ 63)
    (hopen : st.fs.openRead (env.staticRoot ++ b!"/" ++ name) = some content) (hc : content.length + 1200 < 2 ^ 31)
    (hroot : env.staticRoot.length ≤ 256) (hidx : env.wwwIndex.length ≤ 256) (hicon : env.favicon.length ≤ 256)
    (hs : Stack env s) (hs1 : s ≠ []) (hs2 : s.getLast? ≠ some 47) :
    ∃ st' head, accept_request env st socket peer = ok (st', []) ∧ st'.sent = st.sent ++ head ++ content ∧
      b!"HTTP/1.1 200 OK\r\n" <+: head := by
  have hres := resolve_dot st.fs env.staticRoot name
  have hopen' : st.fs.openRead (env.staticRoot ++ b!"/" ++ (b!"/." ++ (b!"/" ++ name))) = some content := by
    unfold openRead at hopen ⊢
    rw [hres]
    exact hopen
  have hlast : (b!"/." ++ (b!"/" ++ name)).getLast? ≠ some 47 := by
    intro h
    have : st.fs.openRead (env.staticRoot ++ b!"/" ++ (b!"/." ++ (b!"/" ++ name))) = none := by
      apply Embed.openRead_folder
      rw [List.getLast?_append_of_ne_nil _ (by simp)]
      exact h
    rw [this] at hopen'
    cases hopen'
  have hget : StaticGet env st peer (b!"/." ++ (b!"/" ++ name)) [] := by
    refine plain_get hlim (fun l hl e => ?_) ⟨hfree, fun l hl hpre => ?_⟩ hp (by rw [hin]; simp) (by simp; omega) (by simp) ?_ ?_
    · obtain ⟨c, r, e', -⟩ := hrules l hl
      rw [e'] at e; cases e
    · exfalso
      obtain ⟨c, r, e', hne⟩ := hrules l hl
      rw [casePrefix_map, e'] at hpre
      simp only [List.map_cons, List.cons_append, List.nil_append, List.cons_prefix_cons] at hpre
      have key : ∀ n : Fin 256, lower (UInt8.ofNat n.val) = lower 46 → UInt8.ofNat n.val = 46 := by decide +kernel
      have := key ⟨c.toNat, c.toNat_lt⟩
      simp only [UInt8.ofNat_toNat] at this
      exact hne (this hpre.2.1)
    · intro c hc
      simp only [List.mem_append] at hc
      rcases hc with h | h | h
      · exact (show ∀ c ∈ b!"/.", ¬ ((c : Byte) = 32 ∨ (9 ≤ c.toNat ∧ c.toNat ≤ 13)) ∧ c ≠ 0 ∧ c ≠ 63 by decide) c h
      · exact (show ∀ c ∈ b!"/", ¬ ((c : Byte) = 32 ∨ (9 ≤ c.toNat ∧ c.toNat ≤ 13)) ∧ c ≠ 0 ∧ c ≠ 63 by decide) c h
      · exact hname c h
    · rw [casePrefix_map]
      intro h
      simp only [List.map_cons, List.cons_append, List.nil_append, List.cons_prefix_cons] at h
      exact absurd h.2.1 (by decide)
  obtain ⟨st', head, e1, e2, e3, -⟩ := C55_partial env st socket peer _ [] _ _ content s hget
    (Or.inr (Or.inr (Or.inr ⟨by simp, by simp, hlast, rfl⟩)))
    (Or.inl ⟨⟨content, Embed.openRead_lookup hopen'⟩, rfl⟩) hopen' hroot hidx hicon hc (Or.inr hlast) hs hs1 hs2
  exact ⟨st', head, e1, e2, e3⟩

/-! ### Examples -/

/-- At most one connection at a time for /docs. -/
def docsRule : PathLimit := ⟨b!"/docs", 0, 0, 0⟩

/-- A server with this rule, and one connection open for /docs. -/
def busyEnv : Env := { sampleEnv with limits := [docsRule] }
def busySt (url : Str) : St := { docsSt url with live := [⟨9, b!"/docs/a", b!"10.0.0.2"⟩, ⟨0, [], []⟩] }

theorem busy_full (peer : Str) : ¬ Admits busyEnv.limits (busySt b!"/docs/index.html").live peer b!"/docs/index.html" := by
  rintro ⟨-, h⟩
  have := (h docsRule (by simp [busyEnv]) ((startswith_iff _ _).mp (by decide))).1
  have hU : Under docsRule.path ⟨9, b!"/docs/a", b!"10.0.0.2"⟩ := ⟨by decide, (startswith_iff _ _).mp (by decide)⟩
  have : (0 : Int) < liveUnder docsRule.path (busySt b!"/docs/index.html").live := by
    have : 0 < liveUnder docsRule.path (busySt b!"/docs/index.html").live := by
      unfold liveUnder
      rw [List.countP_pos_iff]
      exact ⟨_, List.mem_cons_self .., by simpa using hU⟩
    omega
  simp only [docsRule] at *
  omega

theorem begins_get {url : Str} (h1 : url.length ≤ 254) (h2 : url ≠ []) (h3 : ∀ c ∈ url, ¬ White c ∧ c ≠ 0 ∧ c ≠ 63) :
    Begins (b!"GET " ++ url ++ b!" HTTP/1.1\r\n\r\n") (b!"GET " ++ url ++ b!" HTTP/1.1\r\n") (b!"GET " ++ url ++ b!" HTTP/1.1\r\n")
      b!"GET" url b!"\r\n" := by
  have hn10 : ∀ c ∈ url, c ≠ 10 := by
    rintro c hc rfl
    exact (h3 _ hc).1 (Or.inr (by decide))
  refine ⟨⟨by simp, by simp; omega, ?_, Or.inr (Or.inl (by rw [List.getLast?_append_of_ne_nil _ (by decide)]; rfl))⟩, ⟨?_, Or.inl rfl⟩,
    ⟨b!" ", 32, b!"HTTP/1.1\r\n", by simp, by unfold White; decide, by decide, by unfold White; decide, h2,
      fun c hc => (h3 c hc).1, by unfold White; decide⟩, by decide, h1⟩
  · intro h
    rw [List.dropLast_append_of_ne_nil (by decide)] at h
    rcases List.mem_append.mp h with h | h
    · rcases List.mem_append.mp h with h | h
      · revert h; decide
      · exact hn10 _ h rfl
    · revert h; decide
  · intro c hc
    rcases List.mem_append.mp hc with h | h
    · rcases List.mem_append.mp h with h2 | h
      · exact (show ∀ c ∈ b!"GET ", c ≠ 0 by decide) c h2
      · exact (h3 c h).2.1
    · exact (show ∀ c ∈ b!" HTTP/1.1\r\n", c ≠ 0 by decide) c h

/-- The refused page, and the same page under another spelling. -/
theorem C103_witness :
    (accept_request busyEnv (busySt b!"/docs/index.html") 7 b!"10.0.0.1").bind (fun x => ok (x.1.sent.take 12)) = ok b!"HTTP/1.1 429" ∧
    (accept_request busyEnv (busySt b!"/./docs/index.html") 7 b!"10.0.0.1").bind (fun x => ok (x.1.sent.take 12)) = ok b!"HTTP/1.1 200" := by
  decide +kernel

theorem C103_refuted : ¬ C103_statement := by
  intro h
  obtain ⟨st', reply, fields, h1, h2, ct, reason, lines, h3, h4, h5, -⟩ := h busyEnv (busySt b!"/./docs/index.html") 7 b!"10.0.0.1" _ _ b!"GET"
    b!"/./docs/index.html" _ b!"/docs/index.html" b!"/./docs/index.html" [] b!"/docs/index.html" [] (by decide) (by decide) (by decide)
    (by decide) (begins_get (url := b!"/./docs/index.html") (by decide) (by decide) (by unfold White; decide))
    ⟨b!"GET", by decide, (startswith_iff _ _).mp (by decide)⟩ (Or.inl ⟨rfl, rfl, by decide⟩) (Or.inl ⟨rfl, rfl, by decide⟩)
    (by rw [← startswith_iff]; decide) (by rw [← startswith_iff]; decide) rfl rfl (noDotDot_of (by decide)) (noDotDot_of (by decide))
    (by decide) (busy_full _)
  have key := C103_witness.2
  rw [h1] at key
  simp only [C.bind, ok.injEq, h2, h3] at key
  have e : ct = b!"200" := by
    match ct, h5 with
    | [a, b, c], _ =>
      simp [busySt, docsSt, sampleSt, St.sent] at key
      simp [key]
  rw [e] at h4
  exact absurd h4.2.2.2 (by decide)

/-- C103_partial applies: the same page with a query. -/
example : Refused busyEnv (busySt b!"/docs/index.html") 7 b!"10.0.0.1" :=
  C103_partial busyEnv (busySt b!"/docs/index.html") 7 b!"10.0.0.1" _ _ b!"GET" b!"/docs/index.html" _ b!"/docs/index.html?x"
    b!"/docs/index.html" [] b!"/docs/index.html" b!"x" (by decide) (by decide) (by decide) (by decide)
    (begins_get (url := b!"/docs/index.html") (by decide) (by decide) (by unfold White; decide))
    ⟨b!"GET", by decide, (startswith_iff _ _).mp (by decide)⟩ (Or.inl ⟨rfl, rfl, by decide⟩) (Or.inr ⟨rfl, by decide⟩)
    ⟨[b!"docs", b!"index.html"], by decide, by decide, by decide⟩ ⟨[b!"docs", b!"index.html"], by decide, by decide, by decide⟩
    (by decide) rfl (by
      intro ha
      exact busy_full b!"10.0.0.1" ⟨ha.1, fun l hl hpre => ha.2 l hl (by
        obtain ⟨a, b, e1, e2⟩ := hpre
        exact ⟨a, b ++ b!"?x", by rw [← List.append_assoc, ← e1]; rfl, e2⟩)⟩)

/-- C103_evaded applies. -/
example : ∃ st' head, accept_request busyEnv (busySt b!"/./docs/index.html") 7 b!"10.0.0.1" = ok (st', []) ∧
    st'.sent = (busySt b!"/./docs/index.html").sent ++ head ++ b!"folder" ∧ b!"HTTP/1.1 200 OK\r\n" <+: head :=
  C103_evaded busyEnv (busySt b!"/./docs/index.html") 7 b!"10.0.0.1" b!"docs/index.html" b!"folder" b!"A" (by decide)
    (by intro l hl; rw [List.mem_singleton.mp hl]; exact ⟨100, b!"ocs", rfl, by decide⟩) ⟨⟨0, [], []⟩, by simp [busySt], rfl⟩ (by decide) rfl
    (by decide) (by unfold White; decide) (by decide +kernel) (by decide) (by decide) (by decide) (by decide) ⟨[], rfl, by decide⟩ (by decide) (by decide)

end Wayuu
