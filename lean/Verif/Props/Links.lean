import Verif.Spec.Links
import Verif.Props.Embed
/-
C102: links to the files of the site.
-/
namespace Wayuu
open C Spec FS

/-- An open server (no limits, a free slot, a stack as C55 needs it) gets the request a browser sends for a link. -/
structure Linked (env : Env) (st : St) (peer name : Str) : Prop where
  open_ : env.limits = []
  free : ∃ c ∈ st.live, c.socket = 0
  peer : peer.length < 16
  input : st.input = b!"GET /" ++ linkTo name ++ b!" HTTP/1.1\r\n\r\n"
  length : (linkTo name).length ≤ 253
  root : env.staticRoot.length ≤ 256
  index : env.wwwIndex.length ≤ 256
  icon : env.favicon.length ≤ 256
  stack : ∃ s, Stack env s ∧ s ≠ [] ∧ s.getLast? ≠ some 47

/-- C102 in full: following the link to a file under the static root (other than the two names that are configured) gives
the file. -/
def C102_statement : Prop :=
  ∀ (env : Env) (st : St) (socket : Nat) (peer name content : Str), Linked env st peer name →
    NulFree name → NoDotDot name → name ≠ b!"index.html" → name ≠ b!"favicon.ico" →
    st.fs.openRead (env.staticRoot ++ b!"/" ++ name) = some content → content.length + 1200 < 2 ^ 31 →
    ∃ st' ev head, accept_request env st socket peer = ok (st', ev) ∧ st'.sent = st.sent ++ head ++ content ∧
      b!"HTTP/1.1 200 OK\r\n" <+: head

/-- A plain GET request. -/
theorem plain_get {env : Env} {st : St} {peer url : Str} (hlim : env.limits.length ≤ 64) (hne : ∀ l ∈ env.limits, l.path ≠ [])
    (hadm : Admits env.limits st.live peer url) (hp : peer.length < 16) (hin : st.input = b!"GET " ++ url ++ b!" HTTP/1.1\r\n\r\n")
    (h1 : url.length ≤ 254) (h2 : url ≠ []) (h3 : ∀ c ∈ url, ¬ White c ∧ c ≠ 0 ∧ c ≠ 63)
    (h4 : ¬ CasePrefix b!"/api" url) : StaticGet env st peer url [] := by
  have hn10 : ∀ c ∈ url, c ≠ 10 := by
    rintro c hc rfl
    exact (h3 _ hc).1 (Or.inr (by decide))
  refine ⟨[], b!"GET " ++ url ++ b!" HTTP/1.1\r\n", b!"GET " ++ url ++ b!" HTTP/1.1\r\n", b!"GET", url, b!"\r\n", [], [],
    hlim, hne, hp,
    ⟨⟨by rw [hin]; simp, by simp; omega, ?_, Or.inr (Or.inl (by rw [List.getLast?_append_of_ne_nil _ (by decide)]; rfl))⟩, ⟨?_, Or.inl rfl⟩,
    ⟨b!" ", 32, b!"HTTP/1.1\r\n", by simp, by unfold White; decide, by decide, by unfold White; decide, h2,
      fun c hc => (h3 c hc).1, by unfold White; decide⟩, by decide, h1⟩, rfl, h4, Or.inl ⟨rfl, rfl, fun h => (h3 _ h).2.2 rfl⟩, h2, by simp,
    hadm, .blank _ b!"\r\n" _ ⟨by decide, by decide, by decide, by decide⟩ (by decide),
    by simp, .nil, fitsLog_of_short (by simp)⟩
  · intro h
    rw [List.dropLast_append_of_ne_nil (by decide)] at h
    rcases List.mem_append.mp h with h | h
    · rcases List.mem_append.mp h with h | h
      · revert h; decide
      · exact hn10 _ h rfl
    · revert h; decide
  · intro c hc
    rcases List.mem_append.mp hc with h | h
    · clear hc
      rcases List.mem_append.mp h with h2 | h
      · clear h; revert h2; revert c; decide
      · exact (h3 c h).2.1
    · clear hc; revert h; revert c; decide

theorem unreserved_plain {c : Byte} (h : Unreserved c) : ¬ White c ∧ c ≠ 0 ∧ c ≠ 63 := by
  have key : ∀ n : Fin 256, Unreserved (UInt8.ofNat n.val) →
      ¬ (UInt8.ofNat n.val = 32 ∨ (9 ≤ (UInt8.ofNat n.val).toNat ∧ (UInt8.ofNat n.val).toNat ≤ 13)) ∧
        UInt8.ofNat n.val ≠ 0 ∧ UInt8.ofNat n.val ≠ 63 := by decide +kernel
  have := key ⟨c.toNat, c.toNat_lt⟩
  simp only [UInt8.ofNat_toNat] at this
  exact this h

theorem linkTo_self {name : Str} (h : ∀ c ∈ name, Unreserved c) : linkTo name = name := by
  induction name with
  | nil => rfl
  | cons c name ih =>
    have := ih fun d hd => h d (by simp [hd])
    unfold linkTo at this ⊢
    rw [List.flatMap_cons, if_pos (h c (by simp)), this]
    rfl

/-- Empty components count for nothing. -/
theorem resolve_two (fs : FS) (a b : Str) : fs.resolve (a ++ b!"/" ++ (b!"/" ++ b)) = fs.resolve (a ++ b!"/" ++ b) := by
  unfold resolve
  rw [if_neg (by simp), if_neg (by simp)]
  have e1 : comps (a ++ b!"/" ++ (b!"/" ++ b)) = comps a ++ ([] :: comps b) := by
    have := comps_append a (47 :: b)
    rw [show comps (47 :: b) = [] :: comps b by rw [comps]; simp] at this
    simpa using this
  have e2 : comps (a ++ b!"/" ++ b) = comps a ++ comps b := by simpa using comps_append a b
  rw [e1, e2, FS.walk_append, FS.walk_append]
  cases fs.walk [] (comps a) with
  | none => rfl
  | some cur =>
    show fs.walk cur ([] :: comps b) = fs.walk cur (comps b)
    conv_lhs => unfold walk
    obtain ⟨x, t, e⟩ := List.exists_cons_of_ne_nil (comps_ne_nil b)
    rw [e]
    by_cases hd : fs.nodeAt cur = some .dir
    · simp [hd]
    · simp [hd, walk]

/-- C102, what holds: names of letters, digits and `-._~/` that do not begin with "api". Missing: all other names, whose
links are not decoded or lead to the API. -/
theorem C102_partial (env : Env) (st : St) (socket : Nat) (peer name content : Str) (hl : Linked env st peer name)
    (hname : ∀ c ∈ name, Unreserved c) (hapi : ¬ CasePrefix b!"api" name)
    (h1 : name ≠ b!"index.html") (h2 : name ≠ b!"favicon.ico")
    (hopen : st.fs.openRead (env.staticRoot ++ b!"/" ++ name) = some content) (hlen : content.length + 1200 < 2 ^ 31) :
    ∃ st' head, accept_request env st socket peer = ok (st', []) ∧ st'.sent = st.sent ++ head ++ content ∧
      b!"HTTP/1.1 200 OK\r\n" <+: head := by
  obtain ⟨s, hs1, hs2, hs3⟩ := hl.stack
  have hin := hl.input
  have hll := hl.length
  rw [linkTo_self hname] at hin hll
  have hres := resolve_two st.fs env.staticRoot name
  have hlast : (b!"/" ++ name).getLast? ≠ some 47 := by
    intro h
    have : st.fs.openRead (env.staticRoot ++ b!"/" ++ (b!"/" ++ name)) = none := by
      apply Embed.openRead_folder
      rw [List.getLast?_append_of_ne_nil _ (by simp)]
      exact h
    unfold openRead at this hopen
    rw [hres] at this
    rw [this] at hopen
    cases hopen
  have hopen' : st.fs.openRead (env.staticRoot ++ b!"/" ++ (b!"/" ++ name)) = some content := by
    unfold openRead at hopen ⊢
    rw [hres]
    exact hopen
  have hget : StaticGet env st peer (b!"/" ++ name) [] := by
    refine plain_get (by rw [hl.open_]; decide) (by rw [hl.open_]; simp) ⟨hl.free, by rw [hl.open_]; simp⟩ hl.peer (by rw [hin]; simp) (by simp; omega) (by simp) ?_ ?_
    · intro c hc
      rcases List.mem_append.mp hc with hc | hc
      · simp only [List.mem_singleton] at hc
        subst hc
        unfold White
        decide
      · exact unreserved_plain (hname c hc)
    · intro h
      apply hapi
      rw [← startswith_iff] at h ⊢
      simpa [startswith, strncaseEq] using h
  obtain ⟨st', head, e1, e2, e3, -⟩ := C55_partial env st socket peer (b!"/" ++ name) [] (b!"/" ++ name) _ content s hget
    (Or.inr (Or.inr (Or.inr ⟨by simpa using h1, by simpa using h2, hlast, rfl⟩)))
    (Or.inl ⟨⟨content, Embed.openRead_lookup hopen'⟩, rfl⟩) hopen' hl.root hl.index hl.icon hlen (Or.inr hlast) hs1 hs2 hs3
  exact ⟨st', head, e1, e2, e3⟩

/-! ### What can not be reached -/

theorem walk_named {kind : Str → Prop} {fs fs' : FS} (cs cur : List Str) (hcs : ∀ c ∈ cs, kind c) (hcur : ∀ c ∈ cur, kind c)
    (h : ∀ p, (∀ n ∈ p, kind n) → fs.nodeAt p = fs'.nodeAt p) :
    fs.walk cur cs = fs'.walk cur cs ∧ ∀ p, fs.walk cur cs = some p → ∀ n ∈ p, kind n := by
  induction cs generalizing cur with
  | nil =>
    refine ⟨rfl, ?_⟩
    rintro p hp
    simp only [walk, Option.some.injEq] at hp
    rw [← hp]
    exact hcur
  | cons c cs ih =>
    have hc := h cur hcur
    have hcs' : ∀ d ∈ cs, kind d := fun d hd => hcs d (by simp [hd])
    simp only [walk, hc]
    split
    · simp
    · split
      · exact ih cur hcs' hcur
      · split
        · exact ih _ hcs' fun n hn => hcur n (List.dropLast_subset _ hn)
        · refine ih _ hcs' fun n hn => ?_
          rcases List.mem_append.mp hn with hn | hn
          · exact hcur n hn
          · rw [List.mem_singleton.mp hn]
            exact hcs c (by simp)

theorem sameNamed_file {kind : Str → Prop} {fs fs' : FS} (h : SameNamed kind fs fs') {path : Str}
    (hp : ∀ c ∈ comps path, kind c) :
    is_file fs path = is_file fs' path ∧ fs.openRead path = fs'.openRead path := by
  have hnode : ∀ p, (∀ n ∈ p, kind n) → fs.nodeAt p = fs'.nodeAt p := by
    intro p hp
    simp [nodeAt, (h p hp).1]
  obtain ⟨w1, w2⟩ := walk_named (comps path) [] hp (by simp) hnode
  have hres : fs.resolve path = fs'.resolve path := by simp [resolve, w1]
  have hloc : ∀ p, fs.resolve path = some p → fs.nodeAt p = fs'.nodeAt p ∧ fs.canRead p = fs'.canRead p := by
    intro p e
    unfold resolve at e
    split at e
    · cases e
    · have := w2 p e
      exact ⟨hnode p this, (h p this).2⟩
  constructor
  · unfold is_file lookup
    rw [← hres]
    cases e : fs.resolve path with
    | none => rfl
    | some p => simp [(hloc p e).1]
  · unfold openRead
    rw [← hres]
    cases e : fs.resolve path with
    | none => rfl
    | some p => simp [(hloc p e).1, (hloc p e).2]

theorem comps_plain {path : Str} (h : PlainName path) : ∀ c ∈ comps path, PlainName c := by
  intro c hc
  obtain ⟨a, b, rfl, -⟩ := mem_comps hc
  exact fun x hx => h x (by simp [hx])

/-- The path the code works with has no question mark, whatever the URL. -/
theorem get_path_plain {url path query : Str} (hz : NulFree url) (hl : url.length ≤ 254)
    (h : get_path_and_query_string url = ok (path, query)) : ∀ c ∈ path, c ∈ url ∧ c ≠ 63 := by
  obtain ⟨ts, hr⟩ := runs_exists b!"?" url
  have hm := runs_mem hr
  have hd : ∀ (s : Str) (ts : List Str), Runs b!"?" s ts → (∀ t ∈ ts, t.length ≤ s.length ∧ ∀ c ∈ t, c ≠ 63) ∧ ts.length ≤ s.length := by
    intro s ts hr
    clear h hm
    induction hr with
    | nil d _ => simp
    | last d t _ ht htd =>
      refine ⟨?_, ?_⟩
      · intro u hu
        rw [List.mem_singleton.mp hu]
        exact ⟨by simp, fun c hc e => htd c hc (by simp [e])⟩
      · have := List.length_pos_iff.mpr ht
        simp; omega
    | cons d t x s ts _ ht htd _ _ ih =>
      refine ⟨?_, ?_⟩
      · intro u hu
        rcases List.mem_cons.mp hu with rfl | hu
        · exact ⟨by simp; omega, fun c hc e => htd c hc (by simp [e])⟩
        · have := ih.1 u hu
          exact ⟨by simp; omega, this.2⟩
      · have := ih.2
        simp; omega
  obtain ⟨hd1, hd2⟩ := hd url ts hr
  have hlen : ∀ t ∈ ts, t.length < 1023 := fun t ht => by have := (hd1 t ht).1; omega
  by_cases hc : ts.length ≤ 50
  · cases ts with
    | nil =>
      cases hr with
      | nil _ hd => rw [C36_uninit url (by simpa using hd)] at h; cases h
    | cons t ts =>
      rw [C36_runs_partial url t ts hz hr hlen hc] at h
      simp only [ok.injEq, Prod.mk.injEq] at h
      rw [← h.1]
      exact fun c hc => ⟨hm t (by simp) c hc, (hd1 t (by simp)).2 c hc⟩
  · unfold get_path_and_query_string split at h
    rw [splitLoop_over hr [] _ (by omega) (by simp) (by simp; omega) hlen] at h
    cases h

/-- C102, what is out of reach: no request outside /api – percent-encoded or not, with ".." or not – can tell apart two
file trees that agree on all names without white space and question mark (and on the names the server is configured
with). So a file with such a name, or in a folder with such a name, is never sent. -/
theorem C102_unreachable (env : Env) (st : St) (fs : FS) (socket : Nat) (peer line text method url rest : Str)
    (hp : peer.length < 24) (hb : Begins st.input line text method url rest) (hs : Supported method)
    (hu : ¬ CasePrefix b!"/api" url)
    (hfs : SameNamed (fun n => PlainName n ∨ n ∈ comps env.staticRoot ∨ n ∈ comps env.wwwIndex ∨ n ∈ comps env.favicon) st.fs fs) :
    accept_request env (st.withFs fs) socket peer =
      (accept_request env st socket peer).bind (fun x => ok (x.1.withFs fs, x.2)) := by
  show Via (fsAnd fs) _ _
  have hplain : ∀ c ∈ url, ¬ White c := by
    obtain ⟨gap, w, more, -, -, -, -, -, h, -⟩ := hb.2.2.1
    exact h
  have hname : ∀ p, (∀ c ∈ comps p, PlainName c ∨ c ∈ comps env.staticRoot ∨ c ∈ comps env.wwwIndex ∨ c ∈ comps env.favicon) →
      is_file st.fs (env.staticRoot ++ b!"/" ++ p) = is_file fs (env.staticRoot ++ b!"/" ++ p) ∧
      st.fs.openRead (env.staticRoot ++ b!"/" ++ p) = fs.openRead (env.staticRoot ++ b!"/" ++ p) := by
    intro p hp
    apply sameNamed_file hfs
    intro c hc
    have e : comps (env.staticRoot ++ b!"/" ++ p) = comps env.staticRoot ++ comps p := by simpa using comps_append env.staticRoot p
    rw [e] at hc
    rcases List.mem_append.mp hc with hc | hc
    · exact Or.inr (Or.inl hc)
    · exact hp c hc
  have hpn : ∀ p, PlainName p → ∀ c ∈ comps p, PlainName c ∨ c ∈ comps env.staticRoot ∨ c ∈ comps env.wwwIndex ∨ c ∈ comps env.favicon :=
    fun p hp c hc => Or.inl (comps_plain hp c hc)
  rw [begins_line hb hp hs, begins_line (st := st.withFs fs) hb hp hs]
  refine .same (x := connection_add env.limits st.live socket peer url) fun a _ => ?_
  obtain ⟨added, live⟩ := a
  dsimp only
  cases added with
  | false =>
    simp only [Bool.not_false, if_true]
    exact .bind (send_http_status_fs env fs { st with input := rest, live := live, req :=
          { lineReq socket peer (text.take (text.length - 2)) method with url := url } } 429 []) fun _ _ => .ok rfl
  | true =>
    simp only [Bool.not_true, Bool.false_eq_true, if_false]
    refine .same fun h _ => ?_
    refine .bind (T := fsAnd fs) ?_ fun _ _ => .ok rfl
    cases hget : get_path_and_query_string url with
    | ub e => unfold dispatch; rw [hget]; exact .ub
    | ok pq =>
      obtain ⟨path, query⟩ := pq
      have hpath : PlainName path := fun c hc => by
        obtain ⟨h1, h2⟩ := get_path_plain hb.nulFree hb.2.2.2.2 hget c hc
        exact ⟨hplain c h1, h2⟩
      rw [dispatch_static hu hget, dispatch_static hu hget]
      refine .bind (T := (St.withFs · fs)) ?_ fun _ _ => .ok rfl
      show Via _ (if strcaseEq method b!"GET" = true then _ else _) (if strcaseEq method b!"GET" = true then _ else _)
      split
      · refine handle_static_fs env fs _ ?_
        rintro p (hp | rfl)
        · apply hname
          rcases rewritePath_cases hp with rfl | rfl | rfl | rfl
          · exact fun c hc => Or.inr (Or.inr (Or.inl hc))
          · exact fun c hc => Or.inr (Or.inr (Or.inr hc))
          · apply hpn
            intro c hc
            rcases List.mem_append.mp hc with hc | hc
            · exact hpath c hc
            · exact (show ∀ c ∈ b!"index.html", ¬ (c = 32 ∨ (9 ≤ c.toNat ∧ c.toNat ≤ 13)) ∧ c ≠ 63 by decide) c hc
          · exact hpn _ hpath
        · exact hname _ fun c hc => Or.inr (Or.inr (Or.inl hc))
      · exact send_http_status_fs env fs { servedSt st live socket peer (text.take (text.length - 2)) method url h with
          req := { headReq socket peer (text.take (text.length - 2)) method url h with query_string := query, path := path } } 400 []

/-! ### Examples -/

/-- A site with a page whose name has a blank, one whose name begins with "api", and a plain one. -/
def linksFs : FS :=
  ⟨fun p => if p = [b!"www"] then some .dir
    else if p = [b!"www", b!"my file"] then some (.file b!"mine")
    else if p = [b!"www", b!"apis.html"] then some (.file b!"apis")
    else if p = [b!"www", b!"a-1_b.txt"] then some (.file b!"plain") else none,
   fun _ => true, fun _ => true⟩

/-- A visitor follows a link. -/
def linksSt (name : Str) : St := { docsSt (b!"/" ++ linkTo name) with fs := linksFs }

theorem links_linked {name : Str} (h : (linkTo name).length ≤ 253) : Linked sampleEnv (linksSt name) b!"10.0.0.1" name :=
  ⟨rfl, ⟨⟨0, [], []⟩, List.mem_singleton.mpr rfl, rfl⟩, by decide, by simp [linksSt, docsSt], h, by decide, by decide, by decide,
    ⟨b!"A", ⟨[], rfl, by decide⟩, by decide, by decide⟩⟩

/-- The link as sent. -/
example : (linksSt b!"my file").input = b!"GET /my%20file HTTP/1.1\r\n\r\n" := by decide +kernel

/-- Neither of the two is sent. -/
theorem C102_witness : ∀ n ∈ [b!"my file", b!"apis.html"], ∃ reply,
    (accept_request sampleEnv (linksSt n) 7 b!"10.0.0.1").bind (fun x => ok x.1.sent) = ok reply ∧ ¬ b!"HTTP/1.1 200 OK\r\n" <+: reply := by
  intro n hn
  rcases List.mem_cons.mp hn with rfl | hn
  · exact ⟨[], by decide +kernel, by decide⟩
  · rw [List.mem_singleton.mp hn]
    exact ⟨b!"HTTP/1.1 400 Bad Request\r\nServer: WAYUU/1.5.0\r\nContent-Length: 0\r\n\r\n", by decide +kernel, by decide +kernel⟩

theorem C102_refuted : ¬ C102_statement := by
  intro h
  obtain ⟨st', ev, head, h1, h2, h3⟩ := h sampleEnv (linksSt b!"my file") 7 b!"10.0.0.1" b!"my file" b!"mine" (links_linked (by decide))
    (by decide) (noDotDot_of (by decide)) (by decide) (by decide) (by decide +kernel) (by decide)
  obtain ⟨reply, e, hr⟩ := C102_witness b!"my file" (by simp)
  rw [h1] at e
  simp only [C.bind, ok.injEq] at e
  apply hr
  rw [← e, h2]
  obtain ⟨t, rfl⟩ := h3
  exact ⟨t ++ b!"mine", by simp [linksSt, docsSt, sampleSt, St.sent]⟩

/-- C102_partial applies. -/
example : ∃ st' head, accept_request sampleEnv (linksSt b!"a-1_b.txt") 7 b!"10.0.0.1" = ok (st', []) ∧
    st'.sent = (linksSt b!"a-1_b.txt").sent ++ head ++ b!"plain" ∧ b!"HTTP/1.1 200 OK\r\n" <+: head :=
  C102_partial sampleEnv _ 7 b!"10.0.0.1" b!"a-1_b.txt" b!"plain" (links_linked (by decide)) (by decide +kernel)
    (by rw [← startswith_iff]; decide) (by decide) (by decide) (by decide +kernel) (by decide)

/-- C102_unreachable applies: the tree without the page whose name has a blank. -/
example : SameNamed (fun n => PlainName n ∨ n ∈ comps sampleEnv.staticRoot ∨ n ∈ comps sampleEnv.wwwIndex ∨ n ∈ comps sampleEnv.favicon)
    linksFs (linksFs.update [b!"www", b!"my file"] none) := by
  intro p hp
  have : p ≠ [b!"www", b!"my file"] := by
    rintro rfl
    rcases hp b!"my file" (by simp) with h | h | h | h
    · exact (h 32 (by decide)).1 (Or.inl rfl)
    · revert h; decide
    · revert h; decide
    · revert h; decide
  simp [FS.update, this]

end Wayuu
