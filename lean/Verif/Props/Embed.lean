import Verif.Props.Static
import Verif.Lemmas.Files
import Verif.Model.Embed
/-
C97: embedded servers and their static content.
-/
namespace Wayuu.Embed
open Wayuu C Spec

/-- C97 in full (README.md, "Serve static content"): whatever a program assigns – the root folder, or nothing at all, in
which case it is /etc/wayuu –, answers outside /api depend on no file outside the folder www of the root. -/
def C97_statement : Prop :=
  ∀ (as : List Assign) (g : Globals) (root : List Byte) (env : Env) (st : St) (fs : FS) (socket : Nat)
    (peer line text method url rest path query : Str),
    (as = [] ∧ root = b!"/etc/wayuu" ∨ as = [.root root]) → globals as = ok g → NoDotDot root →
    peer.length < 24 → Begins st.input line text method url rest → Supported method → ¬ CasePrefix b!"/api" url →
    UrlParts url path query → path ≠ [] → (63 : Byte) ∉ query → NoDotDot path →
    SameUnder (place (root ++ b!"/www")) st.fs fs →
    accept_request (serving g env) (st.withFs fs) socket peer =
      (accept_request (serving g env) st socket peer).bind (fun x => ok (x.1.withFs fs, x.2))

theorem resolve_slash (fs : FS) {p : Str} (h : p ≠ []) : fs.resolve (b!"/" ++ p) = fs.resolve p := by
  unfold FS.resolve
  rw [if_neg (by simp), if_neg h]
  show fs.walk [] (FS.comps (47 :: p)) = _
  have e : FS.comps (47 :: p) = [] :: FS.comps p := by
    rw [FS.comps]; simp
  rw [e]
  conv_lhs => unfold FS.walk
  simp [FS.nodeAt]

theorem lookup_slash (fs : FS) {p : Str} (h : p ≠ []) : fs.lookup (b!"/" ++ p) = fs.lookup p := by
  unfold FS.lookup; rw [resolve_slash fs h]

theorem openRead_slash (fs : FS) {p : Str} (h : p ≠ []) : fs.openRead (b!"/" ++ p) = fs.openRead p := by
  unfold FS.openRead; rw [resolve_slash fs h]

theorem openRead_lookup {fs : FS} {p : Str} {content : List Byte} (h : fs.openRead p = some content) :
    fs.lookup p = some (.file content) := by
  unfold FS.openRead at h
  unfold FS.lookup
  cases hr : fs.resolve p with
  | none => rw [hr] at h; cases h
  | some q =>
    rw [hr] at h
    simp only at h
    show fs.nodeAt q = _
    cases hn : fs.nodeAt q with
    | none => rw [hn] at h; cases h
    | some n =>
      rw [hn] at h
      cases n with
      | dir => cases h
      | file c =>
        simp only at h
        split at h
        · injection h with h; rw [h]
        · cases h

/-- Something named with a final '/' is a directory. -/
theorem openRead_folder {fs : FS} {p : Str} (h : p.getLast? = some 47) : fs.openRead p = none := by
  cases ho : fs.openRead p with
  | none => rfl
  | some c =>
    exfalso
    have hl := openRead_lookup ho
    obtain ⟨q, rfl⟩ : ∃ q, p = q ++ [47] := by
      refine ⟨p.dropLast, ?_⟩
      have hne : p ≠ [] := by rintro rfl; simp at h
      rw [List.getLast?_eq_some_getLast hne] at h
      injection h with h
      rw [← h]
      exact (List.dropLast_append_getLast hne).symm
    unfold FS.lookup FS.resolve at hl
    rw [if_neg (by simp)] at hl
    rw [comps_append, show FS.comps [] = [[]] from rfl, FS.walk_append] at hl
    cases hwk : fs.walk [] (FS.comps q) with
    | none => rw [hwk] at hl; cases hl
    | some loc =>
      rw [hwk] at hl
      change (fs.walk loc [[]]).bind fs.nodeAt = _ at hl
      unfold FS.walk at hl
      split at hl
      · cases hl
      · rename_i hd
        simp only [true_or, if_true, FS.walk] at hl
        change fs.nodeAt loc = _ at hl
        rw [hl] at hd
        exact hd (by simp)

/-- A program that sets at most the root folder leaves the rest empty. -/
theorem globals_bare (as : List Assign) (g0 g : Globals) (has : ∀ a ∈ as, ∃ s, a = Assign.root s)
    (h0 : g0.staticRoot = [] ∧ g0.wwwIndex = [] ∧ g0.favicon = []) (h : as.foldlM Assign.run g0 = ok g) :
    g.staticRoot = [] ∧ g.wwwIndex = [] ∧ g.favicon = [] := by
  induction as generalizing g0 with
  | nil => simp [List.foldlM] at h; rw [← h]; exact h0
  | cons a as ih =>
    rw [List.foldlM_cons] at h
    obtain ⟨s, rfl⟩ := has a (by simp)
    obtain ⟨g1, h1, h2⟩ := bind_eq_ok.mp h
    obtain ⟨s', -, h3⟩ := bind_eq_ok.mp h1
    injection h3 with h3
    exact ih g1 (fun x hx => has x (by simp [hx])) (by rw [← h3]; exact h0) h2

/-- C97, what happens instead: a program that leaves the static root alone (it may set the root folder) sends every file of
the machine that it may read to everyone who asks for it by its name. -/
theorem C97_exposed (as : List Assign) (g : Globals) (hg : globals as = ok g) (has : ∀ a ∈ as, ∃ s, a = .root s)
    (env : Env) (st : St) (socket : Nat) (peer path body content s : Str)
    (hreq : StaticGet (serving g env) st peer path body)
    (hpath : path ≠ b!"/index.html" ∧ path ≠ b!"/favicon.ico")
    (hopen : st.fs.openRead path = some content) (hlen : content.length + 1200 < 2 ^ 31)
    (hs : Stack env s) (hne : s ≠ []) (hlast : s.getLast? ≠ some 47) :
    ∃ st' head, accept_request (serving g env) st socket peer = ok (st', []) ∧ st'.sent = st.sent ++ head ++ content ∧
      b!"HTTP/1.1 200 OK\r\n" <+: head := by
  have hgl := globals_bare as initial g has ⟨rfl, rfl, rfl⟩ hg
  obtain ⟨g1, g2, g3⟩ := hgl
  have hp0 : path ≠ [] := by
    rintro rfl
    cases hopen
  have hp47 : path.getLast? ≠ some 47 := fun h => by
    rw [openRead_folder h] at hopen; cases hopen
  have e1 : (serving g env).staticRoot = [] := g1
  have e2 : (serving g env).wwwIndex = [] := g2
  have e3 : (serving g env).favicon = [] := g3
  obtain ⟨st', head, h1, h2, h3, -⟩ := C55_partial (serving g env) st socket peer path body path (b!"/" ++ path) content s hreq
    (Or.inr (Or.inr (Or.inr ⟨hpath.1, hpath.2, hp47, rfl⟩)))
    (Or.inl ⟨⟨content, by rw [e1]; exact (lookup_slash st.fs hp0).trans (openRead_lookup hopen)⟩, by rw [e1]; rfl⟩)
    (by rw [openRead_slash st.fs hp0]; exact hopen) (by rw [e1]; decide) (by rw [e2]; decide) (by rw [e3]; decide) hlen
    (Or.inr hp47) hs hne hlast
  exact ⟨st', head, h1, h2, h3⟩

/-- C97, the front page: in such a program requests for /, /index.html and /favicon.ico are not answered at all. -/
theorem C97_home (as : List Assign) (g : Globals) (hg : globals as = ok g) (has : ∀ a ∈ as, ∃ s, a = .root s)
    (env : Env) (st : St) (socket : Nat) (peer path body s : Str) (hreq : StaticGet (serving g env) st peer path body)
    (hpath : path = b!"/" ∨ path = b!"/index.html" ∨ path = b!"/favicon.ico") (hs : Stack env s) :
    ∃ st', accept_request (serving g env) st socket peer = ok (st', []) ∧ st'.sent = st.sent := by
  obtain ⟨h1, h2, h3⟩ := globals_bare as initial g has ⟨rfl, rfl, rfl⟩ hg
  obtain ⟨st0, hs0, session, k1, k2, k3, k4, k5, k6, k7, k8, k9, k10, k11⟩ := static_reaches (socket := socket) hreq
  have hrw : rewritePath (serving g env) st0.req.path = ok [] := by
    rw [k1, rewritePath_eq (env := serving g env) hs path k10]
    rcases hpath with rfl | rfl | rfl
    · rw [if_pos (Or.inl rfl)]; exact congrArg ok h2
    · rw [if_pos (Or.inr rfl)]; exact congrArg ok h2
    · rw [if_neg (by decide), if_pos rfl]; exact congrArg ok h3
  have hd : ∀ st1 : St, direct_file (serving g env) st1 b!"/" = ok (-1, st1) := by
    intro st1
    have : is_file st1.fs b!"/" = false := by
      have : st1.fs.lookup b!"/" = some .dir := by
        show (st1.fs.walk [] [[], []]).bind st1.fs.nodeAt = _
        simp [FS.walk, FS.nodeAt]
      unfold is_file
      rw [this]
    unfold direct_file
    simp [this]
  refine ⟨connection_close { st0 with req := { st0.req with path := [] } }, ?_, ?_⟩
  · rw [k11]
    unfold handle_static_routes
    rw [hrw]
    have e1 : (serving g env).staticRoot = [] := h1
    have e2 : (serving g env).wwwIndex = [] := h2
    simp only [ok_bind, e1, e2]
    have ef : fmtInto 1024 ([] ++ b!"/" ++ []) = ok b!"/" := by decide
    rw [ef]
    simp only [ok_bind, hd, show (-1 : Int) < 0 by decide, if_true]
    rfl
  · show st0.out.flatten = st.out.flatten
    rw [k5]

/-- What an assignment leaves. -/
def Assign.done (g : Globals) : Assign → Globals
  | .root s => { g with wsRoot := s }
  | .static s => { g with staticRoot := s }
  | .index s => { g with wwwIndex := s }
  | .icon s => { g with favicon := s }

theorem run_eq {g g' : Globals} {a : Assign} (h : a.run g = ok g') : g' = a.done g := by
  cases a <;>
  · obtain ⟨s', h1, h2⟩ := bind_eq_ok.mp h
    obtain ⟨-, rfl⟩ := fmtInto_eq_ok.mp h1
    injection h2 with h2
    exact h2.symm

/-- A global that is assigned, and only assigned values satisfying `P`, satisfies `P`. -/
theorem globals_static {P : Str → Prop} (as : List Assign) (g0 g : Globals) (h : as.foldlM Assign.run g0 = ok g)
    (hall : ∀ s, .static s ∈ as → P s) (hex : (∃ s, .static s ∈ as) ∨ P g0.staticRoot) : P g.staticRoot := by
  induction as generalizing g0 with
  | nil =>
    simp [List.foldlM] at h
    rcases hex with ⟨s, hs⟩ | h0
    · simp at hs
    · rw [← h]; exact h0
  | cons a as ih =>
    rw [List.foldlM_cons] at h
    obtain ⟨g1, h1, h2⟩ := bind_eq_ok.mp h
    refine ih g1 h2 (fun s hs => hall s (by simp [hs])) ?_
    have e := run_eq h1
    cases a with
    | static s => exact Or.inr (by rw [e]; exact hall s (by simp))
    | _ =>
      rcases hex with ⟨s, hs⟩ | h0
      · exact Or.inl ⟨s, by simpa using hs⟩
      · exact Or.inr (by rw [e]; exact h0)

theorem globals_index {P : Str → Prop} (as : List Assign) (g0 g : Globals) (h : as.foldlM Assign.run g0 = ok g)
    (hall : ∀ s, .index s ∈ as → P s) (hex : (∃ s, .index s ∈ as) ∨ P g0.wwwIndex) : P g.wwwIndex := by
  induction as generalizing g0 with
  | nil =>
    simp [List.foldlM] at h
    rcases hex with ⟨s, hs⟩ | h0
    · simp at hs
    · rw [← h]; exact h0
  | cons a as ih =>
    rw [List.foldlM_cons] at h
    obtain ⟨g1, h1, h2⟩ := bind_eq_ok.mp h
    refine ih g1 h2 (fun s hs => hall s (by simp [hs])) ?_
    have e := run_eq h1
    cases a with
    | index s => exact Or.inr (by rw [e]; exact hall s (by simp))
    | _ =>
      rcases hex with ⟨s, hs⟩ | h0
      · exact Or.inl ⟨s, by simpa using hs⟩
      · exact Or.inr (by rw [e]; exact h0)

theorem globals_icon {P : Str → Prop} (as : List Assign) (g0 g : Globals) (h : as.foldlM Assign.run g0 = ok g)
    (hall : ∀ s, .icon s ∈ as → P s) (hex : (∃ s, .icon s ∈ as) ∨ P g0.favicon) : P g.favicon := by
  induction as generalizing g0 with
  | nil =>
    simp [List.foldlM] at h
    rcases hex with ⟨s, hs⟩ | h0
    · simp at hs
    · rw [← h]; exact h0
  | cons a as ih =>
    rw [List.foldlM_cons] at h
    obtain ⟨g1, h1, h2⟩ := bind_eq_ok.mp h
    refine ih g1 h2 (fun s hs => hall s (by simp [hs])) ?_
    have e := run_eq h1
    cases a with
    | icon s => exact Or.inr (by rw [e]; exact hall s (by simp))
    | _ =>
      rcases hex with ⟨s, hs⟩ | h0
      · exact Or.inl ⟨s, by simpa using hs⟩
      · exact Or.inr (by rw [e]; exact h0)

/-- C97, what holds: a program that sets the static root to the folder www of its root, and the two page names (if at all)
to names without "..", in whatever order, is in the position of the standalone server (C54). -/
theorem C97_partial (as : List Assign) (g : Globals) (root : List Byte) (hg : globals as = ok g)
    (hset : .static (root ++ b!"/www") ∈ as) (hstatic : ∀ s, .static s ∈ as → s = root ++ b!"/www")
    (hroot : NoDotDot root) (hidx : ∀ s, .index s ∈ as → NoDotDot s) (hicon : ∀ s, .icon s ∈ as → NoDotDot s)
    (env : Env) (st : St) (fs : FS) (socket : Nat) (peer line text method url rest path query : Str)
    (hp : peer.length < 24) (hb : Begins st.input line text method url rest) (hs : Supported method)
    (hu : ¬ CasePrefix b!"/api" url) (hparts : UrlParts url path query) (hpath : path ≠ []) (hq : (63 : Byte) ∉ query)
    (hdd : NoDotDot path) (hfs : SameUnder (place (root ++ b!"/www")) st.fs fs) :
    accept_request (serving g env) (st.withFs fs) socket peer =
      (accept_request (serving g env) st socket peer).bind (fun x => ok (x.1.withFs fs, x.2)) := by
  have h1 : g.staticRoot = root ++ b!"/www" := globals_static as initial g hg hstatic (Or.inl ⟨_, hset⟩)
  have h2 : NoDotDot g.wwwIndex := globals_index as initial g hg hidx (Or.inr (noDotDot_of (by decide)))
  have h3 : NoDotDot g.favicon := globals_icon as initial g hg hicon (Or.inr (noDotDot_of (by decide)))
  refine C54_partial (serving g env) st fs socket peer line text method url rest path query hp hb hs hu hparts hpath hq hdd
    ?_ h2 h3 (by show SameUnder (place g.staticRoot) _ _; rw [h1]; exact hfs)
  show NoDotDot g.staticRoot
  rw [h1]
  refine noDotDot_of ?_
  show b!".." ∉ FS.comps (root ++ 47 :: b!"www")
  rw [comps_append]
  intro h
  rcases List.mem_append.mp h with h | h
  · exact hroot.comps h
  · revert h; decide

/-- C97, the pages: with all of them set, once each, the program answers a page with the file that the settings name, as the
standalone server does (C55). -/
theorem C97_serves (as : List Assign) (g : Globals) (folder index icon : Str) (hg : globals as = ok g)
    (h1 : .static folder ∈ as) (h1u : ∀ s, .static s ∈ as → s = folder)
    (h2 : .index index ∈ as) (h2u : ∀ s, .index s ∈ as → s = index)
    (h3 : .icon icon ∈ as) (h3u : ∀ s, .icon s ∈ as → s = icon)
    (env : Env) (st : St) (socket : Nat) (peer path body page name content s : Str)
    (hreq : StaticGet (serving g env) st peer path body) (hpage : Page index icon path page)
    (hserved : Served st.fs folder index page name) (hopen : st.fs.openRead name = some content)
    (hroot : folder.length ≤ 256) (hidx : index.length ≤ 256) (hicon : icon.length ≤ 256)
    (hlen : content.length + 1200 < 2 ^ 31)
    (hfolder : path = b!"/" ∨ path.getLast? ≠ some 47) (hs : Stack env s) (hne : s ≠ []) (hlast : s.getLast? ≠ some 47) :
    ∃ st' head, accept_request (serving g env) st socket peer = ok (st', []) ∧ st'.sent = st.sent ++ head ++ content ∧
      b!"HTTP/1.1 200 OK\r\n" <+: head := by
  have e1 : g.staticRoot = folder := globals_static as initial g hg h1u (Or.inl ⟨_, h1⟩)
  have e2 : g.wwwIndex = index := globals_index as initial g hg h2u (Or.inl ⟨_, h2⟩)
  have e3 : g.favicon = icon := globals_icon as initial g hg h3u (Or.inl ⟨_, h3⟩)
  obtain ⟨st', head, k1, k2, k3, -⟩ := C55_partial (serving g env) st socket peer path body page name content s hreq
    (by show Page g.wwwIndex g.favicon path page; rw [e2, e3]; exact hpage)
    (by show Served st.fs g.staticRoot g.wwwIndex page name; rw [e1, e2]; exact hserved) hopen
    (by show g.staticRoot.length ≤ 256; rw [e1]; exact hroot) (by show g.wwwIndex.length ≤ 256; rw [e2]; exact hidx)
    (by show g.favicon.length ≤ 256; rw [e3]; exact hicon) hlen hfolder hs hne hlast
  exact ⟨st', head, k1, k2, k3⟩

/-- A tree with (or without) a file outside the folder of the server. -/
def etcFs (content : Option (List Byte)) : FS :=
  ⟨fun p => if p = [b!"etc"] then some .dir else if p = [b!"etc", b!"passwd"] then content.map .file else none,
   fun _ => true, fun _ => true⟩

/-- A request for that file. -/
def etcSt (content : Option (List Byte)) : St := { docsSt b!"/etc/passwd" with fs := etcFs content }

/-- What the test program of the repository assigns (test/test_main.c): the root folder only. -/
def testGlobals : Globals := { initial with wsRoot := b!"/srv" }

theorem testGlobals_eq : globals [.root b!"/srv"] = ok testGlobals := by decide

/-- The file is sent. -/
theorem C97_leak : (accept_request (serving testGlobals sampleEnv) (etcSt (some b!"root:x")) 7 b!"10.0.0.1").bind
    (fun x => ok (x.1.sent.drop (x.1.sent.length - 6))) = ok b!"root:x" := by decide +kernel

theorem begins_etc : Begins b!"GET /etc/passwd HTTP/1.1\r\n\r\n" b!"GET /etc/passwd HTTP/1.1\r\n"
    b!"GET /etc/passwd HTTP/1.1\r\n" b!"GET" b!"/etc/passwd" b!"\r\n" :=
  ⟨⟨by decide, by decide, by decide, by decide⟩, ⟨by decide, Or.inl rfl⟩,
    ⟨b!" ", 32, b!"HTTP/1.1\r\n", rfl, by unfold White; decide, by decide, by unfold White; decide, by decide,
      by unfold White; decide, by unfold White; decide⟩, by decide, by decide⟩

theorem C97_refuted : ¬ C97_statement := by
  intro h
  have := h [.root b!"/srv"] testGlobals b!"/srv" sampleEnv (etcSt none) (etcFs (some b!"root:x")) 7 b!"10.0.0.1" _ _ _ _ _
    b!"/etc/passwd" [] (Or.inr rfl) testGlobals_eq (noDotDot_of (by decide)) (by decide) begins_etc
    ⟨b!"GET", by decide, (startswith_iff _ _).mp (by decide)⟩ (by rw [← startswith_iff]; decide)
    (Or.inl ⟨rfl, rfl, by decide⟩) (by decide) (by decide) (noDotDot_of (by decide)) (by
      rw [show place (b!"/srv" ++ b!"/www") = [b!"srv", b!"www"] by decide]
      intro p hp
      refine ⟨?_, rfl⟩
      have hne : p ≠ [b!"etc", b!"passwd"] := by
        rintro rfl
        rcases hp with hp | hp <;> revert hp <;> decide
      simp [etcSt, etcFs, hne])
  have key := C97_leak
  change (accept_request (serving testGlobals sampleEnv) ((etcSt none).withFs (etcFs (some b!"root:x"))) 7 b!"10.0.0.1").bind _ = _ at key
  rw [this] at key
  have k2 : (accept_request (serving testGlobals sampleEnv) (etcSt none) 7 b!"10.0.0.1").bind (fun x => ok x.1.sent) = ok [] := by
    decide +kernel
  cases hx : accept_request (serving testGlobals sampleEnv) (etcSt none) 7 b!"10.0.0.1" with
  | ub f => rw [hx] at k2; cases k2
  | ok x =>
    rw [hx] at k2 key
    simp only [C.bind, ok.injEq] at k2 key
    have : (x.1.withFs (etcFs (some b!"root:x"))).sent = x.1.sent := rfl
    rw [this, k2] at key
    cases key

theorem etc_get (content : Option (List Byte)) : StaticGet (serving testGlobals sampleEnv) (etcSt content) b!"10.0.0.1" b!"/etc/passwd" [] :=
  docs_get (url := b!"/etc/passwd") (by decide) (by decide) (by unfold White; decide) (by decide)

/-- C97_exposed applies to the program of the test suite. -/
example : ∃ st' head, accept_request (serving testGlobals sampleEnv) (etcSt (some b!"root:x")) 7 b!"10.0.0.1" = ok (st', []) ∧
    st'.sent = head ++ b!"root:x" ∧ b!"HTTP/1.1 200 OK\r\n" <+: head := by
  have := C97_exposed [.root b!"/srv"] testGlobals testGlobals_eq (by simp) sampleEnv (etcSt (some b!"root:x")) 7 b!"10.0.0.1"
    b!"/etc/passwd" [] b!"root:x" b!"A" (etc_get _) (by decide) (by decide) (by decide) ⟨[], rfl, by decide⟩ (by decide) (by decide)
  simpa [etcSt, docsSt, sampleSt, St.sent] using this

/-- C97_home applies. -/
example : ∃ st', accept_request (serving testGlobals sampleEnv) (docsSt b!"/") 7 b!"10.0.0.1" = ok (st', []) ∧ st'.sent = [] :=
  C97_home [.root b!"/srv"] testGlobals testGlobals_eq (by simp) sampleEnv (docsSt b!"/") 7 b!"10.0.0.1" b!"/" [] b!"A"
    (docs_get (url := b!"/") (by decide) (by decide) (by unfold White; decide) (by decide)) (Or.inl rfl) ⟨[], rfl, by decide⟩

/-- A program that sets all four. -/
def fullGlobals : Globals := ⟨b!"/srv", b!"favicon.ico", b!"index.html", b!"/www"⟩

theorem fullGlobals_eq : globals [.index b!"index.html", .static b!"/www", .icon b!"favicon.ico", .root b!"/srv"] = ok fullGlobals := by
  decide

/-- C97_partial applies. -/
example (fs : FS) (h : SameUnder [b!"www"] docsFs fs) :
    accept_request (serving fullGlobals sampleEnv) ((etcSt none).withFs fs) 7 b!"10.0.0.1" =
      (accept_request (serving fullGlobals sampleEnv) { etcSt none with fs := docsFs } 7 b!"10.0.0.1").bind
        (fun x => ok (x.1.withFs fs, x.2)) :=
  C97_partial _ fullGlobals [] fullGlobals_eq (by simp) (by simp) (noDotDot_of (by decide))
    (by simp only [List.mem_cons, List.not_mem_nil, reduceCtorEq, Assign.index.injEq, or_false]
        rintro s rfl; exact noDotDot_of (by decide))
    (by simp only [List.mem_cons, List.not_mem_nil, reduceCtorEq, Assign.icon.injEq, or_false, false_or]
        rintro s rfl; exact noDotDot_of (by decide))
    sampleEnv { etcSt none with fs := docsFs } fs 7 b!"10.0.0.1" _ _ _ _ _ b!"/etc/passwd" [] (by decide) begins_etc
    ⟨b!"GET", by decide, (startswith_iff _ _).mp (by decide)⟩ (by rw [← startswith_iff]; decide)
    (Or.inl ⟨rfl, rfl, by decide⟩) (by decide) (by decide) (noDotDot_of (by decide)) h

/-- C97_serves applies. -/
example : ∃ st' head, accept_request (serving fullGlobals sampleEnv) (docsSt b!"/a.txt") 7 b!"10.0.0.1" = ok (st', []) ∧
    st'.sent = head ++ b!"plain" ∧ b!"HTTP/1.1 200 OK\r\n" <+: head := by
  have := C97_serves _ fullGlobals b!"/www" b!"index.html" b!"favicon.ico" fullGlobals_eq (by simp) (by simp) (by simp) (by simp)
    (by simp) (by simp) sampleEnv (docsSt b!"/a.txt") 7 b!"10.0.0.1" b!"/a.txt" [] b!"/a.txt" b!"/www//a.txt" b!"plain" b!"A"
    (docs_get (url := b!"/a.txt") (by decide) (by decide) (by unfold White; decide) (by decide))
    (Or.inr (Or.inr (Or.inr ⟨by decide, by decide, by decide, rfl⟩))) (Or.inl ⟨⟨b!"plain", by decide +kernel⟩, rfl⟩)
    (by decide +kernel) (by decide) (by decide) (by decide) (by decide) (Or.inr (by decide)) ⟨[], rfl, by decide⟩ (by decide) (by decide)
  simpa [docsSt, sampleSt, St.sent] using this

end Wayuu.Embed
