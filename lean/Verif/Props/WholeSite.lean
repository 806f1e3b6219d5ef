import Verif.Props.WholePage
import Verif.Props.Writes
/-
C140 for a site nobody else works on: the page need only be there at the start.
-/
namespace Wayuu.Whole
open Wayuu C Spec Wayuu.Queue Wayuu.Server

namespace Spec
open Wayuu.Spec

/-- The places on the way from folder `cur` along the components of a path name. -/
def through (cur : List Str) : List Str → List (List Str)
  | [] => [cur]
  | c :: r =>
    cur :: (if c = [] ∨ c = b!"." then through cur r else if c = b!".." then through cur.dropLast r else through (cur ++ [c]) r)

/-- The places on the way to a file, with its own. -/
def OnTheWay (path : Str) (p : List Str) : Prop := p ∈ through [] (FS.comps path)

/-- Nothing on the way to this file is changed: it is no place of an upload, the application's code leaves it alone, and so do the other
programs. -/
def LeftAlone (x : World) (fs : FS) (evs : List Ev) (path : Str) : Prop :=
  ∃ Mine : List Str → Prop, (∀ k, UserWrites (x.env k) Mine) ∧ ∀ p, OnTheWay path p →
    ¬ Mine p ∧ (∀ k, ¬ UploadPlace (x.env k) p) ∧
    ∀ fs', .files fs' ∈ evs → fs'.nodeAt p = fs.nodeAt p ∧ fs'.canRead p = fs.canRead p

end Spec
open Spec

theorem walk_alike {a b : FS} (cs : List Str) : ∀ cur, (∀ p ∈ through cur cs, b.nodeAt p = a.nodeAt p) →
    b.walk cur cs = a.walk cur cs ∧ ∀ q, a.walk cur cs = some q → q ∈ through cur cs := by
  induction cs with
  | nil => intro cur _; exact ⟨rfl, fun q h => by cases h; simp [through]⟩
  | cons c cs ih =>
    intro cur h
    have h0 : b.nodeAt cur = a.nodeAt cur := h cur (by simp [through])
    simp only [FS.walk, through, h0]
    unfold through at h
    split
    · exact ⟨rfl, fun q hq => by cases hq⟩
    · split
      · rename_i hc
        rw [if_pos hc] at h
        obtain ⟨k1, k2⟩ := ih cur (fun p hp => h p (List.mem_cons_of_mem _ hp))
        exact ⟨k1, fun q hq => List.mem_cons_of_mem _ (k2 q hq)⟩
      · rename_i hc
        rw [if_neg hc] at h
        split
        · rename_i hd
          rw [if_pos hd] at h
          obtain ⟨k1, k2⟩ := ih _ (fun p hp => h p (List.mem_cons_of_mem _ hp))
          exact ⟨k1, fun q hq => List.mem_cons_of_mem _ (k2 q hq)⟩
        · rename_i hd
          rw [if_neg hd] at h
          obtain ⟨k1, k2⟩ := ih _ (fun p hp => h p (List.mem_cons_of_mem _ hp))
          exact ⟨k1, fun q hq => List.mem_cons_of_mem _ (k2 q hq)⟩

/-- Trees that agree on the way to a file agree about it. -/
theorem same_file {a b : FS} {path : Str}
    (h : ∀ p, OnTheWay path p → b.nodeAt p = a.nodeAt p ∧ b.canRead p = a.canRead p) :
    b.lookup path = a.lookup path ∧ b.openRead path = a.openRead path := by
  obtain ⟨h1, h2⟩ := walk_alike (FS.comps path) [] (fun p hp => (h p hp).1)
  have hr : b.resolve path = a.resolve path := by unfold FS.resolve; rw [h1]
  unfold FS.lookup FS.openRead
  rw [hr]
  cases e : a.resolve path with
  | none => exact ⟨rfl, rfl⟩
  | some q =>
    have hq : OnTheWay path q := h2 q (by
      unfold FS.resolve at e
      split at e
      · cases e
      · exact e)
    simp only [Option.bind_some, (h q hq).1, (h q hq).2, and_self]

/-- C115 for a whole run of the server: however many clients there are and whatever they send, a place that is none of an upload, that the
application's code does not change and that other programs leave as it was, is the same at the end. -/
theorem C115_run (x : World) (cap n : Nat) (st : St) (evs : List Ev) (w : WSt) (Mine : List Str → Prop)
    (h16 : ∀ k y, ((x.env k).digest y).length = 16) (htid : ∀ k, ∀ c ∈ (x.env k).tid, digit c)
    (hu : ∀ k, UserWrites (x.env k) Mine) (h : Runs x (initial cap n st) evs w) (p : List Str) (hm : ¬ Mine p)
    (hp : ∀ k, ¬ UploadPlace (x.env k) p)
    (hf : ∀ fs', .files fs' ∈ evs → fs'.nodeAt p = st.fs.nodeAt p ∧ fs'.canRead p = st.fs.canRead p) :
    w.st.fs.nodeAt p = st.fs.nodeAt p ∧ w.st.fs.canRead p = st.fs.canRead p := by
  induction h with
  | nil => exact ⟨rfl, rfl⟩
  | @snoc w1 w2 e evs' hr hs ih =>
    have ih := ih (fun fs' hm => hf fs' (List.mem_append_left _ hm))
    cases e with
    | connect v =>
      obtain ⟨-, hp, ⟨hl, rfl⟩ | ⟨hl, hv, b, p, ha, rfl⟩⟩ := connect_ok hs
      · exact ih
      · exact ih
    | error => rw [(error_ok hs).2.2]; exact ih
    | thread a =>
      obtain ⟨srv, h1, ⟨-, rfl⟩ | ⟨v, st', ev, hh, h2, rfl⟩⟩ := thread_ok hs
      · exact ih
      · obtain ⟨k1, k2⟩ := C115_writes _ _ st' v _ ev Mine (h16 _) (htid _) (hu _) h2 p (hp _) (Or.inr hm)
        exact ⟨k1.trans ih.1, k2.trans ih.2⟩
    | files fs => cases hs; exact hf fs (by simp)

/-- What is left alone stays as it is, in the whole run. -/
theorem kept_runs {x : World} {cap n : Nat} {st : St} {evs : List Ev} {w : WSt} {path : Str}
    (h16 : ∀ k y, ((x.env k).digest y).length = 16) (htid : ∀ k, ∀ c ∈ (x.env k).tid, digit c)
    (h : Runs x (initial cap n st) evs w) (hl : LeftAlone x st.fs evs path) :
    ∀ p, OnTheWay path p → w.st.fs.nodeAt p = st.fs.nodeAt p ∧ w.st.fs.canRead p = st.fs.canRead p := by
  obtain ⟨Mine, hu, hl⟩ := hl
  intro p hp
  obtain ⟨l1, l2, l3⟩ := hl p hp
  exact C115_run x cap n st evs w Mine h16 htid hu h p l1 l2 l3

/-- C140 for a site that is left alone: if the page is there when the server starts, and neither the application nor other programs change
anything on the way to it, a visitor gets exactly this page, whatever the other clients send or upload before. -/
theorem C140_site (x : World) (cap n m : Nat) (st : St) (evs : List Ev) (w : WSt) (k : Nat) (page name content : Str)
    (hc : 0 < cap) (hu : ∀ k, UserKeeps (x.env k)) (h16 : ∀ k y, ((x.env k).digest y).length = 16)
    (htid : ∀ k, ∀ c ∈ (x.env k).tid, digit c) (hm : st.live = List.replicate m ⟨0, [], []⟩) (hso : Sockets evs)
    (h : Runs x (initial cap n st) evs w) (hv : Visits x st.live k page)
    (hs : Served st.fs (x.env k).staticRoot (x.env k).wwwIndex page name) (ho : st.fs.openRead name = some content)
    (hp : LeftAlone x st.fs evs ((x.env k).staticRoot ++ b!"/" ++ page)) (hi : LeftAlone x st.fs evs name)
    (hlen : content.length + 1200 < 2 ^ 31) :
    (∀ d ∈ w.served, d.conn = k → Framed d.sent content ∧ d.events = []) ∧
    (0 < n → w.srv.stopped = false → Quiet w.srv.q → w.srv.q.dropped = [] → k ∈ w.admitted →
      ∃ d ∈ w.served, d.conn = k ∧ Framed d.sent content) := by
  refine C140_partial x cap n m st evs w k page content hc hu hm hso h hv ?_ hlen
  intro evs1 evs2 w1 he h1 _
  have less : ∀ {path}, LeftAlone x st.fs evs path → LeftAlone x st.fs evs1 path := by
    rintro path ⟨Mine, a, b⟩
    exact ⟨Mine, a, fun p hp => ⟨(b p hp).1, (b p hp).2.1, fun fs' hm => (b p hp).2.2 fs' (by rw [he]; exact List.mem_append_left _ hm)⟩⟩
  have e1 := same_file (kept_runs h16 htid h1 (less hp))
  have e2 := same_file (kept_runs h16 htid h1 (less hi))
  refine ⟨name, ?_, e2.2.trans ho⟩
  unfold Served at hs ⊢
  rw [e1.1]
  exact hs

/-- A site, a folder for uploads, and perhaps a file of another program. -/
def sharedFs (other : Option Node) : FS :=
  { docsFs with
    node := fun p => if p = [b!"tmp"] ∨ p = [b!"tmp", b!"wayuu"] then some .dir else if p = [b!"note"] then other else docsFs.node p }

/-- The first client uploads a file, the second asks for the start page. -/
def sharedWorld : World :=
  { limit := 100, root := b!"/r", env := fun _ => uploadEnv 17,
    client := fun k => if k = 0 then ⟨b!"10.0.0.9", postedSt.input⟩ else pageWorld.client k }

/-- After the upload another program writes a file of its own. -/
def sharedRun : List Ev :=
  .connect 5 :: putEvs ++ takeEvs ++ .files (sharedFs (some (.file b!"n"))) :: .connect 5 :: putEvs ++ List.replicate 11 (.thread (.worker 0))

theorem sharedWorld_visits : Visits sharedWorld [⟨0, [], []⟩] 1 b!"index.html" := by
  obtain ⟨path, body, lines, s, h1, h2, h3, h4, h5, h6, h7, h8, h9, h10⟩ := pageWorld_visits 1
  exact ⟨path, body, lines, s, h1, h2, h3, h4, h5, h6, h7, h8, h9, h10⟩

theorem shared_left : LeftAlone sharedWorld (sharedFs none) sharedRun b!"/www/index.html" := by
  refine ⟨fun _ => False, fun _ => no_writes (fun _ _ => rfl) (fun _ _ => ⟨_, rfl⟩), ?_⟩
  intro p hp
  replace hp : p ∈ [[], [], [b!"www"], [b!"www", b!"index.html"]] := hp
  refine ⟨id, fun k => ?_, fun fs' hf => ?_⟩
  · rintro (rfl | ⟨c, rfl⟩)
    · revert hp; decide
    · simp at hp
  · have : fs' = sharedFs (some (.file b!"n")) := by
      simpa [sharedRun, putEvs, takeEvs] using hf
    subst this
    refine ⟨?_, rfl⟩
    clear hf
    simp only [List.mem_cons, List.not_mem_nil, or_false] at hp
    rcases hp with rfl | rfl | rfl | rfl <;> decide

/-- `C140_site`: the upload has changed the tree, and the visitor gets the page of the start. -/
example : ∃ w, Runs sharedWorld (initial 2 1 { pageSt with fs := sharedFs none }) sharedRun w ∧
    ∃ d ∈ w.served, d.conn = 1 ∧ Framed d.sent b!"site" := by
  have e : (run sharedWorld (initial 2 1 { pageSt with fs := sharedFs none }) sharedRun).map (fun w => ((w.srv.q.prod, w.srv.q.workers),
      w.srv.stopped, w.srv.q.dropped, w.admitted)) = some ((.accept, [.waiting]), false, [], [0, 1]) := by decide +kernel
  obtain ⟨w, hw, hs⟩ := Option.map_eq_some_iff.mp e
  simp only [Prod.mk.injEq] at hs
  obtain ⟨⟨h1, h2⟩, h3, h4, h5⟩ := hs
  exact ⟨w, runs_of_run hw, (C140_site sharedWorld 2 1 1 { pageSt with fs := sharedFs none } sharedRun w 1 b!"index.html"
    b!"/www/index.html" b!"site" (by decide) (fun k => ⟨fun _ _ _ h => (sampleEnv_keeps.1 0 _ _ h :), fun _ _ _ b h => (sampleEnv_keeps.2 0 _ _ b h :)⟩)
    (fun _ _ => rfl) (fun _ => show ∀ c ∈ b!"1234", digit c by unfold digit; decide) rfl (by unfold Sockets sharedRun putEvs takeEvs; simp) (runs_of_run hw)
    sharedWorld_visits (Or.inl ⟨⟨b!"site", by decide +kernel⟩, rfl⟩) (by decide +kernel) shared_left shared_left (by decide)).2 (by decide)
    h3 (quiet_of h1 h2) h4 (by rw [h5]; decide)⟩

/-- `C115_run`: the other page of the site, after the upload. -/
example : ∃ w, Runs sharedWorld (initial 2 1 { pageSt with fs := sharedFs none }) (.connect 5 :: putEvs ++ takeEvs) w ∧
    w.st.fs.nodeAt [b!"www", b!"a.txt"] = some (.file b!"plain") := by
  have e : (run sharedWorld (initial 2 1 { pageSt with fs := sharedFs none }) (.connect 5 :: putEvs ++ takeEvs)).map (fun w =>
      w.served.length) = some 1 := by decide +kernel
  obtain ⟨w, hw, -⟩ := Option.map_eq_some_iff.mp e
  exact ⟨w, runs_of_run hw, (C115_run sharedWorld 2 1 { pageSt with fs := sharedFs none } _ w (fun _ => False) (fun _ _ => rfl)
    (fun _ => show ∀ c ∈ b!"1234", digit c by unfold digit; decide) (fun _ => no_writes (fun _ _ => rfl) (fun _ _ => ⟨_, rfl⟩))
    (runs_of_run hw) [b!"www", b!"a.txt"] id (fun k h => by rcases h with h | ⟨c, h⟩ <;> simp at h)
    (fun fs' hf => by simp [putEvs, takeEvs] at hf)).1⟩

/-- The upload is in the tree before the other program writes. -/
example : (run sharedWorld (initial 2 1 { pageSt with fs := sharedFs none }) (.connect 5 :: putEvs ++ takeEvs)).map (fun w =>
    w.st.fs.nodeAt [b!"tmp", b!"wayuu", tmpName (uploadEnv 17) [1, 0, 2]]) = some (some (.file [1, 0, 2])) := by decide +kernel

end Wayuu.Whole
