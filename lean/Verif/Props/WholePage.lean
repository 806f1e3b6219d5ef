import Verif.Props.Whole
import Verif.Props.Framing
import Verif.Props.Requests
import Verif.Props.Isolation
import Verif.Props.Embed
/-
C140: a visitor gets the page they asked for whatever the others do. The whole server: address filter, queue, workers, table of
connections, files.
-/
namespace Wayuu.Whole
open Wayuu C Spec Wayuu.Queue Wayuu.Server

/-- In state `w1` the step `e` handles a client, and `d` is what is done. -/
def Serves (x : World) (w1 : WSt) (e : Ev) (d : Done) : Prop := ∃ w2, step x w1 e = some (ok w2) ∧ w2.served = w1.served ++ [d]

/-- When and how a connection was handled. -/
theorem moment {x : World} {w0 w : WSt} {evs : List Ev} (h : Runs x w0 evs w) (h0 : w0.served = []) {d : Done}
    (hd : d ∈ w.served) :
    ∃ evs1 evs2 w1 v st, evs = evs1 ++ evs2 ∧ Runs x w0 evs1 w1 ∧ Runs x w1 evs2 w ∧ d.conn = w1.conn v ∧
      accept_request (x.env d.conn) { w1.st with input := (x.client d.conn).input, out := [] } v (x.client d.conn).peer =
        ok (st, d.events) ∧ d.sent = st.sent ∧ ∃ e evs3, evs2 = e :: evs3 ∧ Serves x w1 e d := by
  induction h with
  | nil => rw [h0] at hd; cases hd
  | @snoc w1 w2 e evs' hr hst ih =>
    have old : d ∈ w1.served → ∃ evs1 evs2 w1 v st, evs' ++ [e] = evs1 ++ evs2 ∧ Runs x w0 evs1 w1 ∧ Runs x w1 evs2 w2 ∧
        d.conn = w1.conn v ∧
        accept_request (x.env d.conn) { w1.st with input := (x.client d.conn).input, out := [] } v (x.client d.conn).peer =
          ok (st, d.events) ∧ d.sent = st.sent ∧ ∃ e evs3, evs2 = e :: evs3 ∧ Serves x w1 e d := by
      intro hd
      obtain ⟨evs1, evs2, w3, v, st, h1, h2, h3, h4, h5, h6, e1, evs3, h7, h8⟩ := ih hd
      exact ⟨evs1, evs2 ++ [e], w3, v, st, by rw [h1, List.append_assoc], h2, h3.snoc hst, h4, h5, h6, e1, evs3 ++ [e], by rw [h7]; rfl, h8⟩
    cases e with
    | connect v =>
      obtain ⟨hs, hp, ⟨hl, rfl⟩ | ⟨hl, hv, b, p, ha, rfl⟩⟩ := connect_ok hst
      · exact old hd
      · exact old hd
    | error =>
      rw [(error_ok hst).2.2] at hd
      exact old hd
    | thread a =>
      obtain ⟨srv, h1, ⟨-, rfl⟩ | ⟨v, st', ev, -, h2, rfl⟩⟩ := thread_ok hst
      · exact old hd
      · rcases List.mem_append.mp hd with hd | hd
        · exact old hd
        · rw [List.mem_singleton.mp hd]
          exact ⟨evs', _, w1, v, st', rfl, hr, .snoc (.nil _) hst, rfl, h2, rfl, _, [], rfl, _, hst, rfl⟩
    | files fs => cases hst; exact old hd

/-- Descriptor 0, the standard input, is never handed out by `accept`. -/
def Sockets (evs : List Ev) : Prop := Ev.connect 0 ∉ evs

theorem fds_pos {x : World} {cap n : Nat} {st : St} {evs : List Ev} {w : WSt} (h : Runs x (initial cap n st) evs w)
    (h0 : Sockets evs) : 0 ∉ w.srv.fds := by
  induction h with
  | nil => simp [initial, Server.initial]
  | @snoc w1 w2 e evs' hr hst ih =>
    unfold Sockets at h0 ih
    simp only [List.mem_append, List.mem_singleton, not_or] at h0
    have ih := ih h0.1
    cases e with
    | connect v =>
      obtain ⟨hs, hp, ⟨hl, rfl⟩ | ⟨hl, hv, b, p, ha, rfl⟩⟩ := connect_ok hst
      · exact ih
      · have : v ≠ 0 := by rintro rfl; exact h0.2 rfl
        cases b
        · exact ih
        · simp only [if_true, List.mem_cons, not_or]
          exact ⟨fun e => this e.symm, ih⟩
    | error => rw [(error_ok hst).2.2]; exact ih
    | thread a =>
      obtain ⟨srv, h1, hcase⟩ := thread_ok hst
      have hf := fds_thread h1
      have hno : 0 ∉ srv.fds := by
        rw [hf]
        split
        · exact fun hm => ih (List.mem_of_mem_erase hm)
        · exact ih
      rcases hcase with ⟨-, rfl⟩ | ⟨v, st', ev, -, -, rfl⟩
      · exact hno
      · exact hno
    | files fs => cases hst; exact ih

/-- Requests leave the table of connections as it was at the start. -/
theorem table_runs {x : World} {cap n m : Nat} {st : St} {evs : List Ev} {w : WSt} (hc : 0 < cap)
    (hu : ∀ k, UserKeeps (x.env k)) (hst : st.live = List.replicate m ⟨0, [], []⟩) (h : Runs x (initial cap n st) evs w)
    (h0 : Sockets evs) : w.st.live = List.replicate m ⟨0, [], []⟩ := by
  induction h with
  | nil => exact hst
  | @snoc w1 w2 e evs' hr hs ih =>
    have h0' : Sockets evs' := fun hm => h0 (List.mem_append_left _ hm)
    have ih := ih h0'
    cases e with
    | connect v =>
      obtain ⟨-, hp, ⟨hl, rfl⟩ | ⟨hl, hv, b, p, ha, rfl⟩⟩ := connect_ok hs
      · exact ih
      · exact ih
    | error => rw [(error_ok hs).2.2]; exact ih
    | thread a =>
      obtain ⟨srv, h1, ⟨-, rfl⟩ | ⟨v, st', ev, hh, h2, rfl⟩⟩ := thread_ok hs
      · exact ih
      · have hv0 : v ≠ 0 := by
          rintro rfl
          obtain ⟨es, hes⟩ := srv_runs hr
          obtain ⟨i, -, hi⟩ := handles_eq.mp hh
          exact fds_pos hr h0' (((C79_apart x.limit cap n hc es _ hes).2.1 0).mpr (Or.inr (Or.inl (List.mem_of_getElem? hi))))
        have := (C51_closed (x.env (w1.conn v)) (hu _) _ st' v _ ev hv0 (by
          intro c hcm
          have hcm : c ∈ w1.st.live := hcm
          rw [ih] at hcm
          rw [List.eq_of_mem_replicate hcm]
          exact fun e => hv0 e.symm) h2).2.2.2 (by
          intro c hcm _
          have hcm : c ∈ w1.st.live := hcm
          rw [ih] at hcm
          exact List.eq_of_mem_replicate hcm)
        show st'.live = _
        rw [this]
        exact ih
    | files fs => cases hs; exact ih

namespace Spec
open Wayuu.Spec

/-- Client `k` sends a GET request for `page` of the site: any header lines (that fit, and no cookie), a path without final slash. -/
def Visits (x : World) (live : List Conn) (k : Nat) (page : Str) : Prop :=
  ∃ path body lines s, (∀ st : St, st.input = (x.client k).input → st.live = live →
      StaticHead (x.env k) st (x.client k).peer path body lines) ∧
    Page (x.env k).wwwIndex (x.env k).favicon path page ∧ (path = b!"/" ∨ path.getLast? ≠ some 47) ∧
    (∀ l ∈ lines, ∀ t, BeforeNul l t → ¬ CasePrefix b!"Cookie:" t) ∧
    Stack (x.env k) s ∧ s ≠ [] ∧ s.getLast? ≠ some 47 ∧
    (x.env k).staticRoot.length ≤ 256 ∧ (x.env k).wwwIndex.length ≤ 256 ∧ (x.env k).favicon.length ≤ 256

/-- All through the run the page has this content. -/
def Online (x : World) (w0 : WSt) (evs : List Ev) (w : WSt) (k : Nat) (page content : Str) : Prop :=
  ∀ evs1 evs2 w1, evs = evs1 ++ evs2 → Runs x w0 evs1 w1 → Runs x w1 evs2 w →
    ∃ name, Served w1.st.fs (x.env k).staticRoot (x.env k).wwwIndex page name ∧ w1.st.fs.openRead name = some content

end Spec
open Spec

/-- C140 as claimed: when the server has come to rest, every visitor it admitted has got the page they asked for. -/
def C140_statement : Prop :=
  ∀ (x : World) (cap n m : Nat) (st : St) (evs : List Ev) (w : WSt) (k : Nat) (page content : Str),
    0 < cap → 0 < n → (∀ k, UserKeeps (x.env k)) → st.live = List.replicate m ⟨0, [], []⟩ → Sockets evs →
    Runs x (initial cap n st) evs w → w.srv.stopped = false → Quiet w.srv.q →
    k ∈ w.admitted → Visits x st.live k page → Online x (initial cap n st) evs w k page content → content.length + 1200 < 2 ^ 31 →
    ∃ d ∈ w.served, d.conn = k ∧ Framed d.sent content

/-- C140, what holds: whatever the other clients send, whichever way the threads are scheduled and the descriptors are used again,
a visitor who has been served has got exactly the page. And if nobody found the queue full, every visitor has been served once the server
has come to rest. (A run is one without undefined behaviour, so no other request may have crashed the server: `C140_crash`.) Missing: who
finds the queue full gets nothing. -/
theorem C140_partial (x : World) (cap n m : Nat) (st : St) (evs : List Ev) (w : WSt) (k : Nat) (page content : Str)
    (hc : 0 < cap) (hu : ∀ k, UserKeeps (x.env k)) (hm : st.live = List.replicate m ⟨0, [], []⟩) (hso : Sockets evs)
    (h : Runs x (initial cap n st) evs w) (hv : Visits x st.live k page)
    (ho : Online x (initial cap n st) evs w k page content) (hlen : content.length + 1200 < 2 ^ 31) :
    (∀ d ∈ w.served, d.conn = k → Framed d.sent content ∧ d.events = []) ∧
    (0 < n → w.srv.stopped = false → Quiet w.srv.q → w.srv.q.dropped = [] → k ∈ w.admitted →
      ∃ d ∈ w.served, d.conn = k ∧ Framed d.sent content) := by
  have key : ∀ d ∈ w.served, d.conn = k → Framed d.sent content ∧ d.events = [] := by
    rintro d hd rfl
    obtain ⟨evs1, evs2, w1, v, st', he, h1, h2, -, h3, h4, -⟩ := moment h rfl hd
    obtain ⟨name, g1, g2⟩ := ho evs1 evs2 w1 he h1 h2
    obtain ⟨path, body, lines, s, v1, v2, v3, v4, v5, v6, v7, v8, v9, v10⟩ := hv
    have hlive := table_runs hc hu hm h1 (fun hmem => hso (by rw [he]; exact List.mem_append_left _ hmem))
    obtain ⟨st2, reply, e1, e2, e3⟩ := C71_partial (x.env d.conn)
      { w1.st with input := (x.client d.conn).input, out := [] } v (x.client d.conn).peer path body page name content s lines
      (v1 _ rfl (hlive.trans hm.symm)) v2 g1 g2 v8 v9 v10 hlen v3 v5 v6 v7 v4
    rw [h3] at e1
    have e1 := C.ok.inj e1
    simp only [Prod.mk.injEq] at e1
    rw [h4, e1.1, e2]
    exact ⟨by simpa [St.sent] using e3, e1.2⟩
  refine ⟨key, fun hn ha hq hd hk => ?_⟩
  have := (C139_partial x cap n st evs w hc h).2.2.2 hn ha hq hd
  obtain ⟨d, hd1, hd2⟩ := List.mem_map.mp (this.mem_iff.mpr hk)
  exact ⟨d, hd1, hd2, (key d hd1 hd2).1⟩

/-- C140, the moment of service: the step in which a worker handles a visitor is defined behaviour in every state the server can be in. -/
theorem C140_defined (x : World) (cap n m : Nat) (st : St) (evs : List Ev) (w : WSt) (i v : Nat) (page name content : Str)
    (hc : 0 < cap) (hu : ∀ k, UserKeeps (x.env k)) (hm : st.live = List.replicate m ⟨0, [], []⟩) (hso : Sockets evs)
    (h : Runs x (initial cap n st) evs w) (ha : w.srv.stopped = false) (hw : w.srv.q.workers[i]? = some (.handle v))
    (hv : Visits x st.live (w.conn v) page)
    (hs : Served w.st.fs (x.env (w.conn v)).staticRoot (x.env (w.conn v)).wwwIndex page name)
    (ho : w.st.fs.openRead name = some content) (hlen : content.length + 1200 < 2 ^ 31) :
    ∃ w' d, step x w (.thread (.worker i)) = some (ok w') ∧ w'.served = w.served ++ [d] ∧ d.conn = w.conn v ∧ Framed d.sent content := by
  obtain ⟨path, body, lines, s, v1, v2, v3, v4, v5, v6, v7, v8, v9, v10⟩ := hv
  have hlive := table_runs hc hu hm h hso
  obtain ⟨st2, reply, e1, e2, e3⟩ := C71_partial (x.env (w.conn v))
    { w.st with input := (x.client (w.conn v)).input, out := [] } v (x.client (w.conn v)).peer path body page name content s lines
    (v1 _ rfl (hlive.trans hm.symm)) v2 hs ho v8 v9 v10 hlen v3 v5 v6 v7 v4
  have hh : handles w (.worker i) = some v := handles_eq.mpr ⟨i, rfl, hw⟩
  have hq : Server.step x.limit w.srv (.thread (.worker i)) =
      some (ok { w.srv with q := setW w.srv.q i .lock, fds := w.srv.fds.erase v }) := by
    simp only [Server.step, ha, Bool.false_eq_true, if_false, Queue.step, workerStep, hw, closes]
    rfl
  refine ⟨{ w with
      srv := { w.srv with q := setW w.srv.q i .lock, fds := w.srv.fds.erase v }
      st := st2
      served := w.served ++ [⟨w.conn v, st2.sent, []⟩] }, ⟨w.conn v, st2.sent, []⟩, ?_, rfl, rfl, ?_⟩
  · simp only [step, hq, Option.map_some, hh, Option.elim, serve]
    rw [e1]
    rfl
  · show Framed st2.sent content
    rw [e2]
    simpa [St.sent] using e3

/-- Every client asks for the start page, with one header line. -/
def pageWorld : World :=
  { sampleWorld with client := fun _ => ⟨b!"10.0.0.1", (cookieSt b!"X-Session: abc\r\n").input⟩ }

/-- The site has a start page. -/
def pageSt : St := { openSt with fs := docsFs }

theorem pageWorld_visits (k : Nat) : Visits pageWorld [⟨0, [], []⟩] k b!"index.html" := by
  refine ⟨b!"/", [], [b!"X-Session: abc\r\n"], b!"A", ?_, Or.inl ⟨Or.inl rfl, rfl⟩, Or.inl rfl, ?_, ⟨[], rfl, by decide⟩, by decide, by decide,
    show (b!"/www").length ≤ 256 by decide, show (b!"index.html").length ≤ 256 by decide, show (b!"favicon.ico").length ≤ 256 by decide⟩
  · intro st h1 h2
    have := cookie_head (line := b!"X-Session: abc\r\n") (by decide) (by decide) (by decide) (by decide) (by decide) (by decide)
      (by decide) (by decide +kernel) (by decide +kernel)
    unfold StaticHead at this ⊢
    rw [h1, h2]
    exact this
  · intro l hl t ht
    rw [List.mem_singleton.mp hl] at ht
    have := ht.1
    have : t = b!"X-Session: abc\r\n" := by
      rw [beforeNul_eq ht]; decide
    rw [this, ← startswith_iff]
    decide

/-- User code of the sample world does nothing. -/
theorem pageWorld_keeps (k : Nat) : UserKeeps (pageWorld.env k) := sampleEnv_keeps

theorem run_append {x : World} : ∀ {evs : List Ev} {w w' : WSt} (evs' : List Ev), run x w evs = some w' →
    run x w (evs ++ evs') = run x w' evs' := by
  intro evs
  induction evs with
  | nil => intro w w' evs' h; cases h; rfl
  | cons e evs ih =>
    intro w w' evs' h
    simp only [run, List.cons_append] at h ⊢
    split at h
    · rename_i w1 h1
      exact ih evs' h
    · cases h

theorem run_of_runs {x : World} {w w' : WSt} {evs : List Ev} (h : Runs x w evs w') : run x w evs = some w' := by
  induction h with
  | nil => rfl
  | snoc _ hst ih => rw [run_append _ ih]; simp only [run, hst]

/-- In a run that can be computed, it can be checked that the start page is there all the time. -/
theorem online_of_check {w0 w : WSt} {evs : List Ev} {k : Nat}
    (h : (List.range (evs.length + 1)).all (fun i => (run pageWorld w0 (evs.take i)).all
      (fun w => w.st.fs.openRead b!"/www/index.html" == some b!"site")) = true) :
    Online pageWorld w0 evs w k b!"index.html" b!"site" := by
  intro evs1 evs2 w1 he h1 _
  rw [List.all_eq_true] at h
  have := h evs1.length (List.mem_range.mpr (by rw [he, List.length_append]; omega))
  rw [he, List.take_left, run_of_runs h1] at this
  simp only [Option.all_some, beq_iff_eq] at this
  exact ⟨b!"/www/index.html", Or.inl ⟨⟨_, Embed.openRead_lookup this⟩, rfl⟩, this⟩

/-- C140 is false of the code: the third of three visitors finds the queue full. -/
theorem C140_refuted : ¬ C140_statement := by
  intro h
  have e : (run pageWorld (initial 2 1 pageSt) crowd).map (fun w => (w.srv.q.prod, w.srv.q.workers, w.srv.stopped,
      w.served.map Done.conn, w.admitted)) = some (.accept, [.waiting], false, [0, 1], [0, 1, 2]) := by decide +kernel
  obtain ⟨w, hw, hs⟩ := Option.map_eq_some_iff.mp e
  simp only [Prod.mk.injEq] at hs
  obtain ⟨d, h1, h2, -⟩ := h pageWorld 2 1 1 pageSt crowd w 2 b!"index.html" b!"site" (by decide) (by decide) pageWorld_keeps rfl
    (by unfold Sockets crowd putEvs; simp) (runs_of_run hw) hs.2.2.1 (quiet_of hs.1 hs.2.1) (by rw [hs.2.2.2.2]; decide)
    (pageWorld_visits 2) (online_of_check (by decide +kernel)) (by decide)
  have := List.mem_map_of_mem (f := Done.conn) h1
  rw [hs.2.2.2.1, h2] at this
  revert this
  decide

/-- `C140_partial`: two visitors one after the other over the same descriptor. -/
example : ∃ w, Runs pageWorld (initial 2 1 pageSt) twice w ∧
    (∃ d ∈ w.served, d.conn = 0 ∧ Framed d.sent b!"site") ∧ ∃ d ∈ w.served, d.conn = 1 ∧ Framed d.sent b!"site" := by
  have e : (run pageWorld (initial 2 1 pageSt) twice).map (fun w => (w.srv.q.prod, w.srv.q.workers, w.srv.stopped,
      w.srv.q.dropped, w.admitted)) = some (.accept, [.waiting], false, [], [0, 1]) := by decide +kernel
  obtain ⟨w, hw, hs⟩ := Option.map_eq_some_iff.mp e
  simp only [Prod.mk.injEq] at hs
  obtain ⟨h1, h2, h3, h4, h5⟩ := hs
  have key : ∀ k ∈ w.admitted, ∃ d ∈ w.served, d.conn = k ∧ Framed d.sent b!"site" := fun k hk =>
    (C140_partial pageWorld 2 1 1 pageSt twice w k b!"index.html" b!"site" (by decide) pageWorld_keeps rfl
      (by unfold Sockets twice putEvs takeEvs; simp) (runs_of_run hw) (pageWorld_visits k) (online_of_check (by decide +kernel))
      (by decide)).2 (by decide) h3 (quiet_of h1 h2) h4 hk
  rw [h5] at key
  exact ⟨w, runs_of_run hw, key 0 (by simp), key 1 (by simp)⟩

/-- `C140_defined`: the worker has the connection of the first visitor. -/
example : ∃ w, Runs pageWorld (initial 2 1 pageSt) (.connect 5 :: putEvs ++ List.replicate 8 (.thread (.worker 0))) w ∧
    w.srv.q.workers[0]? = some (.handle 5) ∧
    ∃ w' d, step pageWorld w (.thread (.worker 0)) = some (ok w') ∧ w'.served = w.served ++ [d] ∧ d.conn = w.conn 5 ∧
      Framed d.sent b!"site" := by
  have e : (run pageWorld (initial 2 1 pageSt) (.connect 5 :: putEvs ++ List.replicate 8 (.thread (.worker 0)))).map (fun w =>
      (w.srv.stopped, w.srv.q.workers[0]?, w.st.fs.openRead b!"/www/index.html")) = some (false, some (.handle 5), some b!"site") := by
    decide +kernel
  obtain ⟨w, hw, hs⟩ := Option.map_eq_some_iff.mp e
  simp only [Prod.mk.injEq] at hs
  obtain ⟨h1, h2, h3⟩ := hs
  exact ⟨w, runs_of_run hw, h2, C140_defined pageWorld 2 1 1 pageSt _ w 0 5 b!"index.html" b!"/www/index.html" b!"site" (by decide)
    pageWorld_keeps rfl (by unfold Sockets putEvs; simp) (runs_of_run hw) h1 h2 (pageWorld_visits _)
    (Or.inl ⟨⟨_, Embed.openRead_lookup h3⟩, rfl⟩) h3 (by decide)⟩

/-- The first client sends a session token that is too long (C69), the second asks for the start page. -/
def crashWorld : World :=
  { pageWorld with
    client := fun k => if k = 0 then ⟨b!"10.0.0.9", b!"GET / HTTP/1.1\r\n" ++ longSession ++ [13, 10]⟩ else pageWorld.client k }

/-- C140, what one client can do to another: a visitor is waiting in the queue when the worker takes up another client's request, and that
is undefined behaviour. -/
theorem C140_crash : ∃ evs w, Runs crashWorld (initial 2 1 pageSt) evs w ∧ Visits crashWorld pageSt.live 1 b!"index.html" ∧
    1 ∈ w.admitted ∧ pending w.srv.q = [6] ∧ w.conn 6 = 1 ∧ step crashWorld w (.thread (.worker 0)) = some (ub .oob) := by
  have e : (run crashWorld (initial 2 1 pageSt) (.connect 5 :: putEvs ++ .connect 6 :: putEvs ++
      List.replicate 8 (.thread (.worker 0)))).map (fun w => (w.admitted, pending w.srv.q, w.conn 6,
        (step crashWorld w (.thread (.worker 0))).map (fun c => c.bind (fun _ => ok ())))) =
      some ([0, 1], [6], 1, some (ub .oob)) := by decide +kernel
  obtain ⟨w, hw, hs⟩ := Option.map_eq_some_iff.mp e
  simp only [Prod.mk.injEq] at hs
  obtain ⟨h1, h2, h3, h4⟩ := hs
  refine ⟨_, w, runs_of_run hw, pageWorld_visits 1, by rw [h1]; decide, h2, h3, ?_⟩
  obtain ⟨c, hc, hb⟩ := Option.map_eq_some_iff.mp h4
  rw [hc]
  cases c with
  | ok w' => cases hb
  | ub f => rw [show f = Fault.oob from C.ub.inj hb]

end Wayuu.Whole
