import Verif.Props.WholePage
/-
C142: every call of the API is carried out exactly once. The whole server: address filter, queue, workers, table of connections, routes.
-/
namespace Wayuu.Whole
open Wayuu C Wayuu.Spec Spec Wayuu.Queue Wayuu.Server

/-- What a client asks of the API. -/
structure Call where
  method : Str
  path : Str
  query : Str
  headers : List (Str × Str)
  body : Str

namespace Spec
open Wayuu.Spec

/-- The request is that call. -/
def Carries (req : Req) (c : Call) : Prop :=
  req.method = c.method ∧ req.path = c.path ∧ req.query_string = c.query ∧ req.HasHeaders (c.headers.take 20) ∧
    req.form = c.body.map some ++ [some 0]

/-- Client `k` makes the call `c`, for which handler `h` was registered (first, by a template without parameter, and without a filter):
METHOD /api/PATH?QUERY, header lines that fit, and a body of the announced length. -/
def Calls (x : World) (live : List Conn) (k : Nat) (c : Call) (h : Nat) : Prop :=
  ∃ line text url rest mount lines n sent regs r t,
    ((x.env k).limits.length ≤ 64 ∧ (∀ l ∈ (x.env k).limits, l.path ≠ []) ∧ (x.client k).peer.length < 16 ∧
      Begins (x.client k).input line text c.method url rest ∧ Supported c.method ∧
      Admits (x.env k).limits live (x.client k).peer url) ∧
    (UrlParts url (mount ++ c.path) c.query ∧ CaseEq mount b!"/api" ∧ (63 : Byte) ∉ c.query ∧
      c.method.length + c.path.length ≤ 253) ∧
    (Section rest lines sent ∧ (∀ l ∈ lines, ∀ t, BeforeNul l t → ¬ Overrun t) ∧ Named lines c.headers ∧ FitsLog (c.headers.take 20) ∧
      LengthOf lines n ∧ n.getD 0 < 2 ^ 31 ∧ n.getD 0 ≤ sent.length ∧ c.body = sent.take (n.getD 0) ∧
      (∀ l ∈ lines, ∀ t, BeforeNul l t → CasePrefix b!"Content-Length:" t → CasePrefix b!"Content-Length: " t) ∧
      ∀ l ∈ lines, ∀ t, BeforeNul l t → ¬ CasePrefix b!"Content-Type: multipart/form-data" t) ∧
    (∀ r ∈ regs, r.template.Valid) ∧ register regs = ok (x.env k).routes ∧ r.template = .const t ∧ r.handler = some h ∧
      r.filter = none ∧ FirstMatch regs (c.method ++ b!":" ++ c.path) r

/-- The event is: handler `h` is run on the call `c`. -/
def RunOn (h : Nat) (c : Call) (e : Event) : Prop := ∃ req, e = .handler h req ∧ Carries req c

end Spec
open Spec

/-- C142 as claimed: clients make calls, nothing else. When the server has come to rest, the handlers that were run are, in some order,
one for each client it admitted, with what that client sent. -/
def C142_statement : Prop :=
  ∀ (x : World) (cap n m : Nat) (st : St) (evs : List Ev) (w : WSt) (call : Nat → Call) (h : Nat → Nat),
    0 < cap → 0 < n → (∀ k, UserKeeps (x.env k)) → st.live = List.replicate m ⟨0, [], []⟩ → Sockets evs →
    Runs x (initial cap n st) evs w → w.srv.stopped = false → Quiet w.srv.q → (∀ k, Calls x st.live k (call k) (h k)) →
    ∃ l, (w.served.flatMap Done.events).Perm l ∧ List.Forall₂ (fun k e => RunOn (h k) (call k) e) w.admitted l

/-- C142 for one client among others: what was done for a client that makes a call is to run its handler once, on its call; and if
nobody found the queue full that has been done, once, when the server has come to rest. -/
theorem C142_partial (x : World) (cap n m : Nat) (st : St) (evs : List Ev) (w : WSt) (k : Nat) (c : Call) (h : Nat)
    (hc : 0 < cap) (hu : ∀ k, UserKeeps (x.env k)) (hm : st.live = List.replicate m ⟨0, [], []⟩) (hso : Sockets evs)
    (hr : Runs x (initial cap n st) evs w) (hv : Calls x st.live k c h) :
    (∀ d ∈ w.served, d.conn = k → ∃ e, d.events = [e] ∧ RunOn h c e) ∧
    (0 < n → w.srv.stopped = false → Quiet w.srv.q → w.srv.q.dropped = [] → k ∈ w.admitted →
      ∃ before d after e, w.served = before ++ d :: after ∧ d.conn = k ∧ (∀ d' ∈ before ++ after, d'.conn ≠ k) ∧
        d.events = [e] ∧ RunOn h c e) := by
  have key : ∀ d ∈ w.served, d.conn = k → ∃ e, d.events = [e] ∧ RunOn h c e := by
    rintro d hd rfl
    obtain ⟨evs1, evs2, w1, v, st', he, h1, h2, -, h3, -⟩ := moment hr rfl hd
    obtain ⟨line, text, url, rest, mount, lines, n', sent, regs, r, t, ⟨a1, a2, a3, a4, a5, a6⟩, ⟨b1, b2, b3, b4⟩,
      ⟨c1, c2, c3, c4, c5, c6, c7, c8, c9, c10⟩, d1, d2, d3, d4, d5, d6⟩ := hv
    have hlive := table_runs hc hu hm h1 (fun hmem => hso (by rw [he]; exact List.mem_append_left _ hmem))
    obtain ⟨st0, e1, e2, e3, e4, e5, -, -, -, -, -, e6⟩ := C63_request (x.env d.conn)
      { w1.st with input := (x.client d.conn).input, out := [] } v (x.client d.conn).peer line text c.method url rest mount c.path c.query
      sent lines c.headers n' regs r t h a1 a2 a3 a4 a5 (by rw [show St.live _ = w1.st.live from rfl, hlive, ← hm]; exact a6)
      b1 b2 b3 b4 c1 c2 c3 c4 c5 c6 c7 c9 c10 d1 d2 d3 d4 d6
    obtain ⟨st1, hdis, -⟩ := (e6 _ _).mp h3
    rw [d5] at hdis
    exact ⟨_, hdis.2, _, rfl, e1, e2, e3, e4, by rw [e5, c8]⟩
  refine ⟨key, fun hn ha hq hd hk => ?_⟩
  have hp := (C139_partial x cap n st evs w hc hr).2.2.2 hn ha hq hd
  have hnd := (C139_partial x cap n st evs w hc hr).1
  obtain ⟨d, hd1, hd2⟩ := List.mem_map.mp (hp.mem_iff.mpr hk)
  obtain ⟨before, after, hs⟩ := List.append_of_mem hd1
  obtain ⟨e, k1, k2⟩ := key d hd1 hd2
  refine ⟨before, d, after, e, hs, hd2, fun d' hd' he => ?_, k1, k2⟩
  rw [hs, List.map_append, List.map_cons, List.nodup_middle, List.nodup_cons] at hnd
  apply hnd.1
  rw [hd2, ← he, ← List.map_append]
  exact List.mem_map_of_mem hd'

/-- C142 when every client makes a call and nobody finds the queue full: as claimed. At any time, the handlers that have been run are
those of different clients that were admitted. -/
theorem C142_once (x : World) (cap n m : Nat) (st : St) (evs : List Ev) (w : WSt) (call : Nat → Call) (h : Nat → Nat)
    (hc : 0 < cap) (hu : ∀ k, UserKeeps (x.env k)) (hm : st.live = List.replicate m ⟨0, [], []⟩) (hso : Sockets evs)
    (hr : Runs x (initial cap n st) evs w) (hv : ∀ k, Calls x st.live k (call k) (h k)) :
    (∃ ks : List Nat, ks.Nodup ∧ (∀ k ∈ ks, k ∈ w.admitted) ∧
      List.Forall₂ (fun k e => RunOn (h k) (call k) e) ks (w.served.flatMap Done.events)) ∧
    (0 < n → w.srv.stopped = false → Quiet w.srv.q → w.srv.q.dropped = [] →
      ∃ l, (w.served.flatMap Done.events).Perm l ∧ List.Forall₂ (fun k e => RunOn (h k) (call k) e) w.admitted l) := by
  have key : ∀ d ∈ w.served, ∃ e, d.events = [e] ∧ RunOn (h d.conn) (call d.conn) e := fun d hd =>
    (C142_partial x cap n m st evs w d.conn _ _ hc hu hm hso hr (hv d.conn)).1 d hd rfl
  have hall : List.Forall₂ (fun k e => RunOn (h k) (call k) e) (w.served.map Done.conn) (w.served.flatMap Done.events) := by
    generalize w.served = l at key
    induction l with
    | nil => exact .nil
    | cons d l ih =>
      obtain ⟨e, h1, h2⟩ := key d (by simp)
      rw [List.map_cons, List.flatMap_cons, h1]
      exact .cons h2 (ih fun d' hd' => key d' (by simp [hd']))
  obtain ⟨h1, h2, -, h4⟩ := C139_partial x cap n st evs w hc hr
  refine ⟨⟨_, h1, ?_, hall⟩, fun hn ha hq hd => ?_⟩
  · intro k hk
    obtain ⟨d, hd, rfl⟩ := List.mem_map.mp hk
    exact (h2 d hd).1
  · obtain ⟨l, k1, k2⟩ := List.perm_comp_forall₂ (h4 hn ha hq hd).symm hall
    exact ⟨l, k2.symm, k1⟩

/-- C142, the moment of service: the step in which a worker handles a client that makes a call is defined behaviour in every state the
server can be in (if the handler is), and runs the handler. -/
theorem C142_defined (x : World) (cap n m : Nat) (st : St) (evs : List Ev) (w : WSt) (i v : Nat) (c : Call) (h : Nat)
    (hc : 0 < cap) (hu : ∀ k, UserKeeps (x.env k)) (hm : st.live = List.replicate m ⟨0, [], []⟩) (hso : Sockets evs)
    (hr : Runs x (initial cap n st) evs w) (ha : w.srv.stopped = false) (hw : w.srv.q.workers[i]? = some (.handle v))
    (hv : Calls x st.live (w.conn v) c h) (hok : ∀ st, ∃ st', (x.env (w.conn v)).handle h st = ok st') :
    ∃ w' d e, step x w (.thread (.worker i)) = some (ok w') ∧ w'.served = w.served ++ [d] ∧ d.conn = w.conn v ∧ d.events = [e] ∧
      RunOn h c e := by
  obtain ⟨line, text, url, rest, mount, lines, n', sent, regs, r, t, ⟨a1, a2, a3, a4, a5, a6⟩, ⟨b1, b2, b3, b4⟩,
    ⟨c1, c2, c3, c4, c5, c6, c7, c8, c9, c10⟩, d1, d2, d3, d4, d5, d6⟩ := hv
  have hlive := table_runs hc hu hm hr hso
  obtain ⟨st0, e1, e2, e3, e4, e5, -, -, -, -, -, e6⟩ := C63_request (x.env (w.conn v))
    { w.st with input := (x.client (w.conn v)).input, out := [] } v (x.client (w.conn v)).peer line text c.method url rest mount c.path
    c.query sent lines c.headers n' regs r t h a1 a2 a3 a4 a5 (by rw [show St.live _ = w.st.live from rfl, hlive, ← hm]; exact a6)
    b1 b2 b3 b4 c1 c2 c3 c4 c5 c6 c7 c9 c10 d1 d2 d3 d4 d6
  obtain ⟨st1, hst1⟩ := hok st0
  have hacc := (e6 (connection_close st1) [.handler h st0.req]).mpr ⟨st1, by rw [d5]; exact ⟨hst1, rfl⟩, rfl⟩
  have hh : handles w (.worker i) = some v := handles_eq.mpr ⟨i, rfl, hw⟩
  have hq : Server.step x.limit w.srv (.thread (.worker i)) =
      some (ok { w.srv with q := setW w.srv.q i .lock, fds := w.srv.fds.erase v }) := by
    simp only [Server.step, ha, Bool.false_eq_true, if_false, Queue.step, workerStep, hw, closes]
    rfl
  refine ⟨{ w with
      srv := { w.srv with q := setW w.srv.q i .lock, fds := w.srv.fds.erase v }
      st := connection_close st1
      served := w.served ++ [⟨w.conn v, (connection_close st1).sent, [.handler h st0.req]⟩] },
    ⟨w.conn v, (connection_close st1).sent, [.handler h st0.req]⟩, _, ?_, rfl, rfl, rfl, _, rfl, e1, e2, e3, e4, by rw [e5, c8]⟩
  simp only [step, hq, Option.map_some, hh, Option.elim, serve]
  rw [hacc]
  rfl

/-! ### examples -/

/-- One route without a filter. -/
def callRegs : List Registration := [⟨.const b!"GET:/a", some 1, none⟩]

/-- Clients that call it; every other one has a body of its own. -/
def callWorld : World :=
  { sampleWorld with
    client := fun k => ⟨b!"10.0.0.1", if k % 2 = 0 then samplePost else b!"GET /api/a?q HTTP/1.1\r\nContent-Length: 2\r\n\r\nho"⟩
    env := fun _ => { sampleEnv with routes := callRegs.map regRoute } }

def theCall (k : Nat) : Call :=
  ⟨b!"GET", b!"/a", b!"q", [(b!"Content-Length", b!"2")], if k % 2 = 0 then b!"hi" else b!"ho"⟩

theorem callWorld_keeps (k : Nat) : UserKeeps (callWorld.env k) := sampleEnv_keeps

theorem theCall_calls (k : Nat) : Calls callWorld [⟨0, [], []⟩] k (theCall k) 1 := by
  have hbeg : ∀ b : Str, Begins (b!"GET /api/a?q HTTP/1.1\r\nContent-Length: 2\r\n\r\n" ++ b) b!"GET /api/a?q HTTP/1.1\r\n"
      b!"GET /api/a?q HTTP/1.1\r\n" b!"GET" b!"/api/a?q" (b!"Content-Length: 2\r\n\r\n" ++ b) := fun b =>
    ⟨⟨rfl, by decide, by decide, by simp⟩, ⟨by decide, Or.inl rfl⟩,
    ⟨b!" ", 32, b!"HTTP/1.1\r\n", rfl, by unfold White; decide, by decide, by unfold White; decide, by decide,
      by unfold White; decide, by unfold White; decide⟩, by decide, by decide⟩
  have hlines : ∀ {P : Str → Prop} {l t : Str}, l ∈ [b!"Content-Length: 2\r\n"] → BeforeNul l t → P b!"Content-Length: 2\r\n" → P t := by
    intro P l t hl ht hp
    rw [List.mem_singleton.mp hl] at ht
    rw [beforeNul_eq ht]
    exact hp
  refine ⟨b!"GET /api/a?q HTTP/1.1\r\n", b!"GET /api/a?q HTTP/1.1\r\n", b!"/api/a?q", b!"Content-Length: 2\r\n\r\n" ++ (theCall k).body,
    b!"/api", [b!"Content-Length: 2\r\n"], some 2, (theCall k).body, callRegs, ⟨.const b!"GET:/a", some 1, none⟩, b!"GET:/a",
    ⟨show sampleEnv.limits.length ≤ 64 by decide, by simp [callWorld, sampleEnv], show (b!"10.0.0.1").length < 16 by decide, ?_, ⟨b!"GET", by decide, ⟨b!"GET", [], rfl, rfl⟩⟩,
      ⟨⟨_, List.mem_singleton.mpr rfl, rfl⟩, by simp [callWorld, sampleEnv]⟩⟩,
    ⟨Or.inr (by show b!"/api/a?q" = b!"/api" ++ b!"/a" ++ 63 :: b!"q" ∧ (63 : Byte) ∉ b!"/api" ++ b!"/a"; decide), rfl, by show (63 : Byte) ∉ b!"q"; decide,
      show (b!"GET").length + (b!"/a").length ≤ 253 by decide⟩,
    ⟨?_, ?_, ?_, ?_, ?_, by decide, ?_, ?_, ?_, ?_⟩, by decide, show register callRegs = ok (callRegs.map regRoute) by decide +kernel, rfl, rfl, rfl, ⟨[], [], rfl, rfl, by simp⟩⟩
  · show Begins (if k % 2 = 0 then _ else _) _ _ _ _ _
    unfold theCall
    split
    · exact hbeg b!"hi"
    · exact hbeg b!"ho"
  · exact one_line_section (line := b!"Content-Length: 2\r\n") (by decide) (by decide) (by decide) (by decide) (by decide) _
  · intro l hl t ht
    exact hlines hl ht (P := fun t => ¬ Overrun t) ((lineSafe_true_iff _).mp (by decide +kernel))
  · exact .header _ b!"Content-Length: 2\r\n" _ _ _ _ ⟨by decide, Or.inl rfl⟩ (headerLine_iff.mpr ⟨by decide, by decide⟩) .nil
  · show FitsLog [(b!"Content-Length", b!"2")]
    refine fitsLog_of_short fun p hp => ?_
    rw [List.mem_singleton.mp hp]
    decide
  · exact LengthOf.field [] none b!"Content-Length: 2\r\n" b!"Content-Length: 2\r\n" b!"2" .none ⟨by decide, Or.inl rfl⟩
      ⟨b!"Content-Length", b!" 2\r\n", rfl, rfl, by
        rw [show b!"2" = strip b!" 2\r\n" by decide]; exact isStrip_strip _⟩ (by decide) (by unfold digit; decide)
  · unfold theCall; split <;> decide
  · unfold theCall; split <;> decide
  · intro l hl t ht
    exact hlines hl ht (P := fun t => CasePrefix b!"Content-Length:" t → CasePrefix b!"Content-Length: " t)
      (fun _ => (startswith_iff _ _).mp (by decide))
  · intro l hl t ht
    exact hlines hl ht (P := fun t => ¬ CasePrefix b!"Content-Type: multipart/form-data" t)
      (fun h => absurd ((startswith_iff _ _).mpr h) (by decide))

/-- C142 is false of the code: the third of three clients finds the queue full. -/
theorem C142_refuted : ¬ C142_statement := by
  intro h
  have e : (run callWorld (initial 2 1 openSt) crowd).map (fun w => (w.srv.q.prod, w.srv.q.workers, w.srv.stopped,
      (w.served.flatMap Done.events).length, w.admitted)) = some (.accept, [.waiting], false, 2, [0, 1, 2]) := by decide +kernel
  obtain ⟨w, hw, hs⟩ := Option.map_eq_some_iff.mp e
  simp only [Prod.mk.injEq] at hs
  obtain ⟨l, h1, h2⟩ := h callWorld 2 1 1 openSt crowd w theCall (fun _ => 1) (by decide) (by decide) callWorld_keeps rfl
    (by unfold Sockets crowd putEvs; simp) (runs_of_run hw) hs.2.2.1 (quiet_of hs.1 hs.2.1) theCall_calls
  have := h2.length_eq
  rw [← h1.length_eq, hs.2.2.2.1, hs.2.2.2.2] at this
  revert this
  decide

/-- `C142_partial`, `C142_once`: two clients one after the other over the same descriptor; each call has been carried out, with its own
body. -/
example : ∃ w, Runs callWorld (initial 2 1 openSt) twice w ∧
    ∃ e0 e1, (w.served.flatMap Done.events).Perm [e0, e1] ∧ RunOn 1 ⟨b!"GET", b!"/a", b!"q", [(b!"Content-Length", b!"2")], b!"hi"⟩ e0 ∧
      RunOn 1 ⟨b!"GET", b!"/a", b!"q", [(b!"Content-Length", b!"2")], b!"ho"⟩ e1 := by
  have e : (run callWorld (initial 2 1 openSt) twice).map (fun w => (w.srv.q.prod, w.srv.q.workers, w.srv.stopped,
      w.srv.q.dropped, w.admitted)) = some (.accept, [.waiting], false, [], [0, 1]) := by decide +kernel
  obtain ⟨w, hw, hs⟩ := Option.map_eq_some_iff.mp e
  simp only [Prod.mk.injEq] at hs
  obtain ⟨h1, h2, h3, h4, h5⟩ := hs
  obtain ⟨l, hl, hf⟩ := (C142_once callWorld 2 1 1 openSt twice w theCall (fun _ => 1) (by decide) callWorld_keeps rfl
    (by unfold Sockets twice putEvs takeEvs; simp) (runs_of_run hw) theCall_calls).2 (by decide) h3 (quiet_of h1 h2) h4
  rw [h5] at hf
  obtain ⟨e0, l1, hr0, hf1, rfl⟩ := List.forall₂_cons_left_iff.mp hf
  obtain ⟨e1, l2, hr1, hf2, rfl⟩ := List.forall₂_cons_left_iff.mp hf1
  rw [List.forall₂_nil_left_iff.mp hf2] at hl
  exact ⟨w, runs_of_run hw, e0, e1, hl, hr0, hr1⟩

/-- `C142_defined`: the worker has the connection of the first client. -/
example : ∃ w, Runs callWorld (initial 2 1 openSt) (.connect 5 :: putEvs ++ List.replicate 8 (.thread (.worker 0))) w ∧
    w.srv.q.workers[0]? = some (.handle 5) ∧
    ∃ w' d e, step callWorld w (.thread (.worker 0)) = some (ok w') ∧ w'.served = w.served ++ [d] ∧ d.conn = w.conn 5 ∧
      d.events = [e] ∧ RunOn 1 (theCall (w.conn 5)) e := by
  have e : (run callWorld (initial 2 1 openSt) (.connect 5 :: putEvs ++ List.replicate 8 (.thread (.worker 0)))).map (fun w =>
      (w.srv.stopped, w.srv.q.workers[0]?)) = some (false, some (.handle 5)) := by decide +kernel
  obtain ⟨w, hw, hs⟩ := Option.map_eq_some_iff.mp e
  simp only [Prod.mk.injEq] at hs
  exact ⟨w, runs_of_run hw, hs.2, C142_defined callWorld 2 1 1 openSt _ w 0 5 (theCall (w.conn 5)) 1 (by decide) callWorld_keeps rfl
    (by unfold Sockets putEvs; simp) (runs_of_run hw) hs.1 hs.2 (theCall_calls _) (fun st => ⟨_, rfl⟩)⟩

end Wayuu.Whole
