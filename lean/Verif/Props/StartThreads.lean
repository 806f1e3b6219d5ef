import Verif.Props.Startup
import Verif.Props.Whole
/-
C141: a server that says that it is running serves its clients. What start-up (Model/Startup.lean) leaves behind is the initial state
of the server (Model/Whole.lean): a queue for `WS_MAX_CONNECTIONS` (ws.h:36) sockets and the threads that could be created.
-/
namespace Wayuu.Startup
open Wayuu C Spec Listen

/-- C141 as claimed: whenever the program gets to its accept loop, the clients it admits and has room for have been served when
nothing more can happen until another one comes. -/
def C141_statement : Prop :=
  ∀ (w : Sys) (fs : FS) (opts : List Opt) (log : LogSt) (addr port n : Nat) (ssl : Bool) (rules : List PathLimit) (fs' : FS),
    run w fs opts = ok (log, .accepting addr port ssl rules fs' n) →
    ∀ (x : Whole.World) (st : St) (evs : List Whole.Ev) (s : Whole.WSt),
      Whole.Runs x (Whole.initial 1024 n st) evs s → s.srv.stopped = false → Spec.Quiet s.srv.q → s.srv.q.dropped = [] →
      (s.served.map Whole.Done.conn).Perm s.admitted

theorem pool_le (w : Sys) : pool w ≤ 200 := by
  have := List.length_filter_le w.thread (List.range WS_THREAD_POOL_SIZE)
  simpa [pool, WS_THREAD_POOL_SIZE] using this

theorem pool_pos {w : Sys} : 0 < pool w ↔ ∃ i, i < 200 ∧ w.thread i = true := by
  unfold pool WS_THREAD_POOL_SIZE
  rw [List.length_pos_iff_exists_mem]
  simp [List.mem_filter]

theorem pool_full {w : Sys} : pool w = 200 ↔ ∀ i, i < 200 → w.thread i = true := by
  unfold pool WS_THREAD_POOL_SIZE
  have e : (200 : Nat) = (List.range 200).length := by simp
  rw (occs := .pos [2]) [e]
  rw [List.length_filter_eq_length_iff]
  simp

/-- The socket accepts connections: at an address and port the system has given it, or at all addresses and a port of the system's choice. -/
def Hears (w : Sys) (a p : Nat) : Prop :=
  w.socket = true ∧ w.listens = true ∧
    ((∃ q, w.os.bind a q = true ∧ (p = q ∨ q = 0 ∧ p = w.os.free)) ∨ (a = 0 ∧ p = w.os.free))

/-- The number of threads is that of start-up. -/
theorem serve_pool {w : Sys} {fs fs' : FS} {c : Cfg} {rules r : List PathLimit} {st st' : LogSt} {a p n : Nat} {ssl : Bool}
    (h : serve w fs c rules st = ok (st', .accepting a p ssl r fs' n)) : n = pool w ∧ Hears w a p := by
  unfold serve at h
  simp only at h
  obtain ⟨⟨s1, e1⟩, -, h⟩ := bind_eq_ok.mp h
  simp only at h
  split at h
  · simp only [ok.injEq, Prod.mk.injEq] at h
    cases h.2
  obtain ⟨⟨s2, e2⟩, -, h⟩ := bind_eq_ok.mp h
  obtain ⟨⟨s3, e3⟩, -, h⟩ := bind_eq_ok.mp h
  obtain ⟨⟨s4, e4⟩, -, h⟩ := bind_eq_ok.mp h
  obtain ⟨⟨s5, e5⟩, -, h⟩ := bind_eq_ok.mp h
  simp only at h
  split at h
  · simp only [ok.injEq, Prod.mk.injEq] at h
    cases h.2
  obtain ⟨⟨s6, e6⟩, -, h⟩ := bind_eq_ok.mp h
  simp only at h
  split at h
  · simp only [ok.injEq, Prod.mk.injEq] at h
    cases h.2
  obtain ⟨⟨s7, e7⟩, -, h⟩ := bind_eq_ok.mp h
  simp only at h
  split at h
  · simp only [ok.injEq, Prod.mk.injEq] at h
    cases h.2
  rename_i hsl
  have hsl : w.socket = true ∧ w.listens = true := by simpa using hsl
  split at h
  · rename_i hb
    simp only [ok.injEq, Prod.mk.injEq, Result.accepting.injEq] at h
    obtain ⟨-, rfl, rfl, -, -, -, rfl⟩ := h
    refine ⟨rfl, hsl.1, hsl.2, Or.inl ⟨_, hb, ?_⟩⟩
    split
    · exact Or.inr ⟨by assumption, rfl⟩
    · exact Or.inl rfl
  · simp only [ok.injEq, Prod.mk.injEq, Result.accepting.injEq] at h
    obtain ⟨-, rfl, rfl, -, -, -, rfl⟩ := h
    exact ⟨rfl, hsl.1, hsl.2, Or.inr ⟨rfl, rfl⟩⟩

theorem launch_pool {w : Sys} {fs fs' : FS} {c : Cfg} {r : List PathLimit} {st st' : LogSt} {a p n : Nat} {ssl : Bool}
    (h : ws_launch w fs c st = ok (st', .accepting a p ssl r fs' n)) : n = pool w ∧ Hears w a p := by
  have rest : ∀ (fs1 : FS) (st : LogSt), (do
      let (st, good) ← sslSetup w fs1 c st
      if !good then ok (st, Result.exit .failure) else do
      let rules ← load_limits fs1 c.wsRoot
      serve w fs1 c rules st) = ok (st', .accepting a p ssl r fs' n) → n = pool w ∧ Hears w a p := by
    intro fs1 st h
    obtain ⟨⟨s1, g⟩, -, h⟩ := bind_eq_ok.mp h
    simp only at h
    split at h
    · simp only [ok.injEq, Prod.mk.injEq] at h
      cases h.2
    obtain ⟨rules, -, h⟩ := bind_eq_ok.mp h
    exact serve_pool h
  unfold ws_launch at h
  generalize check_createdir fs FILE_DOWNLOAD_TMP_DIR = g at h
  obtain ⟨g1, g2⟩ := g
  simp only at h
  split at h
  · obtain ⟨⟨s1, e⟩, -, h⟩ := bind_eq_ok.mp h
    simp only at h
    split at h
    · exact rest _ _ h
    · simp only [ok.injEq, Prod.mk.injEq] at h
      cases h.2
  · exact rest _ _ h

theorem run_pool {w : Sys} {fs fs' : FS} {opts : List Opt} {r : List PathLimit} {st' : LogSt} {a p n : Nat} {ssl : Bool}
    (h : run w fs opts = ok (st', .accepting a p ssl r fs' n)) : n = pool w := by
  unfold run at h
  obtain ⟨m, -, h⟩ := bind_eq_ok.mp h
  cases m with
  | exit e =>
    simp only [ok.injEq, Prod.mk.injEq] at h
    cases h.2
  | launch c =>
    simp only at h
    unfold launch at h
    split at h
    · simp only [ok.injEq, Prod.mk.injEq] at h
      cases h.2
    exact (launch_pool h).1

/-- C141 for systems that grant at least one of the 200 threads. -/
theorem C141_partial (w : Sys) (fs : FS) (opts : List Opt) (log : LogSt) (addr port n : Nat) (ssl : Bool) (rules : List PathLimit)
    (fs' : FS) (hrun : run w fs opts = ok (log, .accepting addr port ssl rules fs' n)) (ht : ∃ i, i < 200 ∧ w.thread i = true)
    (x : Whole.World) (st : St) (evs : List Whole.Ev) (s : Whole.WSt) (h : Whole.Runs x (Whole.initial 1024 n st) evs s)
    (hs : s.srv.stopped = false) (hq : Spec.Quiet s.srv.q) (hd : s.srv.q.dropped = []) :
    (s.served.map Whole.Done.conn).Perm s.admitted := by
  obtain rfl := run_pool hrun
  exact (Whole.C139_partial x 1024 (pool w) st evs s (by decide) h).2.2.2 (pool_pos.mpr ht) hs hq hd

/-- There are as many workers as the system granted threads: never more than 200, and 200 exactly if it granted each of them. -/
theorem C141_count (w : Sys) (fs : FS) (opts : List Opt) (log : LogSt) (addr port n : Nat) (ssl : Bool) (rules : List PathLimit)
    (fs' : FS) (hrun : run w fs opts = ok (log, .accepting addr port ssl rules fs' n)) :
    n ≤ 200 ∧ (n = 200 ↔ ∀ i, i < 200 → w.thread i = true) ∧ (n = 0 ↔ ∀ i, i < 200 → w.thread i = false) := by
  obtain rfl := run_pool hrun
  refine ⟨pool_le w, pool_full, ?_⟩
  rw [← Nat.le_zero, ← Nat.not_lt, pool_pos]
  simp

/-- C96, for a program of one's own (with settings of its own, and possibly with a log level at which no failure ends it, see C95_silent):
a server that gets to its accept loop has a socket and may listen on it, at an address and port it was given, or else at all addresses and
a port the system chose. -/
theorem C96_hears (w : Sys) (fs : FS) (c : Cfg) (st log : LogSt) (addr port n : Nat) (ssl : Bool) (rules : List PathLimit)
    (fs' : FS) (h : ws_launch w fs c st = ok (log, .accepting addr port ssl rules fs' n)) :
    w.socket = true ∧ w.listens = true ∧
      ((∃ q, w.os.bind addr q = true ∧ (port = q ∨ q = 0 ∧ port = w.os.free)) ∨ (addr = 0 ∧ port = w.os.free)) :=
  (launch_pool h).2

/-- The threads are not among the needs of C96: whichever of them the system refuses, the same server starts and its last line
says that it is running. If it refuses all, no client is ever served, whatever happens. -/
theorem C141_idle (w : Sys) {fs fs' : FS} {opts : List Opt} {root : List Byte} {addr port : Nat} {rules : List PathLimit}
    (h : Set fs opts root addr port) (hf : WithFolder fs fs') (hr : Rules fs' root rules)
    (hm : ∀ n ∈ needs (decide (Opt.f ∉ opts)), Met w fs fs' root addr port n) (threads : Nat → Bool) :
    ∃ log n, run { w with thread := threads } fs opts = ok (log, .accepting addr port (decide (Opt.f ∉ opts)) rules fs' n) ∧
      (∃ line t, log.text.getLast? = some line ∧ NatText t port ∧ WordIn (b!"running on port " ++ t) line) ∧
      ((∀ i, i < 200 → threads i = false) →
        ∀ x st evs s, Whole.Runs x (Whole.initial 1024 n st) evs s → s.served = []) := by
  have hm' : ∀ n ∈ needs (decide (Opt.f ∉ opts)), Met { w with thread := threads } fs fs' root addr port n := by
    intro n hn
    have := hm n hn
    cases n <;> exact this
  obtain ⟨log, h1, h2⟩ := C96_up { w with thread := threads } h hf hr hm'
  refine ⟨log, _, h1, h2, fun hno x st evs s hs => ?_⟩
  have h0 : pool { w with thread := threads } = 0 := by
    rw [← Nat.le_zero, ← Nat.not_lt, pool_pos]
    simpa using hno
  rw [h0] at hs
  clear h1 h2 hm hm' h0
  induction hs with
  | nil => rfl
  | @snoc w1 w2 e evs' hr' hst ih =>
    cases e with
    | connect v =>
      obtain ⟨-, -, ⟨-, rfl⟩ | ⟨-, -, b, p, -, rfl⟩⟩ := Whole.connect_ok hst
      · exact ih
      · exact ih
    | error =>
      obtain ⟨-, -, e⟩ := Whole.error_ok hst
      rw [e]
      exact ih
    | thread a =>
      obtain ⟨srv, -, ⟨-, rfl⟩ | ⟨v, _, _, hv, -, -⟩⟩ := Whole.thread_ok hst
      · exact ih
      · obtain ⟨i, -, hi⟩ := Whole.handles_eq.mp hv
        obtain ⟨es, hes⟩ := Whole.srv_runs hr'
        have := (Server.reach_of_runs hes).workers_length
        rw [List.length_eq_zero_iff.mp this] at hi
        cases hi
    | files fs1 =>
      cases hst
      exact ih

/-! ### examples -/

/-- The system of the example for C96; `p` are the threads it grants. -/
def poolSys (p : Nat → Bool) : Sys := { bootSys with thread := p }

theorem boot_met (p : Nat → Bool) : ∀ n ∈ needs (decide (Opt.f ∉ bootOpts ++ [.f])),
    Met (poolSys p) bootFs (bootFs.update [b!"tmp", b!"wayuu"] (some .dir)) b!"/srv" (10 * 2 ^ 24 + 7) 8080 n := by
  have e : decide (Opt.f ∉ bootOpts ++ [.f]) = false := by decide
  rw [e]
  intro n hn
  simp only [needs, Bool.false_eq_true, if_false, List.mem_cons, List.not_mem_nil, or_false] at hn
  rcases hn with rfl | rfl | rfl | rfl | rfl
  · rfl
  · exact Or.inr (by decide +kernel)
  · rfl
  · rfl
  · rfl

theorem boot_up (p : Nat → Bool) : ∃ log, run (poolSys p) bootFs (bootOpts ++ [.f]) =
    ok (log, .accepting (10 * 2 ^ 24 + 7) 8080 false [] (bootFs.update [b!"tmp", b!"wayuu"] (some .dir)) (pool (poolSys p))) := by
  obtain ⟨log, h, -⟩ := C96_up (poolSys p) (bootSet [.f] (Or.inr rfl)) bootFolder bootRules (boot_met p)
  exact ⟨log, h⟩

/-- C141 is false of the code: no thread can be created, the server says that it is running, a client connects and waits for ever. -/
theorem C141_refuted : ¬ C141_statement := by
  intro h
  obtain ⟨log, hb⟩ := boot_up fun _ => false
  have h0 : pool (poolSys fun _ => false) = 0 := by decide +kernel
  rw [h0] at hb
  have e : (Whole.run Whole.sampleWorld (Whole.initial 1024 0 Whole.openSt) (.connect 5 :: Whole.putEvs)).map (fun w =>
      ((w.srv.q.prod, w.srv.q.workers, w.srv.stopped), w.srv.q.dropped, w.served.map Whole.Done.conn, w.admitted)) =
      some ((.accept, [], false), [], [], [0]) := by decide +kernel
  obtain ⟨s, hw, hs⟩ := Option.map_eq_some_iff.mp e
  simp only [Prod.mk.injEq] at hs
  obtain ⟨⟨h1, h2, h3⟩, h4, h5, h6⟩ := hs
  have := h _ _ _ _ _ _ _ _ _ _ hb _ _ _ s (Whole.runs_of_run hw) h3 (by
    intro a ha
    cases a with
    | accept v b => exact ha.elim
    | spurious i => exact ha.elim
    | prod => simp [Queue.step, Queue.prodStep, h1]
    | signal w => simp [Queue.step, h1]
    | worker i => simp [Queue.step, Queue.workerStep, h2]) h4
  rw [h5, h6] at this
  exact absurd this.length_eq (by decide)

/-- Where a server accepts connections. -/
def hearsAt : C (LogSt × Result) → Option (Nat × Nat)
  | ok (_, .accepting a p _ _ _ _) => some (a, p)
  | _ => none

/-- `C96_hears`: a silent server whose port is refused accepts connections all the same; one that may not listen does not. -/
example : hearsAt (ws_launch { bootSys with os := ⟨fun _ _ => false, 40000⟩ } bootFs
      ⟨8080, b!"/srv", b!"/", b!"index.html", b!"favicon.ico", b!"10.0.0.7", false, 6⟩ ⟨6, []⟩) = some (0, 40000) ∧
    hearsAt (ws_launch { bootSys with listens := false } bootFs
      ⟨8080, b!"/srv", b!"/", b!"index.html", b!"favicon.ico", b!"10.0.0.7", false, 6⟩ ⟨6, []⟩) = none := by
  decide +kernel

/-- `C141_partial` and `C141_count`: the system grants the eighth thread only. The client is served. -/
example : ∃ log n, run (poolSys fun i => i == 7) bootFs (bootOpts ++ [.f]) = ok (log, .accepting (10 * 2 ^ 24 + 7) 8080 false []
      (bootFs.update [b!"tmp", b!"wayuu"] (some .dir)) n) ∧ n ≤ 200 ∧ n ≠ 200 ∧ n ≠ 0 ∧
    ∃ s, Whole.Runs Whole.sampleWorld (Whole.initial 1024 n Whole.openSt)
      (.connect 5 :: Whole.putEvs ++ List.replicate 11 (.thread (.worker 0))) s ∧ s.admitted = [0] ∧
      (s.served.map Whole.Done.conn).Perm s.admitted := by
  obtain ⟨log, hb⟩ := boot_up fun i => i == 7
  obtain ⟨k1, k2, k3⟩ := C141_count _ _ _ _ _ _ _ _ _ _ hb
  have hp : pool (poolSys fun i => i == 7) = 1 := by decide +kernel
  have e : (Whole.run Whole.sampleWorld (Whole.initial 1024 1 Whole.openSt)
      (.connect 5 :: Whole.putEvs ++ List.replicate 11 (.thread (.worker 0)))).map (fun w =>
      ((w.srv.q.prod, w.srv.q.workers, w.srv.stopped), w.srv.q.dropped, w.admitted)) =
      some ((.accept, [.waiting], false), [], [0]) := by decide +kernel
  obtain ⟨s, hw, hs⟩ := Option.map_eq_some_iff.mp e
  simp only [Prod.mk.injEq] at hs
  obtain ⟨⟨h1, h2, h3⟩, h4, h5⟩ := hs
  refine ⟨log, _, hb, k1, ?_, ?_, s, hp ▸ Whole.runs_of_run hw, h5, C141_partial _ _ _ _ _ _ _ _ _ _ hb ⟨7, by decide, by decide⟩ _ _ _ s
    (hp ▸ Whole.runs_of_run hw) h3 (Whole.quiet_of h1 h2) h4⟩
  · rw [hp]; decide
  · rw [hp]; decide

/-- `C141_idle`: without any thread. -/
example : ∃ log n, run (poolSys fun _ => false) bootFs (bootOpts ++ [.f]) = ok (log, .accepting (10 * 2 ^ 24 + 7) 8080 false []
      (bootFs.update [b!"tmp", b!"wayuu"] (some .dir)) n) ∧
    ∀ x st evs s, Whole.Runs x (Whole.initial 1024 n st) evs s → s.served = [] := by
  obtain ⟨log, n, h1, -, h2⟩ := C141_idle bootSys (bootSet [.f] (Or.inr rfl)) bootFolder bootRules (boot_met fun _ => true) fun _ => false
  exact ⟨log, n, h1, h2 fun _ _ => rfl⟩

end Wayuu.Startup
