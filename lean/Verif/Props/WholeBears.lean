import Verif.Props.WholePage
import Verif.Props.Bearable
/-
C147: what clients can do to the process. The whole server: address filter, queue, workers, table of connections, files. C145 said what one
connection does to the worker that handles it; here the question is which steps of the server, in which of the states it can get to, leave
defined behaviour.
-/
namespace Wayuu.Whole
open Wayuu C Spec Wayuu.Queue Wayuu.Server

namespace Spec
open Wayuu.Spec

/-- The file is too large for the array it is read into (file_utils.c:31). -/
def Large (fs : FS) (path : Str) : Prop := ∃ c, fs.openRead path = some c ∧ 8192 ≤ c.length

/-- The lists of addresses that are looked at for this address are small enough. -/
def ListsFit (fs : FS) (root ip : Str) : Prop :=
  ¬ Large fs (root ++ b!"/etc/deny") ∧ (Listed fs (root ++ b!"/etc/deny") ip ∨ ¬ Large fs (root ++ b!"/etc/allow"))

/-- The server is set up well for every connection (C145), its root folder fits, and the addresses are addresses. -/
structure SoundServer (x : World) (st : St) (regs : List Registration) : Prop where
  root : x.root.length ≤ 255
  setup : ∀ k, SoundSetup (x.env k) st regs
  digest : ∀ k, 18 ≤ (x.env k).evpMax
  peer : ∀ k, (x.client k).peer ≠ [] ∧ (x.client k).peer.length < 16

/-- What the client of connection `k` sends can be borne. -/
def Bears (x : World) (live : List Conn) (regs : List Registration) (k : Nat) : Prop :=
  Bearable (x.env k).limits live (x.client k).peer regs (x.client k).input

end Spec
open Spec

theorem setup_move {env : Env} {st st' : St} {regs : List Registration} (h : SoundSetup env st regs) (hf : st'.fs = st.fs) :
    SoundSetup env st' regs where
  limits := h.limits
  paths := h.paths
  root := h.root
  idx := h.idx
  icon := h.icon
  stack := h.stack
  index := by rw [hf]; exact h.index
  small := by rw [hf]; exact h.small
  valid := h.valid
  registered := h.registered
  names := h.names
  responds := h.responds
  defined := h.defined

theorem find_large {fs : FS} {path ip : Str} (hip : ip ≠ []) :
    (Large fs path ∧ find_in_file fs path ip = ub .oob) ∨
    (¬ Large fs path ∧ ∃ r, find_in_file fs path ip = ok r ∧ (r = true ↔ Listed fs path ip)) := by
  by_cases h : Large fs path
  · refine Or.inl ⟨h, ?_⟩
    obtain ⟨c, hc, hl⟩ := h
    rw [find_in_file_eq, hc]
    simp only [if_neg (Nat.not_lt.mpr hl)]
  · refine Or.inr ⟨h, find_listed hip fun c hc => ?_⟩
    by_contra hn
    exact h ⟨c, hc, Nat.le_of_not_lt hn⟩

theorem large_file {fs : FS} {path : Str} (h : Large fs path) : is_file fs path = true := by
  obtain ⟨c, hc, -⟩ := h
  exact is_file_of_openRead hc

/-- When the address filter is defined. -/
theorem filter_iff {fs : FS} {root ip : Str} {p : AccessPaths} (hp : PathsOf root p) (hroot : root.length ≤ 255) (hip : ip ≠ []) :
    (allowed_address fs root p ip).IsOk ↔ ListsFit fs root ip := by
  have key : (do
      let denied ← find_in_file fs (root ++ b!"/etc/deny") ip
      if denied then ok (false, AccessPaths.mk (root ++ b!"/etc/allow") (root ++ b!"/etc/deny")) else
      if !is_file fs (root ++ b!"/etc/allow") then ok (true, AccessPaths.mk (root ++ b!"/etc/allow") (root ++ b!"/etc/deny")) else do
      let found ← find_in_file fs (root ++ b!"/etc/allow") ip
      ok (found, AccessPaths.mk (root ++ b!"/etc/allow") (root ++ b!"/etc/deny"))).IsOk ↔ ListsFit fs root ip := by
    rcases find_large (fs := fs) (path := root ++ b!"/etc/deny") hip with ⟨h1, h2⟩ | ⟨h1, r, h2, h3⟩
    · rw [h2]
      exact ⟨fun ⟨_, h⟩ => (by cases h), fun h => absurd h1 h.1⟩
    · rw [h2, ok_bind]
      cases r with
      | true => exact ⟨fun _ => ⟨h1, Or.inl (h3.mp rfl)⟩, fun _ => ⟨_, rfl⟩⟩
      | false =>
        have hn : ¬ Listed fs (root ++ b!"/etc/deny") ip := fun h => by cases h3.mpr h
        simp only [Bool.false_eq_true, if_false]
        rcases find_large (fs := fs) (path := root ++ b!"/etc/allow") hip with ⟨g1, g2⟩ | ⟨g1, r, g2, g3⟩
        · rw [large_file g1, g2]
          exact ⟨fun ⟨_, h⟩ => (by cases h), fun h => h.2.elim (absurd · hn) (absurd g1)⟩
        · rw [g2]
          refine ⟨fun _ => ⟨h1, Or.inr g1⟩, fun _ => ?_⟩
          split
          · exact ⟨_, rfl⟩
          · exact ⟨_, rfl⟩
  rw [← key]
  unfold allowed_address
  rcases hp with rfl | rfl
  · simp only [List.length_nil, if_true]
    rw [fmtInto_ok (show (root ++ b!"/etc/allow").length + 1 ≤ 288 by simp; omega)]
    simp only [ok_bind]
    rw [fmtInto_ok (show (root ++ b!"/etc/deny").length + 1 ≤ 288 by simp; omega)]
    rfl
  · rw [if_neg (by simp)]
    rfl

/-- The step of connecting. -/
theorem connect_crash {x : World} {w : WSt} {v : Nat} (hr : x.root.length ≤ 255) (hp : PathsOf x.root w.paths)
    (hip : (x.client w.arrived).peer ≠ []) :
    (∃ f, step x w (.connect v) = some (ub f)) ↔
      w.srv.stopped = false ∧ w.srv.q.prod = .accept ∧ w.srv.fds.length < x.limit ∧ v ∉ w.srv.fds ∧
        ¬ ListsFit w.st.fs x.root (x.client w.arrived).peer := by
  simp only [step, connect]
  cases hs : w.srv.stopped with
  | true => simp
  | false =>
    simp only [Bool.false_eq_true, if_false, true_and]
    by_cases hq : w.srv.q.prod = .accept
    · simp only [hq, ne_eq, not_true, if_false, true_and]
      by_cases hl : x.limit ≤ w.srv.fds.length
      · simp only [if_pos hl, Nat.not_lt.mpr hl, false_and, iff_false]
        rintro ⟨f, h⟩
        cases h
      · simp only [if_neg hl, Nat.lt_of_not_le hl, true_and]
        by_cases hv : v ∈ w.srv.fds
        · simp [hv]
        · simp only [hv, not_false_iff, true_and]
          rw [← filter_iff hp hr hip]
          cases ha : allowed_address w.st.fs x.root w.paths (x.client w.arrived).peer with
          | ub f => exact ⟨fun _ => fun ⟨_, h⟩ => (by cases h), fun _ => ⟨f, rfl⟩⟩
          | ok y =>
            obtain ⟨b, p⟩ := y
            refine ⟨fun ⟨f, h⟩ => ?_, fun h => absurd ⟨_, rfl⟩ h⟩
            exfalso
            simp only [ok_bind] at h
            have : ∃ s, (Server.step x.limit w.srv (.connect v b)).getD (ok w.srv) = ok s := by
              simp only [Server.step, hs, Bool.false_eq_true, if_false, hq, if_neg hl, if_neg hv, Queue.step]
              cases b <;> exact ⟨_, rfl⟩
            obtain ⟨s, hs⟩ := this
            rw [hs] at h
            cases h
    · simp [hq]

/-- The step of a thread. -/
theorem thread_crash {x : World} {cap n m : Nat} {st : St} {evs : List Ev} {w : WSt} {a : Act} {regs : List Registration} (hc : 0 < cap)
    (hu : ∀ k, UserKeeps (x.env k)) (hst : st.live = List.replicate m ⟨0, [], []⟩) (hso : Sockets evs)
    (h : Runs x (initial cap n st) evs w) (hset : SoundServer x w.st regs) :
    (∃ f, step x w (.thread a) = some (ub f)) ↔
      w.srv.stopped = false ∧ ∃ i v, a = .worker i ∧ w.srv.q.workers[i]? = some (.handle v) ∧ ¬ Bears x st.live regs (w.conn v) := by
  obtain ⟨es, hes⟩ := srv_runs h
  have hlive := table_runs hc hu hst h hso
  have hsafe : ∀ f, Server.step x.limit w.srv (.thread a) ≠ some (ub f) := by
    intro f hf
    unfold Server.step at hf
    split at hf
    · cases hf
    · simp only at hf
      split at hf
      · cases hf
      · obtain ⟨c, hc', hf⟩ := Option.map_eq_some_iff.mp hf
        cases c with
        | ok q => cases hf
        | ub g => exact C52_safe cap n hc _ (reach_of_runs hes) _ g hc'
  have hbears : ∀ v, (accept_request (x.env (w.conn v)) { w.st with input := (x.client (w.conn v)).input, out := [] } v
      (x.client (w.conn v)).peer).IsOk ↔ Bears x st.live regs (w.conn v) := by
    intro v
    have := C145_total (x.env (w.conn v)) { w.st with input := (x.client (w.conn v)).input, out := [] } v (x.client (w.conn v)).peer regs
      (setup_move (hset.setup (w.conn v)) rfl) (hset.digest _) (hset.peer _).2
    rw [this]
    show Bearable _ w.st.live _ _ _ ↔ _
    rw [hlive, ← hst]
    rfl
  constructor
  · rintro ⟨f, hf⟩
    obtain ⟨c, hc', hf⟩ := Option.map_eq_some_iff.mp hf
    cases c with
    | ub g => exact absurd hc' (hsafe g)
    | ok srv =>
      have hs : w.srv.stopped = false := by
        cases hs : w.srv.stopped with
        | false => rfl
        | true => simp [Server.step, hs] at hc'
      cases hh : handles w a with
      | none => rw [hh] at hf; cases hf
      | some v =>
        obtain ⟨i, rfl, hi⟩ := handles_eq.mp hh
        refine ⟨hs, i, v, rfl, hi, fun hb => ?_⟩
        obtain ⟨⟨st', ev⟩, hx⟩ := (hbears v).mpr hb
        rw [hh] at hf
        simp only [Option.elim, serve, hx] at hf
        cases hf
  · rintro ⟨hs, i, v, rfl, hi, hb⟩
    have hh : handles w (.worker i) = some v := handles_eq.mpr ⟨i, rfl, hi⟩
    have hq : Server.step x.limit w.srv (.thread (.worker i)) =
        some (ok { w.srv with q := setW w.srv.q i .lock, fds := w.srv.fds.erase v }) := by
      simp only [Server.step, hs, Bool.false_eq_true, if_false, Queue.step, workerStep, hi, closes]
      rfl
    rw [← hbears v] at hb
    cases hx : accept_request (x.env (w.conn v)) { w.st with input := (x.client (w.conn v)).input, out := [] } v
      (x.client (w.conn v)).peer with
    | ok y => exact absurd ⟨y, hx⟩ hb
    | ub f =>
      refine ⟨f, ?_⟩
      simp only [step, hq, Option.map_some, hh, Option.elim, serve, hx]
      rfl

/-- C147 as claimed: whatever clients connect and send, in whatever order the threads run, the process stays within defined behaviour. -/
def C147_statement : Prop :=
  ∀ (x : World) (cap n m : Nat) (st : St) (evs : List Ev) (w : WSt) (e : Ev) (f : Fault) (regs : List Registration),
    0 < cap → (∀ k, UserKeeps (x.env k)) → st.live = List.replicate m ⟨0, [], []⟩ → Sockets evs →
    Runs x (initial cap n st) evs w → SoundServer x w.st regs → ¬ Large w.st.fs (x.root ++ b!"/etc/deny") →
    ¬ Large w.st.fs (x.root ++ b!"/etc/allow") → step x w e ≠ some (ub f)

/-- C147, exactly: in every state the server can get to, a step leaves defined behaviour exactly if it is the one in which a worker handles
a connection whose client sends what cannot be borne, or the one in which a client is looked up in a list of addresses that is too large. -/
theorem C147_exact (x : World) (cap n m : Nat) (st : St) (evs : List Ev) (w : WSt) (e : Ev) (regs : List Registration) (hc : 0 < cap)
    (hu : ∀ k, UserKeeps (x.env k)) (hst : st.live = List.replicate m ⟨0, [], []⟩) (hso : Sockets evs)
    (h : Runs x (initial cap n st) evs w) (hset : SoundServer x w.st regs) :
    (∃ f, step x w e = some (ub f)) ↔ w.srv.stopped = false ∧
      ((∃ i v, e = .thread (.worker i) ∧ w.srv.q.workers[i]? = some (.handle v) ∧ ¬ Bears x st.live regs (w.conn v)) ∨
       (∃ v, e = .connect v ∧ w.srv.q.prod = .accept ∧ w.srv.fds.length < x.limit ∧ v ∉ w.srv.fds ∧
        ¬ ListsFit w.st.fs x.root (x.client w.arrived).peer)) := by
  cases e with
  | connect v =>
    rw [connect_crash hset.root (paths_runs h (Or.inl rfl)) (hset.peer _).1]
    simp
  | thread a =>
    rw [thread_crash hc hu hst hso h hset]
    simp
  | error =>
    simp only [reduceCtorEq, false_and, exists_false, or_false, and_false, iff_false]
    rintro ⟨f, hf⟩
    obtain ⟨c, hc', hf⟩ := Option.map_eq_some_iff.mp hf
    cases c with
    | ok q => cases hf
    | ub g =>
      unfold Server.step at hc'
      split at hc'
      · cases hc'
      · simp only at hc'
        split at hc' <;> cases hc'
  | files fs =>
    simp only [reduceCtorEq, false_and, exists_false, or_false, and_false, iff_false]
    rintro ⟨f, hf⟩
    cases hf

/-- C147, what holds: if what the admitted clients send can be borne, and the lists of addresses are small enough, nothing else matters: not
what the clients that were turned away send, not the number of clients, not the order in which the threads run, not the descriptors. Missing:
some requests cannot be borne (C145). -/
theorem C147_partial (x : World) (cap n m : Nat) (st : St) (evs : List Ev) (w : WSt) (e : Ev) (f : Fault) (regs : List Registration)
    (hc : 0 < cap) (hu : ∀ k, UserKeeps (x.env k)) (hst : st.live = List.replicate m ⟨0, [], []⟩) (hso : Sockets evs)
    (h : Runs x (initial cap n st) evs w) (hset : SoundServer x w.st regs) (hd : ¬ Large w.st.fs (x.root ++ b!"/etc/deny"))
    (ha : ¬ Large w.st.fs (x.root ++ b!"/etc/allow")) (hb : ∀ k ∈ w.admitted, Bears x st.live regs k) : step x w e ≠ some (ub f) := by
  intro hf
  obtain ⟨hs, ⟨i, v, rfl, hi, hn⟩ | ⟨v, rfl, -, -, -, hn⟩⟩ := (C147_exact x cap n m st evs w e regs hc hu hst hso h hset).mp ⟨f, hf⟩
  · obtain ⟨es, hes⟩ := srv_runs h
    have hfd : v ∈ w.srv.fds := ((C79_apart x.limit cap n hc es _ hes).2.1 v).mpr (Or.inr (Or.inl (List.mem_of_getElem? hi)))
    exact hn (hb _ ((books hc h).each.mem_iff.mpr (List.mem_append_right _ (List.mem_map.mpr ⟨v, hfd, rfl⟩))))
  · exact hn ⟨hd, Or.inr ha⟩

/-- The first client closes its connection without a word, the others ask for the start page. -/
def silentWorld : World :=
  { pageWorld with
    client := fun k => if k = 0 then ⟨b!"10.0.0.9", []⟩ else pageWorld.client k
    env := fun _ => soundEnv }

theorem soundEnv_keeps : UserKeeps soundEnv :=
  ⟨fun _ _ _ h => return_json_with_status_keeps h, fun _ st st' b h => by
    have h : (ok (st, true) : C (St × Bool)) = ok (st', b) := h
    cases h; exact Keeps.refl _⟩

theorem silentWorld_sound {st : St} (h : st.fs = docsFs) : SoundServer silentWorld st sampleRegs where
  root := by decide
  setup := fun _ => setup_move (soundEnv_setup [] []) h
  digest := fun _ => show 18 ≤ soundEnv.evpMax by decide
  peer := by
    intro k
    simp only [silentWorld]
    split
    · decide
    · exact ⟨show b!"10.0.0.1" ≠ [] by decide, show (b!"10.0.0.1").length < 16 by decide⟩

/-- Nothing has been handled yet and nobody has touched the files. -/
theorem untouched {x : World} {w0 w : WSt} {evs : List Ev} (h : Runs x w0 evs w) (hf : ∀ e ∈ evs, ∀ fs, e ≠ .files fs)
    (hs : w.served = []) : w.st = w0.st := by
  induction h with
  | nil => rfl
  | @snoc w' w'' e evs' _ hst ih =>
    have hf' : ∀ e ∈ evs', ∀ fs, e ≠ .files fs := fun e he => hf e (List.mem_append_left _ he)
    cases e with
    | connect v =>
      obtain ⟨-, -, ⟨-, rfl⟩ | ⟨-, -, b, p, -, rfl⟩⟩ := connect_ok hst
      · exact ih hf' hs
      · exact ih hf' hs
    | error => rw [(error_ok hst).2.2] at hs ⊢; exact ih hf' hs
    | thread a =>
      obtain ⟨srv, -, ⟨-, rfl⟩ | ⟨v, st', ev, -, -, rfl⟩⟩ := thread_ok hst
      · exact ih hf' hs
      · simp at hs
    | files fs => exact absurd rfl (hf (.files fs) (by simp) fs)

/-- C147 is false of the code: the first client closes its connection without a word, and the step in which the worker handles it is
undefined behaviour. -/
theorem C147_refuted : ¬ C147_statement := by
  intro hall
  have e : (run silentWorld (initial 2 1 pageSt) (.connect 5 :: putEvs ++ List.replicate 8 (.thread (.worker 0)))).map (fun w =>
        ((step silentWorld w (.thread (.worker 0))).map (fun c => c.bind (fun _ => ok ())), w.served.length)) = some (some (ub .oob), 0) := by
    decide +kernel
  obtain ⟨w, hw, hs⟩ := Option.map_eq_some_iff.mp e
  simp only [Prod.mk.injEq, List.length_eq_zero_iff] at hs
  obtain ⟨c, hc, hb⟩ := Option.map_eq_some_iff.mp hs.1
  have hf : w.st.fs = docsFs := by
    rw [untouched (runs_of_run hw) (by unfold putEvs; simp) hs.2]
    rfl
  have hl : ∀ p, docsFs.openRead p = none → ¬ Large w.st.fs p := by
    rintro p hp ⟨c, hc, -⟩
    rw [hf, hp] at hc
    cases hc
  refine hall silentWorld 2 1 1 pageSt _ w (.thread (.worker 0)) .oob sampleRegs (by decide) (fun _ => soundEnv_keeps) rfl
    (by unfold Sockets putEvs; simp) (runs_of_run hw) (silentWorld_sound hf) (hl _ (by decide +kernel)) (hl _ (by decide +kernel)) ?_
  rw [hc]
  cases c with
  | ok w' => cases hb
  | ub f => rw [show f = Fault.oob from C.ub.inj hb]

/-- A client whose request can be borne. -/
theorem silentWorld_bears : Bears silentWorld pageSt.live sampleRegs 1 := by
  refine (C145_total soundEnv { pageSt with input := (silentWorld.client 1).input } 5 b!"10.0.0.1" sampleRegs
    (setup_move (soundEnv_setup [] []) rfl) (by decide) (by decide)).mp ?_
  have : (accept_request soundEnv { pageSt with input := (silentWorld.client 1).input } 5 b!"10.0.0.1").bind (fun _ => ok ()) = ok () := by
    decide +kernel
  cases hx : accept_request soundEnv { pageSt with input := (silentWorld.client 1).input } 5 b!"10.0.0.1" with
  | ok x => exact ⟨x, rfl⟩
  | ub f => rw [hx] at this; cases this

/-- The silent client is on the list of addresses that are denied. -/
def guardedFs : FS :=
  { docsFs with
    node := fun p => if p = [b!"r"] ∨ p = [b!"r", b!"etc"] then some .dir
      else if p = [b!"r", b!"etc", b!"deny"] then some (.file b!"10.0.0.9\n") else docsFs.node p }

def guardedSt : St := { pageSt with fs := guardedFs }

theorem guarded_small {name c : Str} (h : guardedFs.openRead name = some c) : c.length < 8192 := by
  have h : guardedFs.lookup name = some (.file c) := openRead_of_node h
  unfold FS.lookup at h
  cases hr : guardedFs.resolve name with
  | none => rw [hr] at h; cases h
  | some p =>
    rw [hr] at h
    have h : guardedFs.nodeAt p = some (.file c) := h
    unfold FS.nodeAt at h
    split at h
    · cases h
    · simp only [guardedFs, docsFs] at h
      split at h
      · cases h
      · split at h
        · cases h; decide
        · split at h
          · cases h
          · split at h
            · cases h; decide
            · split at h
              · cases h; decide
              · split at h
                · cases h; decide
                · cases h

theorem guarded_sound {st : St} (h : st.fs = guardedFs) : SoundServer silentWorld st sampleRegs :=
  { silentWorld_sound (st := pageSt) rfl with
    setup := fun _ =>
      { soundEnv_setup [] [] with
        index := ⟨b!"site", by rw [h]; exact (show guardedFs.lookup b!"/www/index.html" = _ by decide +kernel)⟩
        small := fun name c hc => by
          rw [h] at hc
          have := guarded_small hc
          omega } }

/-- A run in which the silent client is turned away and the worker is about to handle the other one: whatever happens next is defined. -/
example : ∃ evs w, Runs silentWorld (initial 2 1 guardedSt) evs w ∧ w.arrived = 2 ∧ w.admitted = [1] ∧
    w.srv.q.workers = [.handle 5] ∧ ∀ e f, step silentWorld w e ≠ some (ub f) := by
  have e : (run silentWorld (initial 2 1 guardedSt)
      (.connect 5 :: .connect 5 :: putEvs ++ List.replicate 8 (.thread (.worker 0)))).map (fun w =>
        (w.arrived, w.admitted, w.srv.q.workers, w.served.length)) = some (2, [1], [.handle 5], 0) := by
    decide +kernel
  obtain ⟨w, hw, hs⟩ := Option.map_eq_some_iff.mp e
  simp only [Prod.mk.injEq, List.length_eq_zero_iff] at hs
  have hf : w.st.fs = guardedFs := by
    rw [untouched (runs_of_run hw) (by unfold putEvs; simp) hs.2.2.2]
    rfl
  have hl : ∀ p, ¬ Large w.st.fs p := by
    rintro p ⟨c, hc, hle⟩
    rw [hf] at hc
    exact Nat.not_lt.mpr hle (guarded_small hc)
  refine ⟨_, w, runs_of_run hw, hs.1, hs.2.1, hs.2.2.1, fun e f => ?_⟩
  exact C147_partial silentWorld 2 1 1 guardedSt _ w e f sampleRegs (by decide) (fun _ => soundEnv_keeps) rfl
    (by unfold Sockets putEvs; simp) (runs_of_run hw) (guarded_sound hf) (hl _) (hl _) (by
      intro k hk
      rw [hs.2.1, List.mem_singleton] at hk
      rw [hk]
      exact silentWorld_bears)

end Wayuu.Whole
