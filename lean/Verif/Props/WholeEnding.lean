import Verif.Props.Ending
import Verif.Props.WholeBears
/-
C149: in the running server, too, what a connection leads to follows from its own bytes: what other clients send or have sent, the
schedule of the threads, the descriptor and the number of connections so far have no part in it.
-/
namespace Wayuu.Whole
open Wayuu C Spec Wayuu.Queue Wayuu.Server
open Spec

/-- What was done for a client is this ending (see `EndsAs`); `fs` holds the files at that time. -/
def DoneAs (env : Env) (fs : FS) (d : Done) : Ending → Prop
  | .status n => d.events = [] ∧ ∃ fields, Response d.sent n fields [] ∧ Sized fields []
  | .page name session => d.events = [] ∧ b!"HTTP/1.1 200 OK\r\n" <+: d.sent ∧ PageFor d.sent session ((fs.openRead name).getD [])
  | .code h f q => ∃ st1 st2, st1.req.Is q ∧ st1.sent = [] ∧ Dispatched env h f st1 st2 d.events ∧ st2.sent = d.sent

theorem done_of_ends {env : Env} {st st' : St} {socket k : Nat} {ev : List Event} {o : Ending} (h0 : st.sent = [])
    (h : EndsAs env st socket st' ev o) : DoneAs env st.fs ⟨k, st'.sent, ev⟩ o := by
  cases o with
  | status n =>
    obtain ⟨h1, -, reply, fields, h2, h3, h4⟩ := h
    rw [h0, List.nil_append] at h2
    exact ⟨h1, fields, by rw [h2]; exact h3, h4⟩
  | page name session =>
    obtain ⟨h1, -, reply, h2, h3, h4⟩ := h
    rw [h0, List.nil_append] at h2
    exact ⟨h1, by rw [h2]; exact h3, by rw [h2]; exact h4⟩
  | code f g q =>
    obtain ⟨st1, st2, h1, -, h2, -, -, h3, rfl⟩ := h
    exact ⟨st1, st2, h1, h2.trans h0, h3, rfl⟩

/-- The server is set up well before every step of the run. -/
def AlwaysSound (x : World) (cap n : Nat) (st : St) (evs : List Ev) (regs : List Registration) : Prop :=
  ∀ evs1 e w1, evs1 ++ [e] <+: evs → Runs x (initial cap n st) evs1 w1 → SoundServer x w1.st regs

/-- C149: for every client that was served, what was done is what its bytes lead to, on a server without other connections and with the
files there were at the moment. -/
theorem C149_served (x : World) (cap n m : Nat) (st : St) (evs : List Ev) (w : WSt) (s : Nat → Str) (regs : List Registration)
    (hc : 0 < cap) (hu : ∀ k, UserKeeps (x.env k)) (hst : st.live = List.replicate m ⟨0, [], []⟩) (hso : Sockets evs)
    (h : Runs x (initial cap n st) evs w) (hset : AlwaysSound x cap n st evs regs)
    (hs : ∀ k, Stack (x.env k) (s k) ∧ s k ≠ []) :
    ∀ d ∈ w.served, ∃ evs1 e w1 o, evs1 ++ [e] <+: evs ∧ Runs x (initial cap n st) evs1 w1 ∧ Serves x w1 e d ∧
      LeadsTo (x.env d.conn).limits st.live (x.client d.conn).peer regs (siteOf (x.env d.conn) (s d.conn)) w1.st.fs (x.client d.conn).input o ∧
      (∀ o', LeadsTo (x.env d.conn).limits st.live (x.client d.conn).peer regs (siteOf (x.env d.conn) (s d.conn)) w1.st.fs
        (x.client d.conn).input o' → o' = o) ∧ DoneAs (x.env d.conn) w1.st.fs d o := by
  intro d hd
  obtain ⟨evs1, evs2, w1, v, st', rfl, h1, -, h2, h3, h4, e, evs3, rfl, h5⟩ := moment h rfl hd
  have hpre : evs1 ++ [e] <+: evs1 ++ e :: evs3 := ⟨evs3, by simp⟩
  have hso1 : Sockets evs1 := fun hm => hso (List.mem_append_left _ hm)
  have hlive := table_runs hc hu hst h1 hso1
  have hset1 := hset evs1 e w1 hpre h1
  obtain ⟨o, g1, g2, g3⟩ := C148_ending (x.env d.conn)
    { w1.st with input := (x.client d.conn).input, out := [] } st' v (x.client d.conn).peer (s d.conn) regs d.events (setup_move (hset1.setup d.conn) rfl) (hset1.digest _) (hset1.peer _).2
    (hs _).1 (hs _).2 h3
  refine ⟨evs1, e, w1, o, hpre, h1, h5, ?_, ?_, ?_⟩
  · rw [hst, ← hlive]; exact g1
  · rw [hst, ← hlive]; exact g2
  · have := done_of_ends (k := d.conn) (st := { w1.st with input := (x.client d.conn).input, out := [] }) rfl g3
    rw [← h4] at this
    exact this

/-- C149, two servers: they have the same routes, limits and site, and the files of the site do not change; everything else is different
(their other clients, what these send, the schedules, the number of threads, the size of the queue, the user code). A client that sends
the same to both, and is served by both, is treated alike. -/
theorem C149_alike (x x' : World) (cap cap' n n' m : Nat) (st st' : St) (evs evs' : List Ev) (w w' : WSt) (s s' : Nat → Str)
    (regs : List Registration) (fs : FS) (hc : 0 < cap) (hc' : 0 < cap') (hu : ∀ k, UserKeeps (x.env k)) (hu' : ∀ k, UserKeeps (x'.env k))
    (hst : st.live = List.replicate m ⟨0, [], []⟩) (hst' : st'.live = List.replicate m ⟨0, [], []⟩) (hso : Sockets evs) (hso' : Sockets evs')
    (h : Runs x (initial cap n st) evs w) (h' : Runs x' (initial cap' n' st') evs' w')
    (hset : AlwaysSound x cap n st evs regs) (hset' : AlwaysSound x' cap' n' st' evs' regs)
    (hs : ∀ k, Stack (x.env k) (s k) ∧ s k ≠ []) (hs' : ∀ k, Stack (x'.env k) (s' k) ∧ s' k ≠ [])
    (hfs : ∀ evs1 e w1, evs1 ++ [e] <+: evs → Runs x (initial cap n st) evs1 w1 → w1.st.fs = fs)
    (hfs' : ∀ evs1 e w1, evs1 ++ [e] <+: evs' → Runs x' (initial cap' n' st') evs1 w1 → w1.st.fs = fs)
    (d d' : Done) (hd : d ∈ w.served) (hd' : d' ∈ w'.served) (hcl : x.client d.conn = x'.client d'.conn)
    (hl : (x.env d.conn).limits = (x'.env d'.conn).limits)
    (hsite : siteOf (x.env d.conn) (s d.conn) = siteOf (x'.env d'.conn) (s' d'.conn)) :
    ∃ o, DoneAs (x.env d.conn) fs d o ∧ DoneAs (x'.env d'.conn) fs d' o := by
  obtain ⟨evs1, e1, w1, o, g1, g2, -, g3, -, g4⟩ := C149_served x cap n m st evs w s regs hc hu hst hso h hset hs d hd
  obtain ⟨evs2, e2, w2, o', k1, k2, -, k3, -, k4⟩ := C149_served x' cap' n' m st' evs' w' s' regs hc' hu' hst' hso' h' hset' hs' d' hd'
  rw [hfs _ _ _ g1 g2, hst, hl, hcl, hsite] at g3
  rw [hfs' _ _ _ k1 k2, hst'] at k3
  rw [hfs _ _ _ g1 g2] at g4
  rw [hfs' _ _ _ k1 k2] at k4
  cases leadsTo_unique g3 k3
  exact ⟨o, g4, k4⟩

/-- The silent client is not there. -/
def calmWorld : World := { silentWorld with client := pageWorld.client }

def calmEvs : List Ev := .connect 5 :: putEvs ++ takeEvs

theorem calm_sound {evs1 : List Ev} {e : Ev} {w1 : WSt} (hp : evs1 ++ [e] <+: calmEvs) (hr : Runs calmWorld (initial 2 1 pageSt) evs1 w1) :
    w1.st.fs = docsFs := by
  have hf : ∀ e ∈ calmEvs, ∀ fs, e ≠ .files fs := by
    unfold calmEvs putEvs takeEvs
    simp
  have hpre : evs1 <+: calmEvs := (List.prefix_append _ _).trans hp
  have hlen : evs1.length < 18 := by
    have := hp.length_le
    simp only [List.length_append, List.length_cons, List.length_nil] at this
    have h18 : calmEvs.length = 18 := by decide
    omega
  have e1 : evs1 = calmEvs.take evs1.length := List.prefix_iff_eq_take.mp hpre
  have h2 := run_of_runs hr
  have key : ∀ k < 18, (run calmWorld (initial 2 1 pageSt) (calmEvs.take k)).map (fun w => w.served.length) = some 0 := by
    decide +kernel
  have h3 := key _ hlen
  rw [← e1, h2] at h3
  have h4 : w1.served = [] := List.length_eq_zero_iff.mp (Option.some.inj h3)
  rw [untouched hr (fun e he => hf e (hpre.subset he)) h4]
  rfl

/-- A run in which a visitor is served meets the hypotheses. -/
example : ∃ w s, Runs calmWorld (initial 2 1 pageSt) calmEvs w ∧ w.served.length = 1 ∧ (∀ k, UserKeeps (calmWorld.env k)) ∧
    pageSt.live = List.replicate 1 ⟨0, [], []⟩ ∧ Sockets calmEvs ∧ AlwaysSound calmWorld 2 1 pageSt calmEvs sampleRegs ∧
    ∀ k, Stack (calmWorld.env k) s ∧ s ≠ [] := by
  have e : (run calmWorld (initial 2 1 pageSt) calmEvs).map (fun w => w.served.length) = some 1 := by decide +kernel
  obtain ⟨w, hw, hs⟩ := Option.map_eq_some_iff.mp e
  obtain ⟨s, h1, h2⟩ := (soundEnv_setup [] []).stack
  refine ⟨w, s, runs_of_run hw, hs, fun _ => soundEnv_keeps, rfl, by unfold Sockets calmEvs putEvs takeEvs; simp, ?_, fun _ => ⟨h1, h2⟩⟩
  intro evs1 e w1 hp hr
  have hfs := calm_sound hp hr
  exact { root := by decide
          setup := fun _ => setup_move (soundEnv_setup [] []) hfs
          digest := fun _ => show 18 ≤ soundEnv.evpMax by decide
          peer := fun _ => show b!"10.0.0.1" ≠ [] ∧ (b!"10.0.0.1").length < 16 by decide }

end Wayuu.Whole
