import Verif.Props.FilesKept
import Verif.Props.Overlap
/-
C151: what a connection adds to the access log, for every input; and the access log of the running server, also if requests overlap.
-/
namespace Wayuu
open C Spec

/-- User code takes no entries away from the access log. -/
def UserAppends (env : Env) : Prop :=
  (∀ id st st', env.handle id st = ok st' → ∃ ls, st'.log = st.log ++ ls) ∧
  ∀ id st st' b, env.filt id st = ok (st', b) → ∃ ls, st'.log = st.log ++ ls

/-- The entries of a connection that ends like this; `sent` is what was sent to it, `ev` the user code that ran. -/
def Tells (env : Env) (live : List Conn) (peer input sent : Str) (ev : List Event) (entries : List Str) : Ending → Prop
  | .status n => (env.logOk = false → entries = []) ∧
      (env.logOk = true → ∃ entry, entries = [entry] ∧ LineFor env.limits live peer input env.ts env.rt n sent.length entry)
  | .page _ _ => (env.logOk = false → entries = []) ∧
      (env.logOk = true → ∃ entry, entries = [entry] ∧ LineFor env.limits live peer input env.ts env.rt 200 sent.length entry)
  | .code h f q => ∃ st1 st2, st1.req.Is q ∧ st1.sent = [] ∧ Dispatched env h f st1 st2 ev ∧ st2.sent = sent ∧ st2.log = st1.log ++ entries

theorem dispatched_appends {env : Env} (hu : UserAppends env) {h : Nat} {f : Option Nat} {st st' : St} {ev : List Event}
    (hd : Dispatched env h f st st' ev) : ∃ ls, st'.log = st.log ++ ls := by
  unfold Dispatched at hd
  cases f with
  | none => exact hu.1 _ _ _ hd.1
  | some f =>
    rcases hd with ⟨h1, -⟩ | ⟨st1, h1, h2, -⟩
    · exact hu.2 _ _ _ _ h1
    · obtain ⟨a, ha⟩ := hu.2 _ _ _ _ h1
      obtain ⟨b, hb⟩ := hu.1 _ _ _ h2
      exact ⟨a ++ b, by rw [hb, ha, List.append_assoc]⟩

theorem tells_of {env : Env} {live : List Conn} {st st' : St} {socket : Nat} {peer input : Str} {ev : List Event} {o : Ending}
    (hu : UserAppends env) (h0 : st.sent = []) (h : EndsAs env st socket st' ev o) (hl : LogsAs env live peer input st st' o) :
    ∃ entries, st'.log = st.log ++ entries ∧ Tells env live peer input st'.sent ev entries o := by
  have key : ∀ n, Entered env live peer input st st' n → ∃ entries, st'.log = st.log ++ entries ∧
      (env.logOk = false → entries = []) ∧
      (env.logOk = true → ∃ entry, entries = [entry] ∧ LineFor env.limits live peer input env.ts env.rt n st'.sent.length entry) := by
    rintro n ⟨h1, h2⟩
    cases hlog : env.logOk with
    | false => exact ⟨[], by rw [h1 hlog, List.append_nil], fun _ => rfl, fun h => by cases h⟩
    | true =>
      obtain ⟨entry, h3, h4⟩ := h2 hlog
      rw [h0, List.length_nil, Nat.sub_zero] at h4
      exact ⟨[entry], h3, (fun h => by cases h), fun _ => ⟨entry, rfl, h4⟩⟩
  cases o with
  | status n => exact key n hl
  | page a b => exact key 200 hl
  | code a b q =>
    obtain ⟨st1, st2, h1, -, h2, -, h3, h4, rfl⟩ := h
    obtain ⟨ls, h5⟩ := dispatched_appends hu h4
    exact ⟨ls, by show st2.log = _; rw [h5, h3], st1, st2, h1, h2.trans h0, h4, rfl, h5⟩

theorem soundEnv_appends : UserAppends soundEnv :=
  ⟨fun _ _ _ h => (return_json_with_status_neat (env := soundEnv) h).2.2.2.imp fun _ h => h.1, fun _ st st' b h => by
    have h : (ok (st, true) : C (St × Bool)) = ok (st', b) := h
    cases h; exact ⟨[], by simp⟩⟩

/-- C151: whenever the handling of a connection comes to its end, the access log has been added to as its ending (C148) says: by one line
with the address, the request line, the status and the length of the answer, unless it led to user code. -/
theorem C151_request (env : Env) (st st' : St) (socket : Nat) (peer s : Str) (regs : List Registration) (ev : List Event)
    (hset : SoundSetup env st regs) (hmax : 18 ≤ env.evpMax) (hp : peer.length < 16) (hs1 : Stack env s) (hs2 : s ≠ [])
    (hu : UserAppends env) (h0 : st.sent = []) (h : accept_request env st socket peer = ok (st', ev)) :
    ∃ o entries, LeadsTo env.limits st.live peer regs (siteOf env s) st.fs st.input o ∧
      (∀ o', LeadsTo env.limits st.live peer regs (siteOf env s) st.fs st.input o' → o' = o) ∧ EndsAs env st socket st' ev o ∧
      st'.log = st.log ++ entries ∧ Tells env st.live peer st.input st'.sent ev entries o := by
  obtain ⟨o, x, e, h1, h2, h3, h4⟩ := ends_total env st socket peer s regs hset hmax hp hs1 hs2
    ((C145_total env st socket peer regs hset hmax hp).mp ⟨_, h⟩)
  rw [h2] at h
  cases h
  obtain ⟨entries, h5, h6⟩ := tells_of hu h0 h3 h4
  exact ⟨o, entries, h1, fun o' h' => leadsTo_unique h' h1, h3, h5, h6⟩

/-- A page, asked for through a proxy: the line in the log names the address the proxy tells, and the user agent. -/
example : (accept_request soundEnv { docsSt [] with live := [⟨0, [], []⟩], input := b!"GET /a.txt HTTP/1.1\r\nUser-Agent: me\r\nX-Real-IP: 1.2.3.4\r\n\r\n" }
    5 b!"10.0.0.1").bind (fun x => ok (x.1.log, x.1.sent.length)) =
      ok ([b!"1.2.3.4 - - [now] \"GET /a.txt HTTP/1.1\" 200 109 \"\" \"me\" 1\n"], 109) := by
  decide +kernel

example : ∃ s st' ev, SoundSetup soundEnv { docsSt [] with input := whole, live := [⟨0, [], []⟩] } sampleRegs ∧ 18 ≤ soundEnv.evpMax ∧
    (b!"10.0.0.1").length < 16 ∧ Stack soundEnv s ∧ s ≠ [] ∧ UserAppends soundEnv ∧
    accept_request soundEnv { docsSt [] with input := whole, live := [⟨0, [], []⟩] } 7 b!"10.0.0.1" = ok (st', ev) := by
  obtain ⟨s, h1, h2⟩ := (soundEnv_setup whole [⟨0, [], []⟩]).stack
  have : (accept_request soundEnv { docsSt [] with input := whole, live := [⟨0, [], []⟩] } 7 b!"10.0.0.1").bind (fun _ => ok ()) = ok () := by
    decide +kernel
  obtain ⟨⟨st', ev⟩, hx, -⟩ := bind_eq_ok.mp this
  exact ⟨s, st', ev, soundEnv_setup _ _, by decide, by decide, h1, h2, soundEnv_appends, hx⟩

namespace Whole
open Wayuu.Queue Wayuu.Server
open Spec

/-- What was done for a client and what was put into the log about it go together. -/
def Accounted (x : World) (cap n : Nat) (st : St) (evs : List Ev) (s : Nat → Str) (regs : List Registration) (d : Done) (entries : List Str) : Prop :=
  ∃ evs1 e w1 o, evs1 ++ [e] <+: evs ∧ Runs x (initial cap n st) evs1 w1 ∧ Serves x w1 e d ∧
    LeadsTo (x.env d.conn).limits st.live (x.client d.conn).peer regs (siteOf (x.env d.conn) (s d.conn)) w1.st.fs (x.client d.conn).input o ∧
    DoneAs (x.env d.conn) w1.st.fs d o ∧
    Tells (x.env d.conn) st.live (x.client d.conn).peer (x.client d.conn).input d.sent d.events entries o

theorem Accounted.more {x : World} {cap n : Nat} {st : St} {evs : List Ev} {s : Nat → Str} {regs : List Registration} {d : Done}
    {entries : List Str} (h : Accounted x cap n st evs s regs d entries) (e : Ev) : Accounted x cap n st (evs ++ [e]) s regs d entries := by
  obtain ⟨evs1, e1, w1, o, h1, h2⟩ := h
  exact ⟨evs1, e1, w1, o, h1.trans (List.prefix_append _ _), h2⟩

/-- C151, the running server: the access log holds, in the order in which the clients were served, for each of them what its own bytes
lead to, and nothing else. -/
theorem C151_server (x : World) (cap n m : Nat) (st : St) (evs : List Ev) (w : WSt) (s : Nat → Str) (regs : List Registration)
    (hc : 0 < cap) (hu : ∀ k, UserKeeps (x.env k)) (ha : ∀ k, UserAppends (x.env k)) (hst : st.live = List.replicate m ⟨0, [], []⟩)
    (hso : Sockets evs) (h : Runs x (initial cap n st) evs w) (hset : AlwaysSound x cap n st evs regs)
    (hs : ∀ k, Stack (x.env k) (s k) ∧ s k ≠ []) :
    ∃ entries, w.st.log = st.log ++ entries.flatten ∧ List.Forall₂ (Accounted x cap n st evs s regs) w.served entries := by
  generalize hw0 : initial cap n st = w0 at h
  induction h with
  | nil => subst hw0; exact ⟨[], by simp [initial], .nil⟩
  | @snoc w1 w2 e evs' hr hstep ih =>
    subst hw0
    have hso1 : Sockets evs' := fun hm => hso (List.mem_append_left _ hm)
    obtain ⟨entries, h1, h2⟩ := ih hso1 (fun evs1 e1 w1 hp => hset evs1 e1 w1 (hp.trans (List.prefix_append _ _)))
    have h2' : List.Forall₂ (Accounted x cap n st (evs' ++ [e]) s regs) w1.served entries := h2.imp (fun _ _ h => h.more e)
    cases e with
    | connect v =>
      obtain ⟨-, -, ⟨-, rfl⟩ | ⟨-, -, b, p, -, rfl⟩⟩ := connect_ok hstep
      · exact ⟨entries, h1, h2'⟩
      · exact ⟨entries, h1, h2'⟩
    | error => rw [(error_ok hstep).2.2]; exact ⟨entries, h1, h2'⟩
    | files fs => cases hstep; exact ⟨entries, h1, h2'⟩
    | thread a =>
      obtain ⟨srv, -, ⟨-, rfl⟩ | ⟨v, st', ev, -, h3, rfl⟩⟩ := thread_ok hstep
      · exact ⟨entries, h1, h2'⟩
      · have hnow := hset evs' (.thread a) w1 List.prefix_rfl hr
        have hlive := table_runs hc hu hst hr hso1
        obtain ⟨o, es, g1, -, g3, g4, g5⟩ := C151_request (x.env (w1.conn v))
          { w1.st with input := (x.client (w1.conn v)).input, out := [] } st' v (x.client (w1.conn v)).peer (s (w1.conn v)) regs ev
          (setup_move (hnow.setup _) rfl) (hnow.digest _) (hnow.peer _).2 (hs _).1 (hs _).2 (ha _) rfl h3
        refine ⟨entries ++ [es], ?_, ?_⟩
        · show st'.log = _
          rw [g4]
          show w1.st.log ++ es = _
          rw [h1]
          simp
        · refine List.rel_append h2' (.cons ⟨evs', .thread a, w1, o, List.prefix_rfl, hr, ⟨_, hstep, rfl⟩, ?_, ?_, ?_⟩ .nil)
          · rw [hst, ← hlive]; exact g1
          · exact done_of_ends (k := w1.conn v) (st := { w1.st with input := (x.client (w1.conn v)).input, out := [] }) rfl g3
          · rw [hst, ← hlive]; exact g5

/-- A run in which a visitor is served meets the hypotheses, and its log has one line. -/
example : ∃ w s, Runs calmWorld (initial 2 1 pageSt) calmEvs w ∧ w.served.length = 1 ∧ w.st.log.length = 1 ∧
    (∀ k, UserKeeps (calmWorld.env k)) ∧ (∀ k, UserAppends (calmWorld.env k)) ∧ pageSt.live = List.replicate 1 ⟨0, [], []⟩ ∧
    Sockets calmEvs ∧ AlwaysSound calmWorld 2 1 pageSt calmEvs sampleRegs ∧ ∀ k, Stack (calmWorld.env k) s ∧ s ≠ [] := by
  have e : (run calmWorld (initial 2 1 pageSt) calmEvs).map (fun w => (w.served.length, w.st.log.length)) = some (1, 1) := by decide +kernel
  obtain ⟨w, hw, hs⟩ := Option.map_eq_some_iff.mp e
  simp only [Prod.mk.injEq] at hs
  obtain ⟨s, h1, h2⟩ := (soundEnv_setup [] []).stack
  refine ⟨w, s, runs_of_run hw, hs.1, hs.2, fun _ => soundEnv_keeps, fun _ => soundEnv_appends, rfl,
    by unfold Sockets calmEvs putEvs takeEvs; simp, ?_, fun _ => ⟨h1, h2⟩⟩
  intro evs1 e w1 hp hr
  have hfs := calm_sound hp hr
  exact { root := by decide
          setup := fun _ => setup_move (soundEnv_setup [] []) hfs
          digest := fun _ => show 18 ≤ soundEnv.evpMax by decide
          peer := fun _ => show b!"10.0.0.1" ≠ [] ∧ (b!"10.0.0.1").length < 16 by decide }

end Whole

namespace Overlap

/-- What was sent and which user code ran, once the request has been answered. -/
def Pc.answer : Pc → Option (List Byte × List Event)
  | .answered st ev | .closed st ev | .gone st ev => some (st.sent, ev)
  | _ => none

/-- The ending of client `k` (as in `Fate`) and the entries `entries` go together. -/
def Story (x : World) (w0 : Sys) (regs : List Registration) (s : Str) (evs : List Ev) (k : Nat) (sent : List Byte) (ev : List Event)
    (entries : List Str) : Prop :=
  ∃ evs1 w1 evs2 w2 o, Before x w0 evs k evs1 w1 ∧ Before x w0 evs k evs2 w2 ∧ evs1 <+: evs2 ∧ Timed k w1 w2 o ∧
    LeadsTo (x.env k).limits w1.live (x.peer k) regs (siteOf (x.env k) s) w2.fs (x.input k) o ∧
    Whole.DoneAs (x.env k) w2.fs ⟨k, sent, ev⟩ o ∧ Tells (x.env k) w1.live (x.peer k) (x.input k) sent ev entries o

theorem Story.more {x : World} {w0 : Sys} {regs : List Registration} {s : Str} {evs : List Ev} {k : Nat} {sent : List Byte} {ev : List Event}
    {entries : List Str} (h : Story x w0 regs s evs k sent ev entries) (e : Ev) : Story x w0 regs s (evs ++ [e]) k sent ev entries := by
  obtain ⟨evs1, w1, evs2, w2, o, h1, h2, h3, h4⟩ := h
  exact ⟨evs1, w1, evs2, w2, o, h1.more e, h2.more e, h3, h4⟩

/-- A step that does not answer leaves the log alone; the one that does adds the entries. -/
theorem story_next {x : World} {w0 w : Sys} {regs : List Registration} {s : Str} {evs : List Ev} {k v : Nat} {pc pc' : Pc}
    (ha : UserAppends (x.env k)) (hr : Runs x w0 evs w) (ht : w.task k = some ⟨v, pc⟩) (hset : Sound x w regs) (hs : Stack (x.env k) s ∧ s ≠ [])
    (h : Known x w0 regs s evs k v pc) (hn : next (x.env k) v (x.peer k) (w.first (x.input k)) w.fresh pc = some (ok pc')) :
    (pc'.answer = pc.answer ∧ ∀ st, pc'.st? = some st → st.log = w.log) ∨
    (pc.answer = none ∧ ∃ st ev entries, pc' = .answered st ev ∧ st.log = w.log ++ entries ∧
      Story x w0 regs s (evs ++ [.step k]) k st.sent ev entries) := by
  have here : Before x w0 (evs ++ [.step k]) k evs w := ⟨List.prefix_rfl, hr⟩
  cases pc with
  | arrived =>
    rcases readLine_ok (hset.peer k) (Option.some.inj hn) with ⟨line, rest, text, method, url, h1, rfl⟩ | ⟨st', rfl, h1, h0, h2, h3⟩
    · left
      refine ⟨rfl, ?_⟩
      rintro st ⟨rfl⟩
      rfl
    · right
      obtain ⟨entries, g1, g2⟩ := tells_of (live := w.live) (o := .status 400) ha rfl h2 (h3 w.live)
      exact ⟨rfl, st', [], entries, rfl, g1, evs, w, evs, w, _, here, here, List.prefix_rfl, .inr (.inr ⟨⟨_, ht⟩, rfl⟩), h1 _ _ _ _ _,
        Whole.done_of_ends (st := w.first (x.input k)) (st' := connection_close st') rfl h2, g2⟩
  | named st buf url =>
    obtain ⟨line, rest, text, method, h1, rfl, h2, h3, h4⟩ := h
    have h0 : (w.fresh st).sent = [] := by show st.out.flatten = []; rw [h3]; rfl
    rcases enter_ok (st := w.fresh st) (Whole.setup_move (hset.setup k) rfl) h1 h4 (Option.some.inj hn) with ⟨h5, live, rfl⟩ | ⟨st', rfl, h5, -, h6, h7⟩
    · left
      refine ⟨rfl, ?_⟩
      rintro st ⟨rfl⟩
      rfl
    · right
      obtain ⟨entries, g1, g2⟩ := tells_of (o := .status 429) ha h0 h6 h7
      exact ⟨rfl, st', [], entries, rfl, g1, evs, w, evs, w, _, here, here, List.prefix_rfl, .inr (.inl ⟨⟨_, _, _, _, ht⟩, rfl⟩), h5 _ _ _,
        Whole.done_of_ends (st := w.fresh st) (st' := connection_close st') h0 h6, g2⟩
  | listed st buf url =>
    have hn := Option.some.inj hn
    unfold readHeaders at hn
    obtain ⟨y, hy, hn⟩ := bind_eq_ok.mp hn
    cases hn
    left
    refine ⟨rfl, ?_⟩
    rintro st ⟨rfl⟩
    rfl
  | parsed st url n b =>
    obtain ⟨line, rest, text, method, evs1, w1, y, h1, hy, rfl, rfl, h2, h3, h4, h5, h6⟩ := h
    have h0 : (w.fresh st).sent = [] := by show st.out.flatten = []; rw [h3]; rfl
    obtain ⟨o, st', ev, rfl, g1, -, g2, g3⟩ := act_ok (st := w.fresh st) (Whole.setup_move (hset.setup k) rfl) (hset.digest k) hs.1 hs.2 h1 hy h4 h2 rfl h6.2
      (Option.some.inj hn)
    right
    obtain ⟨entries, k1, k2⟩ := tells_of ha h0 g2 g3
    exact ⟨rfl, st', ev, entries, rfl, k1, evs1, w1, evs, w, o, h5.more _, here, (List.prefix_append _ _).trans h5.1, .inl ⟨h6.1, _, _, _, _, _, ht⟩, g1,
      Whole.done_of_ends (st := w.fresh st) (st' := connection_close st') h0 g2, k2⟩
  | answered st ev =>
    cases Option.some.inj hn
    left
    refine ⟨rfl, ?_⟩
    rintro st ⟨rfl⟩
    rfl
  | closed st ev =>
    cases Option.some.inj hn
    left
    refine ⟨rfl, ?_⟩
    rintro st ⟨rfl⟩
    rfl
  | gone st ev => cases hn

theorem put_log {w : Sys} {k v : Nat} {pc : Pc} : (w.put k v pc).log = (pc.st?.map (·.log)).getD w.log := by
  unfold Sys.put
  dsimp only
  cases pc <;> rfl

/-- C151, requests that overlap: the access log holds, in the order in which the requests were answered, for each of them what its own bytes
lead to, and nothing else. -/
theorem C151_overlap (x : World) (live : List Conn) (fs : FS) (evs : List Ev) (w : Sys) (s : Nat → Str) (regs : List Registration)
    (ha : ∀ k, UserAppends (x.env k)) (h : Runs x (initial live fs) evs w) (hset : AlwaysSound x (initial live fs) evs regs)
    (hs : ∀ k, Stack (x.env k) (s k) ∧ s k ≠ []) :
    ∃ (order : List Nat) (entries : Nat → List Str), w.log = (order.map entries).flatten ∧ order.Nodup ∧
      (∀ k, k ∈ order ↔ ∃ v pc, w.task k = some ⟨v, pc⟩ ∧ pc.answer.isSome) ∧
      ∀ k v pc sent ev, w.task k = some ⟨v, pc⟩ → pc.answer = some (sent, ev) →
        Story x (initial live fs) regs (s k) evs k sent ev (entries k) := by
  generalize hw0 : initial live fs = w0 at h hset
  have h0 : ∀ k, w0.task k = none := by subst hw0; exact fun _ => rfl
  induction h with
  | nil =>
    subst hw0
    exact ⟨[], fun _ => [], rfl, .nil, fun k => ⟨fun h => (by cases h), fun ⟨_, _, h, _⟩ => (by cases h)⟩, fun k v pc sent ev h => by cases h⟩
  | @snoc w w' e evs hr hstep ih =>
    have hset' : AlwaysSound x w0 evs regs := fun evs1 e1 w1 hp => hset evs1 e1 w1 (hp.trans (List.prefix_append _ _))
    obtain ⟨order, entries, i1, i2, i3, i4⟩ := ih hset'
    have hknown := known h0 hr hset' hs
    have hnow := hset evs e w List.prefix_rfl hr
    cases e with
    | accept i u =>
      unfold step at hstep
      dsimp only at hstep
      split at hstep
      · cases hstep
      · rename_i hc
        simp only [not_or, not_not] at hc
        cases hstep
        refine ⟨order, entries, i1, i2, fun k => ?_, fun k v pc sent ev hk hpc => ?_⟩
        · rw [i3]
          dsimp only
          constructor
          · rintro ⟨v, pc, hk, hp⟩
            refine ⟨v, pc, ?_, hp⟩
            rw [if_neg (by rintro rfl; rw [hc.1] at hk; cases hk)]
            exact hk
          · rintro ⟨v, pc, hk, hp⟩
            split at hk
            · cases hk; cases hp
            · exact ⟨v, pc, hk, hp⟩
        · dsimp only at hk
          split at hk
          · cases hk; cases hpc
          · exact (i4 k v pc sent ev hk hpc).more _
    | files fs =>
      cases hstep
      exact ⟨order, entries, i1, i2, i3, fun k v pc sent ev hk hpc => (i4 k v pc sent ev hk hpc).more _⟩
    | step i =>
      unfold step at hstep
      dsimp only at hstep
      split at hstep
      · cases hstep
      · rename_i t ht
        obtain ⟨u, pc0⟩ := t
        obtain ⟨c, hc, hstep⟩ := Option.map_eq_some_iff.mp hstep
        obtain ⟨pc', rfl, hw⟩ := bind_eq_ok.mp hstep
        cases hw
        rcases story_next (ha i) hr ht hnow (hs i) (hknown i u pc0 ht) hc with ⟨k1, k2⟩ | ⟨k1, st, ev, es, rfl, k2, k3⟩
        · refine ⟨order, entries, ?_, i2, fun k => ?_, fun k v pc sent ev hk hpc => ?_⟩
          · rw [put_log, ← i1]
            cases hst : pc'.st? with
            | none => rfl
            | some st => exact k2 st hst
          · rw [i3]
            simp only [put_task]
            constructor
            · rintro ⟨v, pc, hk, hp⟩
              by_cases hki : k = i
              · subst hki
                rw [ht] at hk
                cases hk
                exact ⟨u, pc', if_pos rfl, by rw [k1]; exact hp⟩
              · exact ⟨v, pc, by rw [if_neg hki]; exact hk, hp⟩
            · rintro ⟨v, pc, hk, hp⟩
              split at hk
              · rename_i hki
                cases hk
                rw [hki]
                exact ⟨u, pc0, ht, by rw [← k1]; exact hp⟩
              · exact ⟨v, pc, hk, hp⟩
          · rw [put_task] at hk
            split at hk
            · rename_i hki
              cases hk
              subst hki
              exact (i4 k u pc0 sent ev ht (by rw [← k1]; exact hpc)).more _
            · exact (i4 k v pc sent ev hk hpc).more _
        · have hni : i ∉ order := by
            rw [i3]
            rintro ⟨v, pc, hk, hp⟩
            rw [ht] at hk
            cases hk
            rw [k1] at hp
            cases hp
          refine ⟨order ++ [i], fun k => if k = i then es else entries k, ?_, ?_, fun k => ?_, fun k v pc sent ev' hk hpc => ?_⟩
          · rw [put_log]
            show st.log = _
            rw [k2, i1, List.map_append, List.flatten_append]
            congr 1
            · refine congrArg List.flatten (List.map_congr_left fun k hk => ?_)
              rw [if_neg (by rintro rfl; exact hni hk)]
            · simp
          · rw [List.nodup_append]
            refine ⟨i2, List.nodup_singleton _, ?_⟩
            rintro a h1 b h2 rfl
            rw [List.mem_singleton] at h2
            rw [h2] at h1
            exact hni h1
          · rw [List.mem_append, i3, List.mem_singleton]
            simp only [put_task]
            constructor
            · rintro (⟨v, pc, hk, hp⟩ | rfl)
              · by_cases hki : k = i
                · subst hki
                  exact ⟨u, _, if_pos rfl, rfl⟩
                · exact ⟨v, pc, by rw [if_neg hki]; exact hk, hp⟩
              · exact ⟨u, _, if_pos rfl, rfl⟩
            · rintro ⟨v, pc, hk, hp⟩
              split at hk
              · rename_i hki; exact .inr hki
              · exact .inl ⟨v, pc, hk, hp⟩
          · rw [put_task] at hk
            split at hk
            · rename_i hki
              cases hk
              subst hki
              cases hpc
              dsimp only
              rw [if_pos rfl]
              exact k3
            · rename_i hki
              dsimp only
              rw [if_neg hki]
              exact (i4 k v pc sent ev' hk hpc).more _

/-- Three requests that overlap, all of them through, and three lines in the log. -/
example : ∃ w s, Runs pairWorld (initial [⟨0, [], []⟩, ⟨0, [], []⟩] docsFs) turns w ∧ w.log.length = 3 ∧
    (∀ k, UserAppends (pairWorld.env k)) ∧ AlwaysSound pairWorld (initial [⟨0, [], []⟩, ⟨0, [], []⟩] docsFs) turns sampleRegs ∧
    ∀ k, Stack (pairWorld.env k) s ∧ s ≠ [] := by
  have e : (run pairWorld (initial [⟨0, [], []⟩, ⟨0, [], []⟩] docsFs) turns).map (fun w => w.log.length) = some 3 := by decide +kernel
  obtain ⟨w, hw, h⟩ := Option.map_eq_some_iff.mp e
  obtain ⟨s, h3, h4⟩ := (soundEnv_setup [] []).stack
  exact ⟨w, s, runs_of_run hw, h, fun _ => soundEnv_appends,
    always_sound ⟨fun k => Whole.setup_move (soundEnv_setup [] []) rfl, fun _ => show 18 ≤ soundEnv.evpMax by decide,
      fun _ => show (b!"10.0.0.1").length < 16 by decide⟩ (fun _ => Whole.soundEnv_leaves) (by unfold Undisturbed turns; simp), fun _ => ⟨h3, h4⟩⟩

end Overlap
end Wayuu
