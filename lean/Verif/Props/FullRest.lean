import Verif.Props.Full
import Verif.Props.Entries
/-
C155: what the running server with its threads leaves behind: access log, table of connections and descriptors; and who gets in.
-/
namespace Wayuu.Full
open Wayuu C Wayuu.Queue
open Spec

/-! ### the access log -/

/-- What client `k` got and the entries of the access log that tell of it go together, with the connections and files there were when a
worker took the steps of its request. -/
def Told (x : World) (w0 : FSt) (regs : List Registration) (s : Str) (evs : List Ev) (k : Nat) (sent : List Byte) (ev : List Event)
    (entries : List Str) : Prop :=
  ∃ evs1 w1 evs2 w2 o, Before x w0 evs k evs1 w1 ∧ Before x w0 evs k evs2 w2 ∧ evs1 <+: evs2 ∧ Overlap.Timed k w1.sys w2.sys o ∧
    LeadsTo (x.over.env k).limits w1.sys.live (x.over.peer k) regs (siteOf (x.over.env k) s) w2.sys.fs (x.over.input k) o ∧
    Whole.DoneAs (x.over.env k) w2.sys.fs ⟨k, sent, ev⟩ o ∧ Tells (x.over.env k) w1.sys.live (x.over.peer k) (x.over.input k) sent ev entries o

/-- Two moments of a request are moments of the server. -/
theorem Both.moments {x : World} {w0 w : FSt} {evs : List Ev} {es es1 es2 : List Overlap.Ev} {s1 s2 : Overlap.Sys} {k : Nat}
    (hb : Both x w0 evs w es) (h1 : Overlap.Before x.over w0.sys es k es1 s1) (h2 : Overlap.Before x.over w0.sys es k es2 s2) (h : es1 <+: es2) :
    ∃ evs1 w1 evs2 w2, Before x w0 evs k evs1 w1 ∧ Before x w0 evs k evs2 w2 ∧ evs1 <+: evs2 ∧ w1.sys = s1 ∧ w2.sys = s2 := by
  obtain ⟨evs2, e2, w2, b2, p2, k2⟩ := hb.at h2.1
  obtain ⟨i2, v2, rfl, g2, g2'⟩ := k2 k rfl
  have u2 := Overlap.Runs.unique h2.2 b2.runs.2
  have hcase : es1 = es2 ∨ es1 ++ [.step k] <+: es2 := by
    rcases Nat.lt_or_ge es1.length es2.length with hlt | hge
    · refine .inr (List.prefix_of_prefix_length_le h1.1 ((List.prefix_append _ _).trans h2.1) ?_)
      simp
      omega
    · exact .inl (h.eq_of_length (Nat.le_antisymm h.length_le hge))
  rcases hcase with rfl | hlt
  · have u1 := Overlap.Runs.unique h1.2 b2.runs.2
    exact ⟨evs2, w2, evs2, w2, ⟨i2, v2, p2, b2.runs.1, g2, g2'⟩, ⟨i2, v2, p2, b2.runs.1, g2, g2'⟩, List.prefix_rfl, u1.symm, u2.symm⟩
  · obtain ⟨evs1, e1, w1, b1, p1, k1⟩ := b2.at hlt
    obtain ⟨i1, v1, rfl, g1, g1'⟩ := k1 k rfl
    have u1 := Overlap.Runs.unique h1.2 b1.runs.2
    have p3 : evs1 ++ [.thread (.worker i1)] <+: evs := p1.trans ((List.prefix_append _ _).trans p2)
    exact ⟨evs1, w1, evs2, w2, ⟨i1, v1, p3, b1.runs.1, g1, g1'⟩, ⟨i2, v2, p2, b2.runs.1, g2, g2'⟩, (List.prefix_append _ _).trans p1, u1.symm, u2.symm⟩

/-- C155, access log: it holds, in the order in which the workers answered, for each client that was answered what tells of its request,
and nothing else. When the server has come to rest, that is each client that was taken from the queue, once. -/
theorem C155_log (x : World) (cap n : Nat) (live : List Conn) (fs : FS) (evs : List Ev) (w : FSt) (s : Nat → Str) (regs : List Registration)
    (hc : 0 < cap) (hn : 0 < n) (hu : ∀ k, UserKeeps (x.over.env k)) (ha : ∀ k, UserAppends (x.over.env k))
    (h : Runs x (initial cap n live fs) evs w) (hset : AlwaysSound x (initial cap n live fs) evs regs)
    (hs : ∀ k, Stack (x.over.env k) (s k) ∧ s k ≠ []) :
    ∃ (order : List Nat) (entries : Nat → List Str), w.sys.log = (order.map entries).flatten ∧ order.Nodup ∧
      (∀ k, k ∈ order ↔ ∃ v pc, w.sys.task k = some ⟨v, pc⟩ ∧ pc.answer.isSome) ∧
      (∀ k v pc sent ev, w.sys.task k = some ⟨v, pc⟩ → pc.answer = some (sent, ev) →
        Told x (initial cap n live fs) regs (s k) evs k sent ev (entries k)) ∧
      (Rest x w → order.Perm (w.taken.map Prod.snd)) := by
  obtain ⟨⟨es, hb⟩, -⟩ := both h
  obtain ⟨order, entries, h1, h2, h3, h4⟩ := Overlap.C151_overlap x.over live fs es w.sys s regs ha hb.runs.2 (hb.sound hset) hs
  refine ⟨order, entries, h1, h2, h3, fun k v pc sent ev ht hans => ?_, fun hr => ?_⟩
  · obtain ⟨es1, s1, es2, s2, o, b1, b2, hp, ht, hl, hd, htl⟩ := h4 k v pc sent ev ht hans
    obtain ⟨evs1, w1, evs2, w2, c1, c2, c3, rfl, rfl⟩ := hb.moments b1 b2 hp
    exact ⟨evs1, w1, evs2, w2, o, c1, c2, c3, ht, hl, hd, htl⟩
  · obtain ⟨lost, l1, l2, l3, l4⟩ := C154_rest x cap n live fs evs w hc hn hu h hr
    obtain ⟨qk, hq⟩ := names hc hu h
    have hnd : (w.taken.map Prod.snd ++ lost).Nodup := l1.nodup_iff.mp (hq.sorted.imp (fun h => Nat.ne_of_lt h))
    refine (List.perm_ext_iff_of_nodup h2 (List.nodup_append.mp hnd).1).mpr fun k => (h3 k).trans ⟨fun ⟨v, pc, ht, hans⟩ => ?_, fun hk => ?_⟩
    · obtain ⟨i, hi⟩ := hq.begun k v pc ht (by rintro rfl; cases hans)
      exact List.mem_map_of_mem (f := Prod.snd) hi
    · obtain ⟨v, st, ev, ht⟩ := l3 k hk
      exact ⟨v, _, ht, rfl⟩

/-! ### table and descriptors -/

/-- C155, nothing left: when the server has come to rest, all of the table is free, and the open connections are those that found the queue
full. -/
theorem C155_idle (x : World) (cap n m : Nat) (fs : FS) (evs : List Ev) (w : FSt) (hc : 0 < cap) (hn : 0 < n)
    (hp : ∀ k, (x.over.peer k).length < 16) (hu : ∀ k, UserKeeps (x.over.env k))
    (h : Runs x (initial cap n (List.replicate m ⟨0, [], []⟩) fs) evs w) (hr : Rest x w) :
    (∀ c ∈ w.sys.live, c.socket = 0) ∧ w.sys.live.length = m ∧ w.sys.fds.Perm w.q.dropped := by
  obtain ⟨lost, l1, l2, l3, l4⟩ := C154_rest x cap n _ fs evs w hc hn hu h hr
  obtain ⟨⟨es, hb⟩, -⟩ := both h
  obtain ⟨qk, hq⟩ := names hc hu h
  have hd := descriptors_of hu h
  have hor : Overlap.Runs x.over (Overlap.initial (List.replicate m ⟨0, [], []⟩) fs) es w.sys := hb.runs.2
  have hall : ∀ k v pc, w.sys.task k = some ⟨v, pc⟩ → (k ∈ lost ∧ pc = .arrived ∧ v = x.desc k) ∨ ∃ st ev, pc = .gone st ev := by
    intro k v pc ht
    have hk : k ∈ w.taken.map Prod.snd ++ lost := l1.mem_iff.mp ((hq.task k).mpr (by rw [ht]; simp))
    rcases List.mem_append.mp hk with hk | hk
    · obtain ⟨v', st, ev, ht'⟩ := l3 k hk
      rw [ht] at ht'
      cases ht'
      exact .inr ⟨st, ev, rfl⟩
    · have ht' := l4 k hk
      rw [ht] at ht'
      cases ht'
      exact .inl ⟨hk, rfl, rfl⟩
  refine ⟨Overlap.C152_drained x.over m fs es w.sys hp hu hor fun k v pc ht => ?_, ?_, ?_⟩
  · rcases hall k v pc ht with ⟨-, rfl, -⟩ | ⟨st, ev, rfl⟩ <;> rfl
  · rw [live_length hp hu hor (fun _ => rfl)]
    simp [Overlap.initial]
  · rw [← l2]
    have hnd : lost.Nodup := (List.nodup_append.mp (l1.nodup_iff.mp (hq.sorted.imp (fun h => Nat.ne_of_lt h)))).2.1
    refine (List.perm_ext_iff_of_nodup hd.nodup ?_).mpr fun v => (hd.open_iff v).trans ⟨fun ⟨k, pc, ht, hdn⟩ => ?_, fun hv => ?_⟩
    · refine (List.nodup_map_iff_inj_on hnd).mpr fun k hk k' hk' e => ?_
      have h1 := l4 k hk
      rw [e] at h1
      exact hd.one k k' _ _ _ h1 (l4 k' hk') rfl rfl
    · rcases hall k v pc ht with ⟨hk, -, rfl⟩ | ⟨st, ev, rfl⟩
      · exact List.mem_map_of_mem hk
      · cases hdn
    · obtain ⟨k, hk, rfl⟩ := List.mem_map.mp hv
      exact ⟨k, _, l4 k hk, rfl⟩

/-! ### who gets in -/

theorem paths_runs {x : World} {w0 w : FSt} {evs : List Ev} (h : Runs x w0 evs w) (hp : Whole.PathsOf x.root w0.paths) :
    Whole.PathsOf x.root w.paths := by
  induction h with
  | nil => exact hp
  | @snoc w w' e evs hr hst ih =>
    cases e with
    | files fs' => cases hst; exact ih
    | error => rw [error_ok hst]; exact ih
    | connect =>
      obtain ⟨-, -, ⟨-, rfl⟩ | ⟨-, -, -, b, p, q, sys, h1, -, -, -, rfl⟩⟩ := connect_ok hst
      · exact ih
      · exact Whole.allowed_paths ih h1
    | thread a =>
      obtain ⟨-, hm⟩ := thread_ok hst
      cases hm with
      | request i v sys hai hi hs hw => subst hw; exact ih
      | back i v q hai hi hs hq hw => subst hw; exact ih
      | take i v q hai hi hq hw => subst hw; exact ih
      | other q hai hi hq hw => subst hw; exact ih

/-- Client `k` connected in the state `w1`. -/
def Came (x : World) (w0 : FSt) (evs : List Ev) (k : Nat) (w1 : FSt) : Prop :=
  ∃ evs1, evs1 ++ [.connect] <+: evs ∧ Runs x w0 evs1 w1 ∧ w1.arrived = k

/-- The lists of addresses at a moment let `ip` in. -/
def LetIn (root : Str) (fs : FS) (ip : Str) : Prop :=
  ¬ Listed fs (root ++ b!"/etc/deny") ip ∧
    ((∀ c, fs.lookup (root ++ b!"/etc/allow") ≠ some (.file c)) ∨ Listed fs (root ++ b!"/etc/allow") ip)

/-- C155, address filter: a client is admitted to the queue if and only if the lists of addresses let it in at the moment it connects,
whatever the workers are doing; nothing is read from, sent to or done for anybody else. -/
theorem C155_filter (x : World) (cap n : Nat) (live : List Conn) (fs : FS) (evs : List Ev) (w : FSt) (hc : 0 < cap)
    (hu : ∀ k, UserKeeps (x.over.env k)) (hroot : x.root.length ≤ 255) (hip : ∀ k, x.over.peer k ≠ [])
    (hfile : ∀ evs1 w1 path c, evs1 ++ [.connect] <+: evs → Runs x (initial cap n live fs) evs1 w1 →
      path ∈ [x.root ++ b!"/etc/deny", x.root ++ b!"/etc/allow"] → w1.sys.fs.openRead path = some c → c.length < 8192)
    (h : Runs x (initial cap n live fs) evs w) :
    (∀ k, k < w.arrived → ∃ w1, Came x (initial cap n live fs) evs k w1 ∧ (k ∈ w.admitted ↔ LetIn x.root w1.sys.fs (x.over.peer k))) ∧
    (∀ k ∈ w.admitted, k < w.arrived) ∧ ∀ k, k ∉ w.admitted → w.sys.task k = none := by
  obtain ⟨qk, hq⟩ := names hc hu h
  refine ⟨?_, hq.past, fun k hk => by_contra fun ht => hk ((hq.task k).mpr ht)⟩
  clear hq qk
  generalize hw0 : initial cap n live fs = w0 at h hfile
  have hp0 : Whole.PathsOf x.root w0.paths := by subst hw0; exact .inl rfl
  have h00 : w0.arrived = 0 ∧ w0.admitted = [] := by subst hw0; exact ⟨rfl, rfl⟩
  suffices hall : (∀ k ∈ w.admitted, k < w.arrived) ∧ ∀ k, k < w.arrived → ∃ w1, Came x w0 evs k w1 ∧ (k ∈ w.admitted ↔ LetIn x.root w1.sys.fs (x.over.peer k)) from hall.2
  induction h with
  | nil => rw [h00.1, h00.2]; exact ⟨fun k hk => (by cases hk), fun k hk => absurd hk (Nat.not_lt_zero _)⟩
  | @snoc w w' e evs hr hst ih =>
    obtain ⟨ih1, ih2⟩ := ih (fun evs1 w1 path c hp => hfile evs1 w1 path c (hp.trans (List.prefix_append _ _)))
    have keep : w'.arrived = w.arrived → w'.admitted = w.admitted → (∀ k ∈ w'.admitted, k < w'.arrived) ∧
        ∀ k, k < w'.arrived → ∃ w1, Came x w0 (evs ++ [e]) k w1 ∧ (k ∈ w'.admitted ↔ LetIn x.root w1.sys.fs (x.over.peer k)) := fun e1 e2 => by
      rw [e1, e2]
      refine ⟨ih1, fun k hk => ?_⟩
      obtain ⟨w1, ⟨evs1, c1, c2⟩, h2⟩ := ih2 k hk
      exact ⟨w1, ⟨evs1, c1.trans (List.prefix_append _ _), c2⟩, h2⟩
    cases e with
    | files fs' => cases hst; exact keep rfl rfl
    | error => rw [error_ok hst] at keep ⊢; exact keep rfl rfl
    | connect =>
      obtain ⟨-, -, ⟨-, hw⟩ | ⟨-, -, -, b, p, q, sys, h1, -, -, -, hw⟩⟩ := connect_ok hst
      · exact keep (by rw [hw]) (by rw [hw])
      · obtain ⟨r, hr1, hr2⟩ := C46_filter w.sys.fs x.root (x.over.peer w.arrived) w.paths hroot (hip _) (paths_runs hr hp0)
          (fun c => hfile evs w _ c List.prefix_rfl hr (by simp)) (fun c => hfile evs w _ c List.prefix_rfl hr (by simp))
        rw [h1] at hr1
        cases hr1
        have e1 : w'.arrived = w.arrived + 1 := by rw [hw]
        have e2 : w'.admitted = if b then w.admitted ++ [w.arrived] else w.admitted := by rw [hw]
        have hlast : w.arrived ∉ w.admitted := fun h => Nat.lt_irrefl _ (ih1 _ h)
        have hmem : ∀ k, k ∈ w'.admitted ↔ k ∈ w.admitted ∨ k = w.arrived ∧ b = true := fun k => by
          rw [e2]
          cases b <;> simp
        rw [e1]
        refine ⟨fun k hk => ?_, fun k hk => ?_⟩
        · rcases (hmem k).mp hk with hk | ⟨rfl, -⟩
          · exact Nat.lt_succ_of_lt (ih1 k hk)
          · exact Nat.lt_succ_self _
        · rw [hmem k]
          by_cases hk' : k = w.arrived
          · subst hk'
            refine ⟨w, ⟨evs, List.prefix_rfl, hr, rfl⟩, ?_⟩
            rw [LetIn, ← hr2]
            simp [hlast]
          · obtain ⟨w1, ⟨evs1, c1, c2⟩, h2⟩ := ih2 k (by omega)
            refine ⟨w1, ⟨evs1, c1.trans (List.prefix_append _ _), c2⟩, ?_⟩
            rw [← h2]
            simp [hk']
    | thread a =>
      obtain ⟨-, hm⟩ := thread_ok hst
      cases hm with
      | request i v sys hai hi hs hw => exact keep (by rw [hw]) (by rw [hw])
      | back i v q hai hi hs hq hw => exact keep (by rw [hw]) (by rw [hw])
      | take i v q hai hi hq hw => exact keep (by rw [hw]) (by rw [hw])
      | other q hai hi hq hw => exact keep (by rw [hw]) (by rw [hw])

/-! ### examples -/

/-- The run of `pool_rests` meets what is asked for in `C155_log` and `C155_idle`. -/
example : ∃ w s, Runs poolWorld (initial 1 2 (List.replicate 2 ⟨0, [], []⟩) docsFs) (rush ++ calmDown) w ∧ Rest poolWorld w ∧
    w.q.dropped = [8] ∧ (∀ k, UserKeeps (poolWorld.over.env k)) ∧ (∀ k, UserAppends (poolWorld.over.env k)) ∧
    AlwaysSound poolWorld (initial 1 2 (List.replicate 2 ⟨0, [], []⟩) docsFs) (rush ++ calmDown) sampleRegs ∧
    (∀ k, (poolWorld.over.peer k).length < 16) ∧ ∀ k, Stack (poolWorld.over.env k) s ∧ s ≠ [] := by
  obtain ⟨w, s, h1, h2, -, -, h3, -, h4, h5, h6, h7, h8, -⟩ := pool_rests
  exact ⟨w, s, h1, h2, h3, h4, fun _ => soundEnv_appends, always_sound h6 h5 h7, h6.peer, h8⟩

/-- The first client comes from another address than the others. -/
def doorWorld : World := { poolWorld with over := { poolWorld.over with peer := fun k => if k = 0 then b!"10.0.0.2" else b!"10.0.0.1" } }

/-- The first of two clients is refused. -/
example : ∃ w, Runs doorWorld (initial 1 2 [] (denyFs b!"10.0.0.2\n")) [.connect, .connect] w ∧ w.arrived = 2 ∧ w.admitted = [1] ∧
    (∀ k, UserKeeps (doorWorld.over.env k)) ∧ doorWorld.root.length ≤ 255 ∧ (∀ k, doorWorld.over.peer k ≠ []) ∧
    ∀ evs1 w1 path c, evs1 ++ [.connect] <+: [.connect, .connect] → Runs doorWorld (initial 1 2 [] (denyFs b!"10.0.0.2\n")) evs1 w1 →
      path ∈ [doorWorld.root ++ b!"/etc/deny", doorWorld.root ++ b!"/etc/allow"] → w1.sys.fs.openRead path = some c → c.length < 8192 := by
  have e : (run doorWorld (initial 1 2 [] (denyFs b!"10.0.0.2\n")) [.connect, .connect]).map (fun w => (w.arrived, w.admitted)) =
      some (2, [1]) := by decide +kernel
  obtain ⟨w, hw, h⟩ := Option.map_eq_some_iff.mp e
  simp only [Prod.mk.injEq] at h
  refine ⟨w, runs_of_run hw, h.1, h.2, fun _ => Whole.soundEnv_keeps, by decide, fun k => ?_, fun evs1 w1 path c hp hr hm ho => ?_⟩
  · show (if k = 0 then b!"10.0.0.2" else b!"10.0.0.1") ≠ []
    split <;> decide
  · have hfs : w1.sys.fs = denyFs b!"10.0.0.2\n" := kept (x := doorWorld) (cap := 1) (n := 2) (live := []) (evs := [.connect, .connect]) (fun _ => show 18 ≤ soundEnv.evpMax by decide)
      (fun _ => Whole.soundEnv_leaves) (by simp) ((List.prefix_append _ _).trans hp) hr
    rw [hfs] at ho
    simp only [List.mem_cons, List.not_mem_nil, or_false] at hm
    rcases hm with rfl | rfl
    · have e2 : (denyFs b!"10.0.0.2\n").openRead (doorWorld.root ++ b!"/etc/deny") = some b!"10.0.0.2\n" := by decide +kernel
      rw [e2] at ho
      cases ho
      decide
    · have e2 : (denyFs b!"10.0.0.2\n").openRead (doorWorld.root ++ b!"/etc/allow") = none := by decide +kernel
      rw [e2] at ho
      cases ho

end Wayuu.Full
