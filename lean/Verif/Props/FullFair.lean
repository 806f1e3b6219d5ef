import Verif.Spec.FairFull
import Verif.Lemmas.Fair
import Verif.Props.FullRest
import Verif.Props.Fair
/-
C156: no client that was admitted waits for ever, in the running server whose workers go through the steps of their requests, under every
fair schedule.
-/
namespace Wayuu.Full
open Wayuu C Wayuu.Queue
open Spec

/-- C156 as claimed: if the threads are scheduled fairly, spurious wake-ups come to an end and the process does not end, the request of
every client that was admitted is through at some time, however many others come and whatever they ask for. -/
def C156_statement : Prop :=
  ∀ (x : World) (cap n : Nat) (live : List Conn) (fs : FS) (w : Nat → FSt) (lab : Nat → Option Ev) (t k : Nat), 0 < cap → 0 < n →
    (∀ k, UserKeeps (x.over.env k)) → Endless x (initial cap n live fs) w lab → Fair x w lab → Calm lab →
    (∀ t, (w t).stopped = false) → k ∈ (w t).admitted → ∃ m, t ≤ m ∧ (w m).sys.through k

theorem runs_at {x : World} {w0 : FSt} {w : Nat → FSt} {lab : Nat → Option Ev} (h : Endless x w0 w lab) (t : Nat) :
    ∃ evs, Runs x w0 evs (w t) ∧ ∀ e ∈ evs, ∃ m, lab m = some e := by
  induction t with
  | zero => rw [h.start]; exact ⟨[], .nil _, by simp⟩
  | succ t ih =>
    obtain ⟨evs, h1, h2⟩ := ih
    have hst := h.next t
    split at hst
    · rw [hst]; exact ⟨evs, h1, h2⟩
    · rename_i e he
      refine ⟨evs ++ [e], h1.snoc hst, fun e' he' => ?_⟩
      rcases List.mem_append.mp he' with he' | he'
      · exact h2 e' he'
      · rw [List.mem_singleton.mp he']; exact ⟨t, he⟩

/-! ### the queue with the numbers of the clients -/

/-- The endless run of the server, and beside it that of the queue with the numbers of the clients. -/
structure Along (x : World) (cap n : Nat) (w : Nat → FSt) (lab : Nat → Option Ev) (qk : Nat → QSt) (ql : Nat → Option Act) : Prop where
  names : ∀ t, Names x cap n (w t) (qk t)
  queue : QEndless cap n qk ql
  label : ∀ t a, ql t = some a → lab t = some (.thread a) ∨ ∃ b, lab t = some .connect ∧ a = .accept (w t).arrived b
  moves : ∀ t a, lab t = some (.thread a) → ql t = some a ∨ ql t = none ∧ ∃ i v sys, a = .worker i ∧ (w t).q.workers[i]? = some (.handle v) ∧
    Overlap.step x.over (w t).sys (.step ((w t).serving i)) = some (ok sys) ∧ w (t + 1) = { w t with sys := sys }

theorem along {x : World} {cap n : Nat} {live : List Conn} {fs : FS} {w : Nat → FSt} {lab : Nat → Option Ev} (hc : 0 < cap)
    (hu : ∀ k, UserKeeps (x.over.env k)) (h : Endless x (initial cap n live fs) w lab) : ∃ qk ql, Along x cap n w lab qk ql := by
  have one : ∀ t (q : { q // Names x cap n (w t) q }), ∃ q' : { q // Names x cap n (w (t + 1)) q }, ∃ l : Option Act,
      (match l with | none => q'.1 = q.1 | some a => Queue.step q.1 a = some (ok q'.1)) ∧
      (∀ a, l = some a → lab t = some (.thread a) ∨ ∃ b, lab t = some .connect ∧ a = .accept (w t).arrived b) ∧
      ∀ a, lab t = some (.thread a) → l = some a ∨ l = none ∧ ∃ i v sys, a = .worker i ∧ (w t).q.workers[i]? = some (.handle v) ∧
        Overlap.step x.over (w t).sys (.step ((w t).serving i)) = some (ok sys) ∧ w (t + 1) = { w t with sys := sys } := by
    rintro t ⟨q, hq⟩
    obtain ⟨evs, hr, -⟩ := runs_at h t
    have hst := h.next t
    cases hl : lab t with
    | none =>
      rw [hl] at hst
      exact ⟨⟨q, (show w (t + 1) = w t from hst) ▸ hq⟩, none, rfl, (fun _ h => by cases h), (fun _ h => by cases h)⟩
    | some e =>
      rw [hl] at hst
      obtain ⟨q', ⟨l, h1, h2, h3⟩, hq'⟩ := names_step hc hu hr hst hq
      refine ⟨⟨q', hq'⟩, l, h1, fun a ha => ?_, fun a ha => ?_⟩
      · rcases h2 a ha with rfl | ⟨b, rfl, h⟩
        · exact .inl rfl
        · exact .inr ⟨b, rfl, h⟩
      · cases ha
        exact h3 a rfl
  choose f l hl using one
  have h0 : Names x cap n (w 0) (Queue.initial cap n) := by rw [h.start]; exact names_start x cap n live fs
  let Q : ∀ t, { q // Names x cap n (w t) q } := fun t => Nat.rec ⟨_, h0⟩ (fun t q => f t q) t
  exact ⟨fun t => (Q t).1, fun t => l t (Q t), fun t => (Q t).2, ⟨rfl, fun t => (hl t (Q t)).1⟩, fun t => (hl t (Q t)).2.1, fun t => (hl t (Q t)).2.2⟩

theorem step_some {x : World} {cap n : Nat} {w : FSt} {qk : QSt} {a : Act} (hq : Names x cap n w qk) (hs : w.stopped = false) (ha : Inner a)
    (h : Queue.step qk a ≠ none) : step x w (.thread a) ≠ none := by
  have haa : a.as x.desc = a := by
    cases a with
    | accept v b => exact ha.elim
    | _ => rfl
  have hw : Queue.step w.q a ≠ none := by
    rw [hq.named, ← haa, step_as]
    simpa using h
  simp only [step, hs, Bool.false_eq_true, if_false]
  cases a with
  | accept v b => exact ha.elim
  | spurious i => exact ha.elim
  | prod => simpa using hw
  | signal u => simpa using hw
  | worker i =>
    unfold work
    dsimp only
    split
    · split
      · simp
      · simpa using hw
    · simpa using hw
    · simpa using hw

section
variable {x : World} {cap n : Nat} {live : List Conn} {fs : FS} {w : Nat → FSt} {lab : Nat → Option Ev} {qk : Nat → QSt} {ql : Nat → Option Act}

/-- How far a request is, by the steps it still has to take. -/
def FSt.todoOf (w : FSt) (k : Nat) : Nat := ((w.sys.task k).map fun t => left t.pc).getD 0

/-- While worker `i` is at the request of client `k`, nobody else takes a step of it. -/
theorem todo_step (hc : 0 < cap) (h : Endless x (initial cap n live fs) w lab) (ha : Along x cap n w lab qk ql) {t i k : Nat}
    (hi : (qk t).workers[i]? = some (.handle k)) :
    (w (t + 1)).todoOf k ≤ (w t).todoOf k ∧ (lab t = some (.thread (.worker i)) → ql t = none → (w (t + 1)).todoOf k < (w t).todoOf k) := by
  have hq := ha.names t
  obtain ⟨e1, htk⟩ := hq.hand i k hi
  have hst := h.next t
  obtain ⟨evs, hr, -⟩ := runs_at h t
  have same : (w (t + 1)).sys.task k = (w t).sys.task k → ¬ (lab t = some (.thread (.worker i)) ∧ ql t = none) →
      (w (t + 1)).todoOf k ≤ (w t).todoOf k ∧ (lab t = some (.thread (.worker i)) → ql t = none → (w (t + 1)).todoOf k < (w t).todoOf k) :=
    fun e hno => ⟨by unfold FSt.todoOf; rw [e], fun h1 h2 => absurd ⟨h1, h2⟩ hno⟩
  cases hl : lab t with
  | none =>
    rw [hl] at hst
    rw [hl] at same
    exact same (by rw [show w (t + 1) = w t from hst]) (by simp)
  | some e =>
    rw [hl] at hst same
    have hst : step x (w t) e = some (ok (w (t + 1))) := hst
    cases e with
    | files fs' =>
      refine same ?_ (by simp)
      generalize w (t + 1) = w2 at *
      cases hst
      rfl
    | error => exact same (by rw [error_ok hst]) (by simp)
    | connect =>
      refine same ?_ (by simp)
      obtain ⟨-, -, ⟨-, hw⟩ | ⟨-, -, -, b, p, q, sys, -, -, h3, h4, hw⟩⟩ := connect_ok hst
      · rw [hw]
      · rw [hw]
        cases b with
        | false => rw [h4 rfl]
        | true =>
          have hnew : (w t).sys.task (w t).arrived = none := by
            by_contra hc
            exact Nat.lt_irrefl _ ((both hr).2 _ hc)
          rw [(oaccept_ok (h3 rfl hnew)).2.2.2]
          show (if k = _ then _ else _) = _
          have hk := hq.past k ((hq.once hc).1.subset (List.mem_map_of_mem (f := Prod.snd) htk))
          rw [if_neg (Nat.ne_of_lt hk)]
    | thread a =>
      rcases ha.moves t a hl with hql | ⟨hql, j, v, sys, rfl, hj, hs, hw⟩
      · refine same ?_ (by rw [hql]; simp)
        obtain ⟨-, hm⟩ := thread_ok hst
        cases hm with
        | request j v sys hai hj hs hw =>
          exfalso
          obtain ⟨k', hk', -⟩ := as_handle (by rw [← hq.named]; exact hj)
          have hqn := ha.queue.next t
          rw [hql] at hqn
          have h1 : (qk (t + 1)).workers[j]? = some .lock := by
            have hqn : Queue.step (qk t) a = some (ok (qk (t + 1))) := hqn
            rw [hai] at hqn
            simp only [Queue.step, workerStep, hk'] at hqn
            generalize qk (t + 1) = q2 at *
            cases hqn
            simp only [setW, List.getElem?_set_self (lt_of_getElem?_some hk')]
          have h2 := (ha.names (t + 1)).named
          rw [hw] at h2
          have h3 : (w t).q.workers[j]? = some .lock := by
            rw [show (w t).q = _ from h2]
            simp [QSt.as, h1, WPc.as]
          rw [hj] at h3
          cases h3
        | back j v q hai hj hs hq hw => rw [hw]
        | take j v q hai hj hq hw => rw [hw]
        | other q hai hj hq hw => rw [hw]
      · obtain ⟨u, pc, pc', ht, hn, hsys⟩ := ostep_ok hs
        obtain ⟨k', hk', -⟩ := as_handle (by rw [← hq.named]; exact hj)
        obtain ⟨e2, htk'⟩ := hq.hand j k' hk'
        rw [e2] at ht hsys
        by_cases hkk : k' = k
        · subst hkk
          have hlt : (w (t + 1)).todoOf k' < (w t).todoOf k' := by
            rw [hw]
            unfold FSt.todoOf
            rw [hsys, Overlap.put_task, if_pos rfl, ht]
            rw [e2] at hn
            exact next_left hn
          exact ⟨Nat.le_of_lt hlt, fun _ _ => hlt⟩
        · have hsame : (w (t + 1)).todoOf k = (w t).todoOf k := by
            rw [hw]
            unfold FSt.todoOf
            rw [hsys, Overlap.put_task, if_neg (fun e => hkk e.symm)]
          refine ⟨Nat.le_of_eq hsame, fun hl' _ => ?_⟩
          cases hl'
          rw [hi] at hk'
          cases hk'
          exact absurd rfl hkk

/-- A worker comes back from a request. -/
theorem comes_back (hc : 0 < cap) (h : Endless x (initial cap n live fs) w lab) (hf : Fair x w lab) (hs : ∀ t, (w t).stopped = false)
    (ha : Along x cap n w lab qk ql) {i k : Nat} : ∀ (b t : Nat), (w t).todoOf k ≤ b → (qk t).workers[i]? = some (.handle k) →
    ∃ m, t ≤ m ∧ ql m = some (.worker i) := by
  intro b
  induction b using Nat.strongRecOn with
  | _ b ihb =>
    intro t hb hi
    by_contra hno
    have hstay : ∀ d, (qk (t + d)).workers[i]? = some (.handle k) ∧ (w (t + d)).todoOf k ≤ b := by
      intro d
      induction d with
      | zero => exact ⟨hi, hb⟩
      | succ d ih =>
        refine ⟨?_, Nat.le_trans (todo_step hc h ha ih.1).1 ih.2⟩
        have hst := ha.queue.next (t + d)
        split at hst
        · rw [← Nat.add_assoc, hst]; exact ih.1
        · rename_i a hla
          exact worker_stays hst ih.1 (by simp) (fun e => hno ⟨t + d, by omega, by rw [hla, e]⟩)
    obtain ⟨m, a, h1, h2, h3⟩ := hf (.worker i) t (fun m hm => by
      obtain ⟨d, rfl⟩ := Nat.exists_eq_add_of_le hm
      exact ⟨.worker i, rfl, step_some (ha.names _) (hs _) trivial (by simp [Queue.step, workerStep, (hstay d).1])⟩)
    obtain ⟨d, rfl⟩ := Nat.exists_eq_add_of_le h1
    have haw : a = .worker i := by
      cases a <;> simp only [Thread.Acts] at h2
      rw [h2]
    subst haw
    rcases ha.moves _ _ h3 with hq | ⟨hq, -⟩
    · exact hno ⟨_, h1, hq⟩
    · have h4 := (todo_step hc h ha (hstay d).1).2 h3 hq
      have h5 := (hstay d).2
      obtain ⟨m, hm, hm'⟩ := ihb _ (by omega) (t + (d + 1)) (Nat.le_refl ((w (t + d + 1)).todoOf k)) (hstay (d + 1)).1
      exact hno ⟨m, by omega, hm'⟩

theorem along_fair (hc : 0 < cap) (h : Endless x (initial cap n live fs) w lab) (hf : Fair x w lab) (hs : ∀ t, (w t).stopped = false)
    (ha : Along x cap n w lab qk ql) : QFair qk ql := by
  intro th t hm
  obtain ⟨m, a, h1, h2, h3⟩ := hf th t (fun m hle => by
    obtain ⟨a, hact, hstep⟩ := hm m hle
    exact ⟨a, hact, step_some (ha.names m) (hs m) (acts_inner hact) hstep⟩)
  rcases ha.moves m a h3 with hq | ⟨-, i, v, sys, rfl, hi, -, -⟩
  · exact ⟨m, a, h1, h2, hq⟩
  · rw [(ha.names m).named] at hi
    obtain ⟨k, hik, -⟩ := as_handle hi
    obtain ⟨m', hm', hq⟩ := comes_back hc h hf hs ha _ m (Nat.le_refl _) hik
    exact ⟨m', _, by omega, h2, hq⟩

theorem along_calm (hcalm : Calm lab) (ha : Along x cap n w lab qk ql) : ∃ N, ∀ m, N ≤ m → ∀ i, ql m ≠ some (.spurious i) := by
  obtain ⟨N, hN⟩ := hcalm
  refine ⟨N, fun m hm i h => ?_⟩
  rcases ha.label m _ h with h | ⟨b, -, h⟩
  · exact hN m hm i h
  · cases h

theorem open_limit {evs : List Ev} {w : FSt} (h : Runs x (initial cap n live fs) evs w) : w.sys.fds.length ≤ x.limit := by
  induction h with
  | nil => exact Nat.zero_le _
  | @snoc w w' e evs hr hst ih =>
    cases e with
    | files fs' => cases hst; exact ih
    | error => rw [error_ok hst]; exact ih
    | connect =>
      obtain ⟨-, -, ⟨-, rfl⟩ | ⟨hl, -, -, b, p, q, sys, -, -, h3, h4, rfl⟩⟩ := connect_ok hst
      · exact ih
      · cases b with
        | false => rw [h4 rfl]; exact ih
        | true =>
          have hnew : w.sys.task w.arrived = none := by
            by_contra hc
            exact Nat.lt_irrefl _ ((both hr).2 _ hc)
          rw [(oaccept_ok (h3 rfl hnew)).2.2.2]
          simp only [List.length_cons]
          omega
    | thread a =>
      obtain ⟨-, hm⟩ := thread_ok hst
      cases hm with
      | request i v sys hai hi hs hw =>
        obtain ⟨u, pc, pc', ht, hn, rfl⟩ := ostep_ok hs
        subst hw
        refine Nat.le_trans ?_ ih
        by_cases hcl : ∃ st ev, pc' = .closed st ev
        · obtain ⟨st, ev, rfl⟩ := hcl
          exact List.length_erase_le
        · rw [Overlap.put_fds fun st ev e => hcl ⟨st, ev, e⟩]
      | back i v q hai hi hs hq hw => subst hw; exact ih
      | take i v q hai hi hq hw => subst hw; exact ih
      | other q hai hi hq hw => subst hw; exact ih

/-- Those that wait, that found the queue full, and that the accepting thread has in its hands, have their descriptors open. -/
theorem waiting_limit {evs : List Ev} {w : FSt} {q : QSt} (hc : 0 < cap) (hu : ∀ k, UserKeeps (x.over.env k))
    (h : Runs x (initial cap n live fs) evs w) (hq : Names x cap n w q) :
    (pending q).length + q.dropped.length + q.prod.hand.length ≤ x.limit ∧
      ∀ k ∈ pending q ++ q.dropped ++ q.prod.hand, w.sys.task k = some ⟨x.desc k, .arrived⟩ := by
  have hd := descriptors_of hu h
  have hpre := (C52_fifo cap n hc q hq.reach).1
  have hsplit := hq.reach.ledger.split
  have henq : q.enqueued = w.taken.map Prod.snd ++ pending q := by
    obtain ⟨r, hr⟩ := hpre
    unfold pending
    rw [← hr, hq.took, List.drop_append_of_le_length (by simp)]
    simp
  rw [henq, hq.adm] at hsplit
  have hnd := hsplit.nodup_iff.mp (hq.sorted.imp (fun h => Nat.ne_of_lt h))
  have hperm : w.admitted.Perm (w.taken.map Prod.snd ++ (pending q ++ q.dropped ++ q.prod.hand)) := by
    simpa [List.append_assoc] using hsplit
  have hnd := hperm.nodup_iff.mp (hq.sorted.imp (fun h => Nat.ne_of_lt h))
  have htask : ∀ k ∈ pending q ++ q.dropped ++ q.prod.hand, w.sys.task k = some ⟨x.desc k, .arrived⟩ := fun k hk => by
    have hne := (hq.task k).mp (hperm.mem_iff.mpr (List.mem_append_right _ hk))
    cases ht : w.sys.task k with
    | none => exact absurd ht hne
    | some t =>
      obtain ⟨v, pc⟩ := t
      rw [hq.desc k v pc ht]
      by_cases hpc : pc = .arrived
      · rw [hpc]
      · obtain ⟨i, hi⟩ := hq.begun k v pc ht hpc
        exact absurd rfl ((List.nodup_append.mp hnd).2.2 k (List.mem_map_of_mem (f := Prod.snd) hi) k hk)
  refine ⟨?_, htask⟩
  have hinj : ((pending q ++ q.dropped ++ q.prod.hand).map x.desc).Nodup :=
    (List.nodup_map_iff_inj_on (List.nodup_append.mp hnd).2.1).mpr fun k hk k' hk' e => by
      have h1 := htask k hk
      rw [e] at h1
      exact hd.one k k' _ _ _ h1 (htask k' hk') rfl rfl
  have hsub : (pending q ++ q.dropped ++ q.prod.hand).map x.desc ⊆ w.sys.fds := fun v hv => by
    obtain ⟨k, hk, rfl⟩ := List.mem_map.mp hv
    exact (hd.open_iff _).mpr ⟨k, _, htask k hk, rfl⟩
  have := (List.subperm_of_subset hinj hsub).length_le
  have := open_limit h
  simp only [List.length_map, List.length_append] at *
  omega

/-- Who has been taken up is through at some time. -/
theorem through_taken (hc : 0 < cap) (h : Endless x (initial cap n live fs) w lab) (hf : Fair x w lab) (hs : ∀ t, (w t).stopped = false)
    (ha : Along x cap n w lab qk ql) {t i k : Nat} (hi : (i, k) ∈ (w t).taken) : ∃ m, t ≤ m ∧ (w m).sys.through k := by
  rcases (ha.names t).busy i k hi with hh | hh
  · obtain ⟨m, hm, hw, hl⟩ := ends_handling ha.queue (along_fair hc h hf hs ha) hh
    have hst := ha.queue.next m
    rw [hl] at hst
    have hst : Queue.step (qk m) (.worker i) = some (ok (qk (m + 1))) := hst
    have htk := ((ha.names m).hand i k hw).2
    have htk' : (i, k) ∈ (w (m + 1)).taken := by
      rw [← (ha.names m).took] at htk
      rw [← (ha.names (m + 1)).took]
      rcases delivered_step hst with e | ⟨j, v, e, -⟩ <;> rw [e]
      · exact htk
      · exact List.mem_append_left _ htk
    refine ⟨m + 1, by omega, ((ha.names (m + 1)).busy i k htk').resolve_left fun hh => ?_⟩
    simp only [Queue.step, workerStep, hw] at hst
    generalize qk (m + 1) = q2 at *
    cases hst
    simp only [setW, List.getElem?_set_self (lt_of_getElem?_some hw)] at hh
    cases hh
  · exact ⟨t, Nat.le_refl _, hh⟩

theorem dropped_grows {s s' : QSt} {a : Act} (h : Queue.step s a = some (ok s')) : s.dropped <+: s'.dropped := by
  cases a with
  | accept v b =>
    simp only [Queue.step] at h
    split at h
    · split at h <;> (cases h; exact List.prefix_rfl)
    · cases h
  | prod =>
    simp only [Queue.step, prodStep] at h
    cases hp : s.prod with
    | accept => rw [hp] at h; cases h
    | signal => rw [hp] at h; cases h
    | lock v =>
      rw [hp] at h
      simp only at h
      split at h
      · cases h; exact List.prefix_rfl
      · cases h
    | test v =>
      rw [hp] at h
      simp only at h
      split at h <;> (cases h; first | exact List.prefix_rfl | exact List.prefix_append _ _)
    | store v =>
      rw [hp] at h
      obtain ⟨r, -, h⟩ := bind_eq_ok.mp (Option.some.inj h)
      cases h; exact List.prefix_rfl
    | _ => rw [hp] at h; cases h; exact List.prefix_rfl
  | signal w =>
    simp only [Queue.step] at h
    split at h
    · split at h
      · cases h
      · cases h; exact List.prefix_rfl
    · split at h
      · cases h; exact List.prefix_rfl
      · cases h
    · cases h
  | spurious i =>
    simp only [Queue.step] at h
    split at h
    · cases h; exact List.prefix_rfl
    · cases h
  | worker i => rw [(worker_prod h).2]; exact List.prefix_rfl

end

/-- Client `k` found the queue full: from time `m` on its connection is among those turned away, and nothing is ever read from it. -/
def Turned (x : World) (w : Nat → FSt) (k m : Nat) : Prop :=
  ∀ m', m ≤ m' → x.desc k ∈ (w m').q.dropped ∧ (w m').sys.task k = some ⟨x.desc k, .arrived⟩

/-- C156, what holds: under every fair schedule the request of an admitted client is through at some time, or the client found the queue
full. -/
theorem C156_partial (x : World) (cap n : Nat) (live : List Conn) (fs : FS) (w : Nat → FSt) (lab : Nat → Option Ev) (t k : Nat)
    (hc : 0 < cap) (hn : 0 < n) (hu : ∀ k, UserKeeps (x.over.env k)) (h : Endless x (initial cap n live fs) w lab) (hf : Fair x w lab)
    (hcalm : Calm lab) (hs : ∀ t, (w t).stopped = false) (hk : k ∈ (w t).admitted) :
    ∃ m, t ≤ m ∧ ((w m).sys.through k ∨ Turned x w k m) := by
  obtain ⟨qk, ql, ha⟩ := along hc hu h
  have hqf := along_fair hc h hf hs ha
  have hqc := along_calm hcalm ha
  have hB : ∀ t, (pending (qk t)).length + (qk t).dropped.length + (qk t).prod.hand.length ≤ x.limit := fun t => by
    obtain ⟨evs, hr, -⟩ := runs_at h t
    exact (waiting_limit hc hu hr (ha.names t)).1
  have hmono : ∀ d, k ∈ (qk (t + d)).accepted := fun d => by
    induction d with
    | zero => rw [Nat.add_zero, (ha.names t).adm]; exact hk
    | succ d ih =>
      have hst := ha.queue.next (t + d)
      rw [← Nat.add_assoc]
      split at hst
      · rw [hst]; exact ih
      · rcases (accepted_step hst).2.1 with e | ⟨v, -, -, e⟩ <;> rw [e]
        · exact ih
        · exact List.mem_append_left _ ih
  obtain ⟨d, hd⟩ := leaves_hand hc hn ha.queue hqf hqc t
  have hq := ha.names (t + d)
  have hmem := hq.reach.ledger.split.mem_iff.mp (hmono d)
  rw [hd, List.append_nil] at hmem
  rcases List.mem_append.mp hmem with hm | hm
  · obtain ⟨j, hj⟩ := List.getElem?_of_mem hm
    obtain ⟨r, hr⟩ := (C52_fifo cap n hc _ hq.reach).1
    by_cases hlt : j < (qk (t + d)).delivered.length
    · rw [← hr, List.getElem?_append_left (by simpa using hlt)] at hj
      obtain ⟨⟨i, k'⟩, hik, rfl⟩ := List.mem_map.mp (List.mem_of_getElem? hj)
      obtain ⟨m, hm, hth⟩ := through_taken hc h hf hs ha (by rw [← hq.took]; exact hik)
      exact ⟨m, by omega, .inl hth⟩
    · obtain ⟨d', i, hi⟩ := gets_worker hc hn ha.queue hqf hqc hB hj (by omega)
      obtain ⟨m, hm, hth⟩ := through_taken hc h hf hs ha ((ha.names (t + d + d')).hand i k hi).2
      exact ⟨m, by omega, .inl hth⟩
  · refine ⟨t + d, by omega, .inr fun m' hm' => ?_⟩
    obtain ⟨c, rfl⟩ := Nat.exists_eq_add_of_le hm'
    have hdr : k ∈ (qk (t + d + c)).dropped := by
      clear hm'
      induction c with
      | zero => exact hm
      | succ c ih =>
        have hst := ha.queue.next (t + d + c)
        rw [← Nat.add_assoc]
        split at hst
        · rw [hst]; exact ih
        · exact (dropped_grows hst).subset ih
    obtain ⟨evs, hr, -⟩ := runs_at h (t + d + c)
    refine ⟨?_, (waiting_limit hc hu hr (ha.names _)).2 k (by simp [hdr])⟩
    rw [(ha.names (t + d + c)).named]
    exact List.mem_map_of_mem (f := x.desc) hdr

/-- C156 when the process may not have more descriptors than the queue has places: nobody finds the queue full, and it is as claimed. -/
theorem C156_room (x : World) (cap n : Nat) (live : List Conn) (fs : FS) (w : Nat → FSt) (lab : Nat → Option Ev) (t k : Nat)
    (hc : 0 < cap) (hn : 0 < n) (hl : x.limit ≤ cap) (hu : ∀ k, UserKeeps (x.over.env k)) (h : Endless x (initial cap n live fs) w lab)
    (hf : Fair x w lab) (hcalm : Calm lab) (hs : ∀ t, (w t).stopped = false) (hk : k ∈ (w t).admitted) :
    ∃ m, t ≤ m ∧ (w m).sys.through k := by
  obtain ⟨qk, ql, ha⟩ := along hc hu h
  have hno : ∀ t, (qk t).dropped = [] := by
    intro t
    induction t with
    | zero => rw [ha.queue.start]; rfl
    | succ t ih =>
      have hst := ha.queue.next t
      split at hst
      · rw [hst]; exact ih
      · by_contra hne
        obtain ⟨evs, hr, -⟩ := runs_at h t
        have h1 := (waiting_limit hc hu hr (ha.names t)).1
        have hd : (qk (t + 1)).dropped ≠ (qk t).dropped := by rw [ih]; exact hne
        have h2 := (C52_bounded cap n hc _ (reach_at ha.queue t)).2.2 _ _ hst hd
        have h3 := Whole.dropped_hand hst hd
        omega
  obtain ⟨m, hm, hx | hx⟩ := C156_partial x cap n live fs w lab t k hc hn hu h hf hcalm hs hk
  · exact ⟨m, hm, hx⟩
  · have := (hx m (Nat.le_refl _)).1
    rw [(ha.names m).named] at this
    simp [QSt.as, hno m] at this

/-- C156 with what the client gets: a client that did not find the queue full has got, at some time, what its own bytes lead to with the
connections there were when it asked for admission and the files there were at the start. -/
theorem C156_answer (x : World) (cap n : Nat) (live : List Conn) (fs : FS) (w : Nat → FSt) (lab : Nat → Option Ev) (s : Nat → Str)
    (regs : List Registration) (t k : Nat) (hc : 0 < cap) (hn : 0 < n) (hu : ∀ k, UserKeeps (x.over.env k))
    (h : Endless x (initial cap n live fs) w lab) (hf : Fair x w lab) (hcalm : Calm lab) (hs : ∀ t, (w t).stopped = false)
    (hset : Overlap.Sound x.over (Overlap.initial live fs) regs) (hul : ∀ k, UserLeaves (x.over.env k))
    (hfs : ∀ t fs', lab t ≠ some (.files fs')) (hst : ∀ k, Stack (x.over.env k) (s k) ∧ s k ≠ []) (hk : k ∈ (w t).admitted) :
    ∃ m, t ≤ m ∧ (Turned x w k m ∨ ∃ v st ev evs w1 o, (w m).sys.task k = some ⟨v, .gone st ev⟩ ∧ Runs x (initial cap n live fs) evs (w m) ∧
      (∃ evs1, Before x (initial cap n live fs) evs k evs1 w1) ∧ (w1.sys.asks k ∨ w1.sys.reads k ∧ o = .status 400) ∧
      LeadsTo (x.over.env k).limits w1.sys.live (x.over.peer k) regs (siteOf (x.over.env k) (s k)) fs (x.over.input k) o ∧
      Whole.DoneAs (x.over.env k) fs ⟨k, st.sent, ev⟩ o) := by
  obtain ⟨m, hm, ⟨v, st, ev, ht⟩ | hx⟩ := C156_partial x cap n live fs w lab t k hc hn hu h hf hcalm hs hk
  · obtain ⟨evs, hr, hevs⟩ := runs_at h m
    obtain ⟨evs1, w1, o, h1, h2, h3, -, h4⟩ := C154_start x cap n live fs evs (w m) s regs hr hset hul (fun e he fs' hee => by
      obtain ⟨m', hm'⟩ := hevs e he
      exact hfs m' fs' (by rw [hm', hee])) hst k v st ev ht
    exact ⟨m, hm, .inr ⟨v, st, ev, evs, w1, o, ht, hr, ⟨evs1, h1⟩, h2, h3, h4⟩⟩
  · exact ⟨m, hm, .inl hx⟩

/-! ### examples -/

theorem stopped_step {x : World} {w w' : FSt} {e : Ev} (h : step x w e = some (ok w')) (hs : w.stopped = true) : w'.stopped = true := by
  cases e with
  | files fs' => cases h; exact hs
  | error => rw [error_ok h]
  | connect => rw [(connect_ok h).1] at hs; cases hs
  | thread a => rw [(thread_ok h).1] at hs; cases hs

theorem times_of_runs {x : World} {w0 wf : FSt} {evs : List Ev} (h : Runs x w0 evs wf) :
    ∃ w, Endless x w0 w (fun t => evs[t]?) ∧ ∀ t, evs.length ≤ t → w t = wf := by
  induction h with
  | nil => exact ⟨fun _ => w0, ⟨rfl, fun t => rfl⟩, fun _ _ => rfl⟩
  | @snoc w1 w2 e evs hr hst ih =>
    obtain ⟨w, h1, h2⟩ := ih
    refine ⟨fun t => if t ≤ evs.length then w t else w2, ⟨?_, fun t => ?_⟩, fun t ht => ?_⟩
    · simp [h1.start]
    · have hn := h1.next t
      rcases Nat.lt_trichotomy t evs.length with hlt | rfl | hgt
      · rw [List.getElem?_append_left hlt]
        simpa only [if_pos (Nat.le_of_lt hlt), if_pos (show t + 1 ≤ evs.length from hlt)] using hn
      · rw [List.getElem?_concat_length]
        simp only [Nat.le_refl, if_true, if_neg (Nat.not_succ_le_self _), h2 _ (Nat.le_refl _)]
        exact hst
      · rw [List.getElem?_eq_none (by simp; omega)]
        simp only [if_neg (Nat.not_le_of_lt hgt), if_neg (show ¬ t + 1 ≤ evs.length by omega)]
    · simp only [List.length_append, List.length_singleton] at ht
      exact if_neg (by omega)

/-- A finite run that ends at rest, continued by doing nothing. -/
theorem endless_of_runs {x : World} {w0 wf : FSt} {evs : List Ev} (h : Runs x w0 evs wf) (hr : Rest x wf) :
    ∃ w, Endless x w0 w (fun t => evs[t]?) ∧ Fair x w (fun t => evs[t]?) ∧ Calm (fun t => evs[t]?) ∧ (∀ t, (w t).stopped = false) ∧
      ∀ t, evs.length ≤ t → w t = wf := by
  obtain ⟨w, h1, h2⟩ := times_of_runs h
  refine ⟨w, h1, fun th t hm => ?_, ⟨evs.length, fun m hm i => by simp [List.getElem?_eq_none hm]⟩, fun t => ?_, h2⟩
  · exfalso
    obtain ⟨a, ha, hstep⟩ := hm (t + evs.length) (by omega)
    rw [h2 _ (by omega)] at hstep
    exact hstep (hr.2 a (acts_inner ha))
  · have hgo : ∀ d, (w t).stopped = true → (w (t + d)).stopped = true := fun d hs => by
      induction d with
      | zero => exact hs
      | succ d ih =>
        have hst := h1.next (t + d)
        rw [← Nat.add_assoc]
        split at hst
        · rw [hst]; exact ih
        · exact stopped_step hst ih
    cases hb : (w t).stopped with
    | false => rfl
    | true =>
      have := hgo evs.length hb
      rw [h2 _ (by omega), hr.1] at this
      cases this

/-- C156 is false of the code: the fourth of the clients of `rush` finds the queue full and waits for ever. -/
theorem C156_refuted : ¬ C156_statement := by
  intro h
  obtain ⟨wf, s, h1, h2, h3, h4, h5, -, h6, -⟩ := pool_rests
  obtain ⟨w, k1, k2, k3, k4, k5⟩ := endless_of_runs h1 h2
  obtain ⟨m, hm, hx⟩ := h poolWorld 1 2 _ docsFs w _ (rush ++ calmDown).length 3 (by decide) (by decide) h6 k1 k2 k3 k4
    (by rw [k5 _ (Nat.le_refl _), h3]; simp)
  rw [k5 m hm] at hx
  obtain ⟨qk, hq⟩ := names (by decide) h6 h1
  obtain ⟨v, st, ev, ht⟩ := hx
  obtain ⟨i, hi⟩ := hq.begun 3 v _ ht (by simp)
  rw [h4] at hi
  simp at hi

/-- `C156_partial`, `C156_answer`: an endless run with five clients, four of which are served and one of which finds the queue full. -/
example : ∃ w lab s, Endless poolWorld (initial 1 2 (List.replicate 2 ⟨0, [], []⟩) docsFs) w lab ∧ Fair poolWorld w lab ∧ Calm lab ∧
    (∀ t, (w t).stopped = false) ∧ (∀ k, UserKeeps (poolWorld.over.env k)) ∧
    Overlap.Sound poolWorld.over (Overlap.initial (List.replicate 2 ⟨0, [], []⟩) docsFs) sampleRegs ∧
    (∀ k, UserLeaves (poolWorld.over.env k)) ∧ (∀ t fs', lab t ≠ some (.files fs')) ∧ (∀ k, Stack (poolWorld.over.env k) s ∧ s ≠ []) ∧
    ∃ t, (w t).admitted = [0, 1, 2, 3, 4] ∧ (∀ k ∈ [0, 1, 2, 4], (w t).sys.through k) ∧ (w t).q.dropped = [8] := by
  obtain ⟨wf, s, h1, h2, h3, h4, h5, -, h6, h7, h8, h9, h10, h11⟩ := pool_rests
  obtain ⟨w, k1, k2, k3, k4, k5⟩ := endless_of_runs h1 h2
  refine ⟨w, _, s, k1, k2, k3, k4, h6, h8, h7, fun t fs' e => h9 _ (List.mem_of_getElem? e) fs' rfl, h10, (rush ++ calmDown).length, ?_⟩
  rw [k5 _ (Nat.le_refl _)]
  exact ⟨h3, h11, h5⟩

/-- Two descriptors and two places in the queue. -/
def roomWorld : World := { poolWorld with limit := 2 }

/-- `C156_room`: two clients, whose requests take turns. -/
example : ∃ w lab, Endless roomWorld (initial 2 2 (List.replicate 2 ⟨0, [], []⟩) docsFs) w lab ∧ Fair roomWorld w lab ∧ Calm lab ∧
    (∀ t, (w t).stopped = false) ∧ (∀ k, UserKeeps (roomWorld.over.env k)) ∧ roomWorld.limit ≤ 2 ∧ ∃ t, (w t).admitted = [0, 1] := by
  have e : (run roomWorld (initial 2 2 (List.replicate 2 ⟨0, [], []⟩) docsFs) (.connect :: put ++ runsOn 0 8 ++ .connect :: put ++ runsOn 1 8 ++
      runsOn 0 3 ++ runsOn 1 3 ++ runsOn 0 6 ++ runsOn 1 6)).map (fun w => (w.admitted, w.q.workers, w.q.prod, w.stopped)) =
      some ([0, 1], [.waiting, .waiting], .accept, false) := by
    decide +kernel
  obtain ⟨wf, hw, h⟩ := Option.map_eq_some_iff.mp e
  simp only [Prod.mk.injEq] at h
  obtain ⟨h1, h2, h3, h4⟩ := h
  obtain ⟨w, k1, k2, k3, k4, k5⟩ := endless_of_runs (runs_of_run hw) (rest_of h4 h3 h2)
  exact ⟨w, _, k1, k2, k3, k4, fun _ => Whole.soundEnv_keeps, Nat.le_refl _, _, by rw [k5 _ (Nat.le_refl _), h1]⟩

end Wayuu.Full
