import Verif.Model.Full
import Verif.Lemmas.QueueNames
import Verif.Props.Queue
import Verif.Props.InProgress
import Mathlib.Data.List.Dedup
import Mathlib.Data.List.Nodup
/-
C153, C154: the server with its queue, its workers and requests that overlap.
-/
namespace Wayuu.Full
open Wayuu C Wayuu.Queue
open Spec

/-! ### the steps -/

theorem connect_ok {x : World} {w w' : FSt} (h : step x w .connect = some (ok w')) :
    w.stopped = false ∧ w.q.prod = .accept ∧
    ((x.limit ≤ w.sys.fds.length ∧ w' = { w with stopped := true }) ∨
     (¬ x.limit ≤ w.sys.fds.length ∧ x.desc w.arrived ≠ 0 ∧ x.desc w.arrived ∉ w.sys.fds ∧ ∃ b p q sys,
      allowed_address w.sys.fs x.root w.paths (x.over.peer w.arrived) = ok (b, p) ∧
      Queue.step w.q (.accept (x.desc w.arrived) b) = some (ok q) ∧
      (b = true → w.sys.task w.arrived = none → Overlap.step x.over w.sys (.accept w.arrived (x.desc w.arrived)) = some (ok sys)) ∧
      (b = false → sys = w.sys) ∧
      w' = { w with
        q := q, sys := sys, paths := p, arrived := w.arrived + 1,
        admitted := if b then w.admitted ++ [w.arrived] else w.admitted,
        conn := fun u => if u = x.desc w.arrived then w.arrived else w.conn u })) := by
  simp only [step, connect] at h
  split at h
  · cases h
  rename_i hs
  split at h
  · cases h
  rename_i hp
  rw [not_not] at hp
  refine ⟨by simpa using hs, hp, ?_⟩
  split at h
  · rename_i hl
    cases h
    exact .inl ⟨hl, rfl⟩
  rename_i hl
  split at h
  · cases h
  rename_i hv
  rw [not_or] at hv
  refine .inr ⟨hl, hv.1, hv.2, ?_⟩
  have h := Option.some.inj h
  obtain ⟨⟨b, p⟩, h1, h⟩ := bind_eq_ok.mp h
  obtain ⟨q, h2, h⟩ := bind_eq_ok.mp h
  obtain ⟨sys, h3, h⟩ := bind_eq_ok.mp h
  cases h
  refine ⟨b, p, q, sys, h1, ?_, ?_, ?_, rfl⟩
  · cases hq : Queue.step w.q (.accept (x.desc w.arrived) b) with
    | none => simp only [Queue.step, hp] at hq; split at hq <;> cases hq
    | some c => rw [hq] at h2; exact congrArg some h2
  · rintro rfl ht
    simp only [if_true] at h3
    cases ho : Overlap.step x.over w.sys (.accept w.arrived (x.desc w.arrived)) with
    | none =>
      simp only [Overlap.step] at ho
      rw [if_neg (by simp [ht, hv.1, hv.2])] at ho
      cases ho
    | some c => rw [ho] at h3; exact congrArg some h3
  · rintro rfl
    simp only [Bool.false_eq_true, if_false] at h3
    cases h3
    rfl

theorem error_ok {x : World} {w w' : FSt} (h : step x w .error = some (ok w')) : w' = { w with stopped := true } := by
  simp only [step] at h
  split at h
  · cases h; rfl
  · cases h

/-- What a step of a thread is. -/
inductive Moves (x : World) (w : FSt) (a : Act) (w' : FSt) : Prop where
  | request (i v : Nat) (sys : Overlap.Sys) (ha : a = .worker i) (hi : w.q.workers[i]? = some (.handle v))
      (hs : Overlap.step x.over w.sys (.step (w.serving i)) = some (ok sys)) (hw : w' = { w with sys := sys })
  | back (i v : Nat) (q : QSt) (ha : a = .worker i) (hi : w.q.workers[i]? = some (.handle v))
      (hs : Overlap.step x.over w.sys (.step (w.serving i)) = none) (hq : Queue.step w.q (.worker i) = some (ok q)) (hw : w' = { w with q := q })
  | take (i v : Nat) (q : QSt) (ha : a = .worker i) (hi : w.q.workers[i]? = some (.unlock v))
      (hq : Queue.step w.q (.worker i) = some (ok q))
      (hw : w' = { w with q := q, serving := fun j => if j = i then w.conn v else w.serving j, taken := w.taken ++ [(i, w.conn v)] })
  | other (q : QSt) (ha : ∀ v b, a ≠ .accept v b) (hi : ∀ i v, a = .worker i → w.q.workers[i]? ≠ some (.handle v) ∧ w.q.workers[i]? ≠ some (.unlock v))
      (hq : Queue.step w.q a = some (ok q)) (hw : w' = { w with q := q })

theorem thread_ok {x : World} {w w' : FSt} {a : Act} (h : step x w (.thread a) = some (ok w')) : w.stopped = false ∧ Moves x w a w' := by
  simp only [step] at h
  split at h
  · cases h
  rename_i hs
  refine ⟨by simpa using hs, ?_⟩
  have plain : ∀ {a : Act}, (Queue.step w.q a).map (fun c => c.bind fun q => ok { w with q := q }) = some (ok w') →
      ∃ q, Queue.step w.q a = some (ok q) ∧ w' = { w with q := q } := fun h => by
    obtain ⟨c, hc, h⟩ := Option.map_eq_some_iff.mp h
    obtain ⟨q, rfl, h⟩ := bind_eq_ok.mp h
    cases h
    exact ⟨q, hc, rfl⟩
  cases a with
  | accept v b => cases h
  | worker i =>
    unfold work at h
    dsimp only at h
    split at h
    · rename_i v hi
      split at h
      · rename_i c hc
        obtain ⟨sys, rfl, h⟩ := bind_eq_ok.mp (Option.some.inj h)
        cases h
        exact .request i v sys rfl hi hc rfl
      · rename_i hc
        obtain ⟨q, h1, h2⟩ := plain h
        exact .back i v q rfl hi hc h1 h2
    · rename_i v hi
      obtain ⟨c, hc, h⟩ := Option.map_eq_some_iff.mp h
      obtain ⟨q, rfl, h⟩ := bind_eq_ok.mp h
      cases h
      exact .take i v q rfl hi hc rfl
    · rename_i h1 h2
      obtain ⟨q, h3, h4⟩ := plain h
      refine .other q (by simp) (fun j v e => ?_) h3 h4
      cases e
      exact ⟨fun e => h1 v e, fun e => h2 v e⟩
  | _ =>
    obtain ⟨q, h3, h4⟩ := plain h
    exact .other q (by simp) (by simp) h3 h4

/-! ### the queue -/

theorem set_handle {ws : List WPc} {i : Nat} {pc pc' : WPc} (hi : ws[i]? = some pc) (h : ∀ v, pc ≠ .handle v) (h' : ∀ v, pc' ≠ .handle v) (j k : Nat) :
    (ws.set i pc')[j]? = some (.handle k) ↔ ws[j]? = some (.handle k) := by
  by_cases hj : i = j
  · subst hj
    rw [List.getElem?_set_self (lt_of_getElem?_some hi), hi]
    simp only [Option.some.injEq]
    exact ⟨fun e => absurd e (h' k), fun e => absurd e (h k)⟩
  · rw [List.getElem?_set_ne hj]

/-- Steps that neither hand over nor give back a connection. -/
theorem calm {s s' : QSt} {a : Act} (ha : ∀ v b, a ≠ .accept v b)
    (hi : ∀ i v, a = .worker i → s.workers[i]? ≠ some (.handle v) ∧ s.workers[i]? ≠ some (.unlock v)) (h : Queue.step s a = some (ok s')) :
    s'.delivered = s.delivered ∧ s'.accepted = s.accepted ∧ ∀ j k : Nat, s'.workers[j]? = some (.handle k) ↔ s.workers[j]? = some (.handle k) := by
  cases a with
  | accept v b => exact absurd rfl (ha v b)
  | prod =>
    simp only [Queue.step, prodStep] at h
    cases hp : s.prod with
    | accept => rw [hp] at h; cases h
    | signal => rw [hp] at h; cases h
    | lock v =>
      rw [hp] at h
      simp only at h
      split at h
      · cases h; exact ⟨rfl, rfl, fun _ _ => Iff.rfl⟩
      · cases h
    | test v =>
      rw [hp] at h
      simp only at h
      split at h <;> (cases h; exact ⟨rfl, rfl, fun _ _ => Iff.rfl⟩)
    | store v =>
      rw [hp] at h
      obtain ⟨r, -, h⟩ := bind_eq_ok.mp (Option.some.inj h)
      cases h; exact ⟨rfl, rfl, fun _ _ => Iff.rfl⟩
    | _ => rw [hp] at h; cases h; exact ⟨rfl, rfl, fun _ _ => Iff.rfl⟩
  | signal w =>
    simp only [Queue.step] at h
    split at h
    · split at h
      · cases h
      · cases h; exact ⟨rfl, rfl, fun _ _ => Iff.rfl⟩
    · split at h
      · rename_i hw
        cases h
        exact ⟨rfl, rfl, fun j k => set_handle hw (by simp) (by simp) j k⟩
      · cases h
    · cases h
  | spurious i =>
    simp only [Queue.step] at h
    split at h
    · rename_i hw
      cases h
      exact ⟨rfl, rfl, fun j k => set_handle hw (by simp) (by simp) j k⟩
    · cases h
  | worker i =>
    have hi := fun v => hi i v rfl
    simp only [Queue.step, workerStep] at h
    cases hw : s.workers[i]? with
    | none => rw [hw] at h; cases h
    | some pc =>
      rw [hw] at h
      cases pc with
      | handle v => exact absurd hw (hi v).1
      | unlock v => exact absurd hw (hi v).2
      | waiting => cases h
      | lock =>
        simp only at h
        split at h
        · cases h; exact ⟨rfl, rfl, fun j k => set_handle hw (by simp) (by simp) j k⟩
        · cases h
      | relock =>
        simp only at h
        split at h
        · cases h; exact ⟨rfl, rfl, fun j k => set_handle hw (by simp) (by simp) j k⟩
        · cases h
      | read =>
        obtain ⟨v, -, h⟩ := bind_eq_ok.mp (Option.some.inj h)
        cases h; exact ⟨rfl, rfl, fun j k => set_handle hw (by simp) (by simp) j k⟩
      | test =>
        simp only at h
        split at h <;> (cases h; exact ⟨rfl, rfl, fun j k => set_handle hw (by simp) (by simp) j k⟩)
      | check v =>
        simp only at h
        split at h <;> (cases h; exact ⟨rfl, rfl, fun j k => set_handle hw (by simp) (by simp) j k⟩)
      | _ => cases h; exact ⟨rfl, rfl, fun j k => set_handle hw (by simp) (by simp) j k⟩

/-- The connection a worker is about to get is the first of those that wait. -/
theorem unlock_next {cap : Nat} {s : QSt} {i v : Nat} (h : Inv cap s) (hi : s.workers[i]? = some (.unlock v)) :
    ∃ rest, s.enqueued = s.delivered.map Prod.snd ++ v :: rest := by
  obtain ⟨q, f, r, he, hh⟩ := h.ring
  have ho := h.mutexW i _ hi rfl
  have hp := hh.phase
  unfold Phase at hp
  rw [ho] at hp
  simp only [hi] at hp
  cases q with
  | nil => cases hp.2.2.2
  | cons a q =>
    cases hp.2.2.2
    exact ⟨q, he⟩

/-! ### as requests that overlap -/

theorem ostep_ok {x : Overlap.World} {w w' : Overlap.Sys} {k : Nat} (h : Overlap.step x w (.step k) = some (ok w')) :
    ∃ v pc pc', w.task k = some ⟨v, pc⟩ ∧
      Overlap.next (x.env k) v (x.peer k) (w.first (x.input k)) w.fresh pc = some (ok pc') ∧ w' = w.put k v pc' := by
  unfold Overlap.step at h
  dsimp only at h
  split at h
  · cases h
  rename_i t ht
  obtain ⟨v, pc⟩ := t
  obtain ⟨c, hc, h⟩ := Option.map_eq_some_iff.mp h
  obtain ⟨pc', rfl, hw⟩ := bind_eq_ok.mp h
  cases hw
  exact ⟨v, pc, pc', ht, hc, rfl⟩

theorem ostep_none {x : Overlap.World} {w : Overlap.Sys} {k : Nat} (h : Overlap.step x w (.step k) = none) :
    w.task k = none ∨ w.through k := by
  unfold Overlap.step at h
  dsimp only at h
  split at h
  · exact .inl ‹_›
  rename_i t ht
  obtain ⟨v, pc⟩ := t
  have h := Option.map_eq_none_iff.mp h
  cases pc with
  | gone st ev => exact .inr ⟨v, st, ev, ht⟩
  | _ => cases h

theorem oaccept_ok {x : Overlap.World} {w w' : Overlap.Sys} {k v : Nat} (h : Overlap.step x w (.accept k v) = some (ok w')) :
    w.task k = none ∧ v ≠ 0 ∧ v ∉ w.fds ∧
    w' = { w with fds := v :: w.fds, task := fun i => if i = k then some ⟨v, .arrived⟩ else w.task i } := by
  unfold Overlap.step at h
  dsimp only at h
  split at h
  · cases h
  rename_i hc
  simp only [not_or, not_not] at hc
  cases h
  exact ⟨hc.1, hc.2.1, hc.2.2, rfl⟩

/-- The run of the server, and beside it the run of the requests without queue and workers. -/
inductive Both (x : World) (w0 : FSt) : List Ev → FSt → List Overlap.Ev → Prop where
  | nil : Both x w0 [] w0 []
  | skip {evs : List Ev} {w w' : FSt} {es : List Overlap.Ev} {e : Ev} (h : Both x w0 evs w es) (hs : step x w e = some (ok w'))
      (he : w'.sys = w.sys) : Both x w0 (evs ++ [e]) w' es
  | also {evs : List Ev} {w w' : FSt} {es : List Overlap.Ev} {e : Ev} {o : Overlap.Ev} (h : Both x w0 evs w es)
      (hs : step x w e = some (ok w')) (ho : Overlap.step x.over w.sys o = some (ok w'.sys))
      (hk : ∀ k, o = .step k → ∃ i v, e = .thread (.worker i) ∧ w.q.workers[i]? = some (.handle v) ∧ w.serving i = k) :
      Both x w0 (evs ++ [e]) w' (es ++ [o])

theorem Both.runs {x : World} {w0 w : FSt} {evs : List Ev} {es : List Overlap.Ev} (h : Both x w0 evs w es) :
    Runs x w0 evs w ∧ Overlap.Runs x.over w0.sys es w.sys := by
  induction h with
  | nil => exact ⟨.nil _, .nil _⟩
  | skip h hs he ih => exact ⟨ih.1.snoc hs, by rw [he]; exact ih.2⟩
  | also h hs ho hk ih => exact ⟨ih.1.snoc hs, ih.2.snoc ho⟩

/-- Every step of a request is a step of the worker that has it. -/
theorem Both.at {x : World} {w0 w : FSt} {evs : List Ev} {es es1 : List Overlap.Ev} {o : Overlap.Ev} (h : Both x w0 evs w es)
    (hp : es1 ++ [o] <+: es) : ∃ evs1 e w1, Both x w0 evs1 w1 es1 ∧ evs1 ++ [e] <+: evs ∧
      ∀ k, o = .step k → ∃ i v, e = .thread (.worker i) ∧ w1.q.workers[i]? = some (.handle v) ∧ w1.serving i = k := by
  induction h with
  | nil => simp at hp
  | skip h hs he ih =>
    obtain ⟨evs1, e, w1, h1, h2, h3⟩ := ih hp
    exact ⟨evs1, e, w1, h1, h2.trans (List.prefix_append _ _), h3⟩
  | @also evs w w' es e o' h hs ho hk ih =>
    rcases List.prefix_concat_iff.mp hp with he | hp
    · obtain ⟨h1, h2⟩ := List.append_inj' he rfl
      have h2 := List.singleton_inj.mp h2
      subst h1 h2
      exact ⟨evs, e, w, h, List.prefix_rfl, hk⟩
    · obtain ⟨evs1, e, w1, h1, h2, h3⟩ := ih hp
      exact ⟨evs1, e, w1, h1, h2.trans (List.prefix_append _ _), h3⟩

/-- Whatever the server does, its requests do by themselves. -/
theorem both {x : World} {cap n : Nat} {live : List Conn} {fs : FS} {evs : List Ev} {w : FSt} (h : Runs x (initial cap n live fs) evs w) :
    (∃ es, Both x (initial cap n live fs) evs w es) ∧ ∀ k, w.sys.task k ≠ none → k < w.arrived := by
  induction h with
  | nil => exact ⟨⟨[], .nil⟩, fun k h => absurd rfl h⟩
  | @snoc w w' e evs hr hst ih =>
    obtain ⟨⟨es, hb⟩, ha⟩ := ih
    cases e with
    | files fs' =>
      refine ⟨⟨es ++ [.files fs'], hb.also hst ?_ (by simp)⟩, ?_⟩ <;> cases hst
      · rfl
      · exact ha
    | error =>
      have hw := error_ok hst
      subst hw
      exact ⟨⟨es, hb.skip hst rfl⟩, ha⟩
    | connect =>
      obtain ⟨-, -, ⟨-, hw⟩ | ⟨-, hv0, hv, b, p, q, sys, h1, h2, h3, h4, hw⟩⟩ := connect_ok hst
      · subst hw
        exact ⟨⟨es, hb.skip hst rfl⟩, ha⟩
      · cases b with
        | false =>
          cases h4 rfl
          subst hw
          exact ⟨⟨es, hb.skip hst rfl⟩, fun k hk => Nat.lt_succ_of_lt (ha k hk)⟩
        | true =>
          have hnew : w.sys.task w.arrived = none := by
            by_contra hc
            exact Nat.lt_irrefl _ (ha _ hc)
          have ho := h3 rfl hnew
          have hsys := (oaccept_ok ho).2.2.2
          subst hw
          refine ⟨⟨_, hb.also hst ho (by simp)⟩, fun k hk => ?_⟩
          dsimp only at hk ⊢
          rw [hsys] at hk
          dsimp only at hk
          split at hk
          · omega
          · exact Nat.lt_succ_of_lt (ha k hk)
    | thread a =>
      obtain ⟨-, hm⟩ := thread_ok hst
      cases hm with
      | request i v sys hai hi hs hw =>
        obtain ⟨u, pc, pc', ht, -, hsys⟩ := ostep_ok hs
        subst hw
        refine ⟨⟨_, hb.also (o := .step (w.serving i)) hst hs (fun k e => ?_)⟩, fun k hk => ?_⟩
        · cases e
          exact ⟨i, v, by rw [hai], hi, rfl⟩
        · dsimp only at hk ⊢
          rw [hsys, Overlap.put_task] at hk
          split at hk
          · rename_i e
            exact ha k (by rw [e, ht]; simp)
          · exact ha k hk
      | back i v q hai hi hs hq hw => subst hw; exact ⟨⟨es, hb.skip hst rfl⟩, ha⟩
      | take i v q hai hi hq hw => subst hw; exact ⟨⟨es, hb.skip hst rfl⟩, ha⟩
      | other q hai hi hq hw => subst hw; exact ⟨⟨es, hb.skip hst rfl⟩, ha⟩

theorem descriptors_of {x : World} {cap n : Nat} {live : List Conn} {fs : FS} {evs : List Ev} {w : FSt} (hu : ∀ k, UserKeeps (x.over.env k))
    (h : Runs x (initial cap n live fs) evs w) : Overlap.Descriptors w.sys := by
  obtain ⟨⟨es, hb⟩, -⟩ := both h
  exact Overlap.descriptors hu hb.runs.2
    { own := fun k v pc h => by cases h
      nodup := List.nodup_nil
      open_iff := fun v => ⟨fun h => (by cases h), fun ⟨_, _, h, _⟩ => (by cases h)⟩
      one := fun k k' v pc pc' h => by cases h }

/-! ### clients by number -/

/-- The server with the numbers of the clients in place of their descriptors. -/
structure Names (x : World) (cap n : Nat) (w : FSt) (qk : QSt) : Prop where
  reach : Reach cap n qk
  named : w.q = qk.as x.desc
  adm : qk.accepted = w.admitted
  took : qk.delivered = w.taken
  sorted : w.admitted.Pairwise (· < ·)
  past : ∀ k ∈ w.admitted, k < w.arrived
  task : ∀ k, k ∈ w.admitted ↔ w.sys.task k ≠ none
  desc : ∀ k v pc, w.sys.task k = some ⟨v, pc⟩ → v = x.desc k
  begun : ∀ k v pc, w.sys.task k = some ⟨v, pc⟩ → pc ≠ .arrived → ∃ i, (i, k) ∈ w.taken
  conn : ∀ k v pc, w.sys.task k = some ⟨v, pc⟩ → pc.done = false → w.conn v = k
  hand : ∀ i k : Nat, qk.workers[i]? = some (.handle k) → w.serving i = k ∧ (i, k) ∈ w.taken
  busy : ∀ i k : Nat, (i, k) ∈ w.taken → qk.workers[i]? = some (.handle k) ∨ w.sys.through k

theorem Names.once {x : World} {cap n : Nat} {w : FSt} {qk : QSt} (hc : 0 < cap) (h : Names x cap n w qk) :
    (w.taken.map Prod.snd).Sublist w.admitted ∧ (w.taken.map Prod.snd).Nodup ∧ qk.enqueued.Nodup ∧ qk.enqueued.Sublist w.admitted := by
  obtain ⟨h1, h2⟩ := C52_fifo cap n hc qk h.reach
  rw [h.took] at h1
  rw [h.adm] at h2
  have hn : w.admitted.Nodup := h.sorted.imp (fun h => Nat.ne_of_lt h)
  exact ⟨h1.sublist.trans h2, hn.sublist (h1.sublist.trans h2), hn.sublist h2, h2⟩

theorem as_handle {d : Nat → Nat} {s : QSt} {i v : Nat} (h : (s.as d).workers[i]? = some (.handle v)) :
    ∃ k, s.workers[i]? = some (.handle k) ∧ d k = v := by
  simp only [QSt.as, List.getElem?_map, Option.map_eq_some_iff] at h
  obtain ⟨pc, h1, h2⟩ := h
  cases pc <;> simp only [WPc.as, reduceCtorEq, WPc.handle.injEq] at h2
  exact ⟨_, h1, h2⟩

theorem as_unlock {d : Nat → Nat} {s : QSt} {i v : Nat} (h : (s.as d).workers[i]? = some (.unlock v)) :
    ∃ k, s.workers[i]? = some (.unlock k) ∧ d k = v := by
  simp only [QSt.as, List.getElem?_map, Option.map_eq_some_iff] at h
  obtain ⟨pc, h1, h2⟩ := h
  cases pc <;> simp only [WPc.as, reduceCtorEq, WPc.unlock.injEq] at h2
  exact ⟨_, h1, h2⟩

/-- What a step of the server is for the queue with the numbers of the clients: nothing, or a step of it. -/
def Follows (x : World) (w : FSt) (e : Ev) (w' : FSt) (qk qk' : QSt) : Prop :=
  ∃ l : Option Act, (match l with | none => qk' = qk | some a => Queue.step qk a = some (ok qk')) ∧
    (∀ a, l = some a → e = .thread a ∨ ∃ b, e = .connect ∧ a = .accept w.arrived b) ∧
    ∀ a, e = .thread a → l = some a ∨ l = none ∧ ∃ i v sys, a = .worker i ∧ w.q.workers[i]? = some (.handle v) ∧
      Overlap.step x.over w.sys (.step (w.serving i)) = some (ok sys) ∧ w' = { w with sys := sys }

theorem names_start (x : World) (cap n : Nat) (live : List Conn) (fs : FS) : Names x cap n (initial cap n live fs) (Queue.initial cap n) := by
  refine ⟨.init, (initial_as _ _ _).symm, rfl, rfl, .nil, (fun k h => by cases h), fun k => ⟨fun h => (by cases h), fun h => absurd rfl h⟩,
    (fun k v pc h => by cases h), (fun k v pc h => by cases h), (fun k v pc h => by cases h), ?_, (fun i k h => by cases h)⟩
  intro i k h
  have := List.mem_of_getElem? h
  simp [Queue.initial] at this

theorem names_step {x : World} {cap n : Nat} {live : List Conn} {fs : FS} {evs : List Ev} {w w' : FSt} {e : Ev} {qk : QSt} (hc : 0 < cap)
    (hu : ∀ k, UserKeeps (x.over.env k)) (hr : Runs x (initial cap n live fs) evs w) (hst : step x w e = some (ok w'))
    (ih : Names x cap n w qk) : ∃ qk', Follows x w e w' qk qk' ∧ Names x cap n w' qk' := by
  have hd := descriptors_of hu hr
  have hlt := (both hr).2
  have hinv := ih.reach.inv hc
  cases e with
  | files fs' => cases hst; exact ⟨qk, ⟨none, rfl, (fun _ h => by cases h), (fun _ h => by cases h)⟩, ih.reach, ih.named, ih.adm, ih.took, ih.sorted, ih.past, ih.task, ih.desc, ih.begun, ih.conn, ih.hand, ih.busy⟩
  | error =>
    rw [error_ok hst]
    exact ⟨qk, ⟨none, rfl, (fun _ h => by cases h), (fun _ h => by cases h)⟩, ih.reach, ih.named, ih.adm, ih.took, ih.sorted, ih.past, ih.task, ih.desc, ih.begun, ih.conn, ih.hand, ih.busy⟩
  | connect =>
    obtain ⟨-, hp, ⟨-, rfl⟩ | ⟨-, hv0, hv, b, p, q, sys, h1, h2, h3, h4, rfl⟩⟩ := connect_ok hst
    · exact ⟨qk, ⟨none, rfl, (fun _ h => by cases h), (fun _ h => by cases h)⟩, ih.reach, ih.named, ih.adm, ih.took, ih.sorted, ih.past, ih.task, ih.desc, ih.begun, ih.conn, ih.hand, ih.busy⟩
    · have hpk : qk.prod = .accept := by
        rw [ih.named] at hp
        simp only [QSt.as] at hp
        cases hq : qk.prod <;> rw [hq] at hp <;> first | rfl | cases hp
      rw [ih.named] at h2
      obtain ⟨qk', hk, rfl⟩ := step_as_ok (a := .accept w.arrived b) h2
      have hreach := ih.reach.step hk
      have hk0 := hk
      simp only [Queue.step, hpk] at hk
      have fresh : ∀ k v pc, w.sys.task k = some ⟨v, pc⟩ → pc.done = false → v ≠ x.desc w.arrived := fun k v pc ht hdone e =>
        hv ((hd.open_iff _).mpr ⟨k, pc, by rw [← e]; exact ht, hdone⟩)
      cases b with
      | false =>
        cases h4 rfl
        simp only [Bool.false_eq_true, if_false] at hk
        cases hk
        refine ⟨_, ⟨some _, hk0, (fun _ h => by cases h; exact .inr ⟨_, rfl, rfl⟩), (fun _ h => by cases h)⟩, hreach, rfl, ih.adm, ih.took, ih.sorted, fun k hk => Nat.lt_succ_of_lt (ih.past k hk), ih.task, ih.desc, ih.begun,
          fun k v pc ht hdone => ?_, ih.hand, ih.busy⟩
        dsimp only
        rw [if_neg (fresh k v pc ht hdone)]
        exact ih.conn k v pc ht hdone
      | true =>
        have hnew : w.sys.task w.arrived = none := by
          by_contra hc
          exact Nat.lt_irrefl _ (hlt _ hc)
        obtain ⟨-, -, -, rfl⟩ := oaccept_ok (h3 rfl hnew)
        simp only [if_true] at hk
        cases hk
        have hne : ∀ k, k ∈ w.admitted → k ≠ w.arrived := fun k hk => Nat.ne_of_lt (ih.past k hk)
        refine ⟨_, ⟨some _, hk0, (fun _ h => by cases h; exact .inr ⟨_, rfl, rfl⟩), (fun _ h => by cases h)⟩, hreach, rfl, ?_, ih.took, ?_, fun k hk => ?_, fun k => ?_, fun k v pc ht => ?_, fun k v pc ht hpc => ?_,
          fun k v pc ht hdone => ?_, ih.hand, fun i k hk => ?_⟩
        · show qk.accepted ++ [w.arrived] = w.admitted ++ [w.arrived]
          rw [ih.adm]
        · show (w.admitted ++ [w.arrived]).Pairwise _
          rw [List.pairwise_append]
          exact ⟨ih.sorted, by simp, fun a ha b hb => by rw [List.mem_singleton.mp hb]; exact ih.past a ha⟩
        · rcases List.mem_append.mp hk with hk | hk
          · exact Nat.lt_succ_of_lt (ih.past k hk)
          · rw [List.mem_singleton.mp hk]; exact Nat.lt_succ_self _
        · show k ∈ w.admitted ++ [w.arrived] ↔ (if k = w.arrived then _ else w.sys.task k) ≠ none
          by_cases hk : k = w.arrived
          · simp [hk]
          · simp [hk, ih.task]
        · dsimp only at ht
          split at ht
          · rename_i e; cases ht; rw [e]
          · exact ih.desc k v pc ht
        · dsimp only at ht
          split at ht
          · cases ht; exact absurd rfl hpc
          · exact ih.begun k v pc ht hpc
        · dsimp only at ht ⊢
          split at ht
          · rename_i e; cases ht; rw [if_pos rfl, e]
          · rw [if_neg (fresh k v pc ht hdone)]
            exact ih.conn k v pc ht hdone
        · refine (ih.busy i k hk).imp id fun ⟨v, st, ev, ht⟩ => ⟨v, st, ev, ?_⟩
          show (if k = w.arrived then _ else w.sys.task k) = _
          rw [if_neg (by rintro rfl; rw [hnew] at ht; cases ht)]
          exact ht
  | thread a =>
    obtain ⟨-, hm⟩ := thread_ok hst
    cases hm with
    | request i v sys hai hi hs hw =>
      have hi0 := hi
      have hs0 := hs
      have hw0 := hw
      obtain ⟨u, pc, pc', ht, hn, rfl⟩ := ostep_ok hs
      rw [ih.named] at hi
      obtain ⟨k, hik, rfl⟩ := as_handle hi
      obtain ⟨e1, htk⟩ := ih.hand i k hik
      rw [e1] at ht hn hw
      have hown := (hd.own k u pc ht).2
      obtain ⟨-, hdone, -⟩ := Overlap.own_next (hu k) hown hn
      subst hw
      refine ⟨qk, ⟨none, rfl, (fun _ h => by cases h), (fun b hb => by cases hb; exact .inr ⟨rfl, i, _, _, hai, hi0, hs0, hw0⟩)⟩, ih.reach, ih.named, ih.adm, ih.took, ih.sorted, ih.past, fun j => ?_, fun j v pc hj => ?_, fun j v pc hj hpc => ?_,
        fun j v pc hj hpc => ?_, ih.hand, fun i' j hj => ?_⟩
      · dsimp only
        rw [ih.task, Overlap.put_task]
        by_cases hj : j = k
        · rw [if_pos hj, hj, ht]; simp
        · rw [if_neg hj]
      · dsimp only at hj
        rw [Overlap.put_task] at hj
        split at hj
        · rename_i e; cases hj; rw [e]; exact ih.desc k _ _ ht
        · exact ih.desc j v pc hj
      · dsimp only at hj
        rw [Overlap.put_task] at hj
        split at hj
        · rename_i e; rw [e]; exact ⟨i, htk⟩
        · exact ih.begun j v pc hj hpc
      · dsimp only at hj ⊢
        rw [Overlap.put_task] at hj
        split at hj
        · rename_i e
          cases hj
          rw [e]
          refine ih.conn k _ _ ht ?_
          by_contra hc
          rw [Bool.not_eq_false] at hc
          rw [hdone.mpr (.inr hc)] at hpc
          cases hpc
        · exact ih.conn j v pc hj hpc
      · refine (ih.busy i' j hj).imp id fun ⟨v, st, ev, hg⟩ => ⟨v, st, ev, ?_⟩
        dsimp only
        rw [Overlap.put_task, if_neg]
        · exact hg
        · rintro rfl
          rw [ht] at hg
          cases hg
          cases hn
    | back i v q hai hi hs hq hw =>
      rw [ih.named] at hi hq
      obtain ⟨k, hik, rfl⟩ := as_handle hi
      obtain ⟨e1, htk⟩ := ih.hand i k hik
      obtain ⟨qk', hk, rfl⟩ := step_as_ok (a := .worker i) hq
      have hreach := ih.reach.step hk
      have hk0 := hk
      simp only [Queue.step, workerStep, hik] at hk
      cases hk
      subst hw
      have hthr : w.sys.through k := by
        rw [e1] at hs
        refine (ostep_none hs).resolve_left ?_
        rw [← ne_eq, ← ih.task]
        exact (ih.once hc).1.subset (List.mem_map_of_mem (f := Prod.snd) htk)
      refine ⟨_, ⟨some _, hk0, (fun _ h => by cases h; exact .inl (by rw [hai])), (fun _ h => by cases h; exact .inl (by rw [hai]))⟩, hreach, rfl, ih.adm, ih.took, ih.sorted, ih.past, ih.task, ih.desc, ih.begun, ih.conn, fun j k' hj => ?_, fun j k' hj => ?_⟩
      · by_cases hij : i = j
        · subst hij
          simp only [setW, List.getElem?_set_self (lt_of_getElem?_some hik)] at hj
          cases hj
        · simp only [setW, List.getElem?_set_ne hij] at hj
          exact ih.hand j k' hj
      · rcases ih.busy j k' hj with h | h
        · by_cases hij : i = j
          · subst hij
            rw [hik] at h
            cases h
            exact .inr hthr
          · refine .inl ?_
            simp only [setW, List.getElem?_set_ne hij]
            exact h
        · exact .inr h
    | take i v q hai hi hq hw =>
      rw [ih.named] at hi hq
      obtain ⟨k, hik, rfl⟩ := as_unlock hi
      obtain ⟨rest, hrest⟩ := unlock_next hinv hik
      obtain ⟨o1, o2, o3, o4⟩ := ih.once hc
      have hk : k ∈ w.admitted := o4.subset (by rw [hrest]; simp)
      have hnot : ∀ j, (j, k) ∉ w.taken := fun j hj => by
        rw [hrest, ih.took, List.nodup_append] at o3
        exact o3.2.2 k (List.mem_map_of_mem (f := Prod.snd) hj) k (by simp) rfl
      have hconn : w.conn (x.desc k) = k := by
        have hne := (ih.task k).mp hk
        cases ht : w.sys.task k with
        | none => exact absurd ht hne
        | some t =>
          obtain ⟨v, pc⟩ := t
          have hpc : pc = .arrived := by
            by_contra hpc
            obtain ⟨j, hj⟩ := ih.begun k v pc ht hpc
            exact hnot j hj
          subst hpc
          rw [← ih.desc k v _ ht]
          exact ih.conn k v _ ht rfl
      obtain ⟨qk', hk', rfl⟩ := step_as_ok (a := .worker i) hq
      have hreach := ih.reach.step hk'
      have hk0 := hk'
      simp only [Queue.step, workerStep, hik] at hk'
      cases hk'
      subst hw
      refine ⟨_, ⟨some _, hk0, (fun _ h => by cases h; exact .inl (by rw [hai])), (fun _ h => by cases h; exact .inl (by rw [hai]))⟩, hreach, rfl, ih.adm, ?_, ih.sorted, ih.past, ih.task, ih.desc, fun k v pc ht hpc => ?_, ih.conn, fun j k' hj => ?_, fun j k' hj => ?_⟩
      · show qk.delivered ++ [(i, k)] = w.taken ++ [(i, w.conn (x.desc k))]
        rw [hconn, ih.took]
      · obtain ⟨j, hj⟩ := ih.begun k v pc ht hpc
        exact ⟨j, List.mem_append_left _ hj⟩
      · dsimp only
        rw [hconn]
        by_cases hij : i = j
        · subst hij
          simp only [setW, List.getElem?_set_self (lt_of_getElem?_some hik)] at hj
          cases hj
          rw [if_pos rfl]
          exact ⟨rfl, by simp⟩
        · simp only [setW, List.getElem?_set_ne hij] at hj
          rw [if_neg (fun e => hij e.symm)]
          obtain ⟨h1, h2⟩ := ih.hand j k' hj
          exact ⟨h1, List.mem_append_left _ h2⟩
      · dsimp only at hj
        rw [hconn] at hj
        rcases List.mem_append.mp hj with hj | hj
        · rcases ih.busy j k' hj with h | h
          · refine .inl ?_
            have hij : i ≠ j := by
              rintro rfl
              rw [hik] at h
              cases h
            simp only [setW, List.getElem?_set_ne hij]
            exact h
          · exact .inr h
        · cases List.mem_singleton.mp hj
          refine .inl ?_
          simp only [setW, List.getElem?_set_self (lt_of_getElem?_some hik)]
    | other q hai hi hq hw =>
      rw [ih.named] at hi hq
      have haa : a.as x.desc = a := by
        cases a with
        | accept v b => exact absurd rfl (hai v b)
        | _ => rfl
      rw [← haa] at hq
      obtain ⟨qk', hk, rfl⟩ := step_as_ok hq
      obtain ⟨c1, c2, c3⟩ := calm hai (fun i k e => by
        obtain ⟨g1, g2⟩ := hi i (x.desc k) e
        refine ⟨fun h => g1 ?_, fun h => g2 ?_⟩ <;> simp [QSt.as, h, WPc.as]) hk
      subst hw
      exact ⟨qk', ⟨some a, haa ▸ hk, (fun _ h => by cases h; exact .inl rfl), (fun _ h => by cases h; exact .inl rfl)⟩, ih.reach.step hk, rfl, c2.trans ih.adm, c1.trans ih.took, ih.sorted, ih.past, ih.task, ih.desc, ih.begun, ih.conn,
        fun i k h => ih.hand i k ((c3 i k).mp h), fun i k h => (ih.busy i k h).imp (c3 i k).mpr id⟩

theorem names {x : World} {cap n : Nat} {live : List Conn} {fs : FS} {evs : List Ev} {w : FSt} (hc : 0 < cap) (hu : ∀ k, UserKeeps (x.over.env k))
    (h : Runs x (initial cap n live fs) evs w) : ∃ qk, Names x cap n w qk := by
  induction h with
  | nil => exact ⟨_, names_start x cap n live fs⟩
  | snoc hr hst ih =>
    obtain ⟨qk, ih⟩ := ih
    obtain ⟨qk', -, h⟩ := names_step hc hu hr hst ih
    exact ⟨qk', h⟩

/-! ### C153: the pool of workers -/

/-- The request of client `k` has begun and is not through. -/
def InProgress (w : FSt) (k : Nat) : Prop := ∃ v pc, w.sys.task k = some ⟨v, pc⟩ ∧ pc ≠ .arrived ∧ ¬ w.sys.through k

/-- The connection a worker is at. -/
def atHand : WPc → Option Nat
  | .handle k => some k
  | _ => none

theorem Names.pool {x : World} {cap n : Nat} {w : FSt} {qk : QSt} (h : Names x cap n w qk) {ks : List Nat} (hn : ks.Nodup)
    (hp : ∀ k ∈ ks, InProgress w k) : ks.length ≤ n := by
  have hsub : ks ⊆ qk.workers.filterMap atHand := fun k hk => by
    obtain ⟨v, pc, ht, hpc, hthr⟩ := hp k hk
    obtain ⟨i, hi⟩ := h.begun k v pc ht hpc
    exact List.mem_filterMap.mpr ⟨_, List.mem_of_getElem? ((h.busy i k hi).resolve_right hthr), rfl⟩
  calc ks.length ≤ (qk.workers.filterMap atHand).length := (List.subperm_of_subset hn hsub).length_le
    _ ≤ qk.workers.length := List.length_filterMap_le _ _
    _ = n := h.reach.workers_length

/-- C153, order: connections are taken up in the order in which they were accepted, each by one worker and at most once, and only those
that passed the address filter; nothing is done for a connection that has not been taken up, and a worker stays with a request until it
is through: at no time are more than `n` in progress. -/
theorem C153_pool (x : World) (cap n : Nat) (live : List Conn) (fs : FS) (evs : List Ev) (w : FSt) (hc : 0 < cap)
    (hu : ∀ k, UserKeeps (x.over.env k)) (h : Runs x (initial cap n live fs) evs w) :
    w.admitted.Pairwise (· < ·) ∧ (w.taken.map Prod.snd).Sublist w.admitted ∧
    (∀ k v pc, w.sys.task k = some ⟨v, pc⟩ → v = x.desc k ∧ (pc ≠ .arrived → ∃ i, (i, k) ∈ w.taken)) ∧
    (∀ i k k', (i, k) ∈ w.taken → (i, k') ∈ w.taken → ¬ w.sys.through k → ¬ w.sys.through k' → k = k') ∧
    ∀ ks : List Nat, ks.Nodup → (∀ k ∈ ks, InProgress w k) → ks.length ≤ n := by
  obtain ⟨qk, hq⟩ := names hc hu h
  refine ⟨hq.sorted, (hq.once hc).1, fun k v pc ht => ⟨hq.desc k v pc ht, hq.begun k v pc ht⟩, fun i k k' h1 h2 h3 h4 => ?_, fun ks => hq.pool⟩
  have e1 := (hq.busy i k h1).resolve_right h3
  rw [(hq.busy i k' h2).resolve_right h4] at e1
  cases e1
  rfl

theorem live_length {x : Overlap.World} {w0 w : Overlap.Sys} {evs : List Overlap.Ev} (hp : ∀ k, (x.peer k).length < 16) (hu : ∀ k, UserKeeps (x.env k))
    (h : Overlap.Runs x w0 evs w) (h0 : ∀ k, w0.task k = none) : w.live.length = w0.live.length := by
  induction h with
  | nil => rfl
  | @snoc w w' e evs hr hst ih =>
    cases e with
    | files fs => cases hst; exact ih
    | accept k v => rw [(oaccept_ok hst).2.2.2]; exact ih
    | step k =>
      obtain ⟨v, pc, pc', ht, hn, rfl⟩ := ostep_ok hst
      rw [Overlap.put_live, ← ih]
      rcases (Overlap.next_table (hp k) (hu k) (Overlap.told hp hu hr h0 k v pc ht) hn).2 with
        ⟨st, st', buf, url, rfl, rfl, h1⟩ | ⟨st, st', ev, rfl, rfl, h1⟩ | ⟨h1, -⟩
      · show st'.live.length = _
        obtain ⟨a, z, b, e1, -, -, e2⟩ := addSlot_some h1
        rw [e1, e2]
        simp
      · show st'.live.length = _
        rw [h1]
        rcases connection_del_cases st.req.socket w.live with h | ⟨a, c, b, e1, -, e2⟩
        · rw [h]
        · rw [e2, e1]; simp
      · cases hst : pc'.st? with
        | none => rfl
        | some st => exact congrArg List.length (h1 st hst)

theorem countP_cons_le (live : List Conn) (v : Nat) (vs : List Nat) :
    live.countP (fun c => decide (c.socket ∈ v :: vs)) ≤ live.countP (fun c => c.socket == v) + live.countP (fun c => decide (c.socket ∈ vs)) := by
  induction live with
  | nil => simp
  | cons c r ih =>
    simp only [List.countP_cons, List.mem_cons, beq_iff_eq, decide_eq_true_eq] at ih ⊢
    by_cases h1 : c.socket = v
    · rw [if_pos (.inl h1), if_pos h1]; omega
    · by_cases h2 : c.socket ∈ vs
      · rw [if_pos (.inr h2), if_neg h1, if_pos h2]; omega
      · rw [if_neg (by simp [h1, h2]), if_neg h1, if_neg h2]; omega

/-- All entries of the table, by requests between the table's door and their end. -/
theorem table_bound {x : Overlap.World} {m : Nat} {fs : FS} {evs : List Overlap.Ev} {w : Overlap.Sys} (hp : ∀ k, (x.peer k).length < 16)
    (hu : ∀ k, UserKeeps (x.env k)) (h : Overlap.Runs x (Overlap.initial (List.replicate m ⟨0, [], []⟩) fs) evs w) :
    ∃ ks : List Nat, ks.Nodup ∧ (∀ k ∈ ks, ∃ v pc, w.task k = some ⟨v, pc⟩ ∧ pc.within = true) ∧
      w.live.countP (fun c => c.socket != 0) ≤ ks.length := by
  have main : ∀ vs : List Nat, vs.Nodup → (∀ v ∈ vs, v ≠ 0) → ∃ ks : List Nat, ks.Nodup ∧
      (∀ k ∈ ks, ∃ v pc, w.task k = some ⟨v, pc⟩ ∧ pc.within = true ∧ v ∈ vs) ∧ w.live.countP (fun c => decide (c.socket ∈ vs)) ≤ ks.length := by
    intro vs
    induction vs with
    | nil => intro _ _; exact ⟨[], .nil, by simp, by simp⟩
    | cons v vs ih =>
      intro hn hz
      obtain ⟨hv, hn⟩ := List.nodup_cons.mp hn
      obtain ⟨ks, k1, k2, k3⟩ := ih hn (fun u hu => hz u (by simp [hu]))
      obtain ⟨ls, l1, l2, l3⟩ := Overlap.C152_bound x m fs evs w hp hu h v (hz v (by simp))
      refine ⟨ls ++ ks, List.nodup_append.mpr ⟨l1, k1, fun a ha b hb e => ?_⟩, fun k hk => ?_, ?_⟩
      · subst e
        obtain ⟨pc, h1, -⟩ := l2 a ha
        obtain ⟨u, pc', h2, -, h3⟩ := k2 a hb
        rw [h1] at h2
        cases h2
        exact hv h3
      · rcases List.mem_append.mp hk with hk | hk
        · obtain ⟨pc, h1, h2⟩ := l2 k hk
          exact ⟨v, pc, h1, h2, by simp⟩
        · obtain ⟨u, pc, h1, h2, h3⟩ := k2 k hk
          exact ⟨u, pc, h1, h2, by simp [h3]⟩
      · rw [List.length_append]
        have := countP_cons_le w.live v vs
        omega
  obtain ⟨ks, h1, h2, h3⟩ := main ((w.live.map Conn.socket).filter (· != 0)).dedup (List.nodup_dedup _) (fun v hv => by simp at hv; exact hv.2)
  refine ⟨ks, h1, fun k hk => ?_, le_trans (le_of_eq (List.countP_congr fun c hc => ?_)) h3⟩
  · obtain ⟨v, pc, h4, h5, -⟩ := h2 k hk
    exact ⟨v, pc, h4, h5⟩
  · simp only [List.mem_dedup, List.mem_filter, List.mem_map, decide_eq_true_eq]
    exact ⟨fun h => ⟨⟨c, hc, rfl⟩, h⟩, fun h => h.2⟩

/-- C153, room: if the table of connections is at least as large as the pool of workers, then it always has room for the request that asks
for admission; it is only turned away if one of the configured limits is exceeded. -/
theorem C153_room (x : World) (cap n m : Nat) (fs : FS) (evs : List Ev) (w : FSt) (k : Nat) (hc : 0 < cap) (hm : n ≤ m)
    (hp : ∀ k, (x.over.peer k).length < 16) (hu : ∀ k, UserKeeps (x.over.env k))
    (h : Runs x (initial cap n (List.replicate m ⟨0, [], []⟩) fs) evs w) :
    w.sys.live.countP (fun c => c.socket != 0) ≤ n ∧ (w.sys.asks k → ∀ limits ip url, Admits limits w.sys.live ip url ↔
      ∀ l ∈ limits, CasePrefix l.path url →
        (liveUnder l.path w.sys.live : Int) ≤ l.max_connections ∧ (liveUnderFrom l.path ip w.sys.live : Int) ≤ l.max_connections_per_ip) := by
  obtain ⟨qk, hq⟩ := names hc hu h
  obtain ⟨⟨es, hb⟩, -⟩ := both h
  have hr : Overlap.Runs x.over (Overlap.initial (List.replicate m ⟨0, [], []⟩) fs) es w.sys := hb.runs.2
  obtain ⟨ks, h1, h2, h3⟩ := table_bound hp hu hr
  have hprog : ∀ k ∈ ks, InProgress w k := fun k hk => by
    obtain ⟨v, pc, h4, h5⟩ := h2 k hk
    refine ⟨v, pc, h4, (by rintro rfl; cases h5), ?_⟩
    rintro ⟨u, st, ev, h6⟩
    rw [h4] at h6
    cases h6
    cases h5
  refine ⟨le_trans h3 (hq.pool h1 hprog), ?_⟩
  rintro ⟨v, st, buf, url, ht⟩ limits ip u
  suffices hroom : ∃ c ∈ w.sys.live, c.socket = 0 from ⟨fun h => h.2, fun h => ⟨hroom, h⟩⟩
  have hk : k ∉ ks := fun hk => by
    obtain ⟨u, pc, h4, h5⟩ := h2 k hk
    rw [ht] at h4
    cases h4
    cases h5
  have hlen := hq.pool (ks := k :: ks) (List.nodup_cons.mpr ⟨hk, h1⟩) (fun j hj => by
    rcases List.mem_cons.mp hj with rfl | hj
    · refine ⟨v, _, ht, by simp, ?_⟩
      rintro ⟨u, st, ev, h6⟩
      rw [ht] at h6
      cases h6
    · exact hprog j hj)
  have hl : w.sys.live.length = m := by
    rw [live_length hp hu hr (fun _ => rfl)]
    exact List.length_replicate
  by_contra hno
  have hall : w.sys.live.countP (fun c => c.socket != 0) = w.sys.live.length :=
    List.countP_eq_length.mpr fun c hc => by
      simp only [bne_iff_ne, ne_eq]
      exact fun e => hno ⟨c, hc, e⟩
  simp only [List.length_cons] at hlen
  omega

/-! ### C154: every client that finds room is served, with its own request -/

/-- The worker that has the request of client `k` took a step of it, in the state `w1` which the run `evs` went through. -/
def Before (x : World) (w0 : FSt) (evs : List Ev) (k : Nat) (evs1 : List Ev) (w1 : FSt) : Prop :=
  ∃ i v, evs1 ++ [.thread (.worker i)] <+: evs ∧ Runs x w0 evs1 w1 ∧ w1.q.workers[i]? = some (.handle v) ∧ w1.serving i = k

/-- The server is set up well before every step of the run. -/
def AlwaysSound (x : World) (w0 : FSt) (evs : List Ev) (regs : List Registration) : Prop :=
  ∀ evs1 e w1, evs1 ++ [e] <+: evs → Runs x w0 evs1 w1 → Overlap.Sound x.over w1.sys regs

theorem Both.sound {x : World} {w0 w : FSt} {evs : List Ev} {es : List Overlap.Ev} {regs : List Registration} (h : Both x w0 evs w es)
    (hs : AlwaysSound x w0 evs regs) : Overlap.AlwaysSound x.over w0.sys es regs := by
  intro es1 o s1 hp hr
  obtain ⟨evs1, e, w1, h1, h2, -⟩ := h.at hp
  rw [Overlap.Runs.unique hr h1.runs.2]
  exact hs evs1 e w1 h2 h1.runs.1

/-- C154, answers: in the running server with all its workers, a client whose request is through has got what its own bytes lead to, with
the connections there were when it asked for admission and the files there were when it was carried out; and there is only one such
ending. -/
theorem C154_answer (x : World) (cap n : Nat) (live : List Conn) (fs : FS) (evs : List Ev) (w : FSt) (s : Nat → Str) (regs : List Registration)
    (h : Runs x (initial cap n live fs) evs w) (hset : AlwaysSound x (initial cap n live fs) evs regs)
    (hs : ∀ k, Stack (x.over.env k) (s k) ∧ s k ≠ []) (k v : Nat) (st : St) (ev : List Event) (hk : w.sys.task k = some ⟨v, .gone st ev⟩) :
    ∃ evs1 w1 evs2 w2 o, Before x (initial cap n live fs) evs k evs1 w1 ∧ Before x (initial cap n live fs) evs k evs2 w2 ∧ evs1 <+: evs2 ∧
      Overlap.Timed k w1.sys w2.sys o ∧
      LeadsTo (x.over.env k).limits w1.sys.live (x.over.peer k) regs (siteOf (x.over.env k) (s k)) w2.sys.fs (x.over.input k) o ∧
      (∀ o', LeadsTo (x.over.env k).limits w1.sys.live (x.over.peer k) regs (siteOf (x.over.env k) (s k)) w2.sys.fs (x.over.input k) o' → o' = o) ∧
      Bearable (x.over.env k).limits w1.sys.live (x.over.peer k) regs (x.over.input k) ∧
      Whole.DoneAs (x.over.env k) w2.sys.fs ⟨k, st.sent, ev⟩ o := by
  obtain ⟨⟨es, hb⟩, -⟩ := both h
  obtain ⟨es1, s1, es2, s2, o, h1, h2, h3, h4, h5, h6⟩ := Overlap.C150_overlap x.over live fs es w.sys s regs hb.runs.2 (hb.sound hset) hs k v st ev hk
  obtain ⟨evs2, e2, w2, b2, p2, k2⟩ := hb.at h3
  obtain ⟨i2, v2, rfl, g2, g2'⟩ := k2 k rfl
  have u2 := Overlap.Runs.unique h4 b2.runs.2
  have hcase : es1 = es2 ∨ es1 ++ [.step k] <+: es2 := by
    rcases Nat.lt_or_ge es1.length es2.length with hlt | hge
    · refine .inr (List.prefix_of_prefix_length_le h1 ((List.prefix_append _ _).trans h3) ?_)
      simp
      omega
    · exact .inl (h5.eq_of_length (Nat.le_antisymm h5.length_le hge))
  rcases hcase with rfl | hlt
  · have u1 := Overlap.Runs.unique h2 b2.runs.2
    subst u1
    subst u2
    exact ⟨evs2, w2, evs2, w2, o, ⟨i2, v2, p2, b2.runs.1, g2, g2'⟩, ⟨i2, v2, p2, b2.runs.1, g2, g2'⟩, List.prefix_rfl, h6⟩
  · obtain ⟨evs1, e1, w1, b1, p1, k1⟩ := b2.at hlt
    obtain ⟨i1, v1, rfl, g1, g1'⟩ := k1 k rfl
    have u1 := Overlap.Runs.unique h2 b1.runs.2
    subst u1
    subst u2
    have p3 : evs1 ++ [.thread (.worker i1)] <+: evs := p1.trans ((List.prefix_append _ _).trans p2)
    exact ⟨evs1, w1, evs2, w2, o, ⟨i1, v1, p3, b1.runs.1, g1, g1'⟩, ⟨i2, v2, p2, b2.runs.1, g2, g2'⟩, (List.prefix_append _ _).trans p1, h6⟩

theorem reach {x : World} {cap n : Nat} {live : List Conn} {fs : FS} {evs : List Ev} {w : FSt} (h : Runs x (initial cap n live fs) evs w) :
    Reach cap n w.q := by
  induction h with
  | nil => exact .init
  | @snoc w w' e evs hr hst ih =>
    cases e with
    | files fs' => cases hst; exact ih
    | error => rw [error_ok hst]; exact ih
    | connect =>
      obtain ⟨-, -, ⟨-, rfl⟩ | ⟨-, -, -, b, p, q, sys, -, h2, -, -, rfl⟩⟩ := connect_ok hst
      · exact ih
      · exact ih.step h2
    | thread a =>
      obtain ⟨-, hm⟩ := thread_ok hst
      cases hm with
      | request i v sys hai hi hs hw => subst hw; exact ih
      | back i v q hai hi hs hq hw => subst hw; exact ih.step hq
      | take i v q hai hi hq hw => subst hw; exact ih.step hq
      | other q hai hi hq hw => subst hw; exact ih.step hq

/-- No thread can do anything until another client connects. -/
def Rest (x : World) (w : FSt) : Prop := w.stopped = false ∧ ∀ a, Inner a → step x w (.thread a) = none

theorem Rest.quiet {x : World} {w : FSt} (h : Rest x w) : Quiet w.q := by
  obtain ⟨hs, h⟩ := h
  intro a ha
  have h := h a ha
  simp only [step, hs, Bool.false_eq_true, if_false] at h
  cases a with
  | accept v b => exact ha.elim
  | spurious i => exact ha.elim
  | prod => exact Option.map_eq_none_iff.mp h
  | signal u => exact Option.map_eq_none_iff.mp h
  | worker i =>
    unfold work at h
    dsimp only at h
    split at h
    · rename_i v hi
      split at h
      · cases h
      · exact Option.map_eq_none_iff.mp h
    · exact Option.map_eq_none_iff.mp h
    · exact Option.map_eq_none_iff.mp h

theorem quiet_as {d : Nat → Nat} {s : QSt} (h : Quiet (s.as d)) : Quiet s := by
  intro a ha
  have haa : a.as d = a := by
    cases a with
    | accept v b => exact ha.elim
    | _ => rfl
  have := h a ha
  rw [← haa, step_as] at this
  exact Option.map_eq_none_iff.mp this

theorem quiet_prod {cap n : Nat} {s : QSt} (hc : 0 < cap) (hn : 0 < n) (h : Reach cap n s) (hq : Quiet s) : s.prod = .accept := by
  obtain ⟨-, hw⟩ := C53_drained cap n hc hn s h hq
  have hinv := h.inv hc
  have hp := hq .prod trivial
  simp only [Queue.step, prodStep] at hp
  cases hpr : s.prod with
  | accept => rfl
  | lock v =>
    rw [hpr] at hp
    simp only at hp
    split at hp
    · cases hp
    · rename_i ho
      obtain ⟨q, f, r, -, hh⟩ := hinv.ring
      have hph := hh.phase
      unfold Phase at hph
      cases hos : s.owner with
      | none => exact absurd hos ho
      | some o =>
        rw [hos] at hph
        cases o with
        | prod => simp only [hpr] at hph
        | worker i =>
          simp only at hph
          cases hi : s.workers[i]? with
          | none => rw [hi] at hph; exact hph.elim
          | some pc =>
            rw [hw pc (List.mem_of_getElem? hi)] at hi
            rw [hi] at hph
            exact hph.elim
  | signal =>
    have hlen := h.workers_length
    obtain ⟨pc, hpc⟩ := List.exists_mem_of_length_pos (l := s.workers) (by omega)
    obtain ⟨i, hi⟩ := List.mem_iff_getElem?.mp hpc
    rw [hw pc hpc] at hi
    have := hq (.signal (some i)) trivial
    simp [Queue.step, hpr, hi] at this
  | test v =>
    rw [hpr] at hp
    simp only at hp
    split at hp <;> cases hp
  | _ => rw [hpr] at hp; cases hp

/-- C154, service: when the server has come to rest, the clients that passed the address filter are those whose request is through and
those that found the queue full; of the latter nothing has been read, and nothing was done for them. -/
theorem C154_rest (x : World) (cap n : Nat) (live : List Conn) (fs : FS) (evs : List Ev) (w : FSt) (hc : 0 < cap) (hn : 0 < n)
    (hu : ∀ k, UserKeeps (x.over.env k)) (h : Runs x (initial cap n live fs) evs w) (hr : Rest x w) :
    ∃ lost, w.admitted.Perm (w.taken.map Prod.snd ++ lost) ∧ lost.map x.desc = w.q.dropped ∧
      (∀ k ∈ w.taken.map Prod.snd, w.sys.through k) ∧ ∀ k ∈ lost, w.sys.task k = some ⟨x.desc k, .arrived⟩ := by
  obtain ⟨qk, hq⟩ := names hc hu h
  have hquiet : Quiet qk := quiet_as (d := x.desc) (by rw [← hq.named]; exact hr.quiet)
  obtain ⟨h1, h2⟩ := C53_drained cap n hc hn qk hq.reach hquiet
  have hsplit := hq.reach.ledger.split
  rw [quiet_prod hc hn hq.reach hquiet, ← h1, hq.took, hq.adm] at hsplit
  simp only [PPc.hand, List.append_nil] at hsplit
  have hnd : (w.taken.map Prod.snd ++ qk.dropped).Nodup := hsplit.nodup_iff.mp (hq.sorted.imp (fun h => Nat.ne_of_lt h))
  refine ⟨qk.dropped, hsplit, by rw [hq.named]; rfl, fun k hk => ?_, fun k hk => ?_⟩
  · obtain ⟨⟨i, k⟩, hk, rfl⟩ := List.mem_map.mp hk
    refine (hq.busy i k (by assumption)).resolve_left fun h => ?_
    cases h2 _ (List.mem_of_getElem? h)
  · have hadm : k ∈ w.admitted := hsplit.mem_iff.mpr (List.mem_append_right _ hk)
    have hne := (hq.task k).mp hadm
    cases ht : w.sys.task k with
    | none => exact absurd ht hne
    | some t =>
      obtain ⟨v, pc⟩ := t
      rw [hq.desc k v pc ht]
      by_cases hpc : pc = .arrived
      · rw [hpc]
      · obtain ⟨i, hi⟩ := hq.begun k v pc ht hpc
        exact absurd rfl ((List.nodup_append.mp hnd).2.2 k (List.mem_map_of_mem (f := Prod.snd) hi) k hk)

/-- C154, turned away: a connection is turned away only at a moment when `cap` of them wait in the queue. -/
theorem C154_full (x : World) (cap n : Nat) (live : List Conn) (fs : FS) (evs : List Ev) (w w' : FSt) (e : Ev) (hc : 0 < cap)
    (h : Runs x (initial cap n live fs) evs w) (hs : step x w e = some (ok w')) (hd : w'.q.dropped ≠ w.q.dropped) :
    (pending w.q).length = cap := by
  have hb := (C52_bounded cap n hc w.q (reach h)).2.2
  cases e with
  | files fs' => cases hs; exact absurd rfl hd
  | error => rw [error_ok hs] at hd; exact absurd rfl hd
  | connect =>
    obtain ⟨-, -, ⟨-, rfl⟩ | ⟨-, -, -, b, p, q, sys, -, h2, -, -, rfl⟩⟩ := connect_ok hs
    · exact absurd rfl hd
    · exact hb _ _ h2 hd
  | thread a =>
    obtain ⟨-, hm⟩ := thread_ok hs
    cases hm with
    | request i v sys hai hi hs hw => subst hw; exact absurd rfl hd
    | back i v q hai hi hs hq hw => subst hw; exact hb _ _ hq hd
    | take i v q hai hi hq hw => subst hw; exact hb _ _ hq hd
    | other q hai hi hq hw => subst hw; exact hb _ _ hq hd

/-- Steps a request still has to take. -/
def left : Overlap.Pc → Nat
  | .arrived => 6
  | .named _ _ _ => 5
  | .listed _ _ _ => 4
  | .parsed _ _ _ _ => 3
  | .answered _ _ => 2
  | .closed _ _ => 1
  | .gone _ _ => 0

theorem next_left {env : Env} {w : Overlap.Sys} {v : Nat} {peer : Str} {input : List Byte} {pc pc' : Overlap.Pc}
    (h : Overlap.next env v peer (w.first input) w.fresh pc = some (ok pc')) : left pc' < left pc := by
  cases pc with
  | arrived => rcases Overlap.readLine_form (Option.some.inj h) with ⟨_, _, _, rfl⟩ | ⟨_, rfl⟩ <;> simp [left]
  | named st buf url => rcases Overlap.enter_form (Option.some.inj h) with ⟨_, rfl⟩ | ⟨_, rfl⟩ <;> simp [left]
  | listed st buf url =>
    have h := Option.some.inj h
    unfold Overlap.readHeaders at h
    obtain ⟨y, -, h⟩ := bind_eq_ok.mp h
    cases h
    simp [left]
  | parsed st url n b =>
    have h := Option.some.inj h
    unfold Overlap.act at h
    obtain ⟨⟨_, _⟩, -, h⟩ := bind_eq_ok.mp h
    cases h
    simp [left]
  | answered st ev => cases h; simp [left]
  | closed st ev => cases h; simp [left]
  | gone st ev => cases h

/-- Steps all requests still have to take. -/
def FSt.toDo (w : FSt) : Nat := ((List.range w.arrived).map fun k => ((w.sys.task k).map fun t => left t.pc).getD 0).sum

theorem sum_lt {f g : Nat → Nat} {k : Nat} : ∀ {m : Nat}, k < m → g k < f k → (∀ i, i ≠ k → g i = f i) →
    ((List.range m).map g).sum < ((List.range m).map f).sum := by
  intro m
  induction m with
  | zero => intro h; omega
  | succ m ih =>
    intro hk hlt heq
    rw [List.range_succ]
    simp only [List.map_append, List.map_cons, List.map_nil, List.sum_append, List.sum_cons, List.sum_nil, Nat.add_zero]
    by_cases hm : k = m
    · subst hm
      have : (List.range k).map g = (List.range k).map f := List.map_congr_left fun i hi => heq i (by have := List.mem_range.mp hi; omega)
      rw [this]
      omega
    · have := ih (by omega) hlt heq
      rw [heq m (fun e => hm e.symm)]
      omega

/-- C154, progress: whatever the order in which the threads run, they take only boundedly many steps before another client has to connect
(or a spurious wake-up to happen): then the server is at rest, unless a step left defined behaviour. -/
theorem C154_progress (x : World) (cap n : Nat) (live : List Conn) (fs : FS) (evs : List Ev) (w : FSt) (hc : 0 < cap)
    (h : Runs x (initial cap n live fs) evs w) :
    ∃ bound, ∀ evs' w', Runs x w evs' w' → (∀ e ∈ evs', ∃ a, e = .thread a ∧ Inner a) → evs'.length ≤ bound := by
  refine ⟨w.q.work + w.toDo, fun evs' w' hr hin => ?_⟩
  suffices hk : evs'.length + (w'.q.work + w'.toDo) ≤ w.q.work + w.toDo ∧ ∃ evs'', Runs x (initial cap n live fs) evs'' w' by omega
  induction hr with
  | nil => exact ⟨by simp, evs, h⟩
  | @snoc w1 w2 e es hr hst ih =>
    obtain ⟨hle, evs1, h1⟩ := ih (fun e he => hin e (List.mem_append_left _ he))
    refine ⟨?_, _, h1.snoc hst⟩
    rw [List.length_append, List.length_singleton]
    suffices hlt : w2.q.work + w2.toDo < w1.q.work + w1.toDo by omega
    obtain ⟨a, rfl, hia⟩ := hin e (by simp)
    have hinv := (reach h1).inv hc
    have hqw : ∀ {q : QSt}, Queue.step w1.q a = some (ok q) → q.work < w1.q.work := fun {q} hs => by
      cases a with
      | accept v b => exact hia.elim
      | spurious i => exact hia.elim
      | prod => exact work_prod hinv hs
      | worker i => exact work_worker hinv hs
      | signal w => exact work_signal hs
    obtain ⟨-, hm⟩ := thread_ok hst
    cases hm with
    | request i v sys hai hi hs hw =>
      obtain ⟨u, pc, pc', ht, hn, rfl⟩ := ostep_ok hs
      have hlt := (both h1).2 (w1.serving i) (by rw [ht]; simp)
      subst hw
      refine Nat.add_lt_add_left (sum_lt hlt ?_ fun j hj => ?_) _
      · rw [Overlap.put_task, if_pos rfl, ht]
        exact next_left hn
      · rw [Overlap.put_task, if_neg hj]
    | back i v q hai hi hs hq hw => subst hw; exact Nat.add_lt_add_right (hqw (by rw [hai]; exact hq)) _
    | take i v q hai hi hq hw => subst hw; exact Nat.add_lt_add_right (hqw (by rw [hai]; exact hq)) _
    | other q hai hi hq hw => subst hw; exact Nat.add_lt_add_right (hqw hq) _

/-- C154, undefined behaviour: if the next step of a thread leaves defined behaviour, it is a worker's, in the middle of a request, and
because of what the client of that request sent. -/
theorem C154_undefined (x : World) (cap n : Nat) (live : List Conn) (fs : FS) (evs : List Ev) (w : FSt) (s : Nat → Str)
    (regs : List Registration) (a : Act) (f : Fault) (hc : 0 < cap) (h : Runs x (initial cap n live fs) evs w)
    (hset : AlwaysSound x (initial cap n live fs) (evs ++ [.thread a]) regs) (hs : ∀ k, Stack (x.over.env k) (s k) ∧ s k ≠ [])
    (hf : step x w (.thread a) = some (ub f)) :
    ∃ i v k, a = .worker i ∧ w.q.workers[i]? = some (.handle v) ∧ w.serving i = k ∧
      ∃ evs1 w1, Before x (initial cap n live fs) (evs ++ [.thread a]) k evs1 w1 ∧ (w1.sys.reads k ∨ w1.sys.asks k) ∧
        ¬ Bearable (x.over.env k).limits w1.sys.live (x.over.peer k) regs (x.over.input k) := by
  have safe : ∀ {α : Type} {b : Act} {g : QSt → C α} {c : C α}, (∀ q, ∃ y, g q = ok y) → (Queue.step w.q b).map (fun c => c.bind g) = some c → ∃ y, c = ok y := by
    intro α b g c hg hm
    obtain ⟨d, hd, rfl⟩ := Option.map_eq_some_iff.mp hm
    cases d with
    | ok q => exact hg q
    | ub f => exact absurd hd (C52_safe cap n hc w.q (reach h) b f)
  simp only [step] at hf
  split at hf
  · cases hf
  cases a with
  | accept v b => cases hf
  | prod => obtain ⟨y, hy⟩ := safe (fun q => ⟨_, rfl⟩) hf; cases hy
  | signal u => obtain ⟨y, hy⟩ := safe (fun q => ⟨_, rfl⟩) hf; cases hy
  | spurious i => obtain ⟨y, hy⟩ := safe (fun q => ⟨_, rfl⟩) hf; cases hy
  | worker i =>
    unfold work at hf
    dsimp only at hf
    split at hf
    · rename_i v hi
      split at hf
      · rename_i c hcs
        cases c with
        | ok sys => cases hf
        | ub f' =>
          refine ⟨i, v, _, rfl, hi, rfl, ?_⟩
          obtain ⟨⟨es, hb⟩, -⟩ := both h
          have hso : Overlap.AlwaysSound x.over (Overlap.initial live fs) (es ++ [.step (w.serving i)]) regs := by
            intro es1 o s1 hp hr
            rcases List.prefix_concat_iff.mp hp with he | hp
            · obtain ⟨h1, -⟩ := List.append_inj' he rfl
              subst h1
              rw [Overlap.Runs.unique hr hb.runs.2]
              exact hset evs _ w List.prefix_rfl h
            · exact hb.sound (fun evs1 e w1 hp => hset evs1 e w1 (hp.trans (List.prefix_append _ _))) es1 o s1 hp hr
          obtain ⟨es1, s1, h1, h2, h3, h4⟩ := Overlap.C150_undefined x.over live fs es w.sys s regs hb.runs.2 (w.serving i) hso hs f' hcs
          rcases List.prefix_concat_iff.mp h1 with he | hp
          · obtain ⟨e1, -⟩ := List.append_inj' he rfl
            subst e1
            have u := Overlap.Runs.unique h2 hb.runs.2
            subst u
            exact ⟨evs, w, ⟨i, v, List.prefix_rfl, h, hi, rfl⟩, h3, h4⟩
          · obtain ⟨evs1, e, w1, b1, p1, k1⟩ := hb.at hp
            obtain ⟨i1, v1, rfl, g1, g1'⟩ := k1 _ rfl
            have u := Overlap.Runs.unique h2 b1.runs.2
            subst u
            exact ⟨evs1, w1, ⟨i1, v1, p1.trans (List.prefix_append _ _), b1.runs.1, g1, g1'⟩, h3, h4⟩
      · obtain ⟨y, hy⟩ := safe (fun q => ⟨_, rfl⟩) hf; cases hy
    · obtain ⟨y, hy⟩ := safe (fun q => ⟨_, rfl⟩) hf; cases hy
    · obtain ⟨y, hy⟩ := safe (fun q => ⟨_, rfl⟩) hf; cases hy

/-- The files stay what they are if nobody else changes them and user code leaves them alone. -/
theorem kept {x : World} {cap n : Nat} {live : List Conn} {fs : FS} {evs evs1 : List Ev} {w1 : FSt} (hd : ∀ k, 18 ≤ (x.over.env k).evpMax)
    (hu : ∀ k, UserLeaves (x.over.env k)) (hf : ∀ e ∈ evs, ∀ fs', e ≠ .files fs') (hp : evs1 <+: evs)
    (hr : Runs x (initial cap n live fs) evs1 w1) : w1.sys.fs = fs := by
  induction hr with
  | nil => rfl
  | @snoc w1 w2 e evs' hr hst ih =>
    have ih := ih ((List.prefix_append _ _).trans hp)
    cases e with
    | files fs' => exact absurd rfl (hf (.files fs') (hp.subset (by simp)) fs')
    | error => rw [error_ok hst]; exact ih
    | connect =>
      obtain ⟨-, -, ⟨-, rfl⟩ | ⟨-, -, -, b, p, q, sys, -, -, h3, h4, rfl⟩⟩ := connect_ok hst
      · exact ih
      · cases b with
        | false => rw [h4 rfl]; exact ih
        | true =>
          have hnew : w1.sys.task w1.arrived = none := by
            by_contra hc
            exact Nat.lt_irrefl _ ((both hr).2 _ hc)
          rw [(oaccept_ok (h3 rfl hnew)).2.2.2]
          exact ih
    | thread a =>
      obtain ⟨-, hm⟩ := thread_ok hst
      cases hm with
      | request i v sys hai hi hs hw =>
        obtain ⟨u, pc, pc', ht, hn, rfl⟩ := ostep_ok hs
        subst hw
        exact (Overlap.put_fs (Overlap.next_fs (hd _) (hu _) hn)).trans ih
      | back i v q hai hi hs hq hw => subst hw; exact ih
      | take i v q hai hi hq hw => subst hw; exact ih
      | other q hai hi hq hw => subst hw; exact ih

theorem always_sound {x : World} {cap n : Nat} {live : List Conn} {fs : FS} {evs : List Ev} {regs : List Registration}
    (hset : Overlap.Sound x.over (Overlap.initial live fs) regs) (hu : ∀ k, UserLeaves (x.over.env k)) (hf : ∀ e ∈ evs, ∀ fs', e ≠ .files fs') :
    AlwaysSound x (initial cap n live fs) evs regs := fun evs1 e w1 hp hr => by
  have hfs : w1.sys.fs = fs := kept hset.digest hu hf ((List.prefix_append _ _).trans hp) hr
  exact ⟨fun k => Whole.setup_move (hset.setup k) hfs, hset.digest, hset.peer⟩

/-- C154 from the start of the server: it is set up well when it starts, nobody else changes the files, and user code leaves them alone.
Then a client whose request is through has got what its bytes lead to with the files there were at the start. -/
theorem C154_start (x : World) (cap n : Nat) (live : List Conn) (fs : FS) (evs : List Ev) (w : FSt) (s : Nat → Str) (regs : List Registration)
    (h : Runs x (initial cap n live fs) evs w) (hset : Overlap.Sound x.over (Overlap.initial live fs) regs) (hu : ∀ k, UserLeaves (x.over.env k))
    (hf : ∀ e ∈ evs, ∀ fs', e ≠ .files fs') (hs : ∀ k, Stack (x.over.env k) (s k) ∧ s k ≠ []) (k v : Nat) (st : St) (ev : List Event)
    (hk : w.sys.task k = some ⟨v, .gone st ev⟩) :
    ∃ evs1 w1 o, Before x (initial cap n live fs) evs k evs1 w1 ∧ (w1.sys.asks k ∨ w1.sys.reads k ∧ o = .status 400) ∧
      LeadsTo (x.over.env k).limits w1.sys.live (x.over.peer k) regs (siteOf (x.over.env k) (s k)) fs (x.over.input k) o ∧
      (∀ o', LeadsTo (x.over.env k).limits w1.sys.live (x.over.peer k) regs (siteOf (x.over.env k) (s k)) fs (x.over.input k) o' → o' = o) ∧
      Whole.DoneAs (x.over.env k) fs ⟨k, st.sent, ev⟩ o := by
  obtain ⟨evs1, w1, evs2, w2, o, h1, h2, h3, h4, h5, h6, -, h7⟩ := C154_answer x cap n live fs evs w s regs h (always_sound hset hu hf) hs k v st ev hk
  obtain ⟨i, u, h8, h9, -⟩ := h2
  rw [kept hset.digest hu hf ((List.prefix_append _ _).trans h8) h9] at h5 h6 h7
  exact ⟨evs1, w1, o, h1, h4.elim (fun h => .inl h.1) fun h => h.elim (fun h => .inl h.1) .inr, h5, h6, h7⟩

/-! ### examples -/

def run (x : World) (w : FSt) : List Ev → Option FSt
  | [] => some w
  | e :: evs =>
    match step x w e with
    | some (ok w') => run x w' evs
    | _ => none

theorem Runs.cons {x : World} {w w' w'' : FSt} {e : Ev} {evs : List Ev} (h : step x w e = some (ok w')) (hr : Runs x w' evs w'') :
    Runs x w (e :: evs) w'' := by
  induction hr with
  | nil => exact .snoc (.nil _) h
  | snoc _ h2 ih => exact .snoc ih h2

theorem runs_of_run {x : World} : ∀ {evs : List Ev} {w w' : FSt}, run x w evs = some w' → Runs x w evs w' := by
  intro evs
  induction evs with
  | nil => intro w w' h; cases h; exact .nil _
  | cons e evs ih =>
    intro w w' h
    simp only [run] at h
    split at h
    · rename_i w1 h1
      exact .cons h1 (ih h)
    · cases h

/-- The clients are those of `Overlap.pairWorld` again and again; descriptor 5 is used again. -/
def poolWorld : World where
  limit := 9
  root := b!"/r"
  desc := fun k => match k with
    | 0 => 5 | 1 => 6 | 2 => 7 | 3 => 8 | _ => 5
  over := { Overlap.pairWorld with input := fun k => Overlap.pairWorld.input (k % 3) }

/-- A connection is put into the queue. -/
def put : List Ev := List.replicate 7 (.thread .prod) ++ [.thread (.signal none)]

/-- A connection finds the queue full. -/
def miss : List Ev := List.replicate 3 (.thread .prod) ++ [.thread (.signal none)]

/-- Worker `i` takes `m` steps. -/
def runsOn (i m : Nat) : List Ev := List.replicate m (.thread (.worker i))

/-- Two workers and room for one in the queue: clients 0 and 1 are taken up and their requests take turns, client 2 waits, client 3 finds
the queue full. -/
def rush : List Ev :=
  .connect :: put ++ runsOn 0 8 ++ .connect :: put ++ runsOn 1 8 ++ runsOn 0 1 ++ runsOn 1 1 ++ .connect :: put ++ .connect :: miss

/-- Client 0 is done, client 2 is taken up, client 4 gets the descriptor client 0 had, and the server comes to rest. -/
def calmDown : List Ev :=
  runsOn 0 3 ++ runsOn 1 3 ++ runsOn 0 3 ++ runsOn 0 8 ++ .connect :: put ++ runsOn 1 3 ++ runsOn 1 8 ++ runsOn 0 2 ++ runsOn 1 7 ++
    runsOn 0 2 ++ runsOn 0 2 ++ runsOn 1 2

theorem pool_sound (live : List Conn) : Overlap.Sound poolWorld.over (Overlap.initial live docsFs) sampleRegs :=
  ⟨fun _ => Whole.setup_move (soundEnv_setup [] []) rfl, fun _ => show 18 ≤ soundEnv.evpMax by decide, fun _ => show (b!"10.0.0.1").length < 16 by decide⟩

theorem rest_of {x : World} {w : FSt} (hs : w.stopped = false) (h1 : w.q.prod = .accept) (h2 : w.q.workers = [.waiting, .waiting]) : Rest x w := by
  refine ⟨hs, fun a ha => ?_⟩
  cases a with
  | accept v b => exact ha.elim
  | spurious i => exact ha.elim
  | prod => simp [step, hs, Queue.step, prodStep, h1]
  | signal u => simp [step, hs, Queue.step, h1]
  | worker i =>
    rcases i with _ | _ | i <;> simp [step, hs, work, Queue.step, workerStep, h2]

/-- All of it: the server is at rest, four of five clients have been served, one of them on a descriptor that was used again, and the one
that found the queue full has not. -/
theorem pool_rests : ∃ w s, Runs poolWorld (initial 1 2 (List.replicate 2 ⟨0, [], []⟩) docsFs) (rush ++ calmDown) w ∧ Rest poolWorld w ∧
    w.admitted = [0, 1, 2, 3, 4] ∧ w.taken = [(0, 0), (1, 1), (0, 2), (1, 4)] ∧ w.q.dropped = [8] ∧
    (∃ v st ev, w.sys.task 4 = some ⟨v, .gone st ev⟩) ∧ (∀ k, UserKeeps (poolWorld.over.env k)) ∧ (∀ k, UserLeaves (poolWorld.over.env k)) ∧
    Overlap.Sound poolWorld.over (Overlap.initial (List.replicate 2 ⟨0, [], []⟩) docsFs) sampleRegs ∧
    (∀ e ∈ rush ++ calmDown, ∀ fs', e ≠ .files fs') ∧ (∀ k, Stack (poolWorld.over.env k) s ∧ s ≠ []) ∧
    ∀ k ∈ [0, 1, 2, 4], w.sys.through k := by
  have e : (run poolWorld (initial 1 2 (List.replicate 2 ⟨0, [], []⟩) docsFs) (rush ++ calmDown)).map (fun w =>
      ((w.admitted, w.taken, w.q.dropped), w.q.workers, w.q.prod, w.stopped)) =
      some (([0, 1, 2, 3, 4], [(0, 0), (1, 1), (0, 2), (1, 4)], [8]), [.waiting, .waiting], .accept, false) := by
    decide +kernel
  obtain ⟨w, hw, h⟩ := Option.map_eq_some_iff.mp e
  simp only [Prod.mk.injEq] at h
  obtain ⟨⟨h1, h2, h6⟩, h4, h5, h7⟩ := h
  obtain ⟨s, s1, s2⟩ := (soundEnv_setup [] []).stack
  have hr := runs_of_run hw
  have hrest : Rest poolWorld w := rest_of h7 h5 h4
  have hu : ∀ k, UserKeeps (poolWorld.over.env k) := fun _ => Whole.soundEnv_keeps
  obtain ⟨lost, -, -, hthr, -⟩ := C154_rest poolWorld 1 2 _ docsFs _ w (by decide) (by decide) hu hr hrest
  rw [h2] at hthr
  refine ⟨w, s, hr, hrest, h1, h2, h6, ?_, hu, fun _ => Whole.soundEnv_leaves, pool_sound _, ?_, fun _ => ⟨s1, s2⟩, hthr⟩
  · exact hthr 4 (by decide)
  · intro e he fs'
    simp only [rush, calmDown, put, miss, runsOn, List.mem_append, List.mem_cons, List.mem_replicate, List.not_mem_nil, or_false] at he
    rintro rfl
    simp at he

/-- Two requests are about to ask for admission, and there is room in the table for both. -/
example : ∃ w, Runs poolWorld (initial 1 2 (List.replicate 2 ⟨0, [], []⟩) docsFs) rush w ∧ w.sys.asks 0 ∧ w.sys.asks 1 ∧
    (∀ k, (poolWorld.over.peer k).length < 16) ∧ ∀ k, UserKeeps (poolWorld.over.env k) := by
  have e : (run poolWorld (initial 1 2 (List.replicate 2 ⟨0, [], []⟩) docsFs) rush).map (fun w =>
      ((match w.sys.task 0 with | some ⟨_, .named _ _ _⟩ => true | _ => false), (match w.sys.task 1 with | some ⟨_, .named _ _ _⟩ => true | _ => false))) =
      some (true, true) := by decide +kernel
  obtain ⟨w, hw, h⟩ := Option.map_eq_some_iff.mp e
  simp only [Prod.mk.injEq] at h
  refine ⟨w, runs_of_run hw, ?_, ?_, fun _ => show (b!"10.0.0.1").length < 16 by decide, fun _ => Whole.soundEnv_keeps⟩
  · have h1 := h.1
    split at h1
    · exact ⟨_, _, _, _, by assumption⟩
    · cases h1
  · have h1 := h.2
    split at h1
    · exact ⟨_, _, _, _, by assumption⟩
    · cases h1

/-- The step in which client 3 is turned away. -/
example : ∃ w w', Runs poolWorld (initial 1 2 (List.replicate 2 ⟨0, [], []⟩) docsFs) (rush.take (rush.length - 3)) w ∧
    step poolWorld w (.thread .prod) = some (ok w') ∧ w'.q.dropped ≠ w.q.dropped := by
  have e : (run poolWorld (initial 1 2 (List.replicate 2 ⟨0, [], []⟩) docsFs) (rush.take (rush.length - 3))).map (fun w =>
      (w.q.dropped, (step poolWorld w (.thread .prod)).map fun c => c.bind fun w' => ok w'.q.dropped)) = some ([], some (ok [8])) := by decide +kernel
  obtain ⟨w, hw, h⟩ := Option.map_eq_some_iff.mp e
  simp only [Prod.mk.injEq] at h
  obtain ⟨c, hc, h2⟩ := Option.map_eq_some_iff.mp h.2
  obtain ⟨w', rfl, h3⟩ := bind_eq_ok.mp h2
  have h4 : w'.q.dropped = [8] := by simpa using h3
  exact ⟨w, w', runs_of_run hw, hc, by rw [h.1, h4]; simp⟩

/-- A client that sends nothing. -/
def muteWorld : World := { poolWorld with over := { Overlap.pairWorld with input := fun _ => [] } }

/-- The first step of its request is not defined. -/
example : ∃ w, Runs muteWorld (initial 1 2 (List.replicate 2 ⟨0, [], []⟩) docsFs) (.connect :: put ++ runsOn 0 8) w ∧
    ∃ f, step muteWorld w (.thread (.worker 0)) = some (ub f) := by
  have e : (run muteWorld (initial 1 2 (List.replicate 2 ⟨0, [], []⟩) docsFs) (.connect :: put ++ runsOn 0 8)).map (fun w =>
      (step muteWorld w (.thread (.worker 0))).map fun c => c.bind fun _ => ok ()) = some (some (ub .oob)) := by decide +kernel
  obtain ⟨w, hw, h⟩ := Option.map_eq_some_iff.mp e
  obtain ⟨c, hc, h2⟩ := Option.map_eq_some_iff.mp h
  refine ⟨w, runs_of_run hw, .oob, ?_⟩
  rw [hc]
  cases c with
  | ok y => cases h2
  | ub f => cases h2; rfl

end Wayuu.Full
