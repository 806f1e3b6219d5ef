import Verif.Model.Server
import Verif.Lemmas.Queue
import Verif.Spec.Queue
/-
Every open descriptor is in exactly one place.
-/
namespace Wayuu.Server
open Wayuu C Wayuu.Queue Wayuu.Spec

/-- `evs` can happen one after the other and lead from `s` to `s'`. -/
inductive Runs (limit : Nat) : SSt → List Ev → SSt → Prop where
  | nil (s : SSt) : Runs limit s [] s
  | snoc {s s' s'' : SSt} {e : Ev} {evs : List Ev} : Runs limit s evs s' → step limit s' e = some (ok s'') →
      Runs limit s (evs ++ [e]) s''

/-- The events one after the other, computed. -/
def runEvs (limit : Nat) (s : SSt) : List Ev → Option SSt
  | [] => some s
  | e :: evs =>
    match step limit s e with
    | some (ok s') => runEvs limit s' evs
    | _ => none

theorem Runs.append {limit : Nat} {s s' : SSt} {evs : List Ev} (h : Runs limit s evs s') : ∀ {evs' : List Ev} {s'' : SSt},
    runEvs limit s' evs' = some s'' → Runs limit s (evs ++ evs') s'' := by
  intro evs'
  induction evs' generalizing evs s' with
  | nil => intro s'' e; cases e; simpa using h
  | cons e evs' ih =>
    intro s'' he
    simp only [runEvs] at he
    split at he
    · have := ih (h.snoc (by assumption)) he
      simpa using this
    · cases he

theorem runs_of_runEvs {limit : Nat} {s s' : SSt} {evs : List Ev} (h : runEvs limit s evs = some s') : Runs limit s evs s' := by
  simpa using (Runs.nil (limit := limit) s).append h

/-- The socket a worker is serving. -/
def serving : WPc → Option Nat
  | .handle v => some v
  | _ => none

/-- Where the open sockets are: queue, workers, turned away, in the hands of the accepting thread. -/
def places (q : QSt) : List Nat := pending q ++ q.workers.filterMap serving ++ q.dropped ++ q.prod.hand

theorem filterMap_set {α β : Type} (f : α → Option β) {l : List α} {i : Nat} {a b : α} (h : l[i]? = some a) :
    ((f b).toList ++ l.filterMap f).Perm ((f a).toList ++ (l.set i b).filterMap f) := by
  induction l generalizing i with
  | nil => simp at h
  | cons x l ih =>
    cases i with
    | zero =>
      simp only [List.getElem?_cons_zero, Option.some.injEq] at h
      subst h
      simp only [List.set_cons_zero, List.filterMap_cons]
      cases f x <;> cases f b <;> simp [List.Perm.swap]
    | succ i =>
      simp only [List.getElem?_cons_succ] at h
      have := ih h
      simp only [List.set_cons_succ, List.filterMap_cons]
      cases f x with
      | none => exact this
      | some y =>
        simp only
        refine List.perm_middle.trans ((List.Perm.cons y this).trans List.perm_middle.symm)

theorem pending_eq {cap : Nat} {s : QSt} (h : Inv cap s) : s.enqueued = s.delivered.map Prod.snd ++ pending s := by
  obtain ⟨q, f, r, he, -⟩ := h.ring
  have : pending s = q := by
    unfold pending
    rw [he, List.drop_append_of_le_length (by simp)]
    simp
  rw [this, he]

/-- What a step of the worker does to the places. -/
theorem worker_places {cap : Nat} {s s' : QSt} {i : Nat} (hi : Inv cap s) (hi' : Inv cap s') (h : workerStep s i = some (ok s')) :
    (∃ v, s.workers[i]? = some (.handle v) ∧ (places s).Perm (v :: places s')) ∨
    ((∀ v, s.workers[i]? ≠ some (.handle v)) ∧ (places s).Perm (places s')) := by
  have p1 := pending_eq hi
  have p2 := pending_eq hi'
  unfold workerStep at h
  cases hw : s.workers[i]? with
  | none => rw [hw] at h; cases h
  | some pc =>
    rw [hw] at h
    have keep : ∀ (t : QSt) (pc' : WPc), t.workers = s.workers → t.enqueued = s.enqueued → t.delivered = s.delivered →
        t.dropped = s.dropped → t.prod = s.prod → serving pc = none → serving pc' = none → s' = setW t i pc' →
        (places s).Perm (places s') := by
      intro t pc' e1 e2 e3 e4 e5 n1 n2 e6
      subst e6
      have := filterMap_set serving (b := pc') hw
      rw [n1, n2] at this
      simp only [Option.toList_none, List.nil_append] at this
      simp only [places, setW, pending, e1, e2, e3, e4, e5]
      exact ((this.append_left _).append_right _).append_right _
    cases pc with
    | lock =>
      right; refine ⟨by simp, ?_⟩
      simp only at h
      split at h
      · cases h; exact keep { s with owner := some (.worker i) } .test rfl rfl rfl rfl rfl rfl rfl rfl
      · cases h
    | test =>
      right; refine ⟨by simp, ?_⟩
      simp only at h
      split at h
      · cases h; exact keep { s with owner := none } .waiting rfl rfl rfl rfl rfl rfl rfl rfl
      · cases h; exact keep s .read rfl rfl rfl rfl rfl rfl rfl rfl
    | waiting => simp at h
    | relock =>
      right; refine ⟨by simp, ?_⟩
      simp only at h
      split at h
      · cases h; exact keep { s with owner := some (.worker i) } .test rfl rfl rfl rfl rfl rfl rfl rfl
      · cases h
    | read =>
      right; refine ⟨by simp, ?_⟩
      simp only [Option.some.injEq] at h
      obtain ⟨v, -, h⟩ := bind_eq_ok.mp h
      cases h; exact keep s (.check v) rfl rfl rfl rfl rfl rfl rfl rfl
    | check v =>
      right; refine ⟨by simp, ?_⟩
      simp only at h
      split at h
      · cases h; exact keep s (.dec v) rfl rfl rfl rfl rfl rfl rfl rfl
      · cases h; exact keep s (.unlock v) rfl rfl rfl rfl rfl rfl rfl rfl
    | dec v =>
      right; refine ⟨by simp, ?_⟩
      simp only [Option.some.injEq, ok.injEq] at h
      exact keep { s with ring := { s.ring with size := s.ring.size - 1 } } (.inc v) rfl rfl rfl rfl rfl rfl rfl h.symm
    | inc v =>
      right; refine ⟨by simp, ?_⟩
      simp only [Option.some.injEq, ok.injEq] at h
      exact keep { s with ring := { s.ring with front := s.ring.front + 1 } } (.wrap v) rfl rfl rfl rfl rfl rfl rfl h.symm
    | wrap v =>
      right; refine ⟨by simp, ?_⟩
      simp only [Option.some.injEq, ok.injEq] at h
      exact keep { s with ring := if s.ring.front = s.ring.capacity then { s.ring with front := 0 } else s.ring } (.unlock v)
        rfl rfl rfl rfl rfl rfl rfl h.symm
    | unlock v =>
      right; refine ⟨by simp, ?_⟩
      simp only [Option.some.injEq, ok.injEq] at h
      subst h
      have hp : pending s = v :: pending (setW { s with owner := none, delivered := s.delivered ++ [(i, v)] } i (.handle v)) := by
        have e : s.enqueued = (s.delivered ++ [(i, v)]).map Prod.snd ++
            pending (setW { s with owner := none, delivered := s.delivered ++ [(i, v)] } i (.handle v)) := p2
        rw [List.map_append, List.append_assoc] at e
        exact List.append_cancel_left (p1.symm.trans e)
      have hf := filterMap_set serving (b := WPc.handle v) hw
      simp only [serving, Option.toList_none, Option.toList_some, List.nil_append, List.singleton_append] at hf
      unfold places
      rw [hp]
      refine List.Perm.append_right _ (List.Perm.append_right _ ?_)
      refine List.Perm.trans ?_ (hf.append_left _)
      simp only [List.cons_append]
      exact List.perm_middle.symm
    | handle v =>
      left
      refine ⟨v, rfl, ?_⟩
      simp only [Option.some.injEq, ok.injEq] at h
      subst h
      have hf := filterMap_set serving (b := WPc.lock) hw
      simp only [serving, Option.toList_none, Option.toList_some, List.nil_append, List.singleton_append] at hf
      unfold places
      refine List.Perm.trans (List.Perm.append_right _ (List.Perm.append_right _ (hf.append_left _))) ?_
      simp only [List.append_assoc]
      exact List.perm_middle

theorem prod_places {cap : Nat} {s s' : QSt} (hi : Inv cap s) (hi' : Inv cap s') (h : prodStep s = some (ok s')) :
    (places s).Perm (places s') := by
  have p1 := pending_eq hi
  have p2 := pending_eq hi'
  unfold prodStep at h
  cases hp : s.prod with
  | accept => rw [hp] at h; cases h
  | lock v =>
    rw [hp] at h; simp only at h
    split at h
    · cases h; simp [places, pending, PPc.hand, hp]
    · cases h
  | test v =>
    rw [hp] at h; simp only at h
    split at h
    · cases h; simp [places, pending, PPc.hand, hp]
    · cases h; simp [places, pending, PPc.hand, hp]
  | incSize v => rw [hp] at h; cases h; simp [places, pending, PPc.hand, hp]
  | incRear v => rw [hp] at h; cases h; simp [places, pending, PPc.hand, hp]
  | wrap v => rw [hp] at h; cases h; simp [places, pending, PPc.hand, hp]
  | store v =>
    rw [hp] at h
    simp only [Option.some.injEq] at h
    obtain ⟨ring, -, h⟩ := bind_eq_ok.mp h
    simp only [ok.injEq] at h
    have e1 : s'.enqueued = s.enqueued ++ [v] := by rw [← h]
    have e2 : s'.delivered = s.delivered := by rw [← h]
    have e3 : s'.workers = s.workers := by rw [← h]
    have e4 : s'.dropped = s.dropped := by rw [← h]
    have e5 : s'.prod = .unlock := by rw [← h]
    have hpn : pending s' = pending s ++ [v] := by
      rw [e1, e2, p1, List.append_assoc] at p2
      exact (List.append_cancel_left p2).symm
    unfold places
    rw [hpn, e3, e4, e5, hp]
    simp only [PPc.hand, List.append_assoc, List.append_nil]
    refine List.Perm.append_left _ ?_
    rw [← List.append_assoc]
    exact List.perm_append_comm
  | unlock => rw [hp] at h; cases h; simp [places, pending, PPc.hand, hp]
  | signal => rw [hp] at h; cases h

theorem reach_of_runs {limit cap n : Nat} {evs : List Ev} {s : SSt} (h : Runs limit (initial cap n) evs s) : Reach cap n s.q := by
  induction h with
  | nil => exact .init
  | @snoc s1 s2 e evs' _ hst ih =>
    unfold step at hst
    split at hst
    · cases hst
    · split at hst
      · split at hst
        · split at hst
          · cases hst; exact ih
          · split at hst
            · cases hst
            · simp only [Option.map_eq_some_iff] at hst
              obtain ⟨c, hc, hb⟩ := hst
              obtain ⟨q, rfl, hb⟩ := bind_eq_ok.mp hb
              cases hb
              exact ih.step hc
        · cases hst
      · split at hst
        · cases hst; exact ih
        · cases hst
      · split at hst
        · cases hst
        · simp only [Option.map_eq_some_iff] at hst
          obtain ⟨c, hc, hb⟩ := hst
          obtain ⟨q, rfl, hb⟩ := bind_eq_ok.mp hb
          cases hb
          exact ih.step hc

/-- The open descriptors are exactly those in the places, each once. -/
theorem fds_places {limit cap n : Nat} (hc : 0 < cap) {evs : List Ev} {s : SSt} (h : Runs limit (initial cap n) evs s) :
    s.fds.Perm (places s.q) ∧ s.fds.Nodup := by
  induction h with
  | nil =>
    refine ⟨?_, by simp [initial]⟩
    have : (List.replicate n WPc.lock).filterMap serving = [] := by simp [List.filterMap_replicate, serving]
    simp [initial, places, Queue.initial, pending, PPc.hand, this]
  | @snoc s1 s2 e evs' hr hst ih =>
    obtain ⟨ihp, ihn⟩ := ih
    have r1 := reach_of_runs hr
    have r2 := reach_of_runs (hr.snoc hst)
    have i1 := r1.inv hc
    have i2 := r2.inv hc
    unfold step at hst
    split at hst
    · cases hst
    · split at hst
      · rename_i v allowed
        split at hst
        · rename_i hp
          split at hst
          · cases hst; exact ⟨ihp, ihn⟩
          · split at hst
            · cases hst
            · rename_i hv
              simp only [Option.map_eq_some_iff] at hst
              obtain ⟨c, hcq, hb⟩ := hst
              obtain ⟨q, rfl, hb⟩ := bind_eq_ok.mp hb
              cases hb
              simp only [Queue.step, hp] at hcq
              cases allowed with
              | true =>
                simp only [if_true, Option.some.injEq, ok.injEq] at hcq
                subst hcq
                refine ⟨?_, List.nodup_cons.mpr ⟨hv, ihn⟩⟩
                simp only [if_true, places, pending, PPc.hand] at ihp ⊢
                rw [hp] at ihp
                simp only [PPc.hand, List.append_nil] at ihp
                exact (List.Perm.cons v ihp).trans (List.perm_append_singleton _ _).symm
              | false =>
                simp only [Bool.false_eq_true, if_false, Option.some.injEq, ok.injEq] at hcq
                subst hcq
                simp only [places, hp] at ihp
                exact ⟨ihp, ihn⟩
        · cases hst
      · split at hst
        · cases hst; exact ⟨ihp, ihn⟩
        · cases hst
      · rename_i a
        split at hst
        · cases hst
        · simp only [Option.map_eq_some_iff] at hst
          obtain ⟨c, hcq, hb⟩ := hst
          obtain ⟨q, rfl, hb⟩ := bind_eq_ok.mp hb
          cases hb
          cases a with
          | accept v b => exact (‹∀ (a : Nat) (b' : Bool), Act.accept v b = Act.accept a b' → False› _ _ rfl).elim
          | prod =>
            exact ⟨ihp.trans (prod_places i1 i2 hcq), ihn⟩
          | signal w =>
            refine ⟨?_, ihn⟩
            simp only [Queue.step] at hcq
            split at hcq
            · have hp : s1.q.prod = .signal := by assumption
              split at hcq
              · cases hcq
              · cases hcq
                simp only [closes, places, pending, PPc.hand, hp] at ihp ⊢
                exact ihp
            · have hp : s1.q.prod = .signal := by assumption
              split at hcq
              · rename_i hw
                cases hcq
                have := filterMap_set serving (b := WPc.relock) hw
                simp only [serving, Option.toList_none, List.nil_append] at this
                simp only [closes, places, pending, PPc.hand, hp, setW] at ihp ⊢
                exact ihp.trans (((this.append_left _).append_right _).append_right _)
              · cases hcq
            · cases hcq
          | worker i =>
            rcases worker_places i1 i2 hcq with ⟨v, hw, hpm⟩ | ⟨hw, hpm⟩
            · have : closes s1 (.worker i) = s1.fds.erase v := by simp [closes, hw]
              rw [this]
              refine ⟨?_, ihn.erase _⟩
              have := (ihp.trans hpm).erase v
              rwa [List.erase_cons_head] at this
            · have : closes s1 (.worker i) = s1.fds := by
                cases hx : s1.q.workers[i]? with
                | none => simp [closes, hx]
                | some pc =>
                  cases pc with
                  | handle v => exact absurd hx (hw v)
                  | _ => simp [closes, hx]
              rw [this]
              exact ⟨ihp.trans hpm, ihn⟩
          | spurious i =>
            refine ⟨?_, ihn⟩
            simp only [Queue.step] at hcq
            split at hcq
            · rename_i hw
              cases hcq
              have := filterMap_set serving (b := WPc.relock) hw
              simp only [serving, Option.toList_none, List.nil_append] at this
              simp only [closes, places, pending, setW] at ihp ⊢
              exact ihp.trans (((this.append_left _).append_right _).append_right _)
            · cases hcq

end Wayuu.Server
