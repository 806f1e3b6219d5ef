import Verif.Model.Hook
import Verif.Lemmas.Server
import Verif.Props.Full
import Mathlib.Data.List.Nodup
import Mathlib.Data.List.Range
/-
C160: the program's own socket handler.
-/
namespace Wayuu.Hook
open Wayuu C Wayuu.Queue
open Spec

/-! ### the steps -/

theorem connect_ok {x : World} {w w' : HSt} (h : step x w .connect = some (ok w')) :
    w.stopped = false ∧ w.q.prod = .accept ∧
    ((x.limit ≤ w.fds.length ∧ w' = { w with stopped := true }) ∨
     (¬ x.limit ≤ w.fds.length ∧ x.desc w.arrived ∉ w.fds ∧ ∃ q,
      Queue.step w.q (.accept (x.desc w.arrived) (x.passes w.arrived)) = some (ok q) ∧
      w' = { w with
        q := q, arrived := w.arrived + 1,
        fds := if x.passes w.arrived then x.desc w.arrived :: w.fds else w.fds,
        admitted := if x.passes w.arrived then w.admitted ++ [w.arrived] else w.admitted,
        conn := fun u => if u = x.desc w.arrived then w.arrived else w.conn u })) := by
  simp only [step, connect] at h
  split at h
  · cases h
  rename_i hs
  split at h
  · cases h
  rename_i hp
  rw [not_not] at hp
  refine ⟨by simpa using hs, hp, ?_⟩
  split at h
  · rename_i hl
    cases h
    exact .inl ⟨hl, rfl⟩
  rename_i hl
  split at h
  · cases h
  rename_i hv
  obtain ⟨c, hc, h⟩ := Option.map_eq_some_iff.mp h
  obtain ⟨q, rfl, h⟩ := bind_eq_ok.mp h
  cases h
  exact .inr ⟨hl, hv, q, hc, rfl⟩

theorem error_ok {x : World} {w w' : HSt} (h : step x w .error = some (ok w')) :
    w.stopped = false ∧ w.q.prod = .accept ∧ w' = { w with stopped := true } := by
  simp only [step] at h
  split at h
  · rename_i hc; cases h; exact ⟨hc.1, hc.2, rfl⟩
  · cases h

theorem close_ok {x : World} {w w' : HSt} {v : Nat} (h : step x w (.close v) = some (ok w')) :
    chosen x.handler ≠ .http ∧ v ∈ w.fds ∧ w.conn v ∈ w.calls.map Call.conn ∧
    w' = { w with fds := w.fds.erase v, ended := w.ended ++ [w.conn v] } := by
  simp only [step] at h
  split at h
  · rename_i hc
    cases h
    exact ⟨hc.2.1, hc.2.2.1, hc.2.2.2, rfl⟩
  · cases h

/-- What a step of a thread is. -/
inductive Moves (x : World) (w : HSt) (a : Act) (w' : HSt) : Prop where
  | back (i v : Nat) (q : QSt) (ha : a = .worker i) (hi : w.q.workers[i]? = some (.handle v)) (hq : Queue.step w.q (.worker i) = some (ok q))
      (hx : chosen x.handler ≠ .http) (hw : w' = { w with q := q })
  | done (i v : Nat) (q : QSt) (ha : a = .worker i) (hi : w.q.workers[i]? = some (.handle v)) (hq : Queue.step w.q (.worker i) = some (ok q))
      (hx : chosen x.handler = .http) (hw : w' = { w with q := q, fds := w.fds.erase v, ended := w.ended ++ [w.conn v] })
  | take (i v : Nat) (q : QSt) (ha : a = .worker i) (hi : w.q.workers[i]? = some (.unlock v)) (hq : Queue.step w.q (.worker i) = some (ok q))
      (hw : w' = { w with q := q, calls := w.calls ++ [⟨chosen x.handler, i, w.conn v, v⟩] })
  | other (q : QSt) (ha : ∀ v b, a ≠ .accept v b) (hi : ∀ i v, a = .worker i → w.q.workers[i]? ≠ some (.handle v) ∧ w.q.workers[i]? ≠ some (.unlock v))
      (hq : Queue.step w.q a = some (ok q)) (hw : w' = { w with q := q })

theorem thread_ok {x : World} {w w' : HSt} {a : Act} (h : step x w (.thread a) = some (ok w')) : w.stopped = false ∧ Moves x w a w' := by
  simp only [step] at h
  split at h
  · cases h
  rename_i hs
  refine ⟨by simpa using hs, ?_⟩
  cases a with
  | accept v b => cases h
  | worker i =>
    unfold work at h
    obtain ⟨c, hc, h⟩ := Option.map_eq_some_iff.mp h
    obtain ⟨q, rfl, h⟩ := bind_eq_ok.mp h
    split at h
    · rename_i v hi
      cases h
      exact .take i v q rfl hi hc rfl
    · rename_i v hi
      split at h
      · cases h; exact .done i v q rfl hi hc (by assumption) rfl
      · cases h; exact .back i v q rfl hi hc (by assumption) rfl
    · rename_i h1 h2
      cases h
      refine .other q (by simp) (fun j v e => ?_) hc rfl
      cases e
      exact ⟨fun e => h2 v e, fun e => h1 v e⟩
  | _ =>
    obtain ⟨c, hc, h⟩ := Option.map_eq_some_iff.mp h
    obtain ⟨q, rfl, h⟩ := bind_eq_ok.mp h
    cases h
    exact .other q (by simp) (by simp) hc rfl

/-! ### the clients in the queue -/

/-- The queue with clients in place of descriptors, and who has which descriptor. -/
structure Names (x : World) (cap n : Nat) (w : HSt) (qk : QSt) : Prop where
  reach : Reach cap n qk
  named : w.q = qk.as x.desc
  adm : qk.accepted = w.admitted
  came : w.admitted = (List.range w.arrived).filter x.passes
  took : qk.delivered = w.calls.map fun c => (c.worker, c.conn)
  call : ∀ c ∈ w.calls, c.fn = chosen x.handler ∧ c.socket = x.desc c.conn
  nodup : w.fds.Nodup
  conn : ∀ k ∈ w.admitted, k ∉ w.ended → x.desc k ∈ w.fds ∧ w.conn (x.desc k) = k
  owner : ∀ v ∈ w.fds, w.conn v ∈ w.admitted ∧ w.conn v ∉ w.ended ∧ x.desc (w.conn v) = v
  served : ∀ k ∈ w.ended, k ∈ w.calls.map Call.conn
  hand : ∀ i k : Nat, qk.workers[i]? = some (.handle k) → (i, k) ∈ qk.delivered ∧ (chosen x.handler = .http → k ∉ w.ended)

theorem Names.sorted {x : World} {cap n : Nat} {w : HSt} {qk : QSt} (h : Names x cap n w qk) : w.admitted.Nodup := by
  rw [h.came]
  exact List.nodup_range.filter _

theorem Names.past {x : World} {cap n : Nat} {w : HSt} {qk : QSt} (h : Names x cap n w qk) {k : Nat} (hk : k ∈ w.admitted) : k < w.arrived := by
  rw [h.came] at hk
  exact List.mem_range.mp (List.mem_filter.mp hk).1

theorem Names.snd {x : World} {cap n : Nat} {w : HSt} {qk : QSt} (h : Names x cap n w qk) : qk.delivered.map Prod.snd = w.calls.map Call.conn := by
  rw [h.took, List.map_map]
  rfl

theorem Names.once {x : World} {cap n : Nat} {w : HSt} {qk : QSt} (hc : 0 < cap) (h : Names x cap n w qk) :
    (w.calls.map Call.conn).Sublist w.admitted ∧ (w.calls.map Call.conn).Nodup ∧ qk.enqueued.Nodup ∧ qk.enqueued.Sublist w.admitted := by
  obtain ⟨h1, h2⟩ := C52_fifo cap n hc qk h.reach
  rw [h.snd] at h1
  rw [h.adm] at h2
  exact ⟨h1.sublist.trans h2, h.sorted.sublist (h1.sublist.trans h2), h.sorted.sublist h2, h2⟩

theorem names_start (x : World) (cap n : Nat) : Names x cap n (initial cap n) (Queue.initial cap n) := by
  refine ⟨.init, (initial_as _ _ _).symm, rfl, rfl, rfl, (fun c h => by cases h), .nil, (fun k h => by cases h), (fun v h => by cases h),
    (fun k h => by cases h), ?_⟩
  intro i k h
  have := List.mem_of_getElem? h
  simp [Queue.initial] at this

/-- A connection is closed. -/
theorem close_keeps {x : World} {fds admitted ended : List Nat} {conn : Nat → Nat} {v : Nat} (hn : fds.Nodup)
    (hc : ∀ k ∈ admitted, k ∉ ended → x.desc k ∈ fds ∧ conn (x.desc k) = k)
    (ho : ∀ v ∈ fds, conn v ∈ admitted ∧ conn v ∉ ended ∧ x.desc (conn v) = v) (hv : v ∈ fds) :
    (∀ k ∈ admitted, k ∉ ended ++ [conn v] → x.desc k ∈ fds.erase v ∧ conn (x.desc k) = k) ∧
    ∀ u ∈ fds.erase v, conn u ∈ admitted ∧ conn u ∉ ended ++ [conn v] ∧ x.desc (conn u) = u := by
  refine ⟨fun k hk he => ?_, fun u hu => ?_⟩
  · rw [List.mem_append, not_or, List.mem_singleton] at he
    obtain ⟨h1, h2⟩ := hc k hk he.1
    refine ⟨(hn.mem_erase_iff).mpr ⟨?_, h1⟩, h2⟩
    rintro rfl
    exact he.2 h2.symm
  · obtain ⟨h1, h2⟩ := (hn.mem_erase_iff).mp hu
    obtain ⟨h3, h4, h5⟩ := ho u h2
    refine ⟨h3, ?_, h5⟩
    rw [List.mem_append, not_or, List.mem_singleton]
    refine ⟨h4, fun e => h1 ?_⟩
    rw [← h5, e, (ho v hv).2.2]

theorem names_step {x : World} {cap n : Nat} {w w' : HSt} {e : Ev} {qk : QSt} (hc : 0 < cap) (hst : step x w e = some (ok w'))
    (ih : Names x cap n w qk) : ∃ qk', Names x cap n w' qk' := by
  have hinv := ih.reach.inv hc
  cases e with
  | error =>
    rw [(error_ok hst).2.2]
    exact ⟨qk, ih.reach, ih.named, ih.adm, ih.came, ih.took, ih.call, ih.nodup, ih.conn, ih.owner, ih.served, ih.hand⟩
  | close v =>
    obtain ⟨hx, hv, hcl, rfl⟩ := close_ok hst
    obtain ⟨h1, h2⟩ := close_keeps ih.nodup ih.conn ih.owner hv
    refine ⟨qk, ih.reach, ih.named, ih.adm, ih.came, ih.took, ih.call, ih.nodup.erase _, h1, h2, fun k hk => ?_,
      fun i k hi => ⟨(ih.hand i k hi).1, fun h => absurd h hx⟩⟩
    rcases List.mem_append.mp hk with hk | hk
    · exact ih.served k hk
    · rw [List.mem_singleton.mp hk]; exact hcl
  | connect =>
    obtain ⟨-, hp, ⟨-, rfl⟩ | ⟨-, hv, q, h2, rfl⟩⟩ := connect_ok hst
    · exact ⟨qk, ih.reach, ih.named, ih.adm, ih.came, ih.took, ih.call, ih.nodup, ih.conn, ih.owner, ih.served, ih.hand⟩
    · have hpk : qk.prod = .accept := by
        rw [ih.named] at hp
        simp only [QSt.as] at hp
        cases hq : qk.prod <;> rw [hq] at hp <;> first | rfl | cases hp
      rw [ih.named] at h2
      obtain ⟨qk', hk, rfl⟩ := step_as_ok (a := .accept w.arrived (x.passes w.arrived)) h2
      have hreach := ih.reach.step hk
      simp only [Queue.step, hpk] at hk
      have hend : w.arrived ∉ w.ended := fun h =>
        Nat.lt_irrefl _ (ih.past ((ih.once hc).1.subset (ih.served _ h)))
      cases hb : x.passes w.arrived with
      | false =>
        rw [hb] at hk
        simp only [Bool.false_eq_true, if_false] at hk ⊢
        cases hk
        refine ⟨_, hreach, rfl, ih.adm, ?_, ih.took, ih.call, ih.nodup, fun k hk he => ?_, fun v hv' => ?_, ih.served, ih.hand⟩
        · rw [ih.came]
          show _ = (List.range (w.arrived + 1)).filter x.passes
          rw [List.range_succ, List.filter_append]
          simp [hb]
        · obtain ⟨h1, h2⟩ := ih.conn k hk he
          refine ⟨h1, ?_⟩
          dsimp only
          rw [if_neg (fun e => hv (by rw [← e]; exact h1))]
          exact h2
        · dsimp only at hv' ⊢
          rw [if_neg (fun e => hv (by rw [← e]; exact hv'))]
          exact ih.owner v hv'
      | true =>
        rw [hb] at hk
        simp only [if_true] at hk ⊢
        cases hk
        refine ⟨_, hreach, rfl, ?_, ?_, ih.took, ih.call, List.nodup_cons.mpr ⟨hv, ih.nodup⟩, fun k hk he => ?_, fun v hv' => ?_, ih.served, ih.hand⟩
        · show qk.accepted ++ [w.arrived] = w.admitted ++ [w.arrived]
          rw [ih.adm]
        · rw [ih.came]
          show _ = (List.range (w.arrived + 1)).filter x.passes
          rw [List.range_succ, List.filter_append]
          simp [hb]
        · dsimp only at hk he ⊢
          rcases List.mem_append.mp hk with hk | hk
          · obtain ⟨h1, h2⟩ := ih.conn k hk he
            rw [if_neg (fun e => hv (by rw [← e]; exact h1))]
            exact ⟨List.mem_cons_of_mem _ h1, h2⟩
          · rw [List.mem_singleton.mp hk, if_pos rfl]
            exact ⟨List.mem_cons_self, rfl⟩
        · dsimp only at hv' ⊢
          rcases List.mem_cons.mp hv' with rfl | hv'
          · rw [if_pos rfl]
            exact ⟨by simp, hend, rfl⟩
          · rw [if_neg (fun e => hv (by rw [← e]; exact hv'))]
            obtain ⟨h1, h2⟩ := ih.owner v hv'
            exact ⟨List.mem_append_left _ h1, h2⟩
  | thread a =>
    obtain ⟨-, hm⟩ := thread_ok hst
    have leave : ∀ {i k : Nat} {qk' : QSt}, qk.workers[i]? = some (.handle k) → qk' = setW qk i .lock →
        ∀ j k', qk'.workers[j]? = some (.handle k') → i ≠ j ∧ qk.workers[j]? = some (.handle k') := fun {i k qk'} hik e j k' hj => by
      subst e
      by_cases hij : i = j
      · subst hij
        simp only [setW, List.getElem?_set_self (lt_of_getElem?_some hik)] at hj
        cases hj
      · simp only [setW, List.getElem?_set_ne hij] at hj
        exact ⟨hij, hj⟩
    cases hm with
    | back i v q hai hi hq hx hw =>
      rw [ih.named] at hi hq
      obtain ⟨k, hik, rfl⟩ := Full.as_handle hi
      obtain ⟨qk', hk, rfl⟩ := step_as_ok (a := .worker i) hq
      have hreach := ih.reach.step hk
      simp only [Queue.step, workerStep, hik] at hk
      cases hk
      subst hw
      exact ⟨_, hreach, rfl, ih.adm, ih.came, ih.took, ih.call, ih.nodup, ih.conn, ih.owner, ih.served,
        fun j k' hj => ⟨(ih.hand j k' (leave hik rfl j k' hj).2).1, fun h => absurd h hx⟩⟩
    | done i v q hai hi hq hx hw =>
      rw [ih.named] at hi hq
      obtain ⟨k, hik, rfl⟩ := Full.as_handle hi
      obtain ⟨hdel, hend⟩ := ih.hand i k hik
      have hcall : k ∈ w.calls.map Call.conn := by rw [← ih.snd]; exact List.mem_map_of_mem (f := Prod.snd) hdel
      obtain ⟨hv, hconn⟩ := ih.conn k ((ih.once hc).1.subset hcall) (hend hx)
      obtain ⟨qk', hk, rfl⟩ := step_as_ok (a := .worker i) hq
      have hreach := ih.reach.step hk
      simp only [Queue.step, workerStep, hik] at hk
      cases hk
      subst hw
      obtain ⟨h1, h2⟩ := close_keeps ih.nodup ih.conn ih.owner hv
      refine ⟨_, hreach, rfl, ih.adm, ih.came, ih.took, ih.call, ih.nodup.erase _, h1, h2, fun k' hk' => ?_, fun j k' hj => ?_⟩
      · rcases List.mem_append.mp hk' with hk' | hk'
        · exact ih.served k' hk'
        · rw [List.mem_singleton.mp hk', hconn]; exact hcall
      · obtain ⟨hij, hj⟩ := leave hik rfl j k' hj
        obtain ⟨h3, h4⟩ := ih.hand j k' hj
        refine ⟨h3, fun h => ?_⟩
        rw [List.mem_append, not_or, List.mem_singleton, hconn]
        refine ⟨h4 h, ?_⟩
        rintro rfl
        have hnd : (qk.delivered.map Prod.snd).Nodup := by rw [ih.snd]; exact (ih.once hc).2.1
        have := List.inj_on_of_nodup_map hnd hdel h3 rfl
        exact hij (congrArg Prod.fst this)
    | take i v q hai hi hq hw =>
      rw [ih.named] at hi hq
      obtain ⟨k, hik, rfl⟩ := Full.as_unlock hi
      obtain ⟨rest, hrest⟩ := Full.unlock_next hinv hik
      obtain ⟨o1, o2, o3, o4⟩ := ih.once hc
      have hk : k ∈ w.admitted := o4.subset (by rw [hrest]; simp)
      have hnot : k ∉ w.calls.map Call.conn := fun hj => by
        rw [hrest, ih.snd, List.nodup_append] at o3
        exact o3.2.2 k hj k (by simp) rfl
      have hend : k ∉ w.ended := fun h => hnot (ih.served k h)
      have hconn := (ih.conn k hk hend).2
      obtain ⟨qk', hk', rfl⟩ := step_as_ok (a := .worker i) hq
      have hreach := ih.reach.step hk'
      simp only [Queue.step, workerStep, hik] at hk'
      cases hk'
      subst hw
      refine ⟨_, hreach, rfl, ih.adm, ih.came, ?_, fun c hcm => ?_, ih.nodup, ih.conn, ih.owner, fun k' h => ?_, fun j k' hj => ?_⟩
      · show qk.delivered ++ [(i, k)] = _
        rw [List.map_append, ih.took]
        simp [hconn]
      · rcases List.mem_append.mp hcm with hcm | hcm
        · exact ih.call c hcm
        · rw [List.mem_singleton.mp hcm, hconn]
          exact ⟨rfl, rfl⟩
      · rw [List.map_append]
        exact List.mem_append_left _ (ih.served k' h)
      · by_cases hij : i = j
        · subst hij
          simp only [setW, List.getElem?_set_self (lt_of_getElem?_some hik)] at hj
          cases hj
          exact ⟨by simp [setW], fun _ => hend⟩
        · simp only [setW, List.getElem?_set_ne hij] at hj
          exact ⟨List.mem_append_left _ (ih.hand j k' hj).1, (ih.hand j k' hj).2⟩
    | other q hai hi hq hw =>
      have haa : a.as x.desc = a := by
        cases a with
        | accept v b => exact absurd rfl (hai v b)
        | _ => rfl
      rw [ih.named, ← haa] at hq
      obtain ⟨qk', hk, rfl⟩ := step_as_ok hq
      have hreach := ih.reach.step hk
      have hi' : ∀ i v, a = .worker i → qk.workers[i]? ≠ some (.handle v) ∧ qk.workers[i]? ≠ some (.unlock v) := fun i v e => by
        have h := hi i (x.desc v) e
        rw [ih.named] at h
        simp only [QSt.as, List.getElem?_map] at h
        refine ⟨fun e => h.1 (by rw [e]; rfl), fun e => h.2 (by rw [e]; rfl)⟩
      obtain ⟨h1, h2, h3⟩ := Full.calm hai hi' hk
      subst hw
      refine ⟨qk', hreach, rfl, h2.trans ih.adm, ih.came, h1.trans ih.took, ih.call, ih.nodup, ih.conn, ih.owner, ih.served, fun j k hj => ?_⟩
      rw [h1]
      exact ih.hand j k ((h3 j k).mp hj)

theorem names {x : World} {cap n : Nat} {evs : List Ev} {w : HSt} (hc : 0 < cap) (h : Runs x (initial cap n) evs w) :
    ∃ qk, Names x cap n w qk := by
  induction h with
  | nil => exact ⟨_, names_start x cap n⟩
  | snoc _ hs ih => obtain ⟨qk, hq⟩ := ih; exact names_step hc hs hq

/-! ### the property -/

/-- C160, calls: the function the application has passed is called, and the server's own one only if it passed none. Each client that
passes the address filter is the subject of at most one call, in the order of arrival, nobody else of any, and the argument is the
descriptor of that client. -/
theorem C160_calls (x : World) (cap n : Nat) (hc : 0 < cap) (evs : List Ev) (w : HSt) (h : Runs x (initial cap n) evs w) :
    (∀ c ∈ w.calls, (∀ f, x.handler = some f → c.fn = .own f) ∧ (x.handler = none → c.fn = .http) ∧ c.socket = x.desc c.conn) ∧
    (w.calls.map Call.conn).Sublist ((List.range w.arrived).filter x.passes) := by
  obtain ⟨qk, hq⟩ := names hc h
  refine ⟨fun c hcm => ?_, by rw [← hq.came]; exact (hq.once hc).1⟩
  obtain ⟨h1, h2⟩ := hq.call c hcm
  refine ⟨fun f hf => ?_, fun hf => ?_, h2⟩ <;> rw [h1, hf] <;> rfl

/-- C160, at the call the descriptor is open, and it is that of the client. -/
theorem C160_open (x : World) (cap n : Nat) (hc : 0 < cap) (evs : List Ev) (w w' : HSt) (e : Ev) (c : Call) (h : Runs x (initial cap n) evs w)
    (hs : step x w e = some (ok w')) (hcall : w'.calls = w.calls ++ [c]) : c.socket ∈ w'.fds ∧ w'.conn c.socket = c.conn := by
  obtain ⟨qk, hq⟩ := names hc h
  obtain ⟨qk', hq'⟩ := names hc (h.snoc hs)
  have hmem : c ∈ w'.calls := by rw [hcall]; simp
  have hnd := (hq'.once hc).2.1
  rw [hcall, List.map_append, List.nodup_append] at hnd
  have hnot : c.conn ∉ w.calls.map Call.conn := fun hm => hnd.2.2 _ hm _ (by simp) rfl
  have hend : c.conn ∉ w'.ended := fun he => by
    have hend' : w'.ended = w.ended := by
      cases e with
      | error => rw [(error_ok hs).2.2]
      | close v => rw [(close_ok hs).2.2.2] at hcall; simp at hcall
      | connect =>
        obtain ⟨-, -, ⟨-, rfl⟩ | ⟨-, -, q, -, rfl⟩⟩ := connect_ok hs <;> rfl
      | thread a =>
        obtain ⟨-, hm⟩ := thread_ok hs
        cases hm with
        | back i v q _ _ _ _ hw => subst hw; rfl
        | done i v q _ _ _ _ hw => subst hw; simp at hcall
        | take i v q _ _ _ hw => subst hw; rfl
        | other q _ _ _ hw => subst hw; rfl
    rw [hend'] at he
    exact hnot (hq.served _ he)
  rw [(hq'.call c hmem).2]
  exact hq'.conn _ ((hq'.once hc).1.subset (List.mem_map_of_mem hmem)) hend

/-- C160, the connection is the application's: whatever happens after the call, the descriptor stays open and stays that of the client
until the application closes it. -/
theorem C160_kept (x : World) (f : Nat) (hf : x.handler = some f) (w w' : HSt) (evs : List Ev) (v k : Nat) (hv : v ∈ w.fds) (hk : w.conn v = k)
    (h : Runs x w evs w') (hcl : .close v ∉ evs) : v ∈ w'.fds ∧ w'.conn v = k := by
  have hx : chosen x.handler ≠ .http := by rw [hf]; simp [chosen]
  induction h with
  | nil => exact ⟨hv, hk⟩
  | @snoc w1 w2 e evs _ hs ih =>
    rw [List.mem_append, not_or, List.mem_singleton] at hcl
    obtain ⟨h1, h2⟩ := ih hcl.1
    cases e with
    | error => rw [(error_ok hs).2.2]; exact ⟨h1, h2⟩
    | close u =>
      obtain ⟨-, -, -, rfl⟩ := close_ok hs
      exact ⟨(List.mem_erase_of_ne (fun e => hcl.2 (by rw [e]))).mpr h1, h2⟩
    | connect =>
      obtain ⟨-, -, ⟨-, rfl⟩ | ⟨-, hn, q, -, rfl⟩⟩ := connect_ok hs
      · exact ⟨h1, h2⟩
      · refine ⟨?_, ?_⟩
        · dsimp only
          split
          · exact List.mem_cons_of_mem _ h1
          · exact h1
        · dsimp only
          rw [if_neg (fun e => hn (by rw [← e]; exact h1))]
          exact h2
    | thread a =>
      obtain ⟨-, hm⟩ := thread_ok hs
      cases hm with
      | back i v q _ _ _ _ hw => subst hw; exact ⟨h1, h2⟩
      | done i v q _ _ _ hx' hw => exact absurd hx' hx
      | take i v q _ _ _ hw => subst hw; exact ⟨h1, h2⟩
      | other q _ _ _ hw => subst hw; exact ⟨h1, h2⟩

/-- C160, everybody: when no thread has anything left to do, the clients that passed the filter are those of the calls and those that found
the queue full; if there are none of the latter, the calls are for exactly these clients, in the order of arrival. -/
theorem C160_all (x : World) (cap n : Nat) (hc : 0 < cap) (hn : 0 < n) (evs : List Ev) (w : HSt) (h : Runs x (initial cap n) evs w)
    (hr : Quiet w.q) :
    (∃ lost, ((List.range w.arrived).filter x.passes).Perm (w.calls.map Call.conn ++ lost) ∧ lost.map x.desc = w.q.dropped) ∧
    (w.q.dropped = [] → w.calls.map Call.conn = (List.range w.arrived).filter x.passes) := by
  obtain ⟨qk, hq⟩ := names hc h
  have hquiet : Quiet qk := Full.quiet_as (d := x.desc) (by rw [← hq.named]; exact hr)
  obtain ⟨h1, -⟩ := C53_drained cap n hc hn qk hq.reach hquiet
  have hsplit := hq.reach.ledger.split
  rw [Full.quiet_prod hc hn hq.reach hquiet, ← h1, hq.snd, hq.adm] at hsplit
  simp only [PPc.hand, List.append_nil] at hsplit
  have hd : qk.dropped.map x.desc = w.q.dropped := by rw [hq.named]; rfl
  refine ⟨⟨qk.dropped, by rw [← hq.came]; exact hsplit, hd⟩, fun he => ?_⟩
  rw [he, List.map_eq_nil_iff] at hd
  rw [hd, List.append_nil] at hsplit
  rw [← hq.came]
  exact (hq.once hc).1.eq_of_length hsplit.length_eq.symm

theorem reach {x : World} {cap n : Nat} {evs : List Ev} {w : HSt} (h : Runs x (initial cap n) evs w) : Reach cap n w.q := by
  induction h with
  | nil => exact .init
  | @snoc w1 w2 e evs _ hs ih =>
    cases e with
    | error => rw [(error_ok hs).2.2]; exact ih
    | close v => rw [(close_ok hs).2.2.2]; exact ih
    | connect =>
      obtain ⟨-, -, ⟨-, rfl⟩ | ⟨-, -, q, h2, rfl⟩⟩ := connect_ok hs
      · exact ih
      · exact ih.step h2
    | thread a =>
      obtain ⟨-, hm⟩ := thread_ok hs
      cases hm with
      | back i v q _ _ hq _ hw => subst hw; exact ih.step hq
      | done i v q _ _ hq _ hw => subst hw; exact ih.step hq
      | take i v q _ _ hq hw => subst hw; exact ih.step hq
      | other q _ _ hq hw => subst hw; exact ih.step hq

/-- C160, defined: no step of the server is undefined, whatever the application does with the descriptors it was given. -/
theorem C160_defined (x : World) (cap n : Nat) (hc : 0 < cap) (evs : List Ev) (w : HSt) (h : Runs x (initial cap n) evs w) (e : Ev) (c : C HSt)
    (hs : step x w e = some c) : c.IsOk := by
  have hinv := (reach h).inv hc
  have key : ∀ {a : Act} {g : QSt → C HSt} {c : C HSt}, (∀ q, (g q).IsOk) → (Queue.step w.q a).map (fun c => c.bind g) = some c → c.IsOk :=
    fun {a g c} hg he => by
      obtain ⟨c', h1, h2⟩ := Option.map_eq_some_iff.mp he
      obtain ⟨q, rfl, -⟩ := hinv.step h1
      subst h2
      exact hg q
  cases e with
  | error => simp only [step] at hs; split at hs <;> cases hs; exact ⟨_, rfl⟩
  | close v => simp only [step] at hs; split at hs <;> cases hs; exact ⟨_, rfl⟩
  | connect =>
    simp only [step, connect] at hs
    split at hs
    · cases hs
    split at hs
    · cases hs
    split at hs
    · cases hs; exact ⟨_, rfl⟩
    split at hs
    · cases hs
    exact key (fun q => ⟨_, rfl⟩) hs
  | thread a =>
    simp only [step] at hs
    split at hs
    · cases hs
    cases a with
    | accept v b => cases hs
    | worker i =>
      refine key (fun q => ?_) hs
      split
      · exact ⟨_, rfl⟩
      · split <;> exact ⟨_, rfl⟩
      · exact ⟨_, rfl⟩
    | _ => exact key (fun q => ⟨_, rfl⟩) hs

/-- C160, no handler: the process is that of Model/Server.lean, in which `accept_request` gets the connections and closes them. -/
theorem C160_http (x : World) (cap n : Nat) (evs : List Ev) (w : HSt) (hx : x.handler = none) (h : Runs x (initial cap n) evs w) :
    ∃ es, Server.Runs x.limit (Server.initial cap n) es ⟨w.q, w.fds, w.stopped⟩ := by
  have hx : chosen x.handler = .http := by rw [hx]; rfl
  induction h with
  | nil => exact ⟨[], .nil _⟩
  | @snoc w1 w2 e evs _ hs ih =>
    obtain ⟨es, ih⟩ := ih
    cases e with
    | close v => exact absurd hx (close_ok hs).1
    | error =>
      obtain ⟨h1, h2, rfl⟩ := error_ok hs
      exact ⟨es ++ [.error], ih.snoc (by simp [Server.step, h1, h2])⟩
    | connect =>
      obtain ⟨h1, h2, h3⟩ := connect_ok hs
      refine ⟨es ++ [.connect (x.desc w1.arrived) (x.passes w1.arrived)], ih.snoc ?_⟩
      rcases h3 with ⟨h3, rfl⟩ | ⟨h3, h4, q, h5, rfl⟩
      · simp [Server.step, h1, h2, h3]
      · simp only [Server.step, h1, h2, Bool.false_eq_true, if_false, if_neg h3, if_neg h4, h5]
        rfl
    | thread a =>
      obtain ⟨h1, hm⟩ := thread_ok hs
      refine ⟨es ++ [.thread a], ih.snoc ?_⟩
      cases hm with
      | back i v q _ _ _ h' hw => exact absurd hx h'
      | done i v q hai hi hq _ hw =>
        subst hai hw
        simp only [Server.step, h1, Bool.false_eq_true, if_false, hq, Server.closes, hi]
        rfl
      | take i v q hai hi hq hw =>
        subst hai hw
        simp only [Server.step, h1, Bool.false_eq_true, if_false, hq, Server.closes, hi]
        rfl
      | other q hai hi hq hw =>
        subst hw
        cases a with
        | accept v b => exact absurd rfl (hai v b)
        | worker i =>
          have hi := fun v => (hi i v rfl).1
          simp only [Server.step, h1, Bool.false_eq_true, if_false, hq, Server.closes]
          rfl
        | _ =>
          simp only [Server.step, h1, Bool.false_eq_true, if_false, hq, Server.closes]
          rfl

/-! ### an application that keeps its connections -/

/-- The events one after the other, computed. -/
def run (x : World) (w : HSt) : List Ev → Option HSt
  | [] => some w
  | e :: evs =>
    match step x w e with
    | some (ok w') => run x w' evs
    | _ => none

theorem Runs.append {x : World} {w w' : HSt} {evs : List Ev} (h : Runs x w evs w') : ∀ {evs' : List Ev} {w'' : HSt},
    run x w' evs' = some w'' → Runs x w (evs ++ evs') w'' := by
  intro evs'
  induction evs' generalizing evs w' with
  | nil => intro w'' e; cases e; simpa using h
  | cons e evs' ih =>
    intro w'' he
    simp only [run] at he
    split at he
    · have := ih (h.snoc (by assumption)) he
      simpa using this
    · cases he

theorem runs_of_run {x : World} {w w' : HSt} {evs : List Ev} (h : run x w evs = some w') : Runs x w evs w' := by
  simpa using (Runs.nil (x := x) w).append h

/-- A handler with the number 7; client 1 does not pass the address filter, and client 2 gets the descriptor client 0 had. -/
def ownWorld : World := { limit := 2, desc := fun k => if k = 3 then 6 else 5, passes := fun k => k ≠ 1, handler := some 7 }

/-- The accepting thread puts a connection in the queue. -/
def put : List Ev := [.connect] ++ List.replicate 7 (.thread .prod) ++ [.thread (.signal none)]

/-- A worker takes a connection out of it and calls the handler. -/
def serve (i : Nat) : List Ev := List.replicate 8 (.thread (.worker i))

/-- Client 0 is served, and the application closes its connection after the handler has returned. Client 1 is denied. Client 2 is served and
its connection kept; client 3 is served by the other worker meanwhile, and its handler closes the connection. -/
def day : List Ev :=
  put ++ serve 0 ++ [.thread (.worker 0), .close 5, .connect] ++ put ++ serve 0 ++ put ++ serve 1 ++ [.close 6] ++
    List.replicate 3 (.thread (.worker 0)) ++ List.replicate 3 (.thread (.worker 1))

theorem quiet_of {s : QSt} (h1 : s.prod = .accept) (h2 : ∀ pc ∈ s.workers, pc = .waiting) : Quiet s := by
  intro a ha
  cases a with
  | accept v b => exact ha.elim
  | spurious i => exact ha.elim
  | prod => simp [Queue.step, prodStep, h1]
  | signal w => simp [Queue.step, h1]
  | worker i =>
    simp only [Queue.step, workerStep]
    cases hi : s.workers[i]? with
    | none => rfl
    | some pc => rw [h2 pc (List.mem_of_getElem? hi)]

/-- At the end all is quiet, nobody was turned away, three calls were made, and one connection is still open. -/
example : ∃ w, Runs ownWorld (initial 1 2) day w ∧ Quiet w.q ∧ w.q.dropped = [] ∧ w.fds = [5] ∧ w.conn 5 = 2 ∧ w.arrived = 4 ∧
    w.calls = [⟨.own 7, 0, 0, 5⟩, ⟨.own 7, 0, 2, 5⟩, ⟨.own 7, 1, 3, 6⟩] := by
  have e : (run ownWorld (initial 1 2) day).map (fun w => ((w.q.dropped, w.fds, w.conn 5, w.arrived), w.calls, w.q.prod, w.q.workers)) =
      some (([], [5], 2, 4), [⟨.own 7, 0, 0, 5⟩, ⟨.own 7, 0, 2, 5⟩, ⟨.own 7, 1, 3, 6⟩], .accept, [.waiting, .waiting]) := by decide +kernel
  obtain ⟨w, hw, h⟩ := Option.map_eq_some_iff.mp e
  simp only [Prod.mk.injEq] at h
  obtain ⟨⟨h1, h2, h3, h4⟩, h5, h6, h7⟩ := h
  exact ⟨w, runs_of_run hw, quiet_of h6 (by rw [h7]; simp), h1, h2, h3, h4, h5⟩

/-- The call for client 2, and what happens after it. -/
example : ∃ w w' w'', Runs ownWorld (initial 1 2) (day.take 36) w ∧ step ownWorld w (.thread (.worker 0)) = some (ok w') ∧
    w'.calls = w.calls ++ [⟨.own 7, 0, 2, 5⟩] ∧ Runs ownWorld w' (day.drop 37) w'' ∧ .close 5 ∉ day.drop 37 ∧ day.drop 37 ≠ [] := by
  have e : (run ownWorld (initial 1 2) (day.take 36)).map (fun w => (w.calls, (step ownWorld w (.thread (.worker 0))).map fun c => c.bind fun w' =>
      ok (w'.calls, (run ownWorld w' (day.drop 37)).isSome))) =
      some ([⟨.own 7, 0, 0, 5⟩], some (ok ([⟨.own 7, 0, 0, 5⟩, ⟨.own 7, 0, 2, 5⟩], true))) := by decide +kernel
  obtain ⟨w, hw, h⟩ := Option.map_eq_some_iff.mp e
  simp only [Prod.mk.injEq] at h
  obtain ⟨c, hc, h2⟩ := Option.map_eq_some_iff.mp h.2
  obtain ⟨w', rfl, h3⟩ := bind_eq_ok.mp h2
  simp only [C.ok.injEq, Prod.mk.injEq] at h3
  obtain ⟨w'', hw''⟩ := Option.isSome_iff_exists.mp h3.2
  exact ⟨w, w', w'', runs_of_run hw, hc, by rw [h3.1, h.1]; rfl, runs_of_run hw'', by decide, by decide⟩

/-- A queue that is full: client 1 is turned away, and the other one gets its call. -/
example : ∃ w, Runs { ownWorld with passes := fun _ => true, desc := fun k => k + 5 } (initial 1 1)
    (put ++ [.connect] ++ List.replicate 3 (.thread .prod) ++ [.thread (.signal none)] ++ serve 0 ++ List.replicate 3 (.thread (.worker 0))) w ∧
    Quiet w.q ∧ w.q.dropped = [6] ∧ w.calls.map Call.conn = [0] := by
  have e : (run { ownWorld with passes := fun _ => true, desc := fun k => k + 5 } (initial 1 1)
      (put ++ [.connect] ++ List.replicate 3 (.thread .prod) ++ [.thread (.signal none)] ++ serve 0 ++ List.replicate 3 (.thread (.worker 0)))).map
      (fun w => ((w.q.dropped, w.calls.map Call.conn), w.q.prod, w.q.workers)) = some (([6], [0]), .accept, [.waiting]) := by decide +kernel
  obtain ⟨w, hw, h⟩ := Option.map_eq_some_iff.mp e
  simp only [Prod.mk.injEq] at h
  exact ⟨w, runs_of_run hw, quiet_of h.2.1 (by rw [h.2.2]; simp), h.1.1, h.1.2⟩

/-- Without a handler `accept_request` gets the connection and closes it. -/
example : ∃ w, Runs { ownWorld with handler := none } (initial 1 2) (put ++ serve 0 ++ [.thread (.worker 0)]) w ∧ w.fds = [] ∧
    w.calls = [⟨.http, 0, 0, 5⟩] := by
  have e : (run { ownWorld with handler := none } (initial 1 2) (put ++ serve 0 ++ [.thread (.worker 0)])).map (fun w => (w.fds, w.calls)) =
      some ([], [⟨.http, 0, 0, 5⟩]) := by decide +kernel
  obtain ⟨w, hw, h⟩ := Option.map_eq_some_iff.mp e
  simp only [Prod.mk.injEq] at h
  exact ⟨w, runs_of_run hw, h.1, h.2⟩

end Wayuu.Hook
