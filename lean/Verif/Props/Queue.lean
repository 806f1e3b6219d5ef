import Verif.Lemmas.Queue
import Verif.Spec.Queue
/-
Properties C52, C53 and C66 (ws.c, the queue between the accepting thread and the workers).
-/
namespace Wayuu
open C Spec Queue

theorem Queue.Reach.runs {cap n : Nat} {s s' : QSt} {acts : List Act} (h : Reach cap n s) (hr : QRuns s acts s') : Reach cap n s' := by
  induction hr with
  | nil => exact h
  | cons hs _ ih => exact ih (h.step hs)

/-! ### C52 -/

/-- C52, order and uniqueness: for every schedule, what the workers got is a beginning of what was put in the
queue, position by position, so every socket goes to exactly one worker and in order; the queue received a part
of the accepted sockets in the order of acceptance. -/
theorem C52_fifo (cap n : Nat) (hc : 0 < cap) (s : QSt) (h : Reach cap n s) :
    s.delivered.map Prod.snd <+: s.enqueued ∧ s.enqueued.Sublist s.accepted := by
  obtain ⟨q, f, r, he, -⟩ := (h.inv hc).ring
  obtain ⟨b, hb, ha⟩ := h.ledger.order
  refine ⟨⟨q, he.symm⟩, ?_⟩
  rw [ha]
  exact hb.trans (List.sublist_append_left _ _)

/-- C52, capacity: at most `cap` sockets wait; the counter is exact whenever the mutex is free, and a socket is
turned away only when `cap` are waiting. -/
theorem C52_bounded (cap n : Nat) (hc : 0 < cap) (s : QSt) (h : Reach cap n s) :
    (pending s).length ≤ cap ∧ (s.owner = none → s.ring.size = (pending s).length) ∧
    (∀ a s', step s a = some (ok s') → s'.dropped ≠ s.dropped → (pending s).length = cap) := by
  have hinv := h.inv hc
  obtain ⟨q, f, r, he, hq⟩ := hinv.ring
  have hp : pending s = q := by
    unfold pending
    rw [he, List.drop_append_of_le_length (by simp)]
    simp
  rw [hp]
  refine ⟨hq.room, ?_, ?_⟩
  · intro ho
    have := hq.phase
    unfold Phase at this
    rw [ho] at this
    exact this.1
  · intro a s' hs hd
    unfold step at hs
    cases a with
    | accept v b =>
      simp only at hs
      split at hs
      · split at hs <;> (cases hs; exact absurd rfl hd)
      · cases hs
    | signal w =>
      simp only at hs
      split at hs
      · split at hs
        · cases hs
        · cases hs; exact absurd rfl hd
      · split at hs
        · cases hs; exact absurd rfl hd
        · cases hs
      · cases hs
    | spurious i =>
      simp only at hs
      split at hs
      · cases hs; exact absurd rfl hd
      · cases hs
    | worker i =>
      exfalso
      simp only at hs
      unfold workerStep at hs
      split at hs
      · cases hs
      · split at hs
        · split at hs
          · cases hs; exact hd rfl
          · cases hs
        · split at hs <;> (cases hs; exact hd rfl)
        · cases hs
        · split at hs
          · cases hs; exact hd rfl
          · cases hs
        · simp only [Option.some.injEq] at hs
          rw [bind_eq_ok] at hs
          obtain ⟨v, -, h2⟩ := hs
          cases h2; exact hd rfl
        · split at hs <;> (cases hs; exact hd rfl)
        · cases hs; exact hd rfl
        · cases hs; exact hd rfl
        · cases hs; exact hd rfl
        · cases hs; exact hd rfl
        · cases hs; exact hd rfl
    | prod =>
      simp only at hs
      unfold prodStep at hs
      cases hpr : s.prod with
      | test v =>
        have ho := hinv.mutexP (by rw [hpr]; rfl)
        have hph := hq.phase
        unfold Phase at hph
        rw [ho] at hph
        simp only [hpr] at hph
        rw [hpr] at hs
        simp only at hs
        split at hs
        · cases hs; exact absurd rfl hd
        · rename_i hz
          simp only [ne_eq, Decidable.not_not] at hz
          rw [hph.1, hq.capacity] at hz
          omega
      | store v =>
        rw [hpr] at hs
        simp only [Option.some.injEq] at hs
        rw [bind_eq_ok] at hs
        obtain ⟨v, -, h2⟩ := hs
        cases h2; exact absurd rfl hd
      | lock v =>
        rw [hpr] at hs
        simp only at hs
        split at hs
        · cases hs; exact absurd rfl hd
        · cases hs
      | accept => rw [hpr] at hs; cases hs
      | signal => rw [hpr] at hs; cases hs
      | incSize v => rw [hpr] at hs; cases hs; exact absurd rfl hd
      | incRear v => rw [hpr] at hs; cases hs; exact absurd rfl hd
      | wrap v => rw [hpr] at hs; cases hs; exact absurd rfl hd
      | unlock => rw [hpr] at hs; cases hs; exact absurd rfl hd

/-- C52, memory: no step of any schedule reads or writes outside the ring or reads an empty slot. -/
theorem C52_safe (cap n : Nat) (hc : 0 < cap) (s : QSt) (h : Reach cap n s) (a : Act) (f : Fault) :
    step s a ≠ some (ub f) := by
  intro hs
  obtain ⟨s', he, -⟩ := (h.inv hc).step hs
  cases he

/-- C52, mutual exclusion: never two threads between lock and unlock. -/
theorem C52_exclusive (cap n : Nat) (hc : 0 < cap) (s : QSt) (h : Reach cap n s) :
    (∀ (i j : Nat) a b, s.workers[i]? = some a → s.workers[j]? = some b → Locked a → Locked b → i = j) ∧
    (∀ (i : Nat) a, s.workers[i]? = some a → Locked a → ¬ ProdLocked s.prod) := by
  have hinv := h.inv hc
  have hW : ∀ a, Locked a → a.holds = true := by intro a ha; cases a <;> first | rfl | exact ha.elim
  have hP : ∀ a, ProdLocked a → a.holds = true := by intro a ha; cases a <;> first | rfl | exact ha.elim
  refine ⟨?_, ?_⟩
  · intro i j a b hi hj ha hb
    have h1 := hinv.mutexW i _ hi (hW a ha)
    have h2 := hinv.mutexW j _ hj (hW b hb)
    rw [h1] at h2
    simpa using h2
  · intro i a hi ha hp
    have h1 := hinv.mutexW i _ hi (hW a ha)
    have h2 := hinv.mutexP (hP _ hp)
    rw [h1] at h2
    cases h2

/-- The schedule that accepts socket `v` and stores it. -/
def putIn (v : Nat) : List Act := [.accept v true, .prod, .prod, .prod, .prod, .prod, .prod, .prod, .signal none]
/-- The schedule in which worker `i`, at its lock, takes a socket. -/
def takeOut (i : Nat) : List Act := List.replicate 8 (.worker i)

/-- Three sockets through a ring of two: the indices wrap around. -/
example : ∃ s, Reach 2 2 s ∧ s.enqueued = [4, 5, 6] ∧ s.delivered = [(0, 4), (1, 5), (0, 6)] ∧ s.ring.front = 1 := by
  have h : (runActs (initial 2 2) (putIn 4 ++ putIn 5 ++ takeOut 0 ++ takeOut 1 ++ putIn 6 ++ [.worker 0] ++ takeOut 0)).map
      (fun s => (s.enqueued, s.delivered, s.ring.front)) = some ([4, 5, 6], [(0, 4), (1, 5), (0, 6)], 1) := by decide +kernel
  obtain ⟨s, hs, he⟩ := Option.map_eq_some_iff.mp h
  simp only [Prod.mk.injEq] at he
  exact ⟨s, Reach.init.runs (runs_of_runActs hs), he⟩

/-! ### C53 -/

/-- C53: for every schedule, if a worker is asleep, there are at least as many workers woken up or already
fetching (plus a signal still to be sent) as sockets in the queue: no wake-up is lost. -/
theorem C53_woken (cap n : Nat) (hc : 0 < cap) (s : QSt) (h : Reach cap n s) (i : Nat) (hi : s.workers[i]? = some .waiting) :
    s.ring.size ≤ ((s.workers.filter (fun pc => match pc with
        | .relock | .test | .read | .check _ | .dec _ => true
        | _ => false)).length : Int) +
      (match s.prod with
        | .incRear _ | .wrap _ | .store _ | .unlock | .signal => 1
        | _ => 0) := by
  have hw := h.woken hc (List.countP_pos_iff.2 ⟨_, List.mem_of_getElem? hi, rfl⟩)
  rw [List.countP_eq_length_filter] at hw
  have e : (fun pc => match pc with
        | .relock | .test | .read | .check _ | .dec _ => true
        | _ => false : WPc → Bool) = WPc.fetching := by
    funext pc; cases pc <;> rfl
  rw [e]
  cases hp : s.prod <;> rw [hp] at hw <;> simpa [PPc.owing] using hw

/-- C53, outcome: whenever no thread can move any more without a new connection, every socket put in the queue
has been handed to a worker, provided there is at least one worker. -/
theorem C53_drained (cap n : Nat) (hc : 0 < cap) (hn : 0 < n) (s : QSt) (h : Reach cap n s) (hq : Quiet s) :
    s.delivered.map Prod.snd = s.enqueued ∧ ∀ pc ∈ s.workers, pc = .waiting := by
  have hinv := h.inv hc
  obtain ⟨q, f, r, he, hh⟩ := hinv.ring
  have hlen : s.workers.length = n := h.workers_length
  -- nobody holds the mutex
  have hown : s.owner = none := by
    cases ho : s.owner with
    | none => rfl
    | some o =>
      exfalso
      have hph := hh.phase
      unfold Phase at hph
      rw [ho] at hph
      cases o with
      | prod =>
        have h1 := hq .prod trivial
        simp only [step, prodStep] at h1
        cases hp : s.prod <;> rw [hp] at h1 hph <;> simp only at h1 hph
        all_goals first | exact hph | cases h1 | skip
        split at h1 <;> cases h1
      | worker i =>
        have h1 := hq (.worker i) trivial
        simp only [step, workerStep] at h1
        cases hi : s.workers[i]? with
        | none => simp only [hi] at hph
        | some pc =>
          simp only [hi] at h1 hph
          cases pc <;> simp only at h1 hph
          all_goals first | exact hph.elim | (split at h1 <;> cases h1) | cases h1
  have hall : ∀ pc ∈ s.workers, pc = .waiting := by
    intro pc hpc
    obtain ⟨i, hi⟩ := List.mem_iff_getElem?.mp hpc
    have h1 := hq (.worker i) trivial
    simp only [step, workerStep, hi, hown] at h1
    cases pc <;> first | rfl | (simp at h1; done) | (exfalso; simp only at h1; split at h1 <;> cases h1)
  have hprod : s.prod = .accept := by
    have h1 := hq .prod trivial
    simp only [step, prodStep, hown] at h1
    cases hp : s.prod <;> rw [hp] at h1 <;> simp only at h1
    case signal =>
      have h2 := hq (.signal (some 0)) trivial
      simp only [step, hp] at h2
      have h0 : s.workers[0]? = some .waiting := by
        have hlt : 0 < s.workers.length := by omega
        rw [List.getElem?_eq_getElem hlt, hall _ (List.getElem_mem hlt)]
      rw [if_pos h0] at h2
      cases h2
    all_goals first | cases h1 | (simp at h1; done) | (split at h1 <;> cases h1)
  refine ⟨?_, hall⟩
  have hw := h.woken hc
  have hpos : 0 < s.workers.countP WPc.asleep := by
    have hlt : 0 < s.workers.length := by omega
    exact List.countP_pos_iff.2 ⟨_, List.getElem_mem hlt, by rw [hall _ (List.getElem_mem hlt)]; rfl⟩
  have h0 : s.workers.countP WPc.fetching = 0 := by
    rw [List.countP_eq_zero]
    intro pc hpc
    rw [hall pc hpc]
    simp [WPc.fetching]
  have hsz := hw hpos
  rw [h0, hprod] at hsz
  simp only [PPc.owing, Bool.toNat_false] at hsz
  have hph := hh.phase
  unfold Phase at hph
  rw [hown] at hph
  rw [hph.1] at hsz
  have hq0 : q = [] := List.length_eq_zero_iff.mp (by omega)
  rw [he, hq0, List.append_nil]

/-- C53, progress: from every reachable state, only boundedly many steps can be made without a new connection or
a spurious wake-up, whatever the schedule. With `C53_drained`, every socket in the queue reaches a worker. -/
theorem C53_progress (cap n : Nat) (hc : 0 < cap) (s : QSt) (h : Reach cap n s) :
    ∃ bound, ∀ acts s', (∀ a ∈ acts, Inner a) → QRuns s acts s' → acts.length ≤ bound := by
  refine ⟨s.work, fun acts s' hin hr => ?_⟩
  suffices hk : acts.length + s'.work ≤ s.work by omega
  induction hr with
  | nil => simp
  | @cons s s1 s2 a acts hs hr ih =>
    have h1 := ih (h.step hs) (fun a ha => hin a (by simp [ha]))
    have h2 : s1.work < s.work := by
      have hin := hin a (by simp)
      cases a with
      | accept v b => exact hin.elim
      | spurious i => exact hin.elim
      | prod => exact work_prod (h.inv hc) hs
      | worker i => exact work_worker (h.inv hc) hs
      | signal w => exact work_signal hs
    simp only [List.length_cons]; omega

/-- A sleeping worker, a queued socket and the signal still to come. -/
example : ∃ s, Reach 2 2 s ∧ s.workers[0]? = some .waiting ∧ s.ring.size = 1 := by
  have h : (runActs (initial 2 2) ([.worker 0, .worker 0, .accept 4 true] ++ List.replicate 7 .prod)).map
      (fun s => (s.workers[0]?, s.ring.size)) = some (some .waiting, 1) := by decide +kernel
  obtain ⟨s, hs, he⟩ := Option.map_eq_some_iff.mp h
  simp only [Prod.mk.injEq] at he
  exact ⟨s, Reach.init.runs (runs_of_runActs hs), he⟩

/-- A quiet state with something delivered. -/
example : ∃ s, Reach 2 1 s ∧ s.workers = [.waiting] ∧ s.prod = .accept ∧ s.delivered = [(0, 4)] ∧ Quiet s := by
  have h : (runActs (initial 2 1) (putIn 4 ++ List.replicate 11 (.worker 0))).map
      (fun s => (s.workers, s.prod, s.delivered)) = some ([.waiting], .accept, [(0, 4)]) := by decide +kernel
  obtain ⟨s, hs, he⟩ := Option.map_eq_some_iff.mp h
  simp only [Prod.mk.injEq] at he
  refine ⟨s, Reach.init.runs (runs_of_runActs hs), he.1, he.2.1, he.2.2, ?_⟩
  intro a ha
  cases a with
  | accept v b => exact ha.elim
  | spurious i => exact ha.elim
  | prod => simp [step, prodStep, he.2.1]
  | signal w => cases w <;> simp [step, he.2.1]
  | worker i =>
    simp only [step, workerStep, he.1]
    cases i <;> simp

/-! ### C66 -/

/-- C66 as stated: once the accepting thread is done with a socket that was denied or found no room, the socket is closed. -/
def C66_statement : Prop :=
  ∀ n s, Reach 1024 n s → s.prod = .accept → ∀ v ∈ s.dropped, v ∈ s.closed

/-- Fill the queue while no worker runs. -/
theorem fill (cap n : Nat) (v : Nat) (k : Nat) (hk : k ≤ cap) :
    ∃ s, Reach cap n s ∧ s.prod = .accept ∧ s.owner = none ∧ s.closed = [] ∧ s.dropped = [] ∧
      s.ring.size = k ∧ s.ring.capacity = cap ∧ s.ring.rear < cap ∧ -1 ≤ s.ring.rear ∧ s.ring.elements.length = cap ∧
      .waiting ∉ s.workers := by
  induction k with
  | zero => exact ⟨_, .init, rfl, rfl, rfl, rfl, rfl, rfl, by simp [initial, ws_create_queue]; omega, by simp [initial, ws_create_queue],
      by simp [initial, ws_create_queue], by simp [initial]⟩
  | succ k ih =>
    obtain ⟨s, hr, h1, h2, h3, h4, h5, h6, h7, h8, h9, h10⟩ := ih (by omega)
    have r1 := hr.step (a := .accept v true) (s' := { s with prod := .lock v, accepted := s.accepted ++ [v] }) (by simp [step, h1])
    have r2 := r1.step (a := .prod) (s' := { s with prod := .test v, accepted := s.accepted ++ [v], owner := some .prod })
      (by simp [step, prodStep, h2])
    have r3 := r2.step (a := .prod) (s' := { s with prod := .incSize v, accepted := s.accepted ++ [v], owner := some .prod })
      (by simp only [step, prodStep]; rw [if_pos (by rw [h5, h6]; omega)])
    have r4 := r3.step (a := .prod) (s' := { s with prod := .incRear v, accepted := s.accepted ++ [v], owner := some .prod,
                                                    ring := { s.ring with size := s.ring.size + 1 } })
      (by simp only [step, prodStep])
    have r5 := r4.step (a := .prod) (s' := { s with prod := .wrap v, accepted := s.accepted ++ [v], owner := some .prod,
                                                    ring := { s.ring with size := s.ring.size + 1, rear := s.ring.rear + 1 } })
      (by simp only [step, prodStep])
    obtain ⟨p, hp0, hp1, r6⟩ : ∃ p : Int, 0 ≤ p ∧ p < cap ∧
        Reach cap n { s with prod := .store v, accepted := s.accepted ++ [v], owner := some .prod,
                             ring := { s.ring with size := s.ring.size + 1, rear := p } } := by
      by_cases hw : s.ring.rear + 1 = s.ring.capacity
      · refine ⟨0, by omega, by omega, r5.step (a := .prod) ?_⟩
        simp only [step, prodStep]
        rw [if_pos hw]
      · refine ⟨s.ring.rear + 1, by omega, by rw [h6] at hw; omega, r5.step (a := .prod) ?_⟩
        simp only [step, prodStep]
        rw [if_neg hw]
    have r7 := r6.step (a := .prod) (s' := { s with prod := .unlock, accepted := s.accepted ++ [v], owner := some .prod,
                                                    enqueued := s.enqueued ++ [v],
                                                    ring := { s.ring with size := s.ring.size + 1, rear := p,
                                                                          elements := s.ring.elements.set p.toNat (some v) } })
      (by simp only [step, prodStep, storeElem]; rw [if_neg (by omega), if_pos (by rw [h9]; omega)]; rfl)
    have r8 := r7.step (a := .prod) rfl
    have r9 := r8.step (a := .signal none) (by simp only [step]; rw [if_neg h10])
    refine ⟨_, r9, rfl, rfl, h3, h4, by simp [h5], h6, hp1, by show -1 ≤ p; omega, by simp [h9], h10⟩

/-- C66, overload: for every capacity and every number of workers, there is a history after which a socket has been
dropped and will never be looked at again: it is neither closed nor in the queue. -/
theorem C66_leak (cap n v : Nat) :
    ∃ s, Reach cap n s ∧ s.prod = .accept ∧ s.dropped = [v] ∧ s.closed = [] := by
  obtain ⟨s, hr, h1, h2, h3, h4, h5, h6, h7, h8, h9, h10⟩ := fill cap n 7 cap (by omega)
  have r1 := hr.step (a := .accept v true) (s' := { s with prod := .lock v, accepted := s.accepted ++ [v] }) (by simp [step, h1])
  have r2 := r1.step (a := .prod) (s' := { s with prod := .test v, accepted := s.accepted ++ [v], owner := some .prod })
    (by simp [step, prodStep, h2])
  have r3 := r2.step (a := .prod) (s' := { s with prod := .unlock, accepted := s.accepted ++ [v], owner := some .prod,
                                                  dropped := s.dropped ++ [v] })
    (by simp only [step, prodStep]; rw [if_neg (by rw [h5, h6]; simp)])
  have r4 := r3.step (a := .prod) rfl
  have r5 := r4.step (a := .signal none) (by simp only [step]; rw [if_neg h10])
  exact ⟨_, r5, rfl, by simp [h4], h3⟩

/-- C66 is false: with the queue of 1024 full, the socket is dropped without being closed. -/
theorem C66_refuted : ¬ C66_statement := by
  intro h
  obtain ⟨s, hr, h1, h2, h3⟩ := C66_leak 1024 200 5
  have := h 200 s hr h1 5 (by rw [h2]; simp)
  rw [h3] at this
  cases this

/-- What does hold of C66: a denied socket is closed at once and goes nowhere else; every accepted socket is in
exactly one place (queue, turned away or in the accepting thread's hands), so when the accepted sockets are
distinct no worker ever receives one that was turned away. Missing: sockets turned away are not closed. -/
theorem C66_partial (cap n : Nat) (hc : 0 < cap) (s : QSt) (h : Reach cap n s) :
    (∀ v s', step s (.accept v false) = some (ok s') → s' = { s with closed := s.closed ++ [v] }) ∧
    (∀ a s', step s a = some (ok s') → s'.closed = s.closed ∨ ∃ v, a = .accept v false) ∧
    (∃ hand, hand.length ≤ 1 ∧ (s.prod = .accept → hand = []) ∧ s.accepted.Perm (s.enqueued ++ s.dropped ++ hand)) ∧
    (s.accepted.Nodup → ∀ v ∈ s.dropped, v ∉ s.delivered.map Prod.snd) := by
  refine ⟨?_, ?_, ⟨s.prod.hand, ?_, ?_, h.ledger.split⟩, ?_⟩
  · intro v s' hs
    simp only [step, Bool.false_eq_true, if_false] at hs
    split at hs
    · cases hs; rfl
    · cases hs
  · intro a s' hs
    unfold step at hs
    cases a with
    | accept v b =>
      simp only at hs
      split at hs
      · split at hs
        · cases hs; left; rfl
        · rename_i hb
          right; exact ⟨v, by simp at hb; rw [hb]⟩
      · cases hs
    | signal w =>
      left
      simp only at hs
      split at hs
      · split at hs
        · cases hs
        · cases hs; rfl
      · split at hs
        · cases hs; rfl
        · cases hs
      · cases hs
    | spurious i =>
      left
      simp only at hs
      split at hs
      · cases hs; rfl
      · cases hs
    | worker i =>
      left
      simp only at hs
      unfold workerStep at hs
      split at hs
      · cases hs
      · split at hs
        · split at hs
          · cases hs; rfl
          · cases hs
        · split at hs <;> (cases hs; rfl)
        · cases hs
        · split at hs
          · cases hs; rfl
          · cases hs
        · simp only [Option.some.injEq] at hs
          rw [bind_eq_ok] at hs
          obtain ⟨v, -, h2⟩ := hs
          cases h2; rfl
        · split at hs <;> (cases hs; rfl)
        · cases hs; rfl
        · cases hs; rfl
        · cases hs; rfl
        · cases hs; rfl
        · cases hs; rfl
    | prod =>
      left
      simp only at hs
      unfold prodStep at hs
      split at hs
      · cases hs
      · split at hs
        · cases hs; rfl
        · cases hs
      · split at hs <;> (cases hs; rfl)
      · cases hs; rfl
      · cases hs; rfl
      · cases hs; rfl
      · simp only [Option.some.injEq] at hs
        rw [bind_eq_ok] at hs
        obtain ⟨v, -, h2⟩ := hs
        cases h2; rfl
      · cases hs; rfl
      · cases hs
  · cases s.prod <;> simp [PPc.hand]
  · intro hp; rw [hp]; rfl
  · intro hnd v hv hd
    have hnd2 := h.ledger.split.nodup_iff.mp hnd
    have hpre := (C52_fifo cap n hc s h).1
    have hmem : v ∈ s.enqueued := hpre.subset hd
    have h3 := (List.nodup_append.mp hnd2).1
    exact (List.nodup_append.mp h3).2.2 v hmem v hv rfl

example : ∃ s, Reach 1 1 s ∧ s.dropped = [5] ∧ s.delivered = [(0, 4)] ∧ s.closed = [9] ∧ s.accepted.Nodup := by
  have h : (runActs (initial 1 1) (putIn 4 ++ [.accept 9 false, .accept 5 true, .prod, .prod, .prod, .signal none] ++ takeOut 0)).map
      (fun s => (s.dropped, s.delivered, s.closed, decide s.accepted.Nodup)) = some ([5], [(0, 4)], [9], true) := by decide +kernel
  obtain ⟨s, hs, he⟩ := Option.map_eq_some_iff.mp h
  simp only [Prod.mk.injEq, decide_eq_true_eq] at he
  exact ⟨s, Reach.init.runs (runs_of_runActs hs), he⟩

end Wayuu
