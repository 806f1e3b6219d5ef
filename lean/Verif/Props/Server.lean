import Verif.Lemmas.Server
/-
C78: overload and the end of the server process. C79: sockets of different clients are kept apart.
-/
namespace Wayuu
open C Spec Queue Server

/-! ### C78 -/

/-- However many clients connect, the server goes on: there are descriptors for a full queue and for all workers. -/
def C78_statement : Prop :=
  ∀ (limit cap n : Nat) (evs : List Ev) (s : SSt), 0 < cap → cap + n < limit → Ev.error ∉ evs →
    Runs limit (Server.initial cap n) evs s → s.stopped = false

/-- The accepting thread is back at `accept`, nobody holds the lock and no worker sleeps. -/
structure Ready (cap : Nat) (s : SSt) : Prop where
  prod : s.q.prod = .accept
  owner : s.q.owner = none
  alive : s.stopped = false
  awake : .waiting ∉ s.q.workers
  size : s.q.ring.size ≤ cap
  capacity : s.q.ring.capacity = cap
  rear : s.q.ring.rear < cap
  rear0 : -1 ≤ s.q.ring.rear
  cells : s.q.ring.elements.length = cap

/-- One more client while the workers do not run. -/
theorem one_more {limit cap n : Nat} (hc : 0 < cap) {evs : List Ev} {s : SSt} (hr : Runs limit (Server.initial cap n) evs s) (h : Ready cap s)
    (hl : s.fds.length < limit) (he : Ev.error ∉ evs) {v : Nat} (hv : v ∉ s.fds) :
    ∃ evs' s', Runs limit (Server.initial cap n) evs' s' ∧ Ready cap s' ∧ s'.fds = v :: s.fds ∧ Ev.error ∉ evs' ∧
      (s.q.ring.size < cap → s'.q.ring.size = s.q.ring.size + 1 ∧ s'.q.dropped = s.q.dropped) ∧
      (s.q.ring.size = cap → s'.q.ring.size = cap ∧ s'.q.dropped = s.q.dropped ++ [v]) := by
  obtain ⟨q, fds, stopped⟩ := s
  obtain ⟨ring, owner, prod, workers, accepted, enqueued, dropped, closed, delivered⟩ := q
  obtain ⟨h1, h2, h3, h4, h5, h6, h7, h8, h9⟩ := h
  simp only at h1 h2 h3 h4 h5 h6 h7 h8 h9 hl hv
  subst h1 h2 h3
  have r1 := hr.snoc (e := .connect v true) (s'' := ⟨⟨ring, none, .lock v, workers, accepted ++ [v], enqueued, dropped, closed, delivered⟩,
    v :: fds, false⟩) (by
      simp only [Server.step, Bool.false_eq_true, if_false]
      rw [if_neg (by omega), if_neg hv]
      rfl)
  have r2 := r1.snoc (e := .thread .prod) (s'' := ⟨⟨ring, some .prod, .test v, workers, accepted ++ [v], enqueued, dropped, closed, delivered⟩,
    v :: fds, false⟩) rfl
  by_cases hfull : ring.size = ring.capacity
  · have r3 := r2.snoc (e := .thread .prod) (s'' := ⟨⟨ring, some .prod, .unlock, workers, accepted ++ [v], enqueued, dropped ++ [v], closed,
      delivered⟩, v :: fds, false⟩) (by
        simp only [Server.step, Bool.false_eq_true, if_false, Queue.step, prodStep]
        rw [if_neg (by simpa using hfull)]
        rfl)
    have r4 := r3.snoc (e := .thread .prod) (s'' := ⟨⟨ring, none, .signal, workers, accepted ++ [v], enqueued, dropped ++ [v], closed,
      delivered⟩, v :: fds, false⟩) rfl
    have r5 := r4.snoc (e := .thread (.signal none)) (s'' := ⟨⟨ring, none, .accept, workers, accepted ++ [v], enqueued, dropped ++ [v], closed,
      delivered⟩, v :: fds, false⟩) (by
        simp only [Server.step, Bool.false_eq_true, if_false, Queue.step]
        rw [if_neg h4]
        rfl)
    exact ⟨_, _, r5, ⟨rfl, rfl, rfl, h4, h5, h6, h7, h8, h9⟩, rfl, by simp [he], fun hlt => absurd (hfull.trans h6) (by simp only at hlt; omega), fun heq => ⟨heq, rfl⟩⟩
  · have r3 := r2.snoc (e := .thread .prod) (s'' := ⟨⟨ring, some .prod, .incSize v, workers, accepted ++ [v], enqueued, dropped, closed,
      delivered⟩, v :: fds, false⟩) (by
        simp only [Server.step, Bool.false_eq_true, if_false, Queue.step, prodStep]
        rw [if_pos hfull]
        rfl)
    have r4 := r3.snoc (e := .thread .prod) (s'' := ⟨⟨{ ring with size := ring.size + 1 }, some .prod, .incRear v, workers,
      accepted ++ [v], enqueued, dropped, closed, delivered⟩, v :: fds, false⟩) rfl
    have r5 := r4.snoc (e := .thread .prod) (s'' := ⟨⟨{ ring with size := ring.size + 1, rear := ring.rear + 1 }, some .prod, .wrap v,
      workers, accepted ++ [v], enqueued, dropped, closed, delivered⟩, v :: fds, false⟩) rfl
    obtain ⟨evs', p, hp0, hp1, hev, r6⟩ : ∃ (evs' : List Ev) (p : Int), 0 ≤ p ∧ p < cap ∧ Ev.error ∉ evs' ∧
        Runs limit (Server.initial cap n) evs' ⟨⟨{ ring with size := ring.size + 1, rear := p }, some .prod, .store v,
          workers, accepted ++ [v], enqueued, dropped, closed, delivered⟩, v :: fds, false⟩ := by
      by_cases hw : ring.rear + 1 = ring.capacity
      · refine ⟨_, 0, by omega, by omega, ?_, r5.snoc (e := .thread .prod) ?_⟩
        · simp [he]
        · simp only [Server.step, Bool.false_eq_true, if_false, Queue.step, prodStep]
          rw [if_pos hw]
          rfl
      · refine ⟨_, ring.rear + 1, by omega, by rw [h6] at hw; omega, ?_, r5.snoc (e := .thread .prod) ?_⟩
        · simp [he]
        · simp only [Server.step, Bool.false_eq_true, if_false, Queue.step, prodStep]
          rw [if_neg hw]
          rfl
    have r7 := r6.snoc (e := .thread .prod) (s'' := ⟨⟨{ ring with size := ring.size + 1, rear := p, elements := ring.elements.set p.toNat (some v) },
      some .prod, .unlock, workers, accepted ++ [v], enqueued ++ [v], dropped, closed, delivered⟩, v :: fds, false⟩) (by
        simp only [Server.step, Bool.false_eq_true, if_false, Queue.step, prodStep, storeElem]
        rw [if_neg (by omega), if_pos (by rw [h9]; omega)]
        rfl)
    have r8 := r7.snoc (e := .thread .prod) (s'' := ⟨⟨{ ring with size := ring.size + 1, rear := p, elements := ring.elements.set p.toNat (some v) },
      none, .signal, workers, accepted ++ [v], enqueued ++ [v], dropped, closed, delivered⟩, v :: fds, false⟩) rfl
    have r9 := r8.snoc (e := .thread (.signal none)) (s'' := ⟨⟨{ ring with size := ring.size + 1, rear := p, elements := ring.elements.set p.toNat (some v) },
      none, .accept, workers, accepted ++ [v], enqueued ++ [v], dropped, closed, delivered⟩, v :: fds, false⟩) (by
        simp only [Server.step, Bool.false_eq_true, if_false, Queue.step]
        rw [if_neg h4]
        rfl)
    refine ⟨_, _, r9, ⟨rfl, rfl, rfl, h4, ?_, h6, hp1, by show -1 ≤ p; omega, by simpa using h9⟩, rfl, by simp [hev],
      fun _ => ⟨rfl, rfl⟩, fun heq => absurd (heq.trans h6.symm) hfull⟩
    show ring.size + 1 ≤ cap
    omega

/-- Any number of clients may be connected at the same time, as long as there are descriptors. -/
theorem many {limit cap n : Nat} (hc : 0 < cap) (k : Nat) (hk : k ≤ limit) :
    ∃ evs s, Runs limit (Server.initial cap n) evs s ∧ Ready cap s ∧ s.fds = (List.range k).reverse ∧ Ev.error ∉ evs ∧
      s.q.ring.size = min k cap ∧ s.q.dropped = (List.range' cap (k - cap)) := by
  induction k with
  | zero =>
    exact ⟨[], _, .nil _, ⟨rfl, rfl, rfl, by simp [Server.initial, Queue.initial],
      by simp [Server.initial, Queue.initial, ws_create_queue], rfl,
      by simp [Server.initial, Queue.initial, ws_create_queue]; omega, by simp [Server.initial, Queue.initial, ws_create_queue],
      by simp [Server.initial, Queue.initial, ws_create_queue]⟩, rfl, by simp, by simp [Server.initial, Queue.initial, ws_create_queue],
      by simp [Server.initial, Queue.initial]⟩
  | succ k ih =>
    obtain ⟨evs, s, hr, h, hf, he, hs, hd⟩ := ih (by omega)
    obtain ⟨evs', s', hr', h', hf', he', c1, c2⟩ := one_more hc hr h (by rw [hf]; simp; omega) he (v := k) (by rw [hf]; simp)
    refine ⟨evs', s', hr', h', by rw [hf', hf, List.range_succ, List.reverse_append]; rfl, he', ?_⟩
    by_cases hk' : k < cap
    · obtain ⟨a, b⟩ := c1 (by rw [hs]; omega)
      refine ⟨by rw [a, hs]; omega, ?_⟩
      rw [b, hd, show k - cap = 0 by omega, show k + 1 - cap = 0 by omega]
    · obtain ⟨a, b⟩ := c2 (by rw [hs]; omega)
      refine ⟨by rw [a]; omega, ?_⟩
      rw [b, hd, show k + 1 - cap = (k - cap) + 1 by omega, List.range'_concat, show cap + 1 * (k - cap) = k by omega]

/-- C78, overload: whatever the sizes of queue and pool and whatever the limit on descriptors, clients that merely connect
can end the process. -/
theorem C78_overload (limit cap n : Nat) (hc : 0 < cap) :
    ∃ evs s, Ev.error ∉ evs ∧ Runs limit (Server.initial cap n) evs s ∧ s.stopped = true := by
  obtain ⟨evs, s, hr, h, hf, he, -⟩ := many (limit := limit) (n := n) hc limit (by omega)
  refine ⟨_, _, ?_, hr.snoc (e := .connect 0 true) (s'' := { s with stopped := true }) ?_, rfl⟩
  · simp [he]
  · simp only [Server.step, h.alive, h.prod, Bool.false_eq_true, if_false]
    rw [if_pos (by rw [hf]; simp)]

theorem C78_refuted : ¬ C78_statement := by
  intro h
  obtain ⟨evs, s, he, hr, hs⟩ := C78_overload 1300 1024 200 (by omega)
  rw [h 1300 1024 200 evs s (by omega) (by omega) he hr] at hs
  cases hs

/-- C78, an error reported by `accept`, as for a client that is gone already, ends the process at once, whatever the
other clients. -/
theorem C78_error (limit : Nat) (s : SSt) (ha : s.stopped = false) (hp : s.q.prod = .accept) :
    Server.step limit s .error = some (ok { s with stopped := true }) := by
  simp [Server.step, ha, hp]

theorem stopped_by {limit cap n : Nat} {evs : List Ev} {s : SSt} (h : Runs limit (Server.initial cap n) evs s)
    (he : Ev.error ∉ evs) : s.stopped = true → limit ≤ s.fds.length ∧ s.q.prod = .accept := by
  induction h with
  | nil => intro h; cases h
  | @snoc s1 s2 e evs' hr hst ih =>
    intro hs
    simp only [List.mem_append, List.mem_singleton, not_or] at he
    unfold Server.step at hst
    split at hst
    · cases hst
    · rename_i h1
      split at hst
      · split at hst
        · rename_i hp
          split at hst
          · rename_i hl; cases hst; exact ⟨hl, hp⟩
          · split at hst
            · cases hst
            · simp only [Option.map_eq_some_iff] at hst
              obtain ⟨c, hcq, hb⟩ := hst
              obtain ⟨q, rfl, hb⟩ := bind_eq_ok.mp hb
              cases hb
              exact absurd hs h1
        · cases hst
      · exact absurd rfl he.2
      · split at hst
        · cases hst
        · simp only [Option.map_eq_some_iff] at hst
          obtain ⟨c, hcq, hb⟩ := hst
          obtain ⟨q, rfl, hb⟩ := bind_eq_ok.mp hb
          cases hb
          exact absurd hs h1

/-- C78, what holds: the process ends only if the sockets waiting, being served and turned away since its start use up
the descriptors. So it goes on for ever if there are more than queue and pool can take and no socket has been turned
away. Missing: sockets turned away are never closed, so their number only grows. -/
theorem C78_partial (limit cap n : Nat) (hc : 0 < cap) (evs : List Ev) (s : SSt) (he : Ev.error ∉ evs)
    (h : Runs limit (Server.initial cap n) evs s) :
    s.fds.length ≤ cap + n + s.q.dropped.length + 1 ∧
    (s.stopped = true → limit ≤ cap + n + s.q.dropped.length) ∧
    (cap + n < limit → s.q.dropped = [] → s.stopped = false) := by
  have hp := (fds_places hc h).1.length_eq
  have hr := reach_of_runs h
  have hn : (s.q.workers.filterMap serving).length ≤ n := by
    have := List.length_filterMap_le serving s.q.workers
    rw [hr.workers_length] at this
    exact this
  have hpd : (pending s.q).length ≤ cap := by
    obtain ⟨q, f, r, e, hq⟩ := (hr.inv hc).ring
    have e2 := pending_eq (hr.inv hc)
    rw [e] at e2
    rw [← List.append_cancel_left e2]
    exact hq.room
  have hh : s.q.prod.hand.length ≤ 1 := by
    cases s.q.prod <;> simp [PPc.hand]
  simp only [places, List.length_append] at hp
  have key : s.stopped = true → limit ≤ cap + n + s.q.dropped.length := by
    intro hs
    obtain ⟨a, b⟩ := stopped_by h he hs
    rw [b] at hp
    simp only [PPc.hand, List.length_nil] at hp
    omega
  refine ⟨by omega, key, fun hl hd => ?_⟩
  cases hs : s.stopped with
  | false => rfl
  | true =>
    have := key hs
    rw [hd] at this
    simp only [List.length_nil] at this
    omega

/-- C78, descriptors lost: when nothing is waiting or being served, the open sockets are exactly those turned away. -/
theorem C78_lost (limit cap n : Nat) (hc : 0 < cap) (evs : List Ev) (s : SSt) (h : Runs limit (Server.initial cap n) evs s)
    (h1 : pending s.q = []) (h2 : ∀ v, WPc.handle v ∉ s.q.workers) (h3 : s.q.prod = .accept) :
    s.fds.Perm s.q.dropped := by
  have hp := (fds_places hc h).1
  have : s.q.workers.filterMap serving = [] := by
    rw [List.filterMap_eq_nil_iff]
    intro w hw
    cases w with
    | handle v => exact absurd hw (h2 v)
    | _ => rfl
  simpa [places, h1, h3, this, PPc.hand] using hp

/-- A client connects and is put in the queue, or turned away if it is full; the workers are awake. -/
def comes (v : Nat) (full : Bool) : List Ev :=
  .connect v true :: (List.replicate (if full then 3 else 7) (.thread .prod) ++ [.thread (.signal none)])
/-- Worker `i` fetches a socket, serves it and closes it. -/
def serves (i : Nat) : List Ev := List.replicate 9 (.thread (.worker i))

/-- Three clients and a queue of two: the third, 6, is turned away; the others are served, and only 6 stays open. -/
theorem lost_run : runEvs 3 (Server.initial 2 1) (comes 4 false ++ comes 5 false ++ comes 6 true ++ serves 0 ++ serves 0) =
    some ⟨⟨⟨2, 0, 0, 1, [some 4, some 5]⟩, none, .accept, [.lock], [4, 5, 6], [4, 5], [6], [], [(0, 4), (0, 5)]⟩, [6], false⟩ := by
  decide +kernel

/-- `C78_lost` and `C78_partial` on that run. -/
example : ∃ evs s, Runs 3 (Server.initial 2 1) evs s ∧ s.fds.Perm s.q.dropped ∧ s.q.dropped = [6] ∧ s.fds.length ≤ 2 + 1 + 1 + 1 :=
  ⟨_, _, runs_of_runEvs lost_run, C78_lost 3 2 1 (by omega) _ _ (runs_of_runEvs lost_run) rfl (by simp) rfl, rfl,
    (C78_partial 3 2 1 (by omega) _ _ (by decide) (runs_of_runEvs lost_run)).1⟩

/-- `C78_error` in the initial state of the server as launched. -/
example : Server.step 1024 (Server.initial 1024 200) .error = some (ok { Server.initial 1024 200 with stopped := true }) :=
  C78_error 1024 _ rfl rfl

/-! ### C79 -/

/-- C79: at any time, under every schedule and with descriptors used again after they are closed, the sockets that are
waiting, being served, turned away or just accepted are all different and open; no two workers have the same one, and
none that is being served is in the queue. -/
theorem C79_apart (limit cap n : Nat) (hc : 0 < cap) (evs : List Ev) (s : SSt) (h : Runs limit (Server.initial cap n) evs s) :
    (pending s.q ++ s.q.workers.filterMap serving ++ s.q.dropped ++ s.q.prod.hand).Nodup ∧
    (∀ v, v ∈ s.fds ↔ v ∈ pending s.q ∨ WPc.handle v ∈ s.q.workers ∨ v ∈ s.q.dropped ∨ v ∈ s.q.prod.hand) ∧
    ∀ (i j v : Nat), s.q.workers[i]? = some (WPc.handle v) → s.q.workers[j]? = some (WPc.handle v) → i = j := by
  obtain ⟨hp, hnd⟩ := fds_places hc h
  have hn : (places s.q).Nodup := hp.nodup_iff.mp hnd
  refine ⟨hn, ?_, ?_⟩
  · intro v
    rw [hp.mem_iff]
    have : v ∈ s.q.workers.filterMap serving ↔ WPc.handle v ∈ s.q.workers := by
      rw [List.mem_filterMap]
      constructor
      · rintro ⟨w, hw, e⟩
        cases w <;> simp [serving] at e
        subst e; exact hw
      · intro hw; exact ⟨_, hw, rfl⟩
    simp only [places, List.mem_append, this, or_assoc]
  · intro i j v hi hj
    have hw : (s.q.workers.filterMap serving).Nodup := by
      unfold places at hn
      simp only [List.nodup_append] at hn
      exact hn.1.1.2.1
    have key : ∀ (l : List WPc) (i j : Nat), (l.filterMap serving).Nodup → l[i]? = some (WPc.handle v) → l[j]? = some (WPc.handle v) → i < j → False := by
      intro l
      induction l with
      | nil => intro i j _ h; simp at h
      | cons w l ih =>
        intro i j hl hi hj hij
        cases j with
        | zero => omega
        | succ j =>
          cases i with
          | zero =>
            simp only [List.getElem?_cons_zero, Option.some.injEq] at hi
            subst hi
            simp only [List.filterMap_cons, serving, List.nodup_cons] at hl
            exact hl.1 (List.mem_filterMap.mpr ⟨_, List.mem_of_getElem? hj, rfl⟩)
          | succ i =>
            simp only [List.getElem?_cons_succ] at hi hj
            refine ih i j ?_ hi hj (by omega)
            simp only [List.filterMap_cons] at hl
            split at hl
            · exact hl
            · exact (List.nodup_cons.mp hl).2
    rcases Nat.lt_trichotomy i j with hlt | heq | hgt
    · exact absurd (key _ _ _ hw hi hj hlt) id
    · exact heq
    · exact absurd (key _ _ _ hw hj hi hgt) id

/-- Descriptor 4 is used for a first client, closed, and used again while 5 is served by the other worker. -/
theorem reuse_run : runEvs 3 (Server.initial 2 2) (comes 4 false ++ comes 5 false ++ serves 0 ++ (serves 1).take 8 ++ comes 4 false ++
      (serves 0).take 8) =
    some ⟨⟨⟨2, 0, 1, 0, [some 4, some 5]⟩, none, .accept, [.handle 4, .handle 5], [4, 5, 4], [4, 5, 4], [], [],
      [(0, 4), (1, 5), (0, 4)]⟩, [4, 5], false⟩ := by
  decide +kernel

example : ∃ evs s, Runs 3 (Server.initial 2 2) evs s ∧ s.q.workers = [.handle 4, .handle 5] ∧
    (pending s.q ++ s.q.workers.filterMap serving ++ s.q.dropped ++ s.q.prod.hand).Nodup :=
  ⟨_, _, runs_of_runEvs reuse_run, rfl, (C79_apart 3 2 2 (by omega) _ _ (runs_of_runEvs reuse_run)).1⟩

/-! ### C80 -/

/-- The step is one of a thread that waits for nothing from outside: no new connection, no spurious wake-up, and no
bytes from a client in `S`, whose handler does not return (there are no time-outs: ws.c:97-110 reads byte by byte). -/
def Unblocked (S : List Nat) (s : SSt) (a : Act) : Prop :=
  Inner a ∧ ∀ i v, a = .worker i → s.q.workers[i]? = some (WPc.handle v) → v ∉ S

/-- Nothing can happen until a client does something. -/
def Stuck (limit : Nat) (S : List Nat) (s : SSt) : Prop := ∀ a, Unblocked S s a → Server.step limit s (.thread a) = none

/-- C80 as stated: whatever clients `S` never send anything, when nothing can happen any more the others have been served. -/
def C80_statement : Prop :=
  ∀ (limit cap n : Nat) (S : List Nat) (evs : List Ev) (s : SSt), 0 < n → 0 < cap → Runs limit (Server.initial cap n) evs s →
    s.stopped = false → Stuck limit S s → pending s.q = []

theorem thread_none {limit : Nat} {s : SSt} {a : Act} (ha : Inner a) (hs : s.stopped = false)
    (h : Server.step limit s (.thread a) = none) : Queue.step s.q a = none := by
  cases a with
  | accept v b => exact ha.elim
  | _ => simpa [Server.step, hs] using h

/-- When nothing can happen, the mutex is free, the accepting thread is at `accept` or no worker is at `lock`,
and every worker sleeps or serves one of `S`. -/
theorem stuck_shape {limit cap n : Nat} (hc : 0 < cap) {S : List Nat} {evs : List Ev} {s : SSt}
    (h : Runs limit (Server.initial cap n) evs s) (ha : s.stopped = false) (hq : Stuck limit S s) :
    s.q.owner = none ∧ s.q.prod = .accept ∧ ∀ pc ∈ s.q.workers, pc = .waiting ∨ ∃ v ∈ S, pc = .handle v := by
  have hr := reach_of_runs h
  have hinv := hr.inv hc
  obtain ⟨q, f, r, he, hh⟩ := hinv.ring
  have quiet : ∀ a, Unblocked S s a → Queue.step s.q a = none := fun a hu => thread_none hu.1 ha (hq a hu)
  have hprodU : Unblocked S s .prod := ⟨trivial, by intro i v e; cases e⟩
  have hsigU : ∀ w, Unblocked S s (.signal w) := fun w => ⟨trivial, by intro i v e; cases e⟩
  have hown : s.q.owner = none := by
    cases ho : s.q.owner with
    | none => rfl
    | some o =>
      exfalso
      have hph := hh.phase
      unfold Phase at hph
      rw [ho] at hph
      cases o with
      | prod =>
        have h1 := quiet .prod hprodU
        simp only [Queue.step, prodStep] at h1
        cases hp : s.q.prod <;> rw [hp] at h1 hph <;> simp only at h1 hph
        all_goals first | exact hph | cases h1 | skip
        split at h1 <;> cases h1
      | worker i =>
        cases hi : s.q.workers[i]? with
        | none => simp only [hi] at hph
        | some pc =>
          have hu : (∀ v, pc ≠ .handle v) → Unblocked S s (.worker i) := by
            intro hn
            refine ⟨trivial, ?_⟩
            intro j v e hj
            cases e
            rw [hi] at hj
            cases hj
            exact absurd rfl (hn v)
          simp only [hi] at hph
          have h1 := quiet (.worker i)
          simp only [Queue.step, workerStep, hi] at h1
          cases pc <;> simp only at h1 hph
          all_goals first
            | exact hph.elim
            | (have h1 := h1 (hu (by simp)); split at h1 <;> cases h1)
            | (have h1 := h1 (hu (by simp)); cases h1)
  have hall : ∀ pc ∈ s.q.workers, pc = .waiting ∨ ∃ v ∈ S, pc = .handle v := by
    intro pc hpc
    obtain ⟨i, hi⟩ := List.mem_iff_getElem?.mp hpc
    by_cases hb : ∃ v ∈ S, pc = .handle v
    · exact Or.inr hb
    · left
      have h1 := quiet (.worker i) ⟨trivial, by
        intro j v e hj
        cases e
        rw [hi] at hj
        cases hj
        exact fun hv => hb ⟨v, hv, rfl⟩⟩
      simp only [Queue.step, workerStep, hi, hown] at h1
      cases pc <;> first | rfl | (simp at h1; done) | (exfalso; simp only at h1; split at h1 <;> cases h1)
  refine ⟨hown, ?_, hall⟩
  have h1 := quiet .prod hprodU
  simp only [Queue.step, prodStep, hown] at h1
  cases hp : s.q.prod <;> rw [hp] at h1 <;> simp only at h1
  case signal =>
    exfalso
    by_cases hw : WPc.waiting ∈ s.q.workers
    · obtain ⟨i, hi⟩ := List.mem_iff_getElem?.mp hw
      have h2 := quiet (.signal (some i)) (hsigU _)
      simp only [Queue.step, hp] at h2
      rw [if_pos hi] at h2
      cases h2
    · have h2 := quiet (.signal none) (hsigU _)
      simp only [Queue.step, hp] at h2
      rw [if_neg hw] at h2
      cases h2
  all_goals first | cases h1 | (simp at h1; done) | (split at h1 <;> cases h1)

/-- C80, what holds: with fewer silent clients than workers, whenever nothing can happen any more, every connection in the
queue has been handed to a worker and the workers serve nobody but silent clients. (`C53_progress`: that state is reached
after finitely many steps.) -/
theorem C80_partial (limit cap n : Nat) (hc : 0 < cap) (S : List Nat) (hS : S.length < n) (evs : List Ev) (s : SSt)
    (h : Runs limit (Server.initial cap n) evs s) (ha : s.stopped = false) (hq : Stuck limit S s) :
    pending s.q = [] ∧ ∀ v, WPc.handle v ∈ s.q.workers → v ∈ S := by
  obtain ⟨hown, hprod, hall⟩ := stuck_shape hc h ha hq
  have hr := reach_of_runs h
  have hinv := hr.inv hc
  obtain ⟨q, f, r, he, hh⟩ := hinv.ring
  refine ⟨?_, fun v hv => ?_⟩
  · have hasleep : WPc.waiting ∈ s.q.workers := by
      by_contra hno
      have hsub : s.q.workers.filterMap serving ⊆ S := by
        intro v hv
        obtain ⟨w, hw, e⟩ := List.mem_filterMap.mp hv
        rcases hall w hw with rfl | ⟨u, hu, rfl⟩
        · cases e
        · simp only [serving, Option.some.injEq] at e
          subst e; exact hu
      have hnd : (s.q.workers.filterMap serving).Nodup := by
        have := (C79_apart limit cap n hc evs s h).1
        simp only [List.nodup_append] at this
        exact this.1.1.2.1
      have hlen : (s.q.workers.filterMap serving).length = s.q.workers.length := by
        have : s.q.workers.filterMap serving = s.q.workers.filterMap (fun w => some ((serving w).getD 0)) := by
          apply List.filterMap_congr
          intro w hw
          rcases hall w hw with rfl | ⟨u, hu, rfl⟩
          · exact absurd hw hno
          · rfl
        rw [this]
        simp [List.filterMap_eq_map']
      have := (List.subperm_of_subset hnd hsub).length_le
      rw [hlen, hr.workers_length] at this
      omega
    have hw := hr.woken hc (List.countP_pos_iff.2 ⟨_, hasleep, rfl⟩)
    have h0 : s.q.workers.countP WPc.fetching = 0 := by
      rw [List.countP_eq_zero]
      intro pc hpc
      rcases hall pc hpc with rfl | ⟨u, hu, rfl⟩ <;> simp [WPc.fetching]
    rw [h0, hprod] at hw
    simp only [PPc.owing, Bool.toNat_false] at hw
    have hph := hh.phase
    unfold Phase at hph
    rw [hown] at hph
    rw [hph.1] at hw
    have hq0 : q = [] := List.length_eq_zero_iff.mp (by omega)
    have e2 := pending_eq hinv
    rw [he] at e2
    rw [← List.append_cancel_left e2, hq0]
  · rcases hall _ hv with hx | ⟨u, hu, e⟩
    · cases hx
    · cases e; exact hu

/-- A worker does not touch what belongs to the accepting thread. -/
theorem worker_prod {s s' : QSt} {i : Nat} (h : workerStep s i = some (ok s')) : s'.prod = s.prod ∧ s'.dropped = s.dropped := by
  unfold workerStep at h
  cases hw : s.workers[i]? with
  | none => rw [hw] at h; cases h
  | some pc =>
    rw [hw] at h
    cases pc <;> simp only [Option.some.injEq, ok.injEq] at h
    all_goals first
      | (subst h; exact ⟨rfl, rfl⟩)
      | (split at h <;> cases h <;> exact ⟨rfl, rfl⟩)
      | (obtain ⟨v, -, h⟩ := bind_eq_ok.mp h; cases h; exact ⟨rfl, rfl⟩)
      | cases h

/-- While the accepting thread waits for a client, only a worker can move. -/
theorem worker_moves {limit cap n : Nat} (hc : 0 < cap) {S : List Nat} {evs : List Ev} {s : SSt} (hr : Runs limit (Server.initial cap n) evs s)
    (ha : s.stopped = false) (hp : s.q.prod = .accept) {a : Act} (hu : Unblocked S s a)
    (hn : Server.step limit s (.thread a) ≠ none) : ∃ i q', a = .worker i ∧ workerStep s.q i = some (ok q') := by
  cases a with
  | accept v b => exact hu.1.elim
  | prod => exact absurd (by simp [Server.step, ha, Queue.step, prodStep, hp]) hn
  | signal w => cases w <;> exact absurd (by simp [Server.step, ha, Queue.step, hp]) hn
  | spurious i => exact hu.1.elim
  | worker i =>
    cases hq : Queue.step s.q (.worker i) with
    | none => exact absurd (by simp [Server.step, ha, hq]) hn
    | some c =>
      obtain ⟨q', e, -⟩ := ((reach_of_runs hr).inv hc).step hq
      subst e
      exact ⟨i, q', rfl, hq⟩

/-- If all clients are silent the threads get stuck after finitely many steps, and no socket is closed. -/
theorem gets_stuck {limit cap n : Nat} (hc : 0 < cap) (k : Nat) : ∀ {evs : List Ev} {s : SSt}, Runs limit (Server.initial cap n) evs s →
    s.stopped = false → s.q.prod = .accept → s.q.work ≤ k →
    ∃ evs' s', Runs limit (Server.initial cap n) evs' s' ∧ s'.fds = s.fds ∧ s'.q.dropped = s.q.dropped ∧ s'.stopped = false ∧
      s'.q.prod = .accept ∧ Stuck limit s.fds s' := by
  induction k with
  | zero =>
    intro evs s hr ha hp hk
    by_cases hst : Stuck limit s.fds s
    · exact ⟨evs, s, hr, rfl, rfl, ha, hp, hst⟩
    · exfalso
      unfold Stuck at hst
      push Not at hst
      obtain ⟨a, hu, hn⟩ := hst
      obtain ⟨i, q', rfl, hq⟩ := worker_moves hc hr ha hp hu hn
      have := work_worker ((reach_of_runs hr).inv hc) hq
      omega
  | succ k ih =>
    intro evs s hr ha hp hk
    by_cases hst : Stuck limit s.fds s
    · exact ⟨evs, s, hr, rfl, rfl, ha, hp, hst⟩
    · unfold Stuck at hst
      push Not at hst
      obtain ⟨a, hu, hn⟩ := hst
      obtain ⟨i, q', rfl, hq⟩ := worker_moves hc hr ha hp hu hn
      have hw := work_worker ((reach_of_runs hr).inv hc) hq
      obtain ⟨e1, e2⟩ := worker_prod hq
      have hcl : closes s (.worker i) = s.fds := by
        cases hx : s.q.workers[i]? with
        | none => simp [closes, hx]
        | some pc =>
          cases pc with
          | handle v =>
            exact absurd (((C79_apart limit cap n hc evs s hr).2.1 v).mpr (Or.inr (Or.inl (List.mem_of_getElem? hx)))) (hu.2 i v rfl hx)
          | _ => simp [closes, hx]
      have r1 := hr.snoc (e := .thread (.worker i)) (s'' := { s with q := q' }) (by
        have : Queue.step s.q (.worker i) = some (ok q') := hq
        simp only [Server.step, ha, this, hcl, Bool.false_eq_true, if_false]
        rfl)
      obtain ⟨evs', s', h1, h2, h3, h4, h5, h6⟩ := ih r1 ha (e1.trans hp) (by show q'.work ≤ k; omega)
      exact ⟨evs', s', h1, h2, h3.trans e2, h4, h5, h6⟩

/-- C80, what goes wrong: for every size of the pool, one silent client more than there are workers and the queue is not
emptied; only a client that sends something can change this. A browser's idle spare connections are such clients. -/
theorem C80_blocked (limit cap n : Nat) (hcap : n < cap) (hl : n < limit) :
    ∃ evs s, Runs limit (Server.initial cap n) evs s ∧ s.stopped = false ∧ s.fds.length = n + 1 ∧
      Stuck limit s.fds s ∧ pending s.q ≠ [] := by
  have hc : 0 < cap := by omega
  obtain ⟨evs, s, hr, h, hf, he, -, hd⟩ := many (limit := limit) (n := n) hc (n + 1) (by omega)
  obtain ⟨evs', s', hr', h1, h2, h3, h4, h5⟩ := gets_stuck hc s.q.work hr h.alive h.prod (Nat.le_refl _)
  have hlen : s'.fds.length = n + 1 := by rw [h1, hf]; simp
  refine ⟨evs', s', hr', h3, hlen, by rw [h1]; exact h5, fun hp => ?_⟩
  have hpl := (fds_places hc hr').1.length_eq
  have hn : (s'.q.workers.filterMap serving).length ≤ n := by
    have := List.length_filterMap_le serving s'.q.workers
    rw [(reach_of_runs hr').workers_length] at this
    exact this
  simp only [places, List.length_append, hp, h4, h2, hd, PPc.hand, List.length_nil, show n + 1 - cap = 0 by omega, List.range'_zero] at hpl
  omega

theorem C80_refuted : ¬ C80_statement := by
  intro h
  obtain ⟨evs, s, hr, ha, -, hq, hp⟩ := C80_blocked 2000 1024 200 (by omega) (by omega)
  exact hp (h 2000 1024 200 s.fds evs s (by omega) (by omega) hr ha hq)

/-- Two workers; 4 is silent and keeps one of them; 5 has been served by the other, which sleeps. -/
theorem silent_run : runEvs 9 (Server.initial 2 2) (comes 4 false ++ (serves 0).take 8 ++ comes 5 false ++ serves 1 ++
      List.replicate 2 (.thread (.worker 1))) =
    some ⟨⟨⟨2, 0, 0, 1, [some 4, some 5]⟩, none, .accept, [.handle 4, .waiting], [4, 5], [4, 5], [], [],
      [(0, 4), (1, 5)]⟩, [4], false⟩ := by
  decide +kernel

/-- `C80_partial` on that run. -/
example : ∃ evs s, Runs 9 (Server.initial 2 2) evs s ∧ Stuck 9 [4] s ∧ pending s.q = [] ∧ WPc.handle 4 ∈ s.q.workers := by
  have hst : Stuck 9 [4] ⟨⟨⟨2, 0, 0, 1, [some 4, some 5]⟩, none, .accept, [.handle 4, .waiting], [4, 5], [4, 5], [], [],
      [(0, 4), (1, 5)]⟩, [4], false⟩ := by
    intro a ha
    cases a with
    | accept v b => rfl
    | prod => rfl
    | signal w => cases w <;> rfl
    | spurious i => exact ha.1.elim
    | worker i =>
      match i with
      | 0 => exact absurd (by simp) (ha.2 0 4 rfl rfl)
      | 1 => rfl
      | i + 2 => rfl
  exact ⟨_, _, runs_of_runEvs silent_run, hst, (C80_partial 9 2 2 (by omega) [4] (by decide) _ _ (runs_of_runEvs silent_run) rfl hst).1,
    by simp⟩

end Wayuu
