import Verif.Model.Races
import Verif.Lemmas.Queue
import Verif.Props.Limits
/-
Properties C50 and C56: what is shared between workers without a lock.
-/
namespace Wayuu
open C Spec Races

/-! ### C50 -/

/-- C50 as stated, with the bound that a single worker respects (`C49_partial`). -/
def C50_statement : Prop :=
  ∀ limits s sched s', limits.length ≤ 64 → (∀ l ∈ limits, l.path ≠ []) → (∀ t ∈ s.threads, t.pc = .start) →
    Within 1 limits s.live → run limits s sched = some s' → Within 1 limits s'.live

/-- A worker for C50, not started. -/
def caller (socket : Nat) (ip path : Str) : Thread := ⟨.start, socket, ip, path⟩

theorem run_append (limits : List PathLimit) (s : TSt) (a b : List Nat) :
    run limits s (a ++ b) = (run limits s a).bind (fun s => run limits s b) := by
  induction a generalizing s with
  | nil => rfl
  | cons i a ih =>
    simp only [List.cons_append, run]
    cases step limits s i with
    | none => rfl
    | some s' => simp only [Option.bind_some]; exact ih s'

theorem firstFree_append (A : List Conn) (c : Conn) (F : List Conn) (hA : ∀ x ∈ A, x.socket ≠ 0) (hc : c.socket = 0) :
    firstFree (A ++ c :: F) = some A.length := by
  induction A with
  | nil => simp [firstFree, hc]
  | cons x A ih =>
    rw [List.cons_append, firstFree, if_neg (hA x (by simp)), ih (fun y hy => hA y (by simp [hy]))]
    rfl

/-- All the waiting workers validate before anyone writes. -/
theorem run_validate (limits : List PathLimit) (live : List Conn) (front ts : List Thread)
    (hts : ∀ t ∈ ts, t.pc = .start ∧ connection_validate limits live t.ip t.path = true) :
    run limits ⟨live, front ++ ts⟩ (List.range' front.length ts.length) =
      some ⟨live, front ++ ts.map (fun t => { t with pc := .validated })⟩ := by
  induction ts generalizing front with
  | nil => simp [run]
  | cons t ts ih =>
    obtain ⟨h1, h2⟩ := hts t (by simp)
    have := ih (front ++ [{ t with pc := .validated }]) (fun x hx => hts x (by simp [hx]))
    simp only [List.length_cons, List.range'_succ, run]
    have hs : step limits ⟨live, front ++ t :: ts⟩ front.length = some ⟨live, front ++ { t with pc := .validated } :: ts⟩ := by
      simp [step, h1, h2]
    rw [hs]
    simpa using this

/-- Then each of them takes the next free slot. -/
theorem run_write (limits : List PathLimit) (A F : List Conn) (front ts : List Thread) (hA : ∀ x ∈ A, x.socket ≠ 0)
    (hF : ∀ c ∈ F, c.socket = 0) (hts : ∀ t ∈ ts, t.pc = .validated ∧ t.socket ≠ 0) (hlen : ts.length ≤ F.length) :
    run limits ⟨A ++ F, front ++ ts⟩ ((List.range' front.length ts.length).flatMap (fun i => [i, i])) =
      some ⟨A ++ ts.map (fun t => ⟨t.socket, t.path, t.ip⟩) ++ F.drop ts.length,
        front ++ ts.map (fun t => { t with pc := .serving })⟩ := by
  induction ts generalizing A F front with
  | nil => simp [run]
  | cons t ts ih =>
    obtain ⟨h1, h2⟩ := hts t (by simp)
    cases F with
    | nil => simp at hlen
    | cons f F =>
      have := ih (A ++ [⟨t.socket, t.path, t.ip⟩]) F (front ++ [{ t with pc := .serving }])
        (by intro x hx; simp only [List.mem_append, List.mem_singleton] at hx; rcases hx with hx | rfl; exact hA x hx; exact h2)
        (fun c hc => hF c (by simp [hc])) (fun x hx => hts x (by simp [hx])) (by simpa using hlen)
      have e1 : step limits ⟨A ++ f :: F, front ++ t :: ts⟩ front.length =
          some ⟨A ++ f :: F, front ++ { t with pc := .picked A.length } :: ts⟩ := by
        simp [step, h1, firstFree_append A f F hA (hF f (by simp))]
      have e2 : step limits ⟨A ++ f :: F, front ++ { t with pc := .picked A.length } :: ts⟩ front.length =
          some ⟨A ++ ⟨t.socket, t.path, t.ip⟩ :: F, front ++ { t with pc := .serving } :: ts⟩ := by
        simp [step]
      simp only [List.length_cons, List.range'_succ, List.flatMap_cons, List.cons_append, List.nil_append, run, e1, e2,
        Option.bind_some]
      simpa using this

/-- C50 fails without bound: for every number of workers there is a schedule that lets all of them in at the
same time, although the rule allows no connection at all. -/
theorem C50_unbounded (p ip path : Str) (secs : Int) (sockets : List Nat) (free : List Conn) (hp : p ≠ [])
    (hpre : CasePrefix p path) (hs : ∀ s ∈ sockets, s ≠ 0) (hfree : ∀ c ∈ free, c.socket = 0) (hroom : sockets.length ≤ free.length) :
    ∃ sched s', run [⟨p, 0, 0, secs⟩] ⟨free, sockets.map (fun s => caller s ip path)⟩ sched = some s' ∧
      liveUnder p s'.live = sockets.length ∧ liveUnderFrom p ip s'.live = sockets.length ∧ ∀ t ∈ s'.threads, t.pc = .serving := by
  classical
  have hz : ∀ c ∈ free, ¬ Under p c := fun c hc h => h.1 (hfree c hc)
  have hv : connection_validate [⟨p, 0, 0, secs⟩] free ip path = true := by
    rw [connection_validate_iff]
    have : activeRules [⟨p, 0, 0, secs⟩] = [⟨p, 0, 0, secs⟩] := by simp [activeRules, hp]
    rw [this]
    intro l hl _
    simp only [List.mem_singleton] at hl
    subst hl
    have h1 : liveUnder p free = 0 := by
      unfold liveUnder; rw [List.countP_eq_zero]; simpa using hz
    have h2 : liveUnderFrom p ip free = 0 := by
      unfold liveUnderFrom; rw [List.countP_eq_zero]; simpa using fun c hc h => absurd h (hz c hc)
    simp [h1, h2]
  have r1 := run_validate [⟨p, 0, 0, secs⟩] free [] (sockets.map (fun s => caller s ip path))
    (by
      intro t ht
      obtain ⟨s, -, rfl⟩ := List.mem_map.mp ht
      exact ⟨rfl, hv⟩)
  have r2 := run_write [⟨p, 0, 0, secs⟩] [] free []
    ((sockets.map (fun s => caller s ip path)).map (fun t => { t with pc := .validated })) (by simp) hfree
    (by
      intro t ht
      simp only [List.mem_map] at ht
      obtain ⟨_, ⟨s, hs', rfl⟩, rfl⟩ := ht
      exact ⟨rfl, hs s hs'⟩) (by simpa using hroom)
  simp only [List.nil_append, List.length_nil, List.length_map] at r1 r2
  refine ⟨_, _, by rw [run_append, r1, Option.bind_some, r2], ?_, ?_, ?_⟩
  · simp only [List.map_map]
    unfold liveUnder
    rw [List.countP_append, List.countP_eq_length.mpr, List.countP_eq_zero.mpr]
    · simp
    · intro c hc
      simpa using hz c (List.mem_of_mem_drop hc)
    · intro c hc
      simp only [List.mem_map, Function.comp_apply] at hc
      obtain ⟨s, hs', rfl⟩ := hc
      exact decide_eq_true (⟨hs s hs', hpre⟩ : Under p ⟨s, path, ip⟩)
  · simp only [List.map_map]
    unfold liveUnderFrom
    rw [List.countP_append, List.countP_eq_length.mpr, List.countP_eq_zero.mpr]
    · simp
    · intro c hc
      simpa using fun h => absurd h (hz c (List.mem_of_mem_drop hc))
    · intro c hc
      simp only [List.mem_map, Function.comp_apply] at hc
      obtain ⟨s, hs', rfl⟩ := hc
      exact decide_eq_true (⟨⟨hs s hs', hpre⟩, rfl⟩ : Under p ⟨s, path, ip⟩ ∧ ip = ip)
  · intro t ht
    simp only [List.mem_map] at ht
    obtain ⟨_, _, rfl⟩ := ht
    rfl

/-- C50 is false: two workers validate before either has registered. -/
theorem C50_refuted : ¬ C50_statement := by
  classical
  intro h
  obtain ⟨sched, s', h1, h2, h3, -⟩ := C50_unbounded b!"/a" b!"1.2.3.4" b!"/a/x" 0 [4, 5] (List.replicate 3 ⟨0, [], []⟩) (by decide)
    ((startswith_iff _ _).mp (by decide)) (by decide) (by decide) (by decide)
  have := h _ _ _ _ (by decide) (by decide) (by
    intro t ht
    simp only [List.map_cons, List.map_nil, List.mem_cons, List.not_mem_nil, or_false] at ht
    rcases ht with rfl | rfl <;> rfl) ?_ h1 ⟨b!"/a", 0, 0, 0⟩ (by simp)
  · rw [h2] at this
    simp at this
    omega
  · intro l hl
    have hz : ∀ q, ¬ Under q ⟨0, [], []⟩ := fun q h => h.1 rfl
    simp at hl
    subst hl
    simp [liveUnder, liveUnderFrom, hz]
    omega

/-- C50, the other failure: two workers can take the same slot, so one of two connections being served is not in
the table and is not counted. -/
theorem C50_lost : ∃ s', run [] ⟨[⟨0, [], []⟩, ⟨0, [], []⟩], [caller 4 b!"1" b!"/a", caller 5 b!"1" b!"/a"]⟩ [0, 1, 0, 1, 0, 1] = some s' ∧
    (∀ t ∈ s'.threads, t.pc = .serving) ∧ s'.live = [⟨5, b!"/a", b!"1"⟩, ⟨0, [], []⟩] := by
  refine ⟨_, rfl, by decide, by decide⟩

/-- The worker is inside `connection_add`. -/
def Admitting : TPc → Bool
  | .validated => true
  | .picked _ => true
  | _ => false

/-- At most one worker is inside `connection_add`, now and after every step of the schedule. -/
def OneAtATime (limits : List PathLimit) : TSt → List Nat → Prop
  | s, [] => (s.threads.countP (fun t => Admitting t.pc)) ≤ 1
  | s, i :: is => (s.threads.countP (fun t => Admitting t.pc)) ≤ 1 ∧ ∀ s', step limits s i = some s' → OneAtATime limits s' is

theorem OneAtATime.now {limits : List PathLimit} {s : TSt} {sched : List Nat} (h : OneAtATime limits s sched) :
    (s.threads.countP (fun t => Admitting t.pc)) ≤ 1 := by
  cases sched with
  | nil => exact h
  | cons => exact h.1

/-- Adding a connection keeps the limits within one. -/
def Admissible (limits : List PathLimit) (live : List Conn) (t : Thread) : Prop :=
  ∀ l ∈ limits, CasePrefix l.path t.path →
    (liveUnder l.path live : Int) ≤ l.max_connections ∧ (liveUnderFrom l.path t.ip live : Int) ≤ l.max_connections_per_ip

def ThreadOk (limits : List PathLimit) (live : List Conn) (t : Thread) : Prop :=
  match t.pc with
  | .validated => Admissible limits live t
  | .picked k => Admissible limits live t ∧ ∃ c, live[k]? = some c ∧ c.socket = 0
  | _ => True

theorem liveUnder_del_le (p : Str) (socket : Nat) (live : List Conn) : liveUnder p (connection_del socket live) ≤ liveUnder p live := by
  classical
  rcases connection_del_cases socket live with h1 | ⟨a, c, b, rfl, -, h1⟩
  · rw [h1]
  · rw [h1]
    have hz : ¬ Under p ⟨0, [], []⟩ := fun h => h.1 rfl
    unfold liveUnder
    rw [countP_replace, countP_replace]
    simp [hz]

theorem liveUnderFrom_del_le (p ip : Str) (socket : Nat) (live : List Conn) :
    liveUnderFrom p ip (connection_del socket live) ≤ liveUnderFrom p ip live := by
  classical
  rcases connection_del_cases socket live with h1 | ⟨a, c, b, rfl, -, h1⟩
  · rw [h1]
  · rw [h1]
    have hz : ¬ Under p ⟨0, [], []⟩ := fun h => h.1 rfl
    unfold liveUnderFrom
    rw [countP_replace, countP_replace]
    simp [hz]

theorem del_free {socket k : Nat} {live : List Conn} (h : ∃ c, live[k]? = some c ∧ c.socket = 0) :
    ∃ c, (connection_del socket live)[k]? = some c ∧ c.socket = 0 := by
  obtain ⟨c, hc, h0⟩ := h
  induction live generalizing k with
  | nil => cases hc
  | cons x live ih =>
    unfold connection_del
    by_cases hx : x.socket = socket
    · rw [if_pos hx]
      cases k with
      | zero => exact ⟨_, rfl, rfl⟩
      | succ k => exact ⟨c, by simpa using hc, h0⟩
    · rw [if_neg hx]
      cases k with
      | zero => exact ⟨c, by simpa using hc, h0⟩
      | succ k => simpa using ih (k := k) (by simpa using hc)

theorem ThreadOk.del {limits : List PathLimit} {live : List Conn} {t : Thread} (socket : Nat) (h : ThreadOk limits live t) :
    ThreadOk limits (connection_del socket live) t := by
  have hadm : Admissible limits live t → Admissible limits (connection_del socket live) t := by
    intro ha l hl hp
    have h1 := ha l hl hp
    have h2 := liveUnder_del_le l.path socket live
    have h3 := liveUnderFrom_del_le l.path t.ip socket live
    omega
  unfold ThreadOk at *
  split at h
  · exact hadm h
  · exact ⟨hadm h.1, del_free h.2⟩
  · trivial

theorem firstFree_some {live : List Conn} {k : Nat} (h : firstFree live = some k) : ∃ c, live[k]? = some c ∧ c.socket = 0 := by
  induction live generalizing k with
  | nil => cases h
  | cons c r ih =>
    unfold firstFree at h
    split at h
    · rename_i hc; cases h; exact ⟨c, rfl, hc⟩
    · obtain ⟨k', hk, rfl⟩ := Option.map_eq_some_iff.mp h
      simpa using ih hk

/-- What does hold of C50: for every schedule in which no two workers are inside `connection_add` at the same
time (closing may overlap with everything), the limits hold within one. Missing: schedules in which they
overlap, where any number of connections gets in (`C50_unbounded`). -/
theorem C50_partial (limits : List PathLimit) (s s' : TSt) (sched : List Nat) (hlen : limits.length ≤ 64)
    (hne : ∀ l ∈ limits, l.path ≠ []) (hstart : ∀ t ∈ s.threads, t.pc = .start) (hw : Within 1 limits s.live)
    (hone : OneAtATime limits s sched) (hrun : run limits s sched = some s') : Within 1 limits s'.live := by
  classical
  have hact : activeRules limits = limits := by
    unfold activeRules
    rw [List.take_of_length_le hlen]
    refine List.takeWhile_eq_self_iff.mpr (fun l hl => ?_)
    simpa using hne l hl
  have hok : ∀ t ∈ s.threads, ThreadOk limits s.live t := by
    intro t ht; unfold ThreadOk; rw [hstart t ht]; trivial
  clear hstart
  induction sched generalizing s with
  | nil => cases hrun; exact hw
  | cons i is ih =>
    simp only [run] at hrun
    obtain ⟨s1, hs, hrun⟩ := Option.bind_eq_some_iff.mp hrun
    obtain ⟨hnow, hnext⟩ := hone
    have hone1 := hnext s1 hs
    suffices hk : Within 1 limits s1.live ∧ ∀ t ∈ s1.threads, ThreadOk limits s1.live t from ih s1 hk.1 hone1 hrun hk.2
    clear hrun ih hnext
    unfold step at hs
    cases hi : s.threads[i]? with
    | none => rw [hi] at hs; cases hs
    | some t =>
      rw [hi] at hs
      have htm := List.mem_of_getElem? hi
      have hmem : ∀ (live : List Conn) (pc : TPc), (∀ u ∈ s.threads, ThreadOk limits live u) → ThreadOk limits live { t with pc := pc } →
          ∀ u ∈ s.threads.set i { t with pc := pc }, ThreadOk limits live u := by
        intro live pc h1 h2 u hu
        rcases List.mem_or_eq_of_mem_set hu with hu | rfl
        · exact h1 u hu
        · exact h2
      have htok := hok t htm
      simp only at hs
      cases hpc : t.pc with
      | start =>
        rw [hpc] at hs
        simp only at hs
        split at hs
        · rename_i hv
          cases hs
          refine ⟨hw, hmem _ _ hok ?_⟩
          have := (connection_validate_iff limits s.live t.ip t.path).mp hv
          rw [hact] at this
          exact this
        · cases hs
          exact ⟨hw, hmem _ _ hok trivial⟩
      | validated =>
        rw [hpc] at hs
        simp only at hs
        unfold ThreadOk at htok
        rw [hpc] at htok
        split at hs
        · cases hs; exact ⟨hw, hmem _ _ hok trivial⟩
        · rename_i k hk
          cases hs
          exact ⟨hw, hmem _ _ hok ⟨htok, firstFree_some hk⟩⟩
      | picked k =>
        rw [hpc] at hs
        simp only at hs
        cases hs
        unfold ThreadOk at htok
        rw [hpc] at htok
        obtain ⟨hadm, c, hc, h0⟩ := htok
        have hz : ∀ q, ¬ Under q c := fun q h => h.1 h0
        refine ⟨?_, ?_⟩
        · intro l hl
          obtain ⟨h2, h3⟩ := hw l hl
          refine ⟨?_, fun ip' => ?_⟩
          · have hcnt := Queue.countP_set (fun c => decide (Under l.path c)) (b := ⟨t.socket, t.path, t.ip⟩) hc
            unfold liveUnder at *
            by_cases hu : Under l.path ⟨t.socket, t.path, t.ip⟩
            · have := (hadm l hl hu.2).1
              unfold liveUnder at this
              simp only [hu, hz, decide_true, decide_false, Bool.toNat_true, Bool.toNat_false] at hcnt
              simp only at *
              omega
            · simp only [hu, hz, decide_false, Bool.toNat_false] at hcnt
              simp only at *
              omega
          · have h3 := h3 ip'
            have hcnt := Queue.countP_set (fun c => decide (Under l.path c ∧ c.IP = ip')) (b := ⟨t.socket, t.path, t.ip⟩) hc
            unfold liveUnderFrom at *
            by_cases hu : Under l.path ⟨t.socket, t.path, t.ip⟩ ∧ t.ip = ip'
            · obtain ⟨hu, rfl⟩ := hu
              have := (hadm l hl hu.2).2
              unfold liveUnderFrom at this
              simp only [hu, hz, and_self, false_and, decide_true, decide_false, Bool.toNat_true, Bool.toNat_false] at hcnt
              simp only at *
              omega
            · simp only [hu, hz, false_and, decide_false, Bool.toNat_false] at hcnt
              simp only at *
              omega
        · -- nobody else is inside `connection_add`
          intro u hu
          obtain ⟨j, hj⟩ := List.mem_iff_getElem?.mp hu
          simp only [List.getElem?_set] at hj
          by_cases hij : i = j
          · subst hij
            simp only [Queue.lt_of_getElem?_some hi, if_true] at hj
            cases hj
            trivial
          · simp only [hij, if_false] at hj
            have hnot : Admitting u.pc = false := by
              by_contra hc
              simp only [Bool.not_eq_false] at hc
              have hcnt := Queue.countP_set (fun t : Thread => Admitting t.pc) (b := { t with pc := .serving }) hi
              have hposu : 0 < (s.threads.set i { t with pc := .serving }).countP (fun t => Admitting t.pc) :=
                List.countP_pos_iff.2 ⟨u, hu, hc⟩
              simp only [hpc, Admitting, Bool.toNat_true, Bool.toNat_false] at hcnt
              simp only [Admitting] at hposu hnow
              omega
            unfold ThreadOk
            cases hup : u.pc <;> rw [hup] at hnot <;> first | trivial | (exact absurd hnot (by decide))
      | serving =>
        rw [hpc] at hs; cases hs
        exact ⟨hw, hmem _ _ hok trivial⟩
      | closing =>
        rw [hpc] at hs; cases hs
        exact ⟨connection_del_within 1 limits s.live t.socket hw, hmem _ _ (fun u hu => (hok u hu).del _) trivial⟩
      | refused => rw [hpc] at hs; cases hs
      | finished => rw [hpc] at hs; cases hs

example : OneAtATime [⟨b!"/a", 1, 1, 0⟩] ⟨[⟨0, [], []⟩, ⟨0, [], []⟩], [caller 4 b!"1" b!"/a", caller 5 b!"1" b!"/a"]⟩ [0, 0, 0, 1, 0, 1, 0, 1] ∧
    (run [⟨b!"/a", 1, 1, 0⟩] ⟨[⟨0, [], []⟩, ⟨0, [], []⟩], [caller 4 b!"1" b!"/a", caller 5 b!"1" b!"/a"]⟩ [0, 0, 0, 1, 0, 1, 0, 1]).isSome = true := by
  refine ⟨?_, by decide⟩
  refine ⟨by decide, fun s h => ?_⟩
  cases h
  refine ⟨by decide, fun s h => ?_⟩
  cases h
  refine ⟨by decide, fun s h => ?_⟩
  cases h
  refine ⟨by decide, fun s h => ?_⟩
  cases h
  refine ⟨by decide, fun s h => ?_⟩
  cases h
  refine ⟨by decide, fun s h => ?_⟩
  cases h
  refine ⟨by decide, fun s h => ?_⟩
  cases h
  refine ⟨by decide, fun s h => ?_⟩
  cases h
  show _ ≤ 1
  decide
example : ∃ (p path : Str) (sockets : List Nat) (free : List Conn), p ≠ [] ∧ CasePrefix p path ∧ (∀ s ∈ sockets, s ≠ 0) ∧
    (∀ c ∈ free, c.socket = 0) ∧ sockets.length ≤ free.length ∧ 3 ≤ sockets.length :=
  ⟨b!"/a", b!"/A/x", [4, 5, 6], List.replicate 4 ⟨0, [], []⟩, by decide, (startswith_iff _ _).mp (by decide), by decide, by decide,
    by decide, by decide⟩

/-! ### C56 -/

/-- A request about to be split. -/
def splitter (url : Str) : Splitter := ⟨url, false, [], false, false⟩

/-- C56 as stated, for the tokens from which path and query string are taken: nothing undefined happens, and once a request has been split
it has the tokens of its own URL. -/
def C56_statement : Prop :=
  ∀ (delim : Str) (urls : List Str) (sched : List Nat) (r : C SSt), tokRun delim ⟨none, urls.map splitter⟩ sched = some r →
    ∃ s', r = ok s' ∧ ∀ t ∈ s'.threads, t.done = true → Runs delim t.url t.tokens

/-- C56 is false: the second request's first call takes over the tokenizer, and the first request gets the second
one's query string. -/
theorem C56_refuted : ¬ C56_statement := by
  intro h
  obtain ⟨s', h0, h1⟩ := h b!"?" [b!"/a?x=1", b!"/b?secret"] [0, 1, 0, 0, 1] _ rfl
  have e : s'.threads = [⟨b!"/a?x=1", true, [b!"/a", b!"secret"], true, false⟩, ⟨b!"/b?secret", true, [b!"/b"], true, false⟩] := by
    have := congrArg (fun r => match r with | ok s => s.threads | ub _ => []) h0
    exact this.symm.trans (by decide)
  have h2 := h1 ⟨b!"/a?x=1", true, [b!"/a", b!"secret"], true, false⟩ (by rw [e]; simp) rfl
  have h3 : Runs b!"?" b!"/a?x=1" [b!"/a", b!"x=1"] :=
    .cons [] b!"/a" 63 b!"x=1" _ (by simp) (by simp) (by decide) (by decide) (.last [] b!"x=1" (by simp) (by simp) (by decide))
  have := runs_unique h2 h3
  exact absurd this (by decide)

theorem runs_step {s delim t rest : Str} {ts : List Str} (h : strtok s delim = some (t, rest)) (hr : Runs delim rest ts) :
    Runs delim s (t :: ts) := by
  obtain ⟨d, hd, ht1, ht2, ⟨rfl, rfl⟩ | ⟨x, hx, rfl⟩⟩ := strtok_some h
  · have : ts = [] := runs_unique hr (.nil [] (by simp))
    subst this
    exact .last d t hd ht1 ht2
  · exact .cons d t x rest ts hd ht1 ht2 hx hr

/-- What does hold of C56: whatever happened before, a request whose calls are not interrupted by another worker
gets exactly the tokens of its own URL, and nothing undefined happens. Missing: interrupted requests. -/
theorem C56_partial (delim : Str) (s : SSt) (r : C SSt) (i : Nat) (url : Str) (n : Nat)
    (hi : s.threads[i]? = some (splitter url)) (hrun : tokRun delim s (List.replicate n i) = some r) :
    ∃ s', r = ok s' ∧ (∀ t, s'.threads[i]? = some t → t.url = url ∧ (t.done = true → Runs delim url t.tokens)) ∧
      ∀ j, j ≠ i → s'.threads[j]? = s.threads[j]? := by
  -- after the first call the tokenizer is the worker's own
  have key : ∀ (n : Nat) (s : SSt) (r : C SSt) (text : Str) (u : Splitter), s.threads[i]? = some u → u.freed = false →
      (u.done = false → (if u.started then s.saved = some (i, text) else u.url = text)) → (u.done = true → text = []) →
      tokRun delim s (List.replicate n i) = some r →
      ∃ s' t, r = ok s' ∧ s'.threads[i]? = some t ∧ t.url = u.url ∧
        (t.done = true → ∃ toks, t.tokens = u.tokens ++ toks ∧ Runs delim text toks) ∧
        ∀ j, j ≠ i → s'.threads[j]? = s.threads[j]? := by
    intro n
    induction n with
    | zero =>
      intro s r text u hu hf hx hdn hr
      cases hr
      refine ⟨s, u, rfl, hu, rfl, fun hd => ⟨[], by simp, ?_⟩, fun _ _ => rfl⟩
      rw [hdn hd]
      exact .nil [] (by simp)
    | succ n ih =>
      intro s r text u hu hf hx hdn hr
      have hlt := Queue.lt_of_getElem?_some hu
      simp only [List.replicate_succ, tokRun, tokStep, hu, hf, Bool.false_eq_true, if_false] at hr
      cases hd : u.done with
      | true =>
        simp only [hd, if_true] at hr
        -- the copy is freed; no further step is possible
        cases n with
        | zero =>
          cases hr
          refine ⟨_, { u with done := true, freed := true }, rfl, by simp [hlt], rfl, fun _ => ⟨[], by simp, ?_⟩, fun j hj => by simp [Ne.symm hj]⟩
          rw [hdn hd]
          exact .nil [] (by simp)
        | succ n =>
          simp [List.replicate_succ, tokRun, tokStep, hlt] at hr
      | false =>
        have hfrom : tokFrom s i u = ok (i, text) := by
          have := hx hd
          unfold tokFrom
          cases hst : u.started with
          | true =>
            simp only [hst, if_true] at this
            simp [this, hu, hf]
          | false =>
            simp only [hst, Bool.false_eq_true, if_false] at this
            simp [this]
        simp only [hd, Bool.false_eq_true, if_false, hfrom, ok_bind] at hr
        cases hs : strtok text delim with
        | none =>
          rw [hs] at hr
          simp only at hr
          obtain ⟨s', t, e1, e2, e3, e4, e5⟩ := ih ⟨some (i, []), s.threads.set i { u with started := true, done := true, freed := false }⟩ r []
            { u with started := true, done := true, freed := false } (by simp [hlt]) rfl (fun h => by cases h) (fun _ => rfl) hr
          refine ⟨s', t, e1, e2, e3, fun hdt => ?_, fun j hj => by rw [e5 j hj]; simp [Ne.symm hj]⟩
          obtain ⟨toks, f1, f2⟩ := e4 hdt
          have : toks = [] := runs_unique f2 (.nil [] (by simp))
          subst this
          exact ⟨[], f1, .nil _ (strtok_none hs)⟩
        | some p =>
          obtain ⟨tok, rest⟩ := p
          rw [hs] at hr
          simp only at hr
          obtain ⟨s', t, e1, e2, e3, e4, e5⟩ := ih ⟨some (i, rest), s.threads.set i { u with started := true, tokens := u.tokens ++ [tok], done := false, freed := false }⟩ r rest
            { u with started := true, tokens := u.tokens ++ [tok], done := false, freed := false } (by simp [hlt]) rfl (fun _ => by simp) (fun h => by cases h) hr
          refine ⟨s', t, e1, e2, e3, fun hdt => ?_, fun j hj => by rw [e5 j hj]; simp [Ne.symm hj]⟩
          obtain ⟨toks, f1, f2⟩ := e4 hdt
          exact ⟨tok :: toks, by rw [f1]; simp, runs_step hs f2⟩
  obtain ⟨s', t, e1, e2, e3, e4, e5⟩ := key n s r url _ hi rfl (fun _ => rfl) (fun h => by cases h) hrun
  refine ⟨s', e1, fun t' ht' => ?_, e5⟩
  rw [e2] at ht'
  cases ht'
  refine ⟨e3, fun hd => ?_⟩
  obtain ⟨toks, f1, f2⟩ := e4 hd
  rw [f1]
  exact f2

/-- A block of uninterrupted calls after another request left its state behind. -/
example : tokRun b!"?" ⟨some (1, b!"y"), [splitter b!"/a?x=1", ⟨b!"/b?y", true, [b!"/b"], false, false⟩]⟩ (List.replicate 4 0) =
    some (ok ⟨some (0, []), [⟨b!"/a?x=1", true, [b!"/a", b!"x=1"], true, true⟩, ⟨b!"/b?y", true, [b!"/b"], false, false⟩]⟩) := by decide

/-- What every schedule leaves intact: the first token is the request's own, and every token is one of somebody's. -/
structure TokInv (delim : Str) (urls : List Str) (s : SSt) : Prop where
  same : s.threads.map (·.url) = urls
  fresh : ∀ t ∈ s.threads, t.started = false → t.tokens = [] ∧ t.done = false
  first : ∀ t ∈ s.threads, t.started = true → ∀ ts, Runs delim t.url ts → t.tokens.head? = ts.head?
  alive : ∀ t ∈ s.threads, t.started = true → t.done = false → t.tokens ≠ []
  whole : ∀ t ∈ s.threads, ∀ w ∈ t.tokens, ∃ url ∈ urls, ∃ ts, Runs delim url ts ∧ w ∈ ts
  pending : ∀ j text, s.saved = some (j, text) → ∀ ts, Runs delim text ts → ∀ w ∈ ts, ∃ url ∈ urls, ∃ us, Runs delim url us ∧ w ∈ us

theorem urls_set {s : SSt} {i : Nat} {u v : Splitter} {urls : List Str} (hs : s.threads.map (·.url) = urls) (hu : s.threads[i]? = some u)
    (hv : v.url = u.url) : (s.threads.set i v).map (·.url) = urls := by
  subst hs
  rw [List.map_set, hv]
  refine List.ext_getElem? fun j => ?_
  rw [List.getElem?_set]
  split
  · rename_i e
    subst e
    have := Queue.lt_of_getElem?_some hu
    rw [List.getElem?_eq_getElem this] at hu
    simp [this, Option.some.inj hu]
  · rfl

theorem tokStep_inv {delim : Str} {urls : List Str} {s s' : SSt} {i : Nat} (h : TokInv delim urls s) (hs : tokStep delim s i = some (ok s')) :
    TokInv delim urls s' := by
  unfold tokStep at hs
  cases hu : s.threads[i]? with
  | none => rw [hu] at hs; cases hs
  | some u =>
    rw [hu] at hs
    have hmem : u ∈ s.threads := List.mem_of_getElem? hu
    have hurl : u.url ∈ urls := by rw [← h.same]; exact List.mem_map_of_mem hmem
    simp only at hs
    split at hs
    · cases hs
    split at hs
    · -- the copy is freed
      cases hs
      constructor
      · exact urls_set h.same hu rfl
      · intro t ht hst
        rcases List.mem_or_eq_of_mem_set ht with ht | rfl
        · exact h.fresh t ht hst
        · exact h.fresh u hmem hst
      · intro t ht hst
        rcases List.mem_or_eq_of_mem_set ht with ht | rfl
        · exact h.first t ht hst
        · exact h.first u hmem hst
      · intro t ht hst hdn
        rcases List.mem_or_eq_of_mem_set ht with ht | rfl
        · exact h.alive t ht hst hdn
        · exact h.alive u hmem hst hdn
      · intro t ht
        rcases List.mem_or_eq_of_mem_set ht with ht | rfl
        · exact h.whole t ht
        · exact h.whole u hmem
      · exact h.pending
    rename_i hd
    cases hfrom : tokFrom s i u with
    | ub f => rw [hfrom] at hs; cases hs
    | ok p =>
    obtain ⟨j, text⟩ := p
    rw [hfrom] at hs
    simp only [ok_bind] at hs
    have hown : u.started = false → text = u.url := by
      intro e
      simp only [tokFrom, e, Bool.false_eq_true, if_false] at hfrom
      cases hfrom
      rfl
    have hsrc : ∀ ts, Runs delim text ts → ∀ w ∈ ts, ∃ url ∈ urls, ∃ us, Runs delim url us ∧ w ∈ us := by
      intro ts hr w hw
      cases hst : u.started with
      | false => rw [hown hst] at hr; exact ⟨u.url, hurl, ts, hr, hw⟩
      | true =>
        simp only [tokFrom, hst, if_true] at hfrom
        split at hfrom
        · cases hfrom
        · rename_i j' text' hsv
          split at hfrom
          · split at hfrom
            · cases hfrom
            · cases hfrom
              exact h.pending _ _ hsv ts hr w hw
          · cases hfrom
    split at hs
    · rename_i hn
      cases hs
      constructor
      · exact urls_set h.same hu rfl
      · intro t ht hst
        rcases List.mem_or_eq_of_mem_set ht with ht | rfl
        · exact h.fresh t ht hst
        · cases hst
      · intro t ht hst ts hr
        rcases List.mem_or_eq_of_mem_set ht with ht | rfl
        · exact h.first t ht hst ts hr
        · cases hus : u.started with
          | true => exact h.first u hmem hus ts hr
          | false =>
            rw [hown hus] at hn
            have := runs_unique hr (.nil _ (strtok_none hn))
            rw [this]
            show u.tokens.head? = none
            rw [(h.fresh u hmem hus).1]
            rfl
      · intro t ht hst hdn
        rcases List.mem_or_eq_of_mem_set ht with ht | rfl
        · exact h.alive t ht hst hdn
        · cases hdn
      · intro t ht
        rcases List.mem_or_eq_of_mem_set ht with ht | rfl
        · exact h.whole t ht
        · exact h.whole u hmem
      · intro j' text' e ts hr w hw
        cases e
        rw [runs_unique hr (.nil [] (by simp))] at hw
        cases hw
    · rename_i tok rest hsome
      cases hs
      constructor
      · exact urls_set h.same hu rfl
      · intro t ht hst
        rcases List.mem_or_eq_of_mem_set ht with ht | rfl
        · exact h.fresh t ht hst
        · cases hst
      · intro t ht hst ts hr
        rcases List.mem_or_eq_of_mem_set ht with ht | rfl
        · exact h.first t ht hst ts hr
        · obtain ⟨us, hus⟩ := runs_exists delim rest
          cases hst' : u.started with
          | true =>
            have h1 := h.first u hmem hst' ts hr
            show (u.tokens ++ [tok]).head? = ts.head?
            rw [List.head?_append, h1]
            cases ts with
            | cons a l => rfl
            | nil =>
              have h3 := h.alive u hmem hst' (by simpa using hd)
              cases htk : u.tokens with
              | nil => exact absurd htk h3
              | cons a l => rw [htk] at h1; cases h1
          | false =>
            rw [hown hst'] at hsome
            have h2 := runs_unique hr (runs_step hsome hus)
            rw [h2]
            show (u.tokens ++ [tok]).head? = some tok
            rw [(h.fresh u hmem hst').1]
            rfl
      · intro t ht hst hdn
        rcases List.mem_or_eq_of_mem_set ht with ht | rfl
        · exact h.alive t ht hst hdn
        · show u.tokens ++ [tok] ≠ []
          simp
      · intro t ht w hw
        rcases List.mem_or_eq_of_mem_set ht with ht | rfl
        · exact h.whole t ht w hw
        · rcases List.mem_append.mp hw with hw | hw
          · exact h.whole u hmem w hw
          · obtain ⟨us, hus⟩ := runs_exists delim rest
            rw [List.mem_singleton.mp hw]
            exact hsrc _ (runs_step hsome hus) tok (by simp)
      · intro j' text' e ts hr w hw
        cases e
        exact hsrc _ (runs_step hsome hr) w (List.mem_cons_of_mem _ hw)

theorem tokRun_inv {delim : Str} {urls : List Str} : ∀ {sched : List Nat} {s s' : SSt}, TokInv delim urls s →
    tokRun delim s sched = some (ok s') → TokInv delim urls s'
  | [], s, s', h, hr => by cases hr; exact h
  | i :: is, s, s', h, hr => by
    simp only [tokRun] at hr
    split at hr
    · cases hr
    · cases hr
    · rename_i h1
      exact tokRun_inv (tokStep_inv h h1) hr

theorem tokInv_start (delim : Str) (urls : List Str) : TokInv delim urls ⟨none, urls.map splitter⟩ := by
  constructor
  · simp [splitter, Function.comp_def]
  · intro t ht _
    obtain ⟨u, -, rfl⟩ := List.mem_map.mp ht
    exact ⟨rfl, rfl⟩
  · intro t ht hst
    obtain ⟨u, -, rfl⟩ := List.mem_map.mp ht
    cases hst
  · intro t ht hst
    obtain ⟨u, -, rfl⟩ := List.mem_map.mp ht
    cases hst
  · intro t ht w hw
    obtain ⟨u, -, rfl⟩ := List.mem_map.mp ht
    cases hw
  · intro j text e
    cases e

/-- What holds of C56 under every schedule, as long as nothing undefined happens: no request is taken for a request for another page. The
path of every request is its own, and every text in place of its query is a whole one of some request. -/
theorem C56_path (delim : Str) (urls : List Str) (sched : List Nat) (s' : SSt)
    (hrun : tokRun delim ⟨none, urls.map splitter⟩ sched = some (ok s')) :
    s'.threads.map (·.url) = urls ∧ ∀ t ∈ s'.threads,
      (t.done = true → ∀ own, Runs delim t.url own → t.tokens.head? = own.head?) ∧
      ∀ w ∈ t.tokens, ∃ url ∈ urls, ∃ ts, Runs delim url ts ∧ w ∈ ts := by
  have h := tokRun_inv (tokInv_start delim urls) hrun
  refine ⟨h.same, fun t ht => ⟨fun hd => ?_, h.whole t ht⟩⟩
  cases hst : t.started with
  | true => exact h.first t ht hst
  | false =>
    have := (h.fresh t ht hst).2
    rw [hd] at this
    cases this

theorem strtok_head {a : Str} (b : Str) (ha : a ≠ []) (hn : (63 : Byte) ∉ a) : strtok (a ++ 63 :: b) b!"?" = some (a, b) := by
  have e : ∀ x ∈ a, (b!"?").contains x = false := by
    intro x hx
    have : x ≠ 63 := fun e => hn (e ▸ hx)
    simpa using this
  obtain ⟨c, l, rfl⟩ := List.exists_cons_of_ne_nil ha
  unfold strtok
  rw [show (c :: l ++ 63 :: b).dropWhile (fun x => (b!"?").contains x) = c :: l ++ 63 :: b by
    rw [List.cons_append, List.dropWhile_cons_of_neg]; rw [e c (by simp)]; simp]
  simp only [List.cons_append]
  rw [← List.cons_append, List.takeWhile_append_of_pos (by intro x hx; rw [e x hx]; rfl),
    List.dropWhile_append_of_pos (by intro x hx; rw [e x hx]; rfl)]
  simp

theorem strtok_all {a : Str} (ha : a ≠ []) (hn : (63 : Byte) ∉ a) : strtok a b!"?" = some (a, []) := by
  have e : ∀ x ∈ a, (b!"?").contains x = false := by
    intro x hx
    have : x ≠ 63 := fun e => hn (e ▸ hx)
    simpa using this
  obtain ⟨c, l, rfl⟩ := List.exists_cons_of_ne_nil ha
  unfold strtok
  rw [show (c :: l).dropWhile (fun x => (b!"?").contains x) = c :: l by
    rw [List.dropWhile_cons_of_neg]; rw [e c (by simp)]; simp]
  simp only
  rw [List.takeWhile_eq_self_iff.mpr (by intro x hx; rw [e x hx]; rfl), List.dropWhile_eq_nil_iff.mpr (by intro x hx; rw [e x hx]; rfl)]
  rfl

/-- How C56 fails, for all URLs with a query: under this schedule the first request is carried out with the query of the second one, and the
second one with none. -/
theorem C56_steals (p q p' q' : Str) (h1 : p ≠ [] ∧ (63 : Byte) ∉ p) (h3 : p' ≠ [] ∧ (63 : Byte) ∉ p')
    (h4 : q' ≠ [] ∧ (63 : Byte) ∉ q') :
    ∃ saved, tokRun b!"?" ⟨none, [splitter (p ++ 63 :: q), splitter (p' ++ 63 :: q')]⟩ [0, 1, 0, 0, 0, 1, 1] =
      some (ok ⟨saved, [⟨p ++ 63 :: q, true, [p, q'], true, true⟩, ⟨p' ++ 63 :: q', true, [p'], true, true⟩]⟩) := by
  have key3 : strtok [] b!"?" = none := rfl
  exact ⟨some (1, []), by
    simp [tokRun, tokStep, tokFrom, splitter, strtok_head q h1.1 h1.2, strtok_head q' h3.1 h3.2, strtok_all h4.1 h4.2, key3]⟩

/-- How C56 fails, for all requests: if another request is split from beginning to end between the first and the second call of `strtok`
for a request, the second call reads memory that was freed. -/
theorem C56_freed (url url' : Str) (h : ∃ c ∈ url, c ≠ 63) :
    ∃ sched, tokRun b!"?" ⟨none, [splitter url, splitter url']⟩ sched = some (ub .oob) := by
  -- the first request's first call
  cases h0 : strtok url b!"?" with
  | none =>
    obtain ⟨c, hc, hne⟩ := h
    exact absurd (by simpa using strtok_none h0 c hc) hne
  | some p =>
    obtain ⟨tok, rest⟩ := p
    -- the other request, all of it
    have key : ∀ (n : Nat) (text : Str), text.length ≤ n → ∀ toks : List Str,
        ∃ m, tokRun b!"?" ⟨some (1, text), [⟨url, true, [tok], false, false⟩, ⟨url', true, toks, false, false⟩]⟩
          (List.replicate m 1 ++ [0]) = some (ub .oob) := by
      intro n
      induction n with
      | zero =>
        intro text hl toks
        have : text = [] := by simpa using hl
        subst this
        refine ⟨2, ?_⟩
        have key3 : strtok [] b!"?" = none := rfl
        simp [List.replicate_succ, tokRun, tokStep, tokFrom, key3]
      | succ n ih =>
        intro text hl toks
        cases hs : strtok text b!"?" with
        | none =>
          refine ⟨2, ?_⟩
          simp [List.replicate_succ, tokRun, tokStep, tokFrom, hs]
        | some p =>
          obtain ⟨w, r⟩ := p
          have hlen : r.length ≤ n := by
            obtain ⟨d, -, ht1, -, ⟨rfl, rfl⟩ | ⟨x, -, rfl⟩⟩ := strtok_some hs
            · simp
            · simp only [List.length_append, List.length_cons] at hl
              omega
          obtain ⟨m, hm⟩ := ih r hlen (toks ++ [w])
          refine ⟨m + 1, ?_⟩
          rw [List.replicate_succ, List.cons_append]
          simp only [tokRun, tokStep, List.getElem?_cons_succ, List.getElem?_cons_zero, Bool.false_eq_true, if_false, tokFrom, if_true,
            ok_bind, hs, List.set_cons_succ, List.set_cons_zero]
          exact hm
    cases h1 : strtok url' b!"?" with
    | none =>
      refine ⟨[0, 1, 1, 0], ?_⟩
      simp [tokRun, tokStep, tokFrom, splitter, h0, h1]
    | some p' =>
      obtain ⟨w, r⟩ := p'
      obtain ⟨m, hm⟩ := key r.length r (Nat.le_refl _) [w]
      refine ⟨0 :: 1 :: (List.replicate m 1 ++ [0]), ?_⟩
      simp only [tokRun, tokStep, splitter, List.getElem?_cons_succ, List.getElem?_cons_zero, Bool.false_eq_true, if_false, tokFrom,
        ok_bind, h0, h1, List.set_cons_succ, List.set_cons_zero, List.nil_append]
      exact hm

-- the first request of three is carried out with the text the second sends as its query
example : ∃ s', tokRun b!"?" ⟨none, [b!"/a?x=1", b!"/b?secret", b!"/c"].map splitter⟩ [0, 2, 1, 0, 2, 0, 1] = some (ok s') ∧
    s'.threads.map (·.tokens) = [[b!"/a", b!"secret"], [b!"/b"], [b!"/c"]] ∧ s'.threads.map (·.url) = [b!"/a?x=1", b!"/b?secret", b!"/c"] :=
  ⟨_, rfl, by decide, (C56_path b!"?" _ [0, 2, 1, 0, 2, 0, 1] _ rfl).1⟩
example : ∃ saved, tokRun b!"?" ⟨none, [splitter b!"/list?page=1", splitter b!"/login?pw=secret"]⟩ [0, 1, 0, 0, 0, 1, 1] =
    some (ok ⟨saved, [⟨b!"/list?page=1", true, [b!"/list", b!"pw=secret"], true, true⟩, ⟨b!"/login?pw=secret", true, [b!"/login"], true, true⟩]⟩) :=
  C56_steals b!"/list" b!"page=1" b!"/login" b!"pw=secret" (by decide) (by decide) (by decide)
-- two plain requests for pages
example : ∃ sched, tokRun b!"?" ⟨none, [splitter b!"/index.html", splitter b!"/"]⟩ sched = some (ub .oob) :=
  C56_freed _ _ ⟨47, by decide, by decide⟩
example : tokRun b!"?" ⟨none, [splitter b!"/index.html", splitter b!"/"]⟩ [0, 1, 1, 1, 0] = some (ub .oob) := by decide

end Wayuu
