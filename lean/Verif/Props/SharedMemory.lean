import Verif.Lemmas.Shared
/-
C129. The threads of the server race: on the table of open connections, on the buffer of `gmtime`, on the state of `strtok`. On nothing else,
unless messages of level INFO are switched off and no log file is set.
-/
namespace Wayuu.Shared
open Spec

/-- In no execution do two threads race on anything. -/
def C129_statement : Prop :=
  ∀ lvl n setup turns jobs sched s, run (start (program lvl n setup turns jobs)) sched = some s → ∀ l, ¬ Race s.trace l

/-- For every level, start-up, number of workers, connections, courses of requests and order in which the threads take turns: a race can only
be on an entry of `live_connections`, the result of `gmtime` or the state of `strtok`; or on `LOG_FILE`, if no log file was set, no `-r` was
given and messages of level INFO are not written. So not on the queue, the limits, the settings, the lists of addresses, the level, the routes. -/
theorem C129_partial (lvl n : Nat) (setup : Setup) (turns : List Turn) (jobs : Nat → List Job) (sched : List Nat) (s : Sys)
    (hr : run (start (program lvl n setup turns jobs)) sched = some s) (l : Loc) (hl : Race s.trace l) :
    (∃ i, l = .sock i ∨ l = .path i ∨ l = .ip i) ∨ l = .tm ∨ l = .tok ∨
      (l = .logFile ∧ 2 < lvl ∧ setup.file = false ∧ setup.roots = 0) := by
  have h := run_race (loose := 2 < lvl ∧ setup.file = false ∧ setup.roots = 0) (prog := program lvl n setup turns jobs) (p := setup.instrs lvl)
    (r := (List.range n).map (fun i => .spawn (i + 1)) ++ message lvl 2 ++ turns.flatMap (Turn.instrs lvl)) (by simp [program])
    (plain_setup lvl setup) ?_ ?_ ?_ hr hl
  · obtain ⟨hq, hf, hli, hlog⟩ := h
    cases l with
    | size => exact absurd trivial hq
    | front => exact absurd trivial hq
    | rear => exact absurd trivial hq
    | capacity => exact absurd trivial hq
    | elements => exact absurd trivial hq
    | sock i => exact .inl ⟨i, .inl rfl⟩
    | path i => exact .inl ⟨i, .inr (.inl rfl)⟩
    | ip i => exact .inl ⟨i, .inr (.inr rfl)⟩
    | limits => exact absurd trivial hf
    | settings => exact absurd trivial hf
    | lists => exact absurd rfl hli
    | level => exact absurd trivial hf
    | logFile => exact .inr (.inr (.inr ⟨rfl, hlog rfl⟩))
    | tm => exact .inr (.inl rfl)
    | tok => exact .inr (.inr (.inl rfl))
    | routes => exact absurd trivial hf
  · intro hn
    by_cases h2 : 2 < lvl
    · by_cases hfile : setup.file = true
      · right
        have : Instr.setLog ∈ (if setup.file = true then [Instr.setLog] else []) := by simp [hfile]
        unfold Setup.instrs
        generalize (List.range WS_MAX_CONNECTIONS).flatMap setEntry = z
        simp only [List.mem_append]
        tauto
      · left
        have hroots : setup.roots ≠ 0 := fun h0 => hn ⟨h2, by simpa using hfile, h0⟩
        have : Instr.openLog ∈ (List.replicate setup.roots (Instr.wr .settings :: message 2 2)).flatten := by
          refine List.mem_flatten.2 ⟨_, List.mem_replicate.2 ⟨hroots, rfl⟩, ?_⟩
          simp [message]
        unfold Setup.instrs
        generalize (List.range WS_MAX_CONNECTIONS).flatMap setEntry = z
        simp only [List.mem_append]
        tauto
    · left
      have : Instr.openLog ∈ message lvl 2 := by simp [message, h2]
      unfold Setup.instrs
      generalize (List.range WS_MAX_CONNECTIONS).flatMap setEntry = z
      simp only [List.mem_append]
      tauto
  · refine Ok.append (h' := false) (Ok.append (h' := false) ?_ (ok_message false lvl 2)) (Ok.flatMap _ _ (fun x _ => ok_turn lvl x))
    rw [List.map_eq_flatMap]
    exact Ok.flatMap _ _ (fun x _ => ⟨trivial, rfl⟩)
  · intro t ht
    unfold program
    rw [if_neg ht]
    split
    · exact Ok.flatMap _ _ (fun x _ => ok_job lvl x)
    · exact rfl

/-- With the mutex as it should be: what is left of it at the end of a piece of a program. -/
def bal : Bool → List Instr → Option Bool
  | h, [] => some h
  | h, .lock :: r => if h then none else bal true r
  | h, .unlock :: r => if h then bal false r else none
  | h, .rd _ :: r => bal h r
  | h, .wr _ :: r => bal h r
  | h, .spawn _ :: r => bal h r
  | h, .openLog :: r => bal h r
  | h, .setLog :: r => bal h r

theorem bal_append : ∀ (p q : List Instr) (h : Bool), bal h (p ++ q) = (bal h p).bind (fun h => bal h q)
  | [], q, h => rfl
  | .lock :: r, q, h => by
    simp only [List.cons_append, bal]
    split
    · rfl
    · exact bal_append r q true
  | .unlock :: r, q, h => by
    simp only [List.cons_append, bal]
    split
    · exact bal_append r q false
    · rfl
  | .rd _ :: r, q, h => bal_append r q h
  | .wr _ :: r, q, h => bal_append r q h
  | .spawn _ :: r, q, h => bal_append r q h
  | .openLog :: r, q, h => bal_append r q h
  | .setLog :: r, q, h => bal_append r q h

theorem bal_plain (h : Bool) : ∀ (p : List Instr), (∀ i ∈ p, i.plain) → bal h p = some h
  | [], _ => rfl
  | .lock :: r, hp => (hp .lock (by simp)).elim
  | .unlock :: r, hp => (hp .unlock (by simp)).elim
  | .spawn u :: r, hp => (hp (.spawn u) (by simp)).elim
  | .rd _ :: r, hp => bal_plain h r (fun i hi => hp i (List.mem_cons_of_mem _ hi))
  | .wr _ :: r, hp => bal_plain h r (fun i hi => hp i (List.mem_cons_of_mem _ hi))
  | .openLog :: r, hp => bal_plain h r (fun i hi => hp i (List.mem_cons_of_mem _ hi))
  | .setLog :: r, hp => bal_plain h r (fun i hi => hp i (List.mem_cons_of_mem _ hi))

theorem run_append (s : Sys) : ∀ (a b : List Nat), run s (a ++ b) = (run s a).bind (fun s => run s b)
  | [], b => rfl
  | t :: a, b => by
    simp only [List.cons_append, run]
    cases step s t with
    | none => rfl
    | some s1 => exact run_append s1 a b

/-- Thread `t` alone got from `s` to `s'`, doing `p`; `r` remains. -/
structure Solo (t : Nat) (p r : List Instr) (s s' : Sys) : Prop where
  ran : ∃ sched, run s sched = some s'
  left : s'.left t = r
  others : ∀ u, u ≠ t → s'.left u = s.left u
  kept : ∀ u, u ∈ s.running → u ∈ s'.running
  made : ∀ u, Instr.spawn u ∈ p → u ∈ s'.running
  log : Instr.openLog ∉ p → Instr.setLog ∉ p → s'.logSet = s.logSet
  trace : ∃ evs : Trace Loc, s'.trace = s.trace ++ evs ∧ ∀ e ∈ evs, e.1 = t

theorem Solo.refl (t : Nat) (r : List Instr) (s : Sys) (h : s.left t = r) : Solo t [] r s s :=
  ⟨⟨[], rfl⟩, h, fun _ _ => rfl, fun _ h => h, fun u h => by simp at h, fun _ _ => rfl, ⟨[], by simp, by simp⟩⟩

/-- One step and the rest. -/
theorem Solo.cons {t : Nat} {x : Instr} {p r : List Instr} {s s1 s' : Sys} {e : Ev Loc} (hs : step s t = some s1) (h : Solo t p r s1 s')
    (hoth : ∀ u, u ≠ t → s1.left u = s.left u) (hkept : ∀ u, u ∈ s.running → u ∈ s1.running) (hmade : ∀ u, x = .spawn u → u ∈ s1.running)
    (hlog : x ≠ .openLog → x ≠ .setLog → s1.logSet = s.logSet) (htr : s1.trace = s.trace ++ [(t, e)]) : Solo t (x :: p) r s s' := by
  obtain ⟨⟨sched, hr⟩, h2, h3, h4, h5, h6, ⟨evs, h7, h8⟩⟩ := h
  refine ⟨⟨t :: sched, by simp [run, hs, hr]⟩, h2, fun u hu => (h3 u hu).trans (hoth u hu), fun u hu => h4 u (hkept u hu), ?_, ?_, ?_⟩
  · intro u hu
    rcases List.mem_cons.1 hu with hu | hu
    · exact h4 u (hmade u hu.symm)
    · exact h5 u hu
  · intro ho hse
    simp at ho hse
    exact (h6 ho.2 hse.2).trans (hlog (fun hx => ho.1 hx.symm) (fun hx => hse.1 hx.symm))
  · refine ⟨(t, e) :: evs, by rw [h7, htr]; simp, ?_⟩
    intro x hx
    rcases List.mem_cons.1 hx with rfl | hx
    · rfl
    · exact h8 x hx

/-- A thread that respects the mutex gets through its program if it is let. -/
theorem solo (t : Nat) (r : List Instr) : ∀ (p : List Instr) (h h' : Bool) (s : Sys), bal h p = some h' → t ∈ s.running → s.left t = p ++ r →
    s.owner = (if h then some t else none) → ∃ s', Solo t p r s s' ∧ s'.owner = (if h' then some t else none)
  | [], h, h', s, hb, hm, hl, ho => by
    cases hb
    exact ⟨s, Solo.refl t r s (by simpa using hl), ho⟩
  | .lock :: p, h, h', s, hb, hm, hl, ho => by
    cases h with
    | true => simp [bal] at hb
    | false =>
      have hs : step s t = some { s.advance t .acq (p ++ r) with owner := some t } := by
        simp at ho; simp [step, hm, hl, ho]
      obtain ⟨s', h1, h2⟩ := solo t r p true h' { s.advance t .acq (p ++ r) with owner := some t } (by simpa [bal] using hb) hm
        (by simp [Sys.advance]) (by simp)
      exact ⟨s', h1.cons hs (fun u hu => by simp [Sys.advance, hu]) (fun _ h => h) (fun _ h => by cases h) (fun _ _ => rfl) rfl, h2⟩
  | .unlock :: p, h, h', s, hb, hm, hl, ho => by
    cases h with
    | false => simp [bal] at hb
    | true =>
      have hs : step s t = some { s.advance t .rel (p ++ r) with owner := none } := by
        simp at ho; simp [step, hm, hl, ho]
      obtain ⟨s', h1, h2⟩ := solo t r p false h' { s.advance t .rel (p ++ r) with owner := none } (by simpa [bal] using hb) hm
        (by simp [Sys.advance]) (by simp)
      exact ⟨s', h1.cons hs (fun u hu => by simp [Sys.advance, hu]) (fun _ h => h) (fun _ h => by cases h) (fun _ _ => rfl) rfl, h2⟩
  | .rd l :: p, h, h', s, hb, hm, hl, ho => by
    have hs : step s t = some (s.advance t (.rd l) (p ++ r)) := by simp [step, hm, hl]
    obtain ⟨s', h1, h2⟩ := solo t r p h h' (s.advance t (.rd l) (p ++ r)) hb hm (by simp [Sys.advance]) ho
    exact ⟨s', h1.cons hs (fun u hu => by simp [Sys.advance, hu]) (fun _ h => h) (fun _ h => by cases h) (fun _ _ => rfl) rfl, h2⟩
  | .wr l :: p, h, h', s, hb, hm, hl, ho => by
    have hs : step s t = some (s.advance t (.wr l) (p ++ r)) := by simp [step, hm, hl]
    obtain ⟨s', h1, h2⟩ := solo t r p h h' (s.advance t (.wr l) (p ++ r)) hb hm (by simp [Sys.advance]) ho
    exact ⟨s', h1.cons hs (fun u hu => by simp [Sys.advance, hu]) (fun _ h => h) (fun _ h => by cases h) (fun _ _ => rfl) rfl, h2⟩
  | .spawn v :: p, h, h', s, hb, hm, hl, ho => by
    have hs : step s t = some { s.advance t (.spawn v) (p ++ r) with running := v :: s.running } := by simp [step, hm, hl]
    obtain ⟨s', h1, h2⟩ := solo t r p h h' { s.advance t (.spawn v) (p ++ r) with running := v :: s.running } hb
      (List.mem_cons_of_mem _ hm) (by simp [Sys.advance]) ho
    exact ⟨s', h1.cons hs (fun u hu => by simp [Sys.advance, hu]) (fun _ h => List.mem_cons_of_mem _ h)
      (fun _ h => by cases h; exact List.mem_cons_self) (fun _ _ => rfl) rfl, h2⟩
  | .setLog :: p, h, h', s, hb, hm, hl, ho => by
    have hs : step s t = some { s.advance t (.wr .logFile) (p ++ r) with logSet := true } := by simp [step, hm, hl]
    obtain ⟨s', h1, h2⟩ := solo t r p h h' { s.advance t (.wr .logFile) (p ++ r) with logSet := true } hb hm (by simp [Sys.advance]) ho
    exact ⟨s', h1.cons hs (fun u hu => by simp [Sys.advance, hu]) (fun _ h => h) (fun _ h => by cases h) (fun _ h => absurd rfl h) rfl, h2⟩
  | .openLog :: p, h, h', s, hb, hm, hl, ho => by
    by_cases hset : s.logSet = true
    · have hs : step s t = some (s.advance t (.rd .logFile) (p ++ r)) := by simp [step, hm, hl, hset]
      obtain ⟨s', h1, h2⟩ := solo t r p h h' (s.advance t (.rd .logFile) (p ++ r)) hb hm (by simp [Sys.advance]) ho
      exact ⟨s', h1.cons hs (fun u hu => by simp [Sys.advance, hu]) (fun _ h => h) (fun _ h => by cases h) (fun h => absurd rfl h) rfl, h2⟩
    · have hs : step s t = some (s.advance t (.rd .logFile) (.setLog :: (p ++ r))) := by simp [step, hm, hl, hset]
      have hs2 : step (s.advance t (.rd .logFile) (.setLog :: (p ++ r))) t =
          some { (s.advance t (.rd .logFile) (.setLog :: (p ++ r))).advance t (.wr .logFile) (p ++ r) with logSet := true } := by
        unfold step
        rw [if_pos (show t ∈ (s.advance t (.rd .logFile) (.setLog :: (p ++ r))).running from hm)]
        simp [Sys.advance]
      obtain ⟨s', h1, h2⟩ := solo t r p h h' { (s.advance t (.rd .logFile) (.setLog :: (p ++ r))).advance t (.wr .logFile) (p ++ r) with logSet := true }
        hb hm (by simp [Sys.advance]) ho
      have h3 := h1.cons (x := .setLog) hs2 (fun u hu => by simp [Sys.advance, hu]) (fun _ h => h) (fun _ h => by cases h) (fun _ h => absurd rfl h) rfl
      have h4 := h3.cons (x := .openLog) hs (fun u hu => by simp [Sys.advance, hu]) (fun _ h => h) (fun _ h => by cases h) (fun h => absurd rfl h) rfl
      exact ⟨s', ⟨h4.ran, h4.left, h4.others, h4.kept, fun u hu => h4.made u (by simp at hu ⊢; exact hu), fun hx => by simp at hx, h4.trace⟩, h2⟩

/-- A thread that did something last, and then only others did: no release, no creation of a thread, so nothing is passed on. -/
theorem race_of {tr evs : Trace Loc} {t u : Nat} {a b : Ev Loc} {l : Loc} (hne : t ≠ u) (hevs : ∀ e ∈ evs, e.1 = u) (ha : a.touches l)
    (hb : b.touches l) (hw : a = .wr l ∨ b = .wr l) : Race (tr ++ [(t, a)] ++ evs ++ [(u, b)]) l := by
  have hi : (tr ++ [(t, a)] ++ evs ++ [(u, b)])[tr.length]? = some (t, a) := by simp
  have hj : (tr ++ [(t, a)] ++ evs ++ [(u, b)])[(tr ++ [(t, a)] ++ evs).length]? = some (u, b) := by
    rw [List.getElem?_append_right (Nat.le_refl _)]; simp
  refine ⟨tr.length, (tr ++ [(t, a)] ++ evs).length, t, u, a, b, by simp, hi, hj, hne, ha, hb, hw, ?_⟩
  intro hhb
  obtain ⟨k, e, hk1, hk2, hk3, hk4⟩ := hhb.passed t a u b hi hj hne
  rcases Nat.eq_or_lt_of_le hk1 with rfl | hk1
  · rw [hi] at hk3
    cases hk3
    rcases ha with rfl | rfl <;> rcases hk4 with h | ⟨w, h⟩ <;> cases h
  · rw [List.getElem?_append_left hk2, List.getElem?_append_right (by simp; omega)] at hk3
    have := hevs _ (List.mem_of_getElem? hk3)
    exact hne this

theorem run_trans {s0 s1 s2 : Sys} (h1 : ∃ sched, run s0 sched = some s1) (h2 : ∃ sched, run s1 sched = some s2) : ∃ sched, run s0 sched = some s2 := by
  obtain ⟨a, ha⟩ := h1
  obtain ⟨b, hb⟩ := h2
  exact ⟨a ++ b, by rw [run_append, ha]; exact hb⟩

theorem run_one {s s' : Sys} {t : Nat} (h : step s t = some s') : ∃ sched, run s sched = some s' := ⟨[t], by simp [run, h]⟩

/-- Two workers get to accesses of `l` outside the mutex, and one writes: a race. -/
theorem workers_race {prog : Nat → List Instr} {p1 p2 r1 r2 : List Instr} {l : Loc} (h0 : bal false (prog 0) = some false)
    (hs1 : Instr.spawn 1 ∈ prog 0) (hs2 : Instr.spawn 2 ∈ prog 0) (h1 : prog 1 = p1 ++ .wr l :: r1) (h2 : prog 2 = p2 ++ .wr l :: r2)
    (hb1 : bal false p1 = some false) (hb2 : bal false p2 = some false) : ∃ sched s, run (start prog) sched = some s ∧ Race s.trace l := by
  obtain ⟨sa, ha, hao⟩ := solo 0 [] (prog 0) false false (start prog) h0 (by simp [start]) (by simp [start]) rfl
  have hleft1 : sa.left 1 = p1 ++ .wr l :: r1 := (ha.others 1 (by simp)).trans h1
  obtain ⟨sb, hb, hbo⟩ := solo 1 (.wr l :: r1) p1 false false sa hb1 (ha.made 1 hs1) hleft1 hao
  have hstep1 : step sb 1 = some (sb.advance 1 (.wr l) r1) := by
    simp [step, hb.kept 1 (ha.made 1 hs1), hb.left]
  have hleft2 : (sb.advance 1 (.wr l) r1).left 2 = p2 ++ .wr l :: r2 := by
    simp [Sys.advance, hb.others 2 (by simp), ha.others 2 (by simp)]; exact h2
  have hrun2 : 2 ∈ (sb.advance 1 (.wr l) r1).running := hb.kept 2 (ha.made 2 hs2)
  obtain ⟨sc, hc, hco⟩ := solo 2 (.wr l :: r2) p2 false false (sb.advance 1 (.wr l) r1) hb2 hrun2 hleft2 hbo
  have hstep2 : step sc 2 = some (sc.advance 2 (.wr l) r2) := by
    simp [step, hc.kept 2 hrun2, hc.left]
  obtain ⟨sched, hr⟩ := run_trans (run_trans (run_trans (run_trans ha.ran hb.ran) (run_one hstep1)) hc.ran)
    (run_one hstep2)
  refine ⟨sched, _, hr, ?_⟩
  obtain ⟨evs, he1, he2⟩ := hc.trace
  show Race (sc.trace ++ [(2, .wr l)]) l
  rw [he1]
  exact race_of (by simp) he2 (.inr rfl) (.inr rfl) (.inl rfl)

/-- The program as it is: a log file, 200 workers. -/
def usual : Setup := ⟨0, true, 1, 0, false⟩

/-- Two connections, taken by different workers: a file is asked for. -/
def twoTurns : List Turn := [.queued true false false, .queued false false false]

def twoJobs (t : Nat) : List Job :=
  if t = 1 ∨ t = 2 then [⟨0, false, ⟨false, .served [] 0 1 1 (.file false), some 0⟩⟩] else []

theorem main_bal (lvl : Nat) (setup : Setup) (jobs : Nat → List Job) : bal false (program lvl 200 setup twoTurns jobs 0) = some false := by
  have h2 : bal false (message lvl 2) = some false := bal_plain _ _ (plain_message lvl 2)
  have h3 : bal false ((List.range 200).map (fun i => Instr.spawn (i + 1))) = some false := by
    generalize List.range 200 = xs
    induction xs with
    | nil => rfl
    | cons x xs ih => exact ih
  have h4 : bal false (twoTurns.flatMap (Turn.instrs lvl)) = some false := rfl
  simp only [program, if_true, bal_append, bal_plain _ _ (plain_setup lvl setup), h2, h3, h4, Option.bind_some]

theorem main_spawns (lvl : Nat) (setup : Setup) (jobs : Nat → List Job) (t : Nat) (h1 : 1 ≤ t) (h2 : t ≤ 200) : Instr.spawn t ∈ program lvl 200 setup twoTurns jobs 0 := by
  have : Instr.spawn t ∈ (List.range 200).map (fun i => Instr.spawn (i + 1)) :=
    List.mem_map.2 ⟨t - 1, List.mem_range.2 (by omega), by congr 1; omega⟩
  simp only [program, if_true, List.mem_append]
  tauto

theorem split_at {p : List Instr} {x : Instr} (k : Nat) (h : p[k]? = some x) : p = p.take k ++ x :: p.drop (k + 1) := by
  have hk := get_lt h
  rw [List.getElem?_eq_getElem hk] at h
  cases h
  rw [← List.drop_eq_getElem_cons hk, List.take_append_drop]

/-- Two requests for files, with the program as it is. -/
theorem two_files {l : Loc} (k : Nat) (hk : (program 2 200 usual twoTurns twoJobs 1)[k]? = some (.wr l))
    (hb : bal false ((program 2 200 usual twoTurns twoJobs 1).take k) = some false) :
    ∃ sched s, run (start (program 2 200 usual twoTurns twoJobs)) sched = some s ∧ Race s.trace l :=
  workers_race (main_bal 2 usual _) (main_spawns 2 usual _ 1 (by omega) (by omega)) (main_spawns 2 usual _ 2 (by omega) (by omega))
    (split_at k hk) (split_at k hk) hb hb

/-- Two requests that are let in at the same time: both workers write `live_connections[0]`. -/
theorem C129_table : ∀ l ∈ [Loc.sock 0, .path 0, .ip 0],
    ∃ sched s, run (start (program 2 200 usual twoTurns twoJobs)) sched = some s ∧ Race s.trace l := by
  intro l hl
  simp at hl
  rcases hl with rfl | rfl | rfl
  · exact two_files 18 (by decide) (by decide)
  · exact two_files 19 (by decide) (by decide)
  · exact two_files 20 (by decide) (by decide)

/-- Two requests that are logged at the same time: both workers use the buffer of `gmtime`. -/
theorem C129_clock : ∃ sched s, run (start (program 2 200 usual twoTurns twoJobs)) sched = some s ∧ Race s.trace .tm :=
  two_files 30 (by decide) (by decide)

/-- Two requests whose URLs are taken apart at the same time: both workers use the state of `strtok`. -/
theorem C129_tokens : ∃ sched s, run (start (program 2 200 usual twoTurns twoJobs)) sched = some s ∧ Race s.trace .tok :=
  two_files 23 (by decide) (by decide)

/-- A program that switches off messages below WARN and sets no log file. -/
def quiet : Setup := ⟨0, false, 1, 0, false⟩

/-- Two files that are not there. -/
def missingJobs (t : Nat) : List Job :=
  if t = 1 ∨ t = 2 then [⟨0, false, ⟨false, .served [] 0 1 1 (.file true), some 0⟩⟩] else []

theorem C129_refuted : ¬ C129_statement := by
  intro h
  obtain ⟨sched, s, hr, hl⟩ := C129_table (.sock 0) (by simp)
  exact h _ _ _ _ _ _ _ hr _ hl

/-- With messages of level INFO switched off and no log file, the first two messages race for `LOG_FILE`: one worker has found it NULL and
sets it while the other looks. -/
theorem C129_log : ∃ sched s, run (start (program 3 200 quiet twoTurns missingJobs)) sched = some s ∧ Race s.trace .logFile := by
  have hk : (program 3 200 quiet twoTurns missingJobs 1)[30]? = some .openLog := by decide
  have hb : bal false ((program 3 200 quiet twoTurns missingJobs 1).take 30) = some false := by decide
  have hno : Instr.openLog ∉ (program 3 200 quiet twoTurns missingJobs 1).take 30 ∧ Instr.setLog ∉ (program 3 200 quiet twoTurns missingJobs 1).take 30 := by decide
  obtain ⟨r, hr⟩ : ∃ r, r = (program 3 200 quiet twoTurns missingJobs 1).drop 31 := ⟨_, rfl⟩
  obtain ⟨p, hp⟩ : ∃ p, p = (program 3 200 quiet twoTurns missingJobs 1).take 30 := ⟨_, rfl⟩
  have h1 : program 3 200 quiet twoTurns missingJobs 1 = p ++ .openLog :: r := by rw [hp, hr]; exact split_at 30 hk
  have h2 : program 3 200 quiet twoTurns missingJobs 2 = p ++ .openLog :: r := h1
  rw [← hp] at hb hno
  have hmain : Instr.openLog ∉ program 3 200 quiet twoTurns missingJobs 0 ∧ Instr.setLog ∉ program 3 200 quiet twoTurns missingJobs 0 := by
    have hz : Instr.openLog ∉ (List.range WS_MAX_CONNECTIONS).flatMap setEntry ∧ Instr.setLog ∉ (List.range WS_MAX_CONNECTIONS).flatMap setEntry := by
      generalize List.range WS_MAX_CONNECTIONS = xs
      constructor <;> · rw [List.mem_flatMap]; rintro ⟨x, _, hx⟩; simp [setEntry] at hx
    have hy : Instr.openLog ∉ (List.range 200).map (fun i => Instr.spawn (i + 1)) ∧ Instr.setLog ∉ (List.range 200).map (fun i => Instr.spawn (i + 1)) := by
      generalize List.range 200 = xs
      constructor <;> · rw [List.mem_map]; rintro ⟨x, _, hx⟩; cases hx
    have hm : message 3 2 = [.rd .level] := by decide
    have hm1 : message 3 1 = [.rd .level] := by decide
    have ht : Instr.openLog ∉ twoTurns.flatMap (Turn.instrs 3) ∧ Instr.setLog ∉ twoTurns.flatMap (Turn.instrs 3) := by decide
    unfold program Setup.instrs
    generalize (List.range WS_MAX_CONNECTIONS).flatMap setEntry = z at hz ⊢
    generalize (List.range 200).map (fun i => Instr.spawn (i + 1)) = y at hy ⊢
    simp [quiet, hm, hm1, hz, hy, ht]
  obtain ⟨sa, ha, hao⟩ := solo 0 [] _ false false (start (program 3 200 quiet twoTurns missingJobs)) (main_bal 3 quiet missingJobs) (by simp [start])
    (by simp [start]) rfl
  have hrun1 := ha.made 1 (main_spawns 3 quiet missingJobs 1 (by omega) (by omega))
  have hrun2 := ha.made 2 (main_spawns 3 quiet missingJobs 2 (by omega) (by omega))
  obtain ⟨sb, hsb, hbo⟩ := solo 1 (.openLog :: r) p false false sa hb hrun1 ((ha.others 1 (by simp)).trans h1) hao
  have hlog : sb.logSet = false := (hsb.log hno.1 hno.2).trans (ha.log hmain.1 hmain.2)
  have hs1 : step sb 1 = some (sb.advance 1 (.rd .logFile) (.setLog :: r)) := by simp [step, hsb.kept 1 hrun1, hsb.left, hlog]
  have hs2 : step (sb.advance 1 (.rd .logFile) (.setLog :: r)) 1 =
      some { (sb.advance 1 (.rd .logFile) (.setLog :: r)).advance 1 (.wr .logFile) r with logSet := true } := by
    unfold step
    rw [if_pos (show 1 ∈ (sb.advance 1 (.rd .logFile) (.setLog :: r)).running from hsb.kept 1 hrun1)]
    simp [Sys.advance]
  obtain ⟨sd, hsd⟩ : ∃ sd, sd = { (sb.advance 1 (.rd .logFile) (.setLog :: r)).advance 1 (.wr .logFile) r with logSet := true } := ⟨_, rfl⟩
  rw [← hsd] at hs2
  have hrun2d : 2 ∈ sd.running := by rw [hsd]; exact hsb.kept 2 hrun2
  have hleft2 : sd.left 2 = p ++ .openLog :: r := by
    rw [hsd]; simp [Sys.advance, hsb.others 2 (by simp), ha.others 2 (by simp)]; exact h2
  have hod : sd.owner = none := by rw [hsd]; exact hbo
  obtain ⟨sc, hsc, hco⟩ := solo 2 (.openLog :: r) p false false sd hb hrun2d hleft2 hod
  obtain ⟨se, hse, htr⟩ : ∃ se, step sc 2 = some se ∧ se.trace = sc.trace ++ [(2, .rd .logFile)] := by
    refine ⟨sc.advance 2 (.rd .logFile) (if sc.logSet then r else .setLog :: r), ?_, rfl⟩
    simp [step, hsc.kept 2 hrun2d, hsc.left]
  obtain ⟨sched, hrun⟩ := run_trans (run_trans (run_trans (run_trans (run_trans ha.ran hsb.ran) (run_one hs1)) (run_one hs2))
    hsc.ran) (run_one hse)
  refine ⟨sched, se, hrun, ?_⟩
  obtain ⟨evs, he1, he2⟩ := hsc.trace
  have hd : sd.trace = (sb.trace ++ [(1, .rd .logFile)]) ++ [(1, .wr .logFile)] := by rw [hsd]; rfl
  rw [htr, he1, hd]
  exact race_of (by simp) he2 (.inr rfl) (.inl rfl) (.inl rfl)

/-- The program as it is may do something: the hypothesis of `C129_partial` is met by an execution in which there is a race. -/
example : ∃ sched s l, run (start (program 2 200 usual twoTurns twoJobs)) sched = some s ∧ Race s.trace l ∧ l ≠ .logFile := by
  obtain ⟨sched, s, h1, h2⟩ := C129_clock
  exact ⟨sched, s, .tm, h1, h2, by simp⟩

end Wayuu.Shared
