import Verif.Lemmas.Time
import Verif.Lemmas.LogBound
import Verif.Props.LogLines
/-
C83: the time stamp of the access log. C84: the time stamp of the server log. C85: the response time in the access log.
C86: time stamps of several threads.
-/
namespace Wayuu
open C Spec

/-! ### C83 -/

/-- At any time for the next billion years the stamp is that of the calendar, which goes on second by second from 1970. -/
theorem C83_text {t : Nat} (h : t < 2 ^ 55) : ∃ s, format_ts_common_log t = ok s ∧ AccessStamp s (utc t) := by
  obtain ⟨s, h1, h2, -⟩ := stampAccess_spec (gmtime_valid t).1 (by have := year_bound t; omega)
  exact ⟨s, h1, by rwa [← gmtime_eq]⟩

/-- Two stamps are the same only if they are of the same second. -/
theorem C83_distinct {t u : Nat} (ht : t < 2 ^ 55) (hu : u < 2 ^ 55) {s : Str} (h1 : format_ts_common_log t = ok s)
    (h2 : format_ts_common_log u = ok s) : t = u := by
  obtain ⟨a, e1, a1⟩ := C83_text ht
  obtain ⟨b, e2, b1⟩ := C83_text hu
  rw [h1] at e1; rw [h2] at e2
  obtain rfl := ok.inj e1
  obtain rfl := ok.inj e2
  have := access_unique a1 b1
  rw [← (utc_valid t).2, ← (utc_valid u).2, this]

/-- With the clock at `t`, and any start of the request, the two fields meet the bound C77 asks for. -/
theorem C83_clock {env : Env} {t now start : Nat} (h : t < 2 ^ 55) (h1 : format_ts_common_log t = ok env.ts)
    (h2 : env.rt = responseText now start) : Clock env := by
  obtain ⟨s, e, -, hl⟩ := stampAccess_spec (gmtime_valid t).1 (by have := year_bound t; omega)
  have e' : format_ts_common_log t = ok s := e
  rw [h1] at e'
  obtain rfl := ok.inj e'
  exact ⟨hl, by rw [h2]; exact responseText_length now start⟩

/-- 29 February 2024, one second before March. -/
example : format_ts_common_log 1709251199 = ok b!"29/Feb/2024:23:59:59 +0000" ∧
    format_ts_common_log 1709251200 = ok b!"01/Mar/2024:00:00:00 +0000" ∧ (1709251200 : Nat) < 2 ^ 55 := by decide +kernel

/-! ### C84 -/

/-- A stamp in the server log tells the second. -/
def C84_statement : Prop := ∀ (t u : Nat) (s : Str), t < 2 ^ 55 → u < 2 ^ 55 → format_timestamp t = ok s → format_timestamp u = ok s → t = u

/-- The beginning of 1970 and that of 2070 have the same stamp. -/
theorem C84_refuted : ¬ C84_statement := by
  intro h
  have h1 : format_timestamp 0 = ok b!"01-01-70 00:00:00" := by decide +kernel
  have h2 : format_timestamp 3155760000 = ok b!"01-01-70 00:00:00" := by decide +kernel
  have := h 0 3155760000 _ (by decide) (by decide) h1 h2
  cases this

/-- The stamp is that of the calendar, less the century … -/
theorem C84_text (t : Nat) : ∃ s, format_timestamp t = ok s ∧ LogStamp s (utc t) := by
  obtain ⟨s, h1, h2⟩ := stampLog_spec (gmtime_valid t).1
  exact ⟨s, h1, by rwa [← gmtime_eq]⟩

/-- … and tells apart all seconds of one century. Missing: different centuries. -/
theorem C84_partial {t u : Nat} (hc : (utc t).year / 100 = (utc u).year / 100) {s : Str} (h1 : format_timestamp t = ok s)
    (h2 : format_timestamp u = ok s) : t = u := by
  obtain ⟨a, e1, a1⟩ := C84_text t
  obtain ⟨b, e2, b1⟩ := C84_text u
  rw [h1] at e1; rw [h2] at e2
  obtain rfl := ok.inj e1
  obtain rfl := ok.inj e2
  have := log_unique a1 b1 hc
  rw [← (utc_valid t).2, ← (utc_valid u).2, this]

/-- C84, exactly: two seconds have the same stamp if and only if their dates and times differ in the century at most. -/
theorem C84_exact (t u : Nat) : format_timestamp t = format_timestamp u ↔
    { utc t with year := (utc t).year % 100 } = { utc u with year := (utc u).year % 100 } := by
  constructor
  · intro h
    obtain ⟨a, e1, a1⟩ := C84_text t
    obtain ⟨b, e2, b1⟩ := C84_text u
    rw [e1, e2] at h
    obtain rfl := ok.inj h
    have key : ∀ x : Tm, LogStamp a x → LogStamp a { x with year := x.year % 100 } := by
      intro x hx
      unfold LogStamp at hx ⊢
      simpa using hx
    exact log_unique (key _ a1) (key _ b1) (by simp only; omega)
  · intro h
    unfold format_timestamp
    rw [gmtime_eq, gmtime_eq]
    simp only [Tm.mk.injEq] at h
    obtain ⟨h1, h2, h3, h4, h5, h6⟩ := h
    unfold stampLog
    rw [h1, h2, h3, h4, h5, h6]

example : format_timestamp 1709251199 = ok b!"29-02-24 23:59:59" ∧ (utc 59).year / 100 = (utc 60).year / 100 := by
  refine ⟨by decide +kernel, ?_⟩
  rw [← gmtime_eq, ← gmtime_eq]
  decide

/-- The same second of 2024 and 2124. -/
example : format_timestamp 1709251199 = format_timestamp (1709251199 + 36524 * 86400) := by decide +kernel

/-! ### C85 -/

/-- A request takes `d` milliseconds by a steady clock, while the system clock, at `c` at its start, is adjusted by `a`: the
time printed is off by no more than the adjustment. -/
def C85_statement : Prop :=
  ∀ (c d : Nat) (a : Int), c < 2 ^ 50 → d < 2 ^ 50 → 0 ≤ (c : Int) + d + a → (c : Int) + d + a < 2 ^ 51 →
    ∃ ms : Nat, SecondsText (responseText ((c : Int) + d + a).toNat c) ms ∧ (ms : Int) ≤ d + a.natAbs

/-- The clock is set back by two milliseconds during a request of one millisecond: the log says 18446744073709552.000
seconds. -/
theorem C85_refuted : ¬ C85_statement := by
  intro h
  obtain ⟨ms, ⟨a, b, e, ha, hb⟩, hm⟩ := h 1000000 1 (-2) (by decide) (by decide) (by decide) (by decide)
  have e0 : responseText ((1000000 : Nat) + (1 : Nat) + (-2 : Int)).toNat 1000000 = b!"18446744073709552.000" := by decide +kernel
  rw [e0] at e
  simp only [Int.natAbs_neg] at hm
  have hl : b.length = 3 := hb.1
  have hlen := congrArg List.length e
  simp only [List.length_append, List.length_cons, List.length_nil, hl] at hlen
  have e1 : (b!"18446744073709552" ++ b!"." ++ b!"000" : Str) = a ++ b!"." ++ b := e
  obtain ⟨e2, -⟩ := List.append_inj' e1 (by simp [hl])
  obtain ⟨e3, -⟩ := List.append_inj' e2 rfl
  have hv := ha.2.2.2
  rw [← e3] at hv
  have : decimal b!"18446744073709552" = 18446744073709552 := by decide
  rw [this] at hv
  omega

/-- If the system clock does not go below its value at the start, the time printed is the difference of the two readings, to
the millisecond: neither the conversion to `double` nor the division nor the printing loses anything, for 142 000 years. Missing:
a clock set back. -/
theorem C85_partial {now start : Nat} (h1 : start ≤ now) (h2 : now < 2 ^ 64) (h3 : now - start < 2 ^ 52) :
    SecondsText (responseText now start) (now - start) := by
  have e : elapsed now start = now - start := by unfold elapsed; omega
  have h := fmt3_text (response_time (elapsed now start))
  rw [show roundDiv ((response_time (elapsed now start)).1 * 1000) (response_time (elapsed now start)).2 = now - start by
    have := printed_exact (n := now - start) h3
    rw [e]; exact this] at h
  exact h

theorem micros_aux {P P' u u' : Nat} (hu' : u' < 1000000) (hs : P' < 2 ^ 51) (h : 1000 * P + u ≤ 1000 * P' + u') :
    ∃ ms, SecondsText (responseText (P' + u' / 1000) (P + u / 1000)) ms ∧
      (1000 * P' + u') - (1000 * P + u) < ms * 1000 + 1000 ∧ ms * 1000 < (1000 * P' + u') - (1000 * P + u) + 1000 := by
  refine ⟨_, C85_partial ?_ ?_ ?_, ?_, ?_⟩ <;> omega

/-- From microseconds to what is printed: within a millisecond of the real time. -/
theorem C85_micros {sec usec sec' usec' : Nat} (hu : usec < 1000000) (hu' : usec' < 1000000) (hs : sec' < 2 ^ 41)
    (h : sec * 1000000 + usec ≤ sec' * 1000000 + usec') :
    ∃ ms, SecondsText (responseText (epoch_millis sec' usec') (epoch_millis sec usec)) ms ∧
      (sec' * 1000000 + usec') - (sec * 1000000 + usec) < ms * 1000 + 1000 ∧
      ms * 1000 < (sec' * 1000000 + usec') - (sec * 1000000 + usec) + 1000 := by
  have e1 : epoch_millis sec usec = sec * 1000 + usec / 1000 := by unfold epoch_millis; omega
  have e2 : epoch_millis sec' usec' = sec' * 1000 + usec' / 1000 := by unfold epoch_millis; omega
  rw [e1, e2]
  have q : ∀ n, n * 1000000 = 1000 * (n * 1000) := fun n => by clear h; omega
  have hs' : sec' * 1000 < 2 ^ 51 := by clear h; omega
  rw [q, q] at h ⊢
  exact micros_aux hu' hs' h

example : responseText (epoch_millis 1763290001 16000) (epoch_millis 1763290000 999999) = b!"0.017" := by decide +kernel

/-! ### C86 -/

/-- The stamp a thread has made. -/
def Stamper.text (th : Stamper) : C Str := stampAccess th.got

/-- Threads about to make a stamp. -/
def stampers (x : Tm) (times : List Nat) : ClockSt := ⟨x, times.map fun t => ⟨t, 0, ⟨0, 0, 0, 0, 0, 0⟩⟩⟩

/-- Whatever the number of threads and the order of their steps, a stamp is that of some second between the earliest and the
latest of their clock readings. -/
def C86_statement : Prop :=
  ∀ (x : Tm) (times : List Nat) (lo hi : Nat), hi < 2 ^ 55 → (∀ t ∈ times, lo ≤ t ∧ t ≤ hi) →
    ∀ sched s, (stampers x times).run sched = some s → ∀ th ∈ s.threads, th.pc = 12 →
      ∃ t, lo ≤ t ∧ t ≤ hi ∧ th.text = format_ts_common_log t

/-- Two threads, one in the last second of 2025 and one in the first second of 2026. The first has read the date when the
second calls `gmtime`: its stamp is a day too early. Each `gmtime` writes without interruption here. -/
theorem C86_refuted : ¬ C86_statement := by
  intro h
  let sched := List.replicate 9 0 ++ List.replicate 6 1 ++ List.replicate 3 0
  have hr : (stampers ⟨0, 0, 0, 0, 0, 0⟩ [1767225599, 1767225600]).run sched =
      some ⟨⟨0, 0, 0, 1, 0, 2026⟩, [⟨1767225599, 12, ⟨0, 0, 0, 31, 11, 2025⟩⟩, ⟨1767225600, 6, ⟨0, 0, 0, 0, 0, 0⟩⟩]⟩ := by
    decide +kernel
  obtain ⟨t, h1, h2, h3⟩ := h _ _ 1767225599 1767225600 (by decide) (by simp) sched _ hr _ (List.mem_cons_self ..) rfl
  have e1 : Stamper.text ⟨1767225599, 12, ⟨0, 0, 0, 31, 11, 2025⟩⟩ = ok b!"31/Dec/2025:00:00:00 +0000" := by decide +kernel
  have e2 : format_ts_common_log 1767225599 = ok b!"31/Dec/2025:23:59:59 +0000" := by decide +kernel
  have e3 : format_ts_common_log 1767225600 = ok b!"01/Jan/2026:00:00:00 +0000" := by decide +kernel
  rw [e1] at h3
  have ht : t = 1767225599 ∨ t = 1767225600 := by omega
  rcases ht with rfl | rfl
  · rw [e2] at h3; exact absurd h3 (by decide)
  · rw [e3] at h3; exact absurd h3 (by decide)

theorem got_eq {x : Tm} {t : Nat} (h : ∀ j < 6, x.get j = (gmtime t).get j) : stampAccess x = format_ts_common_log t := by
  rw [Tm.ext_get h]; rfl

/-- Threads that read the clock in the same second make the right stamp, in any order of their steps, even if `gmtime` is
interrupted after each field. Missing: threads that overlap the end of a second. -/
theorem C86_partial (x : Tm) (times : List Nat) (t : Nat) (ht : ∀ u ∈ times, u = t) (sched : List Nat) (s : ClockSt)
    (h : (stampers x times).run sched = some s) (th : Stamper) (hm : th ∈ s.threads) (hd : th.pc = 12) :
    th.text = format_ts_common_log t := by
  have h0 : SameInv t (stampers x times) := by
    intro th hth
    simp only [stampers, List.mem_map] at hth
    obtain ⟨u, hu, rfl⟩ := hth
    exact ⟨ht u hu, fun j _ hp => absurd hp (by simp), fun j _ hp => absurd hp (by simp)⟩
  exact got_eq fun j hj => (h0.run sched h th hm).2.2 j hj (by omega)

/-- No other thread is in `gmtime` in the course of these steps. -/
def Quiet (i : Nat) : ClockSt → List Nat → Prop
  | _, [] => True
  | s, k :: is => (k = i ∨ ∀ th, s.threads[k]? = some th → 6 ≤ th.pc) ∧ ∀ s', s.step k = some s' → Quiet i s' is

/-- What thread `i` wrote and read is that of `t`. -/
def OwnInv (t i : Nat) (s : ClockSt) : Prop :=
  ∃ th, s.threads[i]? = some th ∧ th.time = t ∧ (∀ j, j < 6 → j < th.pc → s.shared.get j = (gmtime t).get j) ∧
    ∀ j, j < 6 → j + 6 < th.pc → th.got.get j = (gmtime t).get j

theorem OwnInv.step {t i k : Nat} {s s' : ClockSt} (h : OwnInv t i s)
    (hq : k = i ∨ ∀ th, s.threads[k]? = some th → 6 ≤ th.pc) (hs : s.step k = some s') : OwnInv t i s' := by
  obtain ⟨th, hi, ht, hw, hg⟩ := h
  unfold ClockSt.step at hs
  cases hk : s.threads[k]? with
  | none => rw [hk] at hs; cases hs
  | some th2 =>
    rw [hk] at hs
    simp only [Option.bind_eq_bind, Option.bind_some] at hs
    obtain ⟨hlt, -⟩ := List.getElem?_eq_some_iff.mp hk
    by_cases e : k = i
    · subst e
      rw [hi] at hk
      obtain rfl := Option.some.inj hk
      split at hs
      · rename_i hpc
        obtain rfl := Option.some.inj hs
        refine ⟨_, List.getElem?_set_self hlt, ht, fun j hj hp => ?_, fun j hj hp => hg j hj (by simp only at hp; omega)⟩
        simp only at hp
        rw [Tm.get_set hpc hj]
        split
        · rename_i e; rw [e, ht]
        · exact hw j hj (by omega)
      split at hs
      · obtain rfl := Option.some.inj hs
        refine ⟨_, List.getElem?_set_self hlt, ht, fun j hj hp => hw j hj (by omega), fun j hj hp => ?_⟩
        simp only at hp
        rw [Tm.get_set (by omega) hj]
        split
        · rename_i e; rw [← e]; exact hw j hj (by omega)
        · exact hg j hj (by omega)
      · cases hs
    · have h6 := hq.resolve_left e th2 hk
      split at hs
      · omega
      split at hs
      · obtain rfl := Option.some.inj hs
        exact ⟨th, by rw [List.getElem?_set_ne e]; exact hi, ht, hw, hg⟩
      · cases hs

/-- A thread makes the right stamp, whatever the times of the others and wherever they are, if none of them is in `gmtime`
before it is done. -/
theorem C86_quiet (t i : Nat) (sched : List Nat) : ∀ (s s' : ClockSt), OwnInv t i s → Quiet i s sched → s.run sched = some s' →
    ∀ th, s'.threads[i]? = some th → th.pc = 12 → th.text = format_ts_common_log t := by
  induction sched with
  | nil =>
    intro s s' h _ hs th hi hd
    obtain rfl := Option.some.inj hs
    obtain ⟨th2, h2, -, -, hg⟩ := h
    rw [hi] at h2
    obtain rfl := Option.some.inj h2
    exact got_eq fun j hj => hg j hj (by omega)
  | cons k is ih =>
    intro s s' h hq hs th hi hd
    unfold ClockSt.run at hs
    obtain ⟨s1, h1, h2⟩ := Option.bind_eq_some_iff.mp hs
    exact ih s1 s' (h.step hq.1 h1) (hq.2 s1 h1) h2 th hi hd

/-- Any thread about to make a stamp. -/
theorem C86_start (x : Tm) (times : List Nat) (i t : Nat) (h : times[i]? = some t) : OwnInv t i (stampers x times) :=
  ⟨⟨t, 0, ⟨0, 0, 0, 0, 0, 0⟩⟩, by simp [stampers, h], rfl, fun _ _ hp => absurd hp (by simp), fun _ _ hp => absurd hp (by simp)⟩

/-- A thread whose steps are not interrupted, with another one at another time. -/
example : Quiet 0 (stampers ⟨0, 0, 0, 0, 0, 0⟩ [1767225599, 1767225600]) (List.replicate 12 0) ∧
    ((stampers ⟨0, 0, 0, 0, 0, 0⟩ [1767225599, 1767225600]).run (List.replicate 12 0)).isSome := by
  have key : ∀ n s, Quiet 0 s (List.replicate n 0) := by
    intro n
    induction n with
    | zero => intro s; trivial
    | succ n ih => intro s; exact ⟨.inl rfl, fun s' _ => ih s'⟩
  exact ⟨key 12 _, by decide +kernel⟩

/-- Three threads in one second, their steps in turn. -/
example : ∃ s, (stampers ⟨0, 0, 0, 0, 0, 0⟩ [1767225599, 1767225599, 1767225599]).run
      (List.replicate 12 [0, 1, 2]).flatten = some s ∧ ∀ th ∈ s.threads, th.pc = 12 := by
  have : (((stampers ⟨0, 0, 0, 0, 0, 0⟩ [1767225599, 1767225599, 1767225599]).run (List.replicate 12 [0, 1, 2]).flatten).map
      fun s => s.threads.map (·.pc)) = some [12, 12, 12] := by decide +kernel
  obtain ⟨s, hs, he⟩ := Option.map_eq_some_iff.mp this
  refine ⟨s, hs, fun th hm => ?_⟩
  have : th.pc ∈ s.threads.map (·.pc) := List.mem_map_of_mem hm
  rw [he] at this
  simpa using this

end Wayuu
