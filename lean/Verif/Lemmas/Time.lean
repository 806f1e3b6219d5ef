import Verif.Spec.Time
import Verif.Lemmas.Response
/-
`gmtime` follows the calendar; its texts tell seconds apart.
-/
namespace Wayuu
open C Spec

theorem yearDays_pos (y : Nat) : 365 ≤ yearDays y := by
  unfold yearDays; split <;> omega

theorem monthDays_pos (y m : Nat) : 28 ≤ monthDays y m := by
  unfold monthDays
  split
  · split <;> omega
  all_goals omega

theorem monthDays_le (y m : Nat) : monthDays y m ≤ 31 := by
  unfold monthDays
  split
  · split <;> omega
  all_goals omega

/-- Days before year `1970 + k`. -/
def yearStart : Nat → Nat
  | 0 => 0
  | k + 1 => yearStart k + yearDays (1970 + k)

/-- Days of year `y` before month `m`. -/
def monthStart (y : Nat) : Nat → Nat
  | 0 => 0
  | m + 1 => monthStart y m + monthDays y m

theorem monthStart_year (y : Nat) : monthStart y 12 = yearDays y := by
  simp only [monthStart, monthDays, yearDays]
  split <;> rfl

theorem yearStart_mono {a b : Nat} (h : a < b) : yearStart a + yearDays (1970 + a) ≤ yearStart b := by
  induction b with
  | zero => omega
  | succ b ih =>
    by_cases hb : a = b
    · subst hb; exact Nat.le_refl _
    · have := ih (by omega)
      simp only [yearStart]
      omega

theorem monthStart_mono (y : Nat) {a b : Nat} (h : a < b) : monthStart y a + monthDays y a ≤ monthStart y b := by
  induction b with
  | zero => omega
  | succ b ih =>
    by_cases hb : a = b
    · subst hb; exact Nat.le_refl _
    · have := ih (by omega)
      simp only [monthStart]
      omega

theorem gmYear_spec (n : Nat) : ∀ (d k : Nat), d < n →
    ∃ k' d', gmYear n d (1970 + k) = (1970 + k', d') ∧ d' < yearDays (1970 + k') ∧ yearStart k' + d' = yearStart k + d := by
  induction n with
  | zero => intro d k h; omega
  | succ n ih =>
    intro d k h
    unfold gmYear
    split
    · exact ⟨k, d, rfl, by assumption, rfl⟩
    · have := yearDays_pos (1970 + k)
      obtain ⟨k', d', h1, h2, h3⟩ := ih (d - yearDays (1970 + k)) (k + 1) (by omega)
      refine ⟨k', d', h1, h2, ?_⟩
      rw [h3]
      simp only [yearStart]
      omega

theorem gmMonth_spec (y n : Nat) : ∀ (d m : Nat), n + m = 12 → monthStart y m + d < yearDays y →
    ∃ m' d', gmMonth y n d m = (m', d') ∧ m' < 12 ∧ d' < monthDays y m' ∧ monthStart y m' + d' = monthStart y m + d := by
  induction n with
  | zero =>
    intro d m h hd
    have : m = 12 := by omega
    subst this
    rw [monthStart_year] at hd
    omega
  | succ n ih =>
    intro d m h hd
    unfold gmMonth
    split
    · exact ⟨m, d, rfl, by omega, by assumption, rfl⟩
    · have hle : monthDays y m ≤ d := by omega
      obtain ⟨m', d', h1, h2, h3, h4⟩ := ih (d - monthDays y m) (m + 1) (by omega) (by simp only [monthStart]; omega)
      refine ⟨m', d', h1, h2, h3, ?_⟩
      rw [h4]
      simp only [monthStart]
      omega

/-- A date and time that exists. -/
structure Tm.Valid (x : Tm) : Prop where
  sec : x.sec < 60
  min : x.min < 60
  hour : x.hour < 24
  day1 : 1 ≤ x.mday
  day2 : x.mday ≤ monthDays x.year x.mon
  mon : x.mon < 12
  year : 1970 ≤ x.year

/-- Its number of days since 1970. -/
def Tm.days (x : Tm) : Nat := yearStart (x.year - 1970) + monthStart x.year x.mon + (x.mday - 1)

/-- Its number of seconds since 1970. -/
def Tm.val (x : Tm) : Nat := x.days * 86400 + x.hour * 3600 + x.min * 60 + x.sec

theorem gmtime_valid (t : Nat) : (gmtime t).Valid ∧ (gmtime t).val = t := by
  obtain ⟨k, d, h1, h2, h3⟩ := gmYear_spec (t / 86400 + 1) (t / 86400) 0 (by omega)
  obtain ⟨m, d', g1, g2, g3, g4⟩ := gmMonth_spec (1970 + k) 12 d 0 rfl (by simpa [monthStart] using h2)
  have e : gmtime t = ⟨t % 60, t / 60 % 60, t / 3600 % 24, d' + 1, m, 1970 + k⟩ := by
    unfold gmtime
    simp only [Nat.add_zero] at h1
    simp only [h1, g1]
  rw [e]
  refine ⟨⟨by simp only; omega, by simp only; omega, by simp only; omega, by simp only; omega, by simp only; omega, g2, by simp only; omega⟩, ?_⟩
  simp only [Tm.val, Tm.days, Nat.add_sub_cancel_left, Nat.add_sub_cancel]
  simp only [yearStart, monthStart, Nat.zero_add] at h3 g4
  rw [show yearStart k + monthStart (1970 + k) m + d' = t / 86400 by omega]
  omega

theorem Tm.val_inj {x y : Tm} (hx : x.Valid) (hy : y.Valid) (h : x.val = y.val) : x = y := by
  have hd : x.days = y.days := by
    have := hx.sec; have := hx.min; have := hx.hour
    have := hy.sec; have := hy.min; have := hy.hour
    simp only [Tm.val] at h
    omega
  have inYear : ∀ {z : Tm}, z.Valid → monthStart z.year z.mon + (z.mday - 1) < yearDays z.year := by
    intro z hz
    have h1 := monthStart_mono z.year (a := z.mon) (b := 12) hz.mon
    rw [monthStart_year] at h1
    have := hz.day1; have := hz.day2
    omega
  have hyear : x.year = y.year := by
    have a := inYear hx
    have b := inYear hy
    have := hx.year; have := hy.year
    simp only [Tm.days] at hd
    rcases Nat.lt_trichotomy (x.year - 1970) (y.year - 1970) with hlt | heq | hlt
    · have := yearStart_mono hlt
      rw [show 1970 + (x.year - 1970) = x.year by omega] at this
      omega
    · omega
    · have := yearStart_mono hlt
      rw [show 1970 + (y.year - 1970) = y.year by omega] at this
      omega
  have hmon : x.mon = y.mon := by
    simp only [Tm.days, hyear] at hd
    have := hx.day1; have d1 := hx.day2; have := hy.day1; have := hy.day2
    rw [hyear] at d1
    rcases Nat.lt_trichotomy x.mon y.mon with hlt | heq | hlt
    · have := monthStart_mono y.year hlt
      omega
    · exact heq
    · have := monthStart_mono y.year hlt
      omega
  have hday : x.mday = y.mday := by
    simp only [Tm.days, hyear, hmon] at hd
    have := hx.day1; have := hy.day1
    omega
  obtain ⟨s1, m1, h1, d1, mo1, y1⟩ := x
  obtain ⟨s2, m2, h2, d2, mo2, y2⟩ := y
  simp only at hyear hmon hday
  subst hyear hmon hday
  have := hx.sec; have := hx.min; have := hx.hour
  have := hy.sec; have := hy.min; have := hy.hour
  simp only [Tm.val] at h hd
  simp only at *
  simp only [Tm.mk.injEq, true_and, and_true]
  simp only [Tm.days] at h
  omega

theorem lastDay_eq {x : Tm} (hm : x.mon < 12) : lastDay x = monthDays x.year x.mon := by
  unfold lastDay monthDays isLeap
  have h4 : (4 ∣ x.year) ↔ x.year % 4 = 0 := Nat.dvd_iff_mod_eq_zero
  have h100 : (100 ∣ x.year) ↔ x.year % 100 = 0 := Nat.dvd_iff_mod_eq_zero
  have h400 : (400 ∣ x.year) ↔ x.year % 400 = 0 := Nat.dvd_iff_mod_eq_zero
  simp only [h4, h100, h400]
  generalize x.mon = m at hm
  match m with
  | 1 =>
    simp only [true_and]
    by_cases hl : x.year % 4 = 0 ∧ (x.year % 100 = 0 → x.year % 400 = 0)
    · rw [if_pos hl, if_pos]
      simp only [decide_eq_true_eq]
      omega
    · rw [if_neg hl, if_neg]
      · rfl
      · simp only [decide_eq_true_eq]
        omega
  | 0 => rfl
  | 2 => rfl
  | 3 => rfl
  | 4 => rfl
  | 5 => rfl
  | 6 => rfl
  | 7 => rfl
  | 8 => rfl
  | 9 => rfl
  | 10 => rfl
  | 11 => rfl
  | n + 12 => omega

theorem tick_valid {x : Tm} (h : x.Valid) : (tick x).Valid ∧ (tick x).val = x.val + 1 := by
  obtain ⟨s, mi, ho, d, mo, y⟩ := x
  obtain ⟨h1, h2, h3, h4, h5, h6, h7⟩ := h
  simp only at h1 h2 h3 h4 h5 h6 h7
  unfold tick
  simp only [lastDay_eq (x := ⟨s, mi, ho, d, mo, y⟩) h6]
  split
  · exact ⟨⟨by simp only; omega, h2, h3, h4, h5, h6, h7⟩, by simp only [Tm.val, Tm.days]; omega⟩
  split
  · exact ⟨⟨by simp only; omega, by simp only; omega, h3, h4, h5, h6, h7⟩, by simp only [Tm.val, Tm.days]; omega⟩
  split
  · exact ⟨⟨by simp only; omega, by simp only; omega, by simp only; omega, h4, h5, h6, h7⟩, by simp only [Tm.val, Tm.days]; omega⟩
  split
  · exact ⟨⟨by simp only; omega, by simp only; omega, by simp only; omega, by simp only; omega, by simp only; omega, h6, h7⟩,
      by simp only [Tm.val, Tm.days]; omega⟩
  split
  · refine ⟨⟨by simp only; omega, by simp only; omega, by simp only; omega, by simp only; omega, ?_, by simp only; omega, h7⟩, ?_⟩
    · have := monthDays_pos y (mo + 1)
      simp only; omega
    · simp only [Tm.val, Tm.days, monthStart]; omega
  · refine ⟨⟨by simp only; omega, by simp only; omega, by simp only; omega, by simp only; omega, ?_, by simp only; omega, by simp only; omega⟩, ?_⟩
    · have := monthDays_pos (y + 1) 0
      simp only; omega
    · have hm : mo = 11 := by omega
      subst hm
      have := monthStart_year y
      simp only [Tm.val, Tm.days]
      have e1 : monthStart y 12 = monthStart y 11 + monthDays y 11 := rfl
      have e2 : monthStart (y + 1) 0 = 0 := rfl
      have e3 : yearStart (y + 1 - 1970) = yearStart (y - 1970) + yearDays y := by
        rw [show y + 1 - 1970 = (y - 1970) + 1 by omega]
        simp only [yearStart]
        rw [show 1970 + (y - 1970) = y by omega]
      rw [e2, e3]
      omega

theorem utc_valid (t : Nat) : (utc t).Valid ∧ (utc t).val = t := by
  induction t with
  | zero => exact ⟨⟨by decide, by decide, by decide, by decide, by decide, by decide, by decide⟩, by decide⟩
  | succ t ih =>
    obtain ⟨a, b⟩ := tick_valid ih.1
    exact ⟨a, by rw [show utc (t + 1) = tick (utc t) from rfl, b, ih.2]⟩

/-- `gmtime` is the calendar. -/
theorem gmtime_eq (t : Nat) : gmtime t = utc t :=
  Tm.val_inj (gmtime_valid t).1 (utc_valid t).1 ((gmtime_valid t).2.trans (utc_valid t).2.symm)

theorem year_le (k t : Nat) (h : t < yearStart (k + 1) * 86400) : (gmtime t).year ≤ 1970 + k := by
  obtain ⟨hv, he⟩ := gmtime_valid t
  by_contra hn
  have := yearStart_mono (a := k) (b := (gmtime t).year - 1970) (by omega)
  have e : yearStart (k + 1) = yearStart k + yearDays (1970 + k) := rfl
  simp only [Tm.val, Tm.days] at he
  have h2 : yearStart (k + 1) ≤ t / 86400 := by omega
  omega

theorem year_bound (t : Nat) : (gmtime t).year ≤ 1970 + t / 31536000 := by
  have key : ∀ n d y, (gmYear n d y).1 ≤ y + d / 365 := by
    intro n
    induction n with
    | zero => intro d y; simp [gmYear]
    | succ n ih =>
      intro d y
      unfold gmYear
      split
      · simp
      · have h1 := ih (d - yearDays y) (y + 1)
        have := yearDays_pos y
        omega
  have h := key (t / 86400 + 1) (t / 86400) 1970
  have e : (gmtime t).year = (gmYear (t / 86400 + 1) (t / 86400) 1970).1 := rfl
  rw [e]
  omega

theorem twoDigits_spec {n : Nat} (h : n < 100) : Digits 2 (twoDigits n) n := by
  have key : ∀ n : Fin 100, (twoDigits n.val).length = 2 ∧ (∀ c ∈ twoDigits n.val, 48 ≤ c.toNat ∧ c.toNat ≤ 57) ∧
      decimal (twoDigits n.val) = n.val := by decide +kernel
  exact key ⟨n, h⟩

theorem threeDigits_spec {n : Nat} (h : n < 1000) : Digits 3 (threeDigits n) n := by
  have key : ∀ n : Fin 1000, (threeDigits n.val).length = 3 ∧ (∀ c ∈ threeDigits n.val, 48 ≤ c.toNat ∧ c.toNat ≤ 57) ∧
      decimal (threeDigits n.val) = n.val := by decide +kernel
  exact key ⟨n, h⟩

theorem monthName_spec {m : Nat} (h : m < 12) : months[m]? = some (monthName m) := by
  have key : ∀ m : Fin 12, months[m.val]? = some (monthName m.val) := by decide
  exact key ⟨m, h⟩

theorem month_length {m : Nat} {s : Str} (h : months[m]? = some s) : s.length = 3 := by
  have key : ∀ s ∈ months, s.length = 3 := by decide
  exact key s (List.mem_of_getElem? h)

theorem month_unique {m n : Nat} {s : Str} (h : months[m]? = some s) (h' : months[n]? = some s) : m = n := by
  have key : ∀ m n : Fin 12, months[m.val]? = months[n.val]? → m = n := by decide
  have hm : m < 12 := by
    by_contra hn
    rw [List.getElem?_eq_none (by simp [months]; omega)] at h
    cases h
  have hn : n < 12 := by
    by_contra hn
    rw [List.getElem?_eq_none (by simp [months]; omega)] at h'
    cases h'
  have := key ⟨m, hm⟩ ⟨n, hn⟩ (h.trans h'.symm)
  simpa using this

theorem digits_unique {k n m : Nat} {s : Str} (h : Digits k s n) (h' : Digits k s m) : n = m := h.2.2.symm.trans h'.2.2

theorem access_unique {s : Str} {x y : Tm} (hx : AccessStamp s x) (hy : AccessStamp s y) : x = y := by
  obtain ⟨d, mo, yr, h, mi, se, e, h1, h2, h3, h4, h5, h6⟩ := hx
  obtain ⟨d', mo', yr', h', mi', se', e', g1, g2, g3, g4, g5, g6⟩ := hy
  rw [e] at e'
  have l2 := month_length h2; have l2' := month_length g2
  obtain ⟨e', -⟩ := List.append_inj' e' rfl
  obtain ⟨e', c6⟩ := List.append_inj' e' (h6.1.trans g6.1.symm)
  obtain ⟨e', -⟩ := List.append_inj' e' rfl
  obtain ⟨e', c5⟩ := List.append_inj' e' (h5.1.trans g5.1.symm)
  obtain ⟨e', -⟩ := List.append_inj' e' rfl
  obtain ⟨e', c4⟩ := List.append_inj' e' (h4.1.trans g4.1.symm)
  obtain ⟨e', -⟩ := List.append_inj' e' rfl
  obtain ⟨e', c3⟩ := List.append_inj e' (by simp [h1.1, g1.1, l2, l2'])
  obtain ⟨e', -⟩ := List.append_inj' e' rfl
  obtain ⟨e', c2⟩ := List.append_inj' e' (l2.trans l2'.symm)
  obtain ⟨c1, -⟩ := List.append_inj' e' rfl
  subst c1 c2 c3 c4 c5 c6
  obtain ⟨a1, a2, a3, a4, a5, a6⟩ := x
  obtain ⟨b1, b2, b3, b4, b5, b6⟩ := y
  simp only [Tm.mk.injEq]
  exact ⟨digits_unique h6 g6, digits_unique h5 g5, digits_unique h4 g4, digits_unique h1 g1, month_unique h2 g2, natText_unique h3 g3⟩

theorem log_unique {s : Str} {x y : Tm} (hx : LogStamp s x) (hy : LogStamp s y) (hc : x.year / 100 = y.year / 100) : x = y := by
  obtain ⟨d, mo, yr, h, mi, se, e, h1, h2, h3, h4, h5, h6⟩ := hx
  obtain ⟨d', mo', yr', h', mi', se', e', g1, g2, g3, g4, g5, g6⟩ := hy
  rw [e] at e'
  obtain ⟨e', c6⟩ := List.append_inj' e' (h6.1.trans g6.1.symm)
  obtain ⟨e', -⟩ := List.append_inj' e' rfl
  obtain ⟨e', c5⟩ := List.append_inj' e' (h5.1.trans g5.1.symm)
  obtain ⟨e', -⟩ := List.append_inj' e' rfl
  obtain ⟨e', c4⟩ := List.append_inj' e' (h4.1.trans g4.1.symm)
  obtain ⟨e', -⟩ := List.append_inj' e' rfl
  obtain ⟨e', c3⟩ := List.append_inj' e' (h3.1.trans g3.1.symm)
  obtain ⟨e', -⟩ := List.append_inj' e' rfl
  obtain ⟨e', c2⟩ := List.append_inj' e' (h2.1.trans g2.1.symm)
  obtain ⟨c1, -⟩ := List.append_inj' e' rfl
  subst c1 c2 c3 c4 c5 c6
  obtain ⟨a1, a2, a3, a4, a5, a6⟩ := x
  obtain ⟨b1, b2, b3, b4, b5, b6⟩ := y
  simp only [Tm.mk.injEq]
  have k2 := digits_unique h2 g2
  have k3 := digits_unique h3 g3
  simp only at k2 k3 hc
  exact ⟨digits_unique h6 g6, digits_unique h5 g5, digits_unique h4 g4, digits_unique h1 g1, by omega, by omega⟩

theorem stampAccess_spec {x : Tm} (h : x.Valid) (hy : x.year < 10 ^ 10) :
    ∃ s, stampAccess x = ok s ∧ AccessStamp s x ∧ s.length ≤ 63 := by
  have hd := monthDays_le x.year x.mon
  have := h.day2; have := h.sec; have := h.min; have := h.hour
  have hl := fmtNat_length x.year 9 hy
  have lm : (monthName x.mon).length = 3 := month_length (monthName_spec h.mon)
  unfold stampAccess strftime64
  rw [if_pos (by simp [twoDigits, lm]; omega)]
  refine ⟨_, rfl, ⟨_, _, _, _, _, _, rfl, twoDigits_spec (by omega), monthName_spec h.mon, fmtNat_text _, twoDigits_spec (by omega),
    twoDigits_spec (by omega), twoDigits_spec (by omega)⟩, by simp [twoDigits, lm]; omega⟩

theorem stampLog_spec {x : Tm} (h : x.Valid) : ∃ s, stampLog x = ok s ∧ LogStamp s x := by
  have hd := monthDays_le x.year x.mon
  have := h.day2; have := h.sec; have := h.min; have := h.hour; have := h.mon
  unfold stampLog strftime64
  rw [if_pos (by simp [twoDigits])]
  exact ⟨_, rfl, _, _, _, _, _, _, rfl, twoDigits_spec (by omega), twoDigits_spec (by omega), twoDigits_spec (by omega),
    twoDigits_spec (by omega), twoDigits_spec (by omega), twoDigits_spec (by omega)⟩

/-! ### `double` -/

theorem roundDiv_le {a b n : Nat} (hb : 0 < b) (h : a ≤ n * b) : roundDiv a b ≤ n := by
  unfold roundDiv
  have h1 := Nat.div_add_mod a b
  have h2 : a / b ≤ n := Nat.div_le_of_le_mul (by rw [Nat.mul_comm]; exact h)
  by_cases e : a / b = n
  · have : a % b = 0 := by
      rw [e, Nat.mul_comm] at h1
      omega
    rw [this, if_pos (by omega)]
    exact h2
  · split
    · exact h2
    split
    · omega
    split <;> omega

theorem roundDiv_near {a b : Nat} (hb : 0 < b) :
    2 * (roundDiv a b * b) ≤ 2 * a + b ∧ 2 * a ≤ 2 * (roundDiv a b * b) + b := by
  unfold roundDiv
  have h1 := Nat.div_add_mod a b
  have h2 := Nat.mod_lt a hb
  rw [Nat.mul_comm] at h1
  have e : (a / b + 1) * b = a / b * b + b := by rw [Nat.add_mul, Nat.one_mul]
  split
  · omega
  split
  · rw [e]; omega
  split
  · omega
  · rw [e]; omega

theorem roundDiv_eq {a b n : Nat} (h1 : 2 * a < 2 * (n * b) + b) (h2 : 2 * (n * b) < 2 * a + b) : roundDiv a b = n := by
  have hb : 0 < b := by omega
  obtain ⟨g1, g2⟩ := roundDiv_near (a := a) hb
  generalize roundDiv a b = r at g1 g2
  rcases Nat.lt_trichotomy r n with h | h | h
  · have : (r + 1) * b ≤ n * b := Nat.mul_le_mul_right _ h
    rw [Nat.add_mul, Nat.one_mul] at this
    omega
  · exact h
  · have : (n + 1) * b ≤ r * b := Nat.mul_le_mul_right _ h
    rw [Nat.add_mul, Nat.one_mul] at this
    omega

theorem roundDiv_one (a : Nat) : roundDiv a 1 = a := by
  refine roundDiv_eq ?_ ?_ <;> omega

theorem log2_lt' {n k : Nat} (hk : 0 < k) (h : n < 2 ^ k) : Nat.log2 n < k := by
  by_cases h0 : n = 0
  · subst h0; simpa using hk
  · exact (Nat.log2_lt h0).mpr h

/-- The milliseconds printed. -/
def printed (n : Nat) : Nat := roundDiv ((response_time n).1 * 1000) (response_time n).2

theorem printed_exact {n : Nat} (h : n < 2 ^ 52) : printed n = n := by
  have k1 : Nat.log2 (n * 1024 / 1) ≤ 62 := Nat.le_of_lt (log2_lt' (by omega) (by omega))
  generalize hs : 62 - Nat.log2 (n * 1024 / 1) = s at *
  have e1 : dbl n 1 = (n * 2 ^ s, 2 ^ s) := by
    unfold dbl
    simp only [k1, if_true, hs, roundDiv_one]
  have hp : 0 < 2 ^ s := Nat.two_pow_pos s
  have e2 : n * 2 ^ s * 1024 / (2 ^ s * 1000) = n * 1024 / 1000 := by
    rw [show n * 2 ^ s * 1024 = 2 ^ s * (n * 1024) by rw [Nat.mul_comm n, Nat.mul_assoc], Nat.mul_div_mul_left _ _ hp]
  have k2 : Nat.log2 (n * 1024 / 1000) ≤ 52 := Nat.le_of_lt_succ (log2_lt' (by omega) (by omega))
  have e3 : response_time n =
      (roundDiv (n * 2 ^ s * 2 ^ (62 - Nat.log2 (n * 1024 / 1000))) (2 ^ s * 1000), 2 ^ (62 - Nat.log2 (n * 1024 / 1000))) := by
    unfold response_time
    rw [e1]
    conv_lhs => unfold dbl
    simp only [e2]
    rw [if_pos (by omega)]
  have k3 : 1024 ≤ 2 ^ (62 - Nat.log2 (n * 1024 / 1000)) :=
    Nat.le_trans (by decide : 1024 ≤ 2 ^ 10) (Nat.pow_le_pow_right (by omega) (by omega))
  unfold printed
  rw [e3]
  generalize 2 ^ (62 - Nat.log2 (n * 1024 / 1000)) = D at k3
  simp only
  obtain ⟨g1, g2⟩ := roundDiv_near (a := n * 2 ^ s * D) (b := 2 ^ s * 1000) (by omega)
  generalize roundDiv (n * 2 ^ s * D) (2 ^ s * 1000) = M at g1 g2
  have f1 : M * (2 ^ s * 1000) = 2 ^ s * (M * 1000) := by rw [← Nat.mul_assoc, Nat.mul_comm M, Nat.mul_assoc]
  have f2 : n * 2 ^ s * D = 2 ^ s * (n * D) := by rw [Nat.mul_comm n, Nat.mul_assoc]
  rw [f1, f2] at g1 g2
  have g1' : 2 ^ s * (2 * (M * 1000)) ≤ 2 ^ s * (2 * (n * D) + 1000) := by
    rw [Nat.mul_add]; rw [Nat.mul_left_comm (2 ^ s) 2, Nat.mul_left_comm (2 ^ s) 2]; exact g1
  have g2' : 2 ^ s * (2 * (n * D)) ≤ 2 ^ s * (2 * (M * 1000) + 1000) := by
    rw [Nat.mul_add]; rw [Nat.mul_left_comm (2 ^ s) 2, Nat.mul_left_comm (2 ^ s) 2]; exact g2
  have g1'' := Nat.le_of_mul_le_mul_left g1' hp
  have g2'' := Nat.le_of_mul_le_mul_left g2' hp
  exact roundDiv_eq (by omega) (by omega)

theorem fmt3_text (d : Nat × Nat) : SecondsText (fmt3 d) (roundDiv (d.1 * 1000) d.2) :=
  ⟨_, _, rfl, fmtNat_text _, threeDigits_spec (Nat.mod_lt _ (by decide))⟩

theorem dbl_bound {num den k : Nat} (hd : 0 < den) (h : num ≤ 2 ^ k * den) : (dbl num den).1 ≤ 2 ^ k * (dbl num den).2 := by
  unfold dbl
  dsimp only
  split
  · refine roundDiv_le hd ?_
    rw [Nat.mul_right_comm]
    exact Nat.mul_le_mul_right _ h
  · rename_i hk
    generalize hj : Nat.log2 (num * 1024 / den) - 62 = j
    have h1 : num * 1024 / den < 2 ^ (k + 11) := by
      rw [Nat.div_lt_iff_lt_mul hd]
      have e : 2 ^ (k + 11) * den = 2048 * (2 ^ k * den) := by
        rw [Nat.pow_add, Nat.mul_comm (2 ^ k), Nat.mul_assoc]
      rw [e]
      have : 0 < 2 ^ k * den := Nat.mul_pos (Nat.two_pow_pos k) hd
      omega
    have h2 := log2_lt' (by omega) h1
    have hjk : j ≤ k := by omega
    have ek : 2 ^ k = 2 ^ (k - j) * 2 ^ j := by rw [← Nat.pow_add]; congr 1; omega
    have := roundDiv_le (a := num) (b := den * 2 ^ j) (n := 2 ^ (k - j)) (Nat.mul_pos hd (Nat.two_pow_pos j)) (by
      rw [Nat.mul_comm den, ← Nat.mul_assoc, ← ek]
      exact h)
    rw [Nat.mul_one, ek]
    exact Nat.mul_le_mul_right _ this

theorem dbl_pos {num den : Nat} : 0 < (dbl num den).2 := by
  unfold dbl
  dsimp only
  split
  · exact Nat.two_pow_pos _
  · exact Nat.one_pos

theorem printed_le {n : Nat} (h : n ≤ 2 ^ 64) : printed n ≤ 2 ^ 64 * 1000 := by
  have h1 := dbl_bound (num := n) (den := 1) (k := 64) Nat.one_pos (by omega)
  have h2 := dbl_bound (num := (dbl n 1).1) (den := (dbl n 1).2 * 1000) (k := 64) (Nat.mul_pos dbl_pos (by decide)) (by
    refine Nat.le_trans h1 (Nat.mul_le_mul_left _ ?_)
    omega)
  unfold printed
  refine roundDiv_le dbl_pos ?_
  rw [Nat.mul_right_comm]
  exact Nat.mul_le_mul_right _ h2

theorem responseText_length (now start : Nat) : (responseText now start).length ≤ 63 := by
  have h : elapsed now start ≤ 2 ^ 64 := Nat.le_of_lt (Nat.mod_lt _ (by decide))
  have h2 := printed_le h
  unfold responseText fmt3
  have h3 := fmtNat_length (printed (elapsed now start) / 1000) 19 (by omega)
  unfold printed at h3
  have h4 := (threeDigits_spec (n := roundDiv ((response_time (elapsed now start)).1 * 1000) (response_time (elapsed now start)).2 % 1000)
    (Nat.mod_lt _ (by decide))).1
  simp only [List.length_append, h4]
  simp only [List.length_cons, List.length_nil]
  omega

/-! ### Several threads -/

theorem Tm.get_set {x : Tm} {i j v : Nat} (hi : i < 6) (hj : j < 6) : (x.set i v).get j = if j = i then v else x.get j := by
  match i, j, hi, hj with
  | 0, 0, _, _ | 0, 1, _, _ | 0, 2, _, _ | 0, 3, _, _ | 0, 4, _, _ | 0, 5, _, _
  | 1, 0, _, _ | 1, 1, _, _ | 1, 2, _, _ | 1, 3, _, _ | 1, 4, _, _ | 1, 5, _, _
  | 2, 0, _, _ | 2, 1, _, _ | 2, 2, _, _ | 2, 3, _, _ | 2, 4, _, _ | 2, 5, _, _
  | 3, 0, _, _ | 3, 1, _, _ | 3, 2, _, _ | 3, 3, _, _ | 3, 4, _, _ | 3, 5, _, _
  | 4, 0, _, _ | 4, 1, _, _ | 4, 2, _, _ | 4, 3, _, _ | 4, 4, _, _ | 4, 5, _, _
  | 5, 0, _, _ | 5, 1, _, _ | 5, 2, _, _ | 5, 3, _, _ | 5, 4, _, _ | 5, 5, _, _ => rfl

theorem Tm.ext_get {x y : Tm} (h : ∀ j < 6, x.get j = y.get j) : x = y := by
  obtain ⟨a1, a2, a3, a4, a5, a6⟩ := x
  obtain ⟨b1, b2, b3, b4, b5, b6⟩ := y
  have h0 := h 0 (by omega); have h1 := h 1 (by omega); have h2 := h 2 (by omega)
  have h3 := h 3 (by omega); have h4 := h 4 (by omega); have h5 := h 5 (by omega)
  simp only [Tm.get] at h0 h1 h2 h3 h4 h5
  simp only [Tm.mk.injEq]
  exact ⟨h5, h4, h3, h0, h1, h2⟩

/-- All threads have the same time `t`; what they wrote and read is that of `t`. -/
def SameInv (t : Nat) (s : ClockSt) : Prop :=
  ∀ th ∈ s.threads, th.time = t ∧ (∀ j, j < 6 → j < th.pc → s.shared.get j = (gmtime t).get j) ∧
    ∀ j, j < 6 → j + 6 < th.pc → th.got.get j = (gmtime t).get j

theorem SameInv.step {t : Nat} {s s' : ClockSt} {i : Nat} (h : SameInv t s) (hs : s.step i = some s') : SameInv t s' := by
  unfold ClockSt.step at hs
  cases hi : s.threads[i]? with
  | none => rw [hi] at hs; cases hs
  | some th =>
    rw [hi] at hs
    simp only [Option.bind_eq_bind, Option.bind_some] at hs
    obtain ⟨ht, hw, hg⟩ := h th (List.mem_of_getElem? hi)
    split at hs
    · rename_i hpc
      obtain rfl := Option.some.inj hs
      have hval : ∀ j, j < 6 → (j = th.pc ∨ s.shared.get j = (gmtime t).get j) →
          (s.shared.set th.pc ((gmtime th.time).get th.pc)).get j = (gmtime t).get j := by
        intro j hj h
        rw [Tm.get_set hpc hj]
        split
        · rename_i e; rw [e, ht]
        · rename_i e; exact h.resolve_left e
      intro x hx
      rcases List.mem_or_eq_of_mem_set hx with hx | rfl
      · obtain ⟨h1, h2, h3⟩ := h x hx
        exact ⟨h1, fun j hj hp => hval j hj (.inr (h2 j hj hp)), h3⟩
      · refine ⟨ht, fun j hj hp => hval j hj ?_, fun j hj hp => hg j hj (by simp only at hp; omega)⟩
        simp only at hp
        by_cases e : j = th.pc
        · exact .inl e
        · exact .inr (hw j hj (by omega))
    split at hs
    · rename_i h6 h12
      obtain rfl := Option.some.inj hs
      intro x hx
      rcases List.mem_or_eq_of_mem_set hx with hx | rfl
      · exact h x hx
      · refine ⟨ht, fun j hj hp => hw j hj (by omega), fun j hj hp => ?_⟩
        simp only at hp
        rw [Tm.get_set (by omega) hj]
        split
        · rename_i e; rw [← e]; exact hw j hj (by omega)
        · exact hg j hj (by omega)
    · cases hs

theorem SameInv.run {t : Nat} (is : List Nat) : ∀ {s s' : ClockSt}, SameInv t s → s.run is = some s' → SameInv t s' := by
  induction is with
  | nil => intro s s' h hs; obtain rfl := Option.some.inj hs; exact h
  | cons i is ih =>
    intro s s' h hs
    unfold ClockSt.run at hs
    obtain ⟨s1, h1, h2⟩ := Option.bind_eq_some_iff.mp hs
    exact ih (h.step h1) h2

end Wayuu
