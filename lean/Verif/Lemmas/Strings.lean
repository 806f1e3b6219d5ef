import Verif.Lemmas.Buf
import Verif.Spec.Strings
import Verif.Model.StringUtils
import Mathlib.Data.List.DropRight
/-
Lemmas about string_utils.c.
-/
namespace Wayuu
open C

theorem isSpace_eq_ws (c : Byte) : isSpace c = Spec.ws c := by
  have : ∀ n : Fin 256, isSpace (UInt8.ofNat n) = Spec.ws (UInt8.ofNat n) := by decide +kernel
  have h := this ⟨c.toNat, c.toNat_lt⟩
  simpa using h

/-! ### trim -/

theorem trimLeftScan_eq (s : Str) (r : Buf) (k : Nat) (hk : k ≤ s.length) :
    trimLeftScan (s.map some ++ r) (s.length - k) k = ok (k + ((s.drop k).takeWhile isSpace).length) := by
  generalize hn : s.length - k = n
  induction n generalizing k with
  | zero =>
    have : s.length ≤ k := by omega
    simp [trimLeftScan, List.drop_eq_nil_of_le this]
  | succ n ih =>
    have hk' : k < s.length := by omega
    simp only [trimLeftScan]
    rw [load_append_some hk', List.drop_eq_getElem_cons hk']
    simp only [ok_bind]
    by_cases h : isSpace s[k] = true
    · simp only [h, if_true, List.takeWhile_cons_of_pos, List.length_cons]
      rw [ih (k + 1) (by omega) (by omega)]
      congr 1; omega
    · simp [h]

theorem trimRightScan_eq (s : Str) (r : Buf) :
    trimRightScan (s.map some ++ r) s.length = ok (s.rdropWhile isSpace).length := by
  suffices h : ∀ (t : Str) (r : Buf), trimRightScan (t.map some ++ r) t.length = ok (t.rdropWhile isSpace).length from h s r
  intro t
  induction t using List.reverseRecOn with
  | nil => simp [trimRightScan]
  | append_singleton t c ih =>
    intro r
    have hl : (t ++ [c]).length = t.length + 1 := by simp
    rw [hl]
    simp only [trimRightScan]
    rw [load_append_some (by simp : t.length < (t ++ [c]).length)]
    simp only [List.getElem_append_right (Nat.le_refl _), Nat.sub_self, List.getElem_cons_zero, ok_bind]
    by_cases h : isSpace c = true
    · simp only [h, if_true, List.rdropWhile_concat_pos _ _ _ h]
      have := ih (some c :: r)
      simpa using this
    · simp [h, List.rdropWhile_concat_neg _ _ _ h]

/-- The text without leading and trailing white space. -/
def strip (s : Str) : Str := (s.dropWhile isSpace).rdropWhile isSpace

theorem strip_sublist (s : Str) : (strip s).Sublist s :=
  (List.rdropWhile_prefix _ _).sublist.trans (List.dropWhile_sublist _)

theorem isStrip_strip (s : Str) : Spec.IsStrip s (strip s) := by
  refine ⟨s.takeWhile isSpace, (s.dropWhile isSpace).rtakeWhile isSpace, ?_, ?_, ?_, ?_, ?_⟩
  · unfold strip
    rw [List.append_assoc, List.rdropWhile_append_rtakeWhile, List.takeWhile_append_dropWhile]
  · intro c hc
    rw [← isSpace_eq_ws]; exact List.mem_takeWhile_imp hc
  · intro c hc
    rw [← isSpace_eq_ws]; exact List.mem_rtakeWhile_imp hc
  · intro c hc
    rw [← isSpace_eq_ws]
    have h1 : (s.dropWhile isSpace).head? = some c := by
      unfold strip at hc
      obtain ⟨t, ht⟩ := List.rdropWhile_prefix isSpace (s.dropWhile isSpace)
      rw [← ht, List.head?_append, hc]; rfl
    have h2 := List.head?_dropWhile_not isSpace s
    rw [h1] at h2
    simpa using h2
  · intro c hc
    rw [← isSpace_eq_ws]
    unfold strip at hc
    have hne : (s.dropWhile isSpace).rdropWhile isSpace ≠ [] := by
      intro h; rw [h] at hc; simp at hc
    have := List.rdropWhile_last_not isSpace (s.dropWhile isSpace) hne
    rw [List.getLast?_eq_some_getLast hne] at hc
    simp only [Option.some.injEq] at hc
    rw [hc] at this
    simpa using this

/-- A word without the byte `c` that occurs in `a ++ c :: b` occurs in `a` or in `b`. -/
theorem infix_sep {w a b : List Byte} {c : Byte} (h : w <:+: a ++ c :: b) (hc : c ∉ w) : w <:+: a ∨ w <:+: b := by
  obtain ⟨x, y, h⟩ := h
  rw [List.append_assoc] at h
  rcases List.append_eq_append_iff.mp h with ⟨z, h1, h2⟩ | ⟨z, h1, h2⟩
  · -- `x` lies in `a`
    rcases List.append_eq_append_iff.mp h2 with ⟨z', h3, h4⟩ | ⟨z', h3, h4⟩
    · left
      exact ⟨x, z', by rw [h1, h3]; simp⟩
    · cases z' with
      | nil =>
        left
        exact ⟨x, [], by rw [h1, h3]; simp⟩
      | cons d z' =>
        simp only [List.cons_append, List.cons.injEq] at h4
        exact absurd (by rw [h3, h4.1]; simp) hc
  · cases z with
    | nil =>
      simp only [List.nil_append] at h2
      cases w with
      | nil => left; exact List.nil_infix
      | cons d w =>
        simp only [List.cons_append, List.cons.injEq] at h2
        exact absurd (by rw [h2.1]; simp) hc
    | cons d z =>
      simp only [List.cons_append, List.cons.injEq] at h2
      right
      exact ⟨z, y, by rw [h2.2]; simp⟩

/-- `trim`, with the bytes left behind the result: no words that were not there before. -/
theorem trim_bytes (s : Str) (h : NulFree s) (r : Buf) :
    ∃ q : List Byte, trim (s.map some ++ some 0 :: r) = ok ((strip s).map some ++ some 0 :: (q.map some ++ r)) ∧
      (strip s).length + q.length = s.length ∧ (q = [] ∨ q.getLast? = some 0) ∧
      ∀ w, NulFree w → w <:+: q → w <:+: s := by
  have hs := trimLeftScan_eq s (some 0 :: r) 0 (Nat.zero_le _)
  simp only [Nat.sub_zero, List.drop_zero, Nat.zero_add] at hs
  unfold trim
  rw [cstr_mk h]
  simp only [ok_bind, hs]
  generalize hi : (s.takeWhile isSpace).length = i
  generalize hu : s.dropWhile isSpace = u
  have hsu : s = s.takeWhile isSpace ++ u := by rw [← hu, List.takeWhile_append_dropWhile]
  have hlen : s.length = i + u.length := (congrArg List.length hsu).trans (by simp [hi])
  have hdrop : s.drop i = u := by
    have := congrArg (List.drop i) hsu
    rwa [List.drop_left' hi] at this
  have hnu : NulFree u := by rw [← hdrop]; exact h.drop i
  -- the state after the optional memmove
  have step : ∃ q : List Byte, trimShift (s.map some ++ some 0 :: r) i
      = ok (u.map some ++ some 0 :: (q.map some ++ r)) ∧ u.length + q.length = s.length ∧
        (q = [] ∨ q.getLast? = some 0) ∧ ∀ w, NulFree w → w <:+: q → w <:+: s := by
    unfold trimShift
    by_cases h0 : i = 0
    · subst h0
      refine ⟨[], ?_, ?_, Or.inl rfl, fun w _ hw => ?_⟩
      rotate_left 2
      · rw [List.infix_nil.mp hw]; exact List.nil_infix
      · simp at hdrop; simp [hdrop]
      · simp; omega
    · simp only [ne_eq, h0, not_false_eq_true, if_true]
      rw [strAt_str (by omega) h]
      simp only [ok_bind, hdrop]
      have hc : copyCells (s.map some ++ some 0 :: r) 0 (s.map some ++ some 0 :: r) i u.length
          = ok ((u ++ s.drop u.length).map some ++ some 0 :: r) := by
        unfold copyCells
        rw [if_pos (by simp; omega)]
        have e1 : (List.drop i (s.map some ++ some 0 :: r)).take u.length = u.map some := by
          rw [List.drop_append_of_le_length (by simp; omega), ← List.map_drop, hdrop,
            List.take_left' (by simp)]
        have e2 : List.drop (0 + u.length) (s.map some ++ some 0 :: r)
            = (s.drop u.length).map some ++ some 0 :: r := by
          rw [Nat.zero_add, List.drop_append_of_le_length (by simp; omega), ← List.map_drop]
        rw [e1, e2]
        simp
      rw [hc]
      simp only [ok_bind]
      rw [strAt_str (by simp; omega) (by simp [hnu, h.drop])]
      simp only [ok_bind, List.length_drop, List.length_append]
      have hk : u.length + (s.length - u.length) - i = u.length := by omega
      rw [hk]
      cases hd : s.drop u.length with
      | nil =>
        have := congrArg List.length hd
        simp at this; omega
      | cons x xs =>
        refine ⟨xs ++ [0], ?_, ?_, Or.inr (by simp), fun w hw0 hw => ?_⟩
        rotate_left 2
        · rcases infix_sep hw (fun h => hw0 0 h rfl) with hw | hw
          · have : xs <:+ s := ⟨s.take u.length ++ [x], by rw [List.append_assoc]; simpa [hd] using List.take_append_drop u.length s⟩
            exact hw.trans this.isInfix
          · rw [List.infix_nil.mp hw]; exact List.nil_infix
        · have : List.map some (u ++ x :: xs) ++ some 0 :: r
              = u.map some ++ some x :: (xs.map some ++ some 0 :: r) := by simp
          rw [this, store_append_cons (by simp)]
          simp
        · have := congrArg List.length hd
          simp at this; simp; omega
  obtain ⟨q, hq, hql, hqz, hqw⟩ := step
  rw [hq]
  simp only [ok_bind]
  rw [cstr_mk hnu]
  simp only [ok_bind]
  rw [trimRightScan_eq]
  simp only [ok_bind]
  have hstrip : strip s = u.rdropWhile isSpace := by unfold strip; rw [hu]
  rw [hstrip]
  obtain ⟨t, ht⟩ := List.rdropWhile_prefix isSpace u
  generalize u.rdropWhile isSpace = v at ht
  subst ht
  cases t with
  | nil =>
    refine ⟨q, ?_, ?_, hqz, hqw⟩
    · rw [store_append_cons (by simp)]
      simp
    · simpa using hql
  | cons x xs =>
    refine ⟨xs ++ [0] ++ q, ?_, ?_, Or.inr ?_, fun w hw0 hw => ?_⟩
    · have : List.map some (v ++ x :: xs) ++ some 0 :: (q.map some ++ r)
          = v.map some ++ some x :: (xs.map some ++ some 0 :: (q.map some ++ r)) := by simp
      rw [this, store_append_cons (by simp)]
      simp
    · simp at hql; simp; omega
    · rcases hqz with rfl | hz
      · simp
      · rw [List.getLast?_append, hz]; rfl
    · rw [List.append_assoc] at hw
      rcases infix_sep hw (fun h => hw0 0 h rfl) with hw | hw
      · have : xs <:+: v ++ x :: xs := ⟨v ++ [x], [], by simp⟩
        exact hw.trans (this.trans (by rw [← hdrop]; exact (List.drop_suffix i s).isInfix))
      · exact hqw w hw0 hw

theorem trim_eq (s : Str) (h : NulFree s) (r : Buf) :
    ∃ q : Buf, trim (s.map some ++ some 0 :: r) = ok ((strip s).map some ++ some 0 :: (q ++ r)) ∧
      (strip s).length + q.length = s.length := by
  obtain ⟨q, h1, h2, -⟩ := trim_bytes s h r
  exact ⟨q.map some, h1, by simpa using h2⟩

theorem nulFree_strip {s : Str} (h : NulFree s) : NulFree (strip s) := h.sublist (strip_sublist s)

theorem trimStr_eq {s : Str} (h : NulFree s) : trimStr s = ok (strip s) := by
  obtain ⟨q, hq, _⟩ := trim_eq s h []
  unfold trimStr strdup
  rw [hq]
  simp [cstr_mk (nulFree_strip h)]

theorem length_strip_le (s : Str) : (strip s).length ≤ s.length := (strip_sublist s).length_le

end Wayuu
