import Verif.Props.Strings
/-
C03, C04, C05 for lines and parts of any length.
-/
namespace Wayuu
open C Spec

theorem long_strncpy {n m : Nat} {s : Str} (h : n ≤ s.length) (hm : n < m) :
    ∃ r, strncpyAt (malloc m) 0 s n = ok ((s.take n).map some ++ none :: r) := by
  unfold strncpyAt
  rw [writeAt_ok (by simp [Nat.min_eq_left h]; omega)]
  obtain ⟨k, hk⟩ : ∃ k, m - n = k + 1 := ⟨m - n - 1, by omega⟩
  refine ⟨List.replicate k none, ?_⟩
  simp [malloc, Nat.min_eq_left h, hk, List.replicate_succ, Nat.sub_eq_zero_of_le h]

theorem cstr_cut {s : Str} (h : NulFree s) (r : Buf) : cstr (s.map some ++ none :: r) = ub .uninit := by
  induction s with
  | nil => rfl
  | cons c s ih =>
    simp only [nulFree_cons] at h
    simp only [List.map_cons, List.cons_append, cstr, if_neg h.1, ih h.2]
    rfl

/-- A block of `split_once`: the text, or the first 1023 bytes of it with no terminator. -/
theorem split_block {s : Str} (h : NulFree s) : ∃ b, strncpyAt (malloc MAX_SPLIT_STR_LEN) 0 s (MAX_SPLIT_STR_LEN - 1) = ok b ∧
    cstr b = (if s.length < 1023 then ok s else ub .uninit) ∧ ∀ i, i < 1023 → b[i]? = some (some (s.getD i 0)) := by
  by_cases hl : s.length < 1023
  · rw [if_pos hl]
    refine ⟨_, fresh_strncpy (by simpa [MAX_SPLIT_STR_LEN] using hl) (by simp [MAX_SPLIT_STR_LEN]), cstr_mk h _, fun i hi => ?_⟩
    by_cases h1 : i < s.length
    · rw [List.getElem?_append_left (by simpa using h1)]
      simp [List.getD, List.getElem?_eq_getElem h1]
    · rw [List.getElem?_append_right (by simpa using h1), ← List.cons_append, ← List.replicate_succ, List.getElem?_append_left (by simp [MAX_SPLIT_STR_LEN]; omega),
        List.getElem?_replicate, if_pos (by simp [MAX_SPLIT_STR_LEN]; omega)]
      simp [List.getD, List.getElem?_eq_none (Nat.le_of_not_lt h1)]
  · rw [if_neg hl]
    obtain ⟨r, hr⟩ := long_strncpy (s := s) (n := MAX_SPLIT_STR_LEN - 1) (m := MAX_SPLIT_STR_LEN) (by simp [MAX_SPLIT_STR_LEN]; omega) (by simp [MAX_SPLIT_STR_LEN])
    refine ⟨_, hr, cstr_cut (h.sublist (List.take_sublist _ _)) _, fun i hi => ?_⟩
    rw [List.getElem?_append_left (by simp [MAX_SPLIT_STR_LEN]; omega)]
    simp [MAX_SPLIT_STR_LEN, hi, List.getD, List.getElem?_eq_getElem (show i < s.length by omega)]

/-- C03 for lines of any length: the parts are those before and after the first colon, in blocks that hold their first 1023 bytes. A part
of 1023 bytes or more is not terminated, and whoever reads it as a string reads a byte that was never written. -/
theorem C03_any (a b s0 s1 delim : Str) (ha : NulFree a) (hb : NulFree b) (hc : (58 : Byte) ∉ a) (h0 : IsStrip a s0) (h1 : IsStrip b s1) :
    ∃ b0 b1, split_once (a ++ 58 :: b) delim = ok [b0, b1] ∧
      cstr b0 = (if s0.length < 1023 then ok s0 else ub .uninit) ∧ cstr b1 = (if s1.length < 1023 then ok s1 else ub .uninit) ∧
      ∀ i, i < 1023 → b0[i]? = some (some (s0.getD i 0)) ∧ b1[i]? = some (some (s1.getD i 0)) := by
  obtain rfl := C01_strip_unique _ _ _ h0 (isStrip_strip a)
  obtain rfl := C01_strip_unique _ _ _ h1 (isStrip_strip b)
  have hs : NulFree (a ++ 58 :: b) := by simp [ha, hb]
  obtain ⟨b0, e0, c0, d0⟩ := split_block (nulFree_strip ha)
  obtain ⟨b1, e1, c1, d1⟩ := split_block (nulFree_strip hb)
  refine ⟨b0, b1, ?_, c0, c1, fun i hi => ⟨d0 i hi, d1 i hi⟩⟩
  unfold split_once
  rw [rtrim_eq hs, takeWhile_first hc b]
  simp only [ok_bind]
  rw [trimStr_eq ha]
  simp only [ok_bind]
  rw [e0]
  simp only [ok_bind]
  rw [ltrim_eq hs, if_pos (by simp), dropWhile_first hc b]
  simp only [ok_bind, List.drop_one, List.tail_cons]
  rw [if_pos (by rw [List.length_append, List.length_cons]; omega), trimStr_eq hb]
  simp only [ok_bind]
  rw [e1]
  rfl

/-- The same for lines without a colon: one block. -/
theorem C03_whole (line s0 delim : Str) (ha : NulFree line) (hc : (58 : Byte) ∉ line) (h0 : IsStrip line s0) :
    ∃ b0, split_once line delim = ok [b0] ∧ cstr b0 = (if s0.length < 1023 then ok s0 else ub .uninit) ∧
      ∀ i, i < 1023 → b0[i]? = some (some (s0.getD i 0)) := by
  obtain rfl := C01_strip_unique _ _ _ h0 (isStrip_strip line)
  obtain ⟨b0, e0, c0, d0⟩ := split_block (nulFree_strip ha)
  refine ⟨b0, ?_, c0, d0⟩
  unfold split_once
  have ht : line.takeWhile (· != 58) = line := List.takeWhile_eq_self_iff.mpr fun x hx => by
    simp only [bne_iff_ne]; rintro rfl; exact hc hx
  rw [rtrim_eq ha, ht]
  simp only [ok_bind]
  rw [trimStr_eq ha]
  simp only [ok_bind]
  rw [e0]
  simp only [ok_bind]
  rw [ltrim_eq ha, if_neg hc]
  simp

/-- A line whose second part is just too long. -/
example : NulFree b!"a " ∧ NulFree (32 :: List.replicate 1023 98) ∧ (58 : Byte) ∉ b!"a " ∧ IsStrip b!"a " b!"a" ∧
    IsStrip (32 :: List.replicate 1023 98) (List.replicate 1023 98) := by
  refine ⟨by decide, ?_, by decide, isStrip_strip b!"a ", ?_⟩
  · decide +kernel
  · have := isStrip_strip (32 :: List.replicate 1023 98)
    rwa [show strip (32 :: List.replicate 1023 98) = List.replicate 1023 98 by decide +kernel] at this

example : NulFree b!"abc" ∧ (58 : Byte) ∉ b!"abc" ∧ IsStrip b!"abc" b!"abc" := ⟨by decide, by decide, isStrip_strip b!"abc"⟩

theorem splitLoop_any {delim s : Str} {ts : List Str} (h : Spec.Runs delim s ts) (hs : NulFree s) (acc : List Buf) (n : Nat)
    (hn : ts.length < n) (hacc : acc.length ≤ 50) : ∃ bufs : List Buf, bufs.map cstr = ts.map (fun t => if t.length < 1023 then ok t else ub .uninit) ∧
      (∀ (k : Nat) (t : Str), ts[k]? = some t → ∃ b, bufs[k]? = some b ∧ ∀ i, i < 1023 → b[i]? = some (some (t.getD i 0))) ∧
      splitLoop delim n s acc = if acc.length + ts.length ≤ 50 then ok (acc ++ bufs) else ub .oob := by
  induction h generalizing acc n with
  | nil d hd =>
    obtain ⟨n, rfl⟩ : ∃ m, n = m + 1 := ⟨n - 1, by simp at hn; omega⟩
    exact ⟨[], rfl, by simp, by simp [splitLoop, strtok_delims hd, hacc]⟩
  | last d t hd ht htd =>
    obtain ⟨n, rfl⟩ : ∃ m, n = m + 2 := ⟨n - 2, by simp at hn; omega⟩
    simp only [nulFree_append] at hs
    obtain ⟨b, e, c, e2⟩ := split_block hs.2
    refine ⟨[b], by simp [c], ?_, ?_⟩
    · intro k u hk
      cases k with
      | zero => cases hk; exact ⟨b, rfl, e2⟩
      | succ k => cases hk
    · unfold splitLoop
      rw [strtok_last hd ht htd]
      simp only [MAX_SPLIT_STR, List.length_singleton]
      by_cases h50 : 50 ≤ acc.length
      · rw [if_pos h50, if_neg (by omega)]
      · rw [if_neg h50, e, if_pos (by omega)]
        simp [splitLoop, strtok_delims]
  | cons d t x s ts hd ht htd hx _ ih =>
    obtain ⟨n, rfl⟩ : ∃ m, n = m + 1 := ⟨n - 1, by simp at hn; omega⟩
    simp only [nulFree_append, nulFree_cons] at hs
    obtain ⟨b, e, c, e2⟩ := split_block hs.1.2
    simp only [List.length_cons] at hn
    by_cases h50 : 50 ≤ acc.length
    · obtain ⟨bufs, h1, h2, -⟩ := ih hs.2.2 [] n (by omega) (by simp)
      refine ⟨b :: bufs, by simp [c, h1], ?_, ?_⟩
      · intro k u hk
        cases k with
        | zero => cases hk; exact ⟨b, rfl, e2⟩
        | succ k => exact h2 k u hk
      · unfold splitLoop
        rw [strtok_cons hd ht htd hx]
        simp only [MAX_SPLIT_STR, List.length_cons]
        rw [if_pos h50, if_neg (by omega)]
    · obtain ⟨bufs, h1, h2, h3⟩ := ih hs.2.2 (acc ++ [b]) n (by omega) (by simp; omega)
      refine ⟨b :: bufs, by simp [c, h1], ?_, ?_⟩
      · intro k u hk
        cases k with
        | zero => cases hk; exact ⟨b, rfl, e2⟩
        | succ k => exact h2 k u hk
      · unfold splitLoop
        rw [strtok_cons hd ht htd hx]
        simp only [MAX_SPLIT_STR, List.length_cons]
        rw [if_neg h50, e]
        simp only [ok_bind]
        rw [h3]
        simp only [List.length_append, List.length_singleton, List.append_assoc, List.singleton_append]
        by_cases h51 : acc.length + (ts.length + 1) ≤ 50
        · rw [if_pos h51, if_pos (by omega)]
        · rw [if_neg h51, if_neg (by omega)]

/-- C05 for texts of any length and parts of any length and number: more than 50 parts are a write past the array; up to 50 are returned,
in order, in blocks that hold their first 1023 bytes, and a part of 1023 bytes or more is not terminated. -/
theorem C05_any (s delim : Str) (ts : List Str) (hs : NulFree s) (h : Spec.Runs delim s ts) :
    (50 < ts.length → split s delim = ub .oob) ∧
    (ts.length ≤ 50 → ∃ bufs, split s delim = ok bufs ∧
      bufs.map cstr = ts.map (fun t => if t.length < 1023 then ok t else ub .uninit) ∧
      ∀ (k : Nat) (t : Str), ts[k]? = some t → ∃ b, bufs[k]? = some b ∧ ∀ i, i < 1023 → b[i]? = some (some (t.getD i 0))) := by
  obtain ⟨bufs, h1, h2, h3⟩ := splitLoop_any h hs [] (s.length + 1) (by have := runs_length h; omega) (by simp)
  unfold split
  rw [h3]
  constructor
  · intro hc
    rw [if_neg (by simp; omega)]
  · intro hc
    rw [if_pos (by simpa using hc)]
    exact ⟨bufs, by simp, h1, h2⟩

/-- A part that is just too long, between two others. -/
example : NulFree (b!"a," ++ List.replicate 1023 98 ++ b!",c") ∧
    Spec.Runs b!"," (b!"a," ++ List.replicate 1023 98 ++ b!",c") [b!"a", List.replicate 1023 98, b!"c"] := by
  refine ⟨by decide +kernel, ?_⟩
  have h1 : Spec.Runs b!"," b!"c" [b!"c"] := .last [] b!"c" (by decide) (by decide) (by decide)
  have h2 := Spec.Runs.cons (delim := b!",") [] (List.replicate 1023 98) 44 b!"c" _ (by decide) (by decide) (by decide +kernel) (by decide) h1
  exact .cons [] b!"a" 44 _ _ (by decide) (by decide) (by decide) (by decide) h2

end Wayuu
