import Verif.Model.BlockSizes
import Verif.Props.Json
import Verif.Lemmas.Http
/-
C06, C13 and C16 with the block sizes as the `int`s they are: `join` and the JSON arrays work for texts
below 2 GiB, and not from there on.
-/
namespace Wayuu
open C Spec

theorem addSize_addSize (a : Int) (j k : Nat) : addSize (addSize a j) k = addSize a (j + k) := by
  unfold addSize toInt32
  rw [Int.bmod_add_bmod]
  congr 1
  push_cast
  omega

theorem addSize_small {a : Int} {k : Nat} (h0 : 0 ≤ a) (h : a + k < 2 ^ 31) : addSize a k = a + k :=
  toInt32_small (by omega) h

theorem joinLenI_eq (pre mid post : List (Option Str)) (a : Int) (j : Nat) :
    joinLenI (pre ++ mid ++ post) mid.length pre.length (addSize a j) =
      ok (addSize a (j + totalLen (present mid))) := by
  induction mid generalizing pre j with
  | nil => simp [joinLenI]
  | cons x mid ih =>
    simp only [List.length_cons, joinLenI]
    have e1 : pre ++ x :: mid ++ post = pre ++ x :: (mid ++ post) := by simp
    have e2 : pre ++ x :: (mid ++ post) = pre ++ [x] ++ mid ++ post := by simp
    rw [e1, elemAt_mid]
    simp only [ok_bind]
    have h := ih (pre ++ [x])
    simp only [List.length_append, List.length_singleton] at h
    cases x with
    | none => simp only [present_cons_none]; rw [e2, h]
    | some s =>
      simp only [present_cons_some, totalLen_cons]
      rw [addSize_addSize, e2, h, Nat.add_assoc]

theorem addSize_zero : addSize 0 0 = 0 := by decide

theorem joinFill_or (pre mid post : List (Option Str)) (delim : Str) (cap : Nat) (acc : Str) :
    joinFill (pre ++ mid ++ post) delim cap mid.length pre.length acc =
      ok (acc ++ withDelim delim (present mid)) ∨
    joinFill (pre ++ mid ++ post) delim cap mid.length pre.length acc = ub .oob := by
  induction mid generalizing pre acc with
  | nil => simp [joinFill]
  | cons x mid ih =>
    simp only [List.length_cons, joinFill]
    have e1 : pre ++ x :: mid ++ post = pre ++ x :: (mid ++ post) := by simp
    have e2 : pre ++ x :: (mid ++ post) = pre ++ [x] ++ mid ++ post := by simp
    have h := ih (pre ++ [x])
    simp only [List.length_append, List.length_singleton] at h
    rw [e1, elemAt_mid]
    simp only [ok_bind]
    cases x with
    | none => rw [e2]; exact h acc
    | some s =>
      simp only
      by_cases h1 : (acc ++ s).length + 1 ≤ cap
      · rw [fmtInto_ok h1]
        simp only [ok_bind]
        by_cases h2 : (acc ++ s ++ delim).length + 1 ≤ cap
        · rw [fmtInto_ok h2]
          simp only [ok_bind]
          rw [e2]
          have := h (acc ++ s ++ delim)
          simpa using this
        · right; rw [fmtInto_over (by omega)]; rfl
      · right; rw [fmtInto_over (by omega)]; rfl

/-- `join` on at least two elements with its 32-bit size: what it returns, exactly. -/
theorem joinI_many (s0 : Str) (mid : List (Option Str)) (s1 : Str) (post : List (Option Str)) (delim : Str) :
    joinI (some (some s0 :: mid ++ some s1 :: post)) (mid.length + 2 : Nat) delim =
      let w := addSize 0 (s0.length + totalLen (present mid) + s1.length + ((mid.length + 2) * delim.length + 1))
      if w < 0 then ub .null else
      if ((sepBy delim (s0 :: present mid ++ [s1])).length : Int) < w then
        ok ⟨true, sepBy delim (s0 :: present mid ++ [s1])⟩
      else ub .oob := by
  unfold joinI
  simp only
  rw [if_neg (by omega)]
  have e0 : elemAt (some s0 :: mid ++ some s1 :: post) 0 = ok (some s0) := by simp [elemAt]
  rw [e0]
  simp only [ok_bind]
  rw [if_neg (by omega)]
  have hn : ((mid.length + 2 : Nat) : Int).toNat = mid.length + 2 := by omega
  rw [hn]
  have hlen := joinLenI_eq [] (some s0 :: mid ++ [some s1]) post 0 0
  have hfill := joinFill_eq [] (some s0 :: mid) (some s1 :: post) delim
  have hor := joinFill_or [] (some s0 :: mid) (some s1 :: post) delim
  have hlast := elemAt_mid (some s0 :: mid) (some s1) post
  rw [addSize_zero] at hlen
  simp only [List.nil_append, List.length_nil, List.cons_append, List.append_assoc,
    List.length_cons, List.length_append, Nat.zero_add] at hlen hfill hlast hor ⊢
  rw [hlen]
  simp only [ok_bind, addSize_addSize]
  rw [show mid.length + 2 - 1 = mid.length + 1 by omega]
  have ew : totalLen (present (some s0 :: (mid ++ [some s1]))) + ((mid.length + 2) * delim.length + 1) =
      s0.length + totalLen (present mid) + s1.length + ((mid.length + 2) * delim.length + 1) := by
    simp; omega
  rw [ew]
  generalize addSize 0 (s0.length + totalLen (present mid) + s1.length + ((mid.length + 2) * delim.length + 1)) = w
  have hsep : s0 :: (present mid ++ [s1]) = (s0 :: present mid) ++ [s1] := by simp
  have htext : sepBy delim (s0 :: (present mid ++ [s1])) = withDelim delim (present (some s0 :: mid)) ++ s1 := by
    rw [hsep, sepBy_concat]; rfl
  rw [htext]
  by_cases hw : w < 0
  · rw [if_pos hw]; simp [callocInt, hw]
  · rw [if_neg hw]
    simp only [callocInt, hw, if_false, ok_bind]
    by_cases hf : ((withDelim delim (present (some s0 :: mid)) ++ s1).length : Int) < w
    · rw [if_pos hf]
      have hl := length_withDelim delim (present (some s0 :: mid))
      rw [List.length_append] at hf
      rw [hfill _ _ (by simp only [List.length_nil]; omega)]
      simp only [ok_bind, List.nil_append]
      rw [hlast]
      simp only [ok_bind]
      rw [fmtInto_ok (by rw [List.length_append]; omega)]
      rfl
    · rw [if_neg hf]
      rcases hor w.toNat [] with h | h
      · rw [h]
        simp only [ok_bind, List.nil_append]
        rw [hlast]
        simp only [ok_bind]
        rw [fmtInto_over (by omega)]
        rfl
      · rw [h]; rfl

/-- The 32-bit sum is the sum, or the size is negative or too small for the text. -/
theorem addSize_range (k : Nat) : addSize 0 k < 0 ∨ addSize 0 k = k ∨ addSize 0 k + 4294967296 ≤ k := by
  unfold addSize toInt32
  rw [Int.bmod_def]
  split <;> omega

theorem addSize_eq_iff (k : Nat) : addSize 0 k = k ↔ k < 2 ^ 31 := by
  unfold addSize toInt32
  rw [Int.bmod_def]
  split <;> omega

theorem joinI_one (s0 : Str) (post : List (Option Str)) (delim : Str) :
    joinI (some (some s0 :: post)) 1 delim = ok ⟨true, s0⟩ := by
  simp [joinI, elemAt]

/-- Summing up in an `int` is summing up, modulo 2^32. -/
theorem joinLenI_joinLen (a : List (Option Str)) (n i : Nat) (x : Int) (j : Nat) :
    joinLenI a n i (addSize x j) = (joinLen a n i >>= fun t => ok (addSize x (j + t))) := by
  induction n generalizing i j with
  | zero => simp [joinLenI, joinLen]
  | succ n ih =>
    simp only [joinLenI, joinLen]
    cases he : elemAt a i with
    | ub f => rfl
    | ok p =>
      simp only [ok_bind]
      cases p with
      | none =>
        simp only [ih]
        cases joinLen a n (i + 1) <;> rfl
      | some s =>
        simp only [addSize_addSize, ih]
        cases joinLen a n (i + 1) with
        | ub f => rfl
        | ok t => simp [Nat.add_assoc]

theorem exists_long (n : Nat) : ∃ t : Str, t.length = n ∧ NulFree t :=
  ⟨List.replicate n 97, by simp, by intro c hc; rw [List.eq_of_mem_replicate hc]; decide⟩

/-! ### C06 -/

theorem joinLen_le (a : List (Option Str)) (n i t : Nat) (h : joinLen a n i = ok t) :
    t = (((a.drop i).take n).map fun p => (p.getD []).length).sum := by
  induction n generalizing i t with
  | zero =>
    obtain rfl : 0 = t := by simpa [joinLen] using h
    simp
  | succ n ih =>
    simp only [joinLen, bind_eq_ok] at h
    obtain ⟨p, hp, r, hr, h⟩ := h
    have hi := ih _ _ hr
    unfold elemAt at hp
    cases ha : a[i]? with
    | none => simp [ha] at hp
    | some q =>
      have hd : a.drop i = q :: a.drop (i + 1) := by
        obtain ⟨hlt, he⟩ := List.getElem?_eq_some_iff.mp ha
        rw [List.drop_eq_getElem_cons hlt, he]
      rw [ha] at hp
      obtain rfl : q = p := C.ok.inj hp
      rw [hd, List.take_succ_cons, List.map_cons, List.sum_cons, ← hi]
      cases q <;> simp_all

/-- C06 in full. -/
def C06_statement : Prop :=
  ∀ (es : List Str) (delim : Str), es.length < 2 ^ 31 → (∀ e ∈ es, NulFree e) → NulFree delim →
    joinI (some (es.map some)) es.length delim = ok ⟨decide (es ≠ []), sepBy delim es⟩

/-- C06, below 2 GiB the `int` makes no difference: whatever the array, the size and the delimiter, NULL
elements and sizes beyond the array included. `C06_join`, `C06_join_nulls`, `C06_join_empty` and
`C06_join_ends` say what the right-hand side is. -/
theorem C06_agree (a : List (Option Str)) (size : Int) (delim : Str)
    (h : ((a.take size.toNat).map fun p => (p.getD []).length).sum + size.toNat * delim.length + 1 < 2 ^ 31) :
    joinI (some a) size delim = join (some a) size delim := by
  unfold joinI join
  simp only
  split
  · rfl
  cases he : elemAt a 0 with
  | ub f => rfl
  | ok p =>
    simp only [ok_bind]
    cases p with
    | none => rfl
    | some s0 =>
      simp only
      split
      · rfl
      have hj := joinLenI_joinLen a size.toNat 0 0 0
      rw [addSize_zero] at hj
      rw [hj]
      cases hl : joinLen a size.toNat 0 with
      | ub f => rfl
      | ok t =>
        have ht := joinLen_le a size.toNat 0 t hl
        rw [List.drop_zero] at ht
        simp only [ok_bind, addSize_addSize]
        rw [Nat.zero_add, (addSize_eq_iff _).mpr (by omega)]
        generalize t + (size.toNat * delim.length + 1) = k
        rw [show callocInt (k : Int) = ok k by simp [callocInt]]
        rfl

/-- C06, what holds: any number of strings, if the lengths, one delimiter for each and the terminator sum up to less
than 2^31. Missing: longer texts (`C06_exact`: none of them). -/
theorem C06_partial (es : List Str) (more : List (Option Str)) (delim : Str)
    (h : (es.map List.length).sum + es.length * delim.length + 1 < 2 ^ 31) :
    joinI (some (es.map some ++ more)) es.length delim = ok ⟨decide (es ≠ []), sepBy delim es⟩ := by
  rw [C06_agree _ _ _ ?_, join_strings]
  simpa [List.take_append, Function.comp_def] using h

/-- C06, exactly: two or more strings are joined if and only if the lengths, one delimiter for each and the terminator
sum up to less than 2^31. From there on memory is corrupted or NULL is written to. -/
theorem C06_exact (es : List Str) (more : List (Option Str)) (delim : Str) (h2 : 2 ≤ es.length)
    (hd : delim.length < 2 ^ 32) :
    (joinI (some (es.map some ++ more)) es.length delim).IsOk ↔
      (es.map List.length).sum + es.length * delim.length + 1 < 2 ^ 31 := by
  constructor
  · rintro ⟨r, hr⟩
    rcases es with _ | ⟨e, es⟩
    · simp at h2
    rcases List.eq_nil_or_concat es with rfl | ⟨mid, s1, rfl⟩
    · simp at h2
    have hm := joinI_many e (mid.map some) s1 more delim
    have e1 : (e :: mid.concat s1).map some ++ more = some e :: mid.map some ++ some s1 :: more := by simp
    have e2 : (e :: mid.concat s1).length = (mid.map some).length + 2 := by simp
    rw [e1, e2, hm, present_map_some] at hr
    have hlen := length_sepBy delim (e :: mid ++ [s1])
    have e3 : ((e :: mid.concat s1).map List.length).sum + (e :: mid.concat s1).length * delim.length + 1 =
        e.length + totalLen mid + s1.length + (((mid.map some).length + 2) * delim.length + 1) := by
      simp [totalLen]
      rw [show mid.length + 1 + 1 = mid.length + 2 from rfl]
      omega
    rw [e3, ← addSize_eq_iff]
    generalize hw : e.length + totalLen mid + s1.length + (((mid.map some).length + 2) * delim.length + 1) = k at hr ⊢
    simp only at hr
    rcases addSize_range k with h | h | h
    · simp [h] at hr
    · exact h
    · exfalso
      split at hr
      · simp at hr
      split at hr
      · rename_i hlt
        have : (mid.length + 2) * delim.length = (mid.length + 1) * delim.length + delim.length := by
          rw [Nat.add_mul, Nat.add_mul]; omega
        simp at hlen hw
        rw [List.cons_append] at hlt
        have hd : delim.length < 4294967296 := hd
        generalize addSize 0 k = w at *
        clear hr hm
        omega
      · simp at hr
  · intro h
    exact ⟨_, C06_partial es more delim h⟩

/-- Whatever the sizes, what `join` returns is the joined text. -/
theorem joinI_text (es : List Str) (more : List (Option Str)) (delim : Str) (r : HStr)
    (h : joinI (some (es.map some ++ more)) es.length delim = ok r) : r.s = sepBy delim es := by
  rcases es with _ | ⟨e, es⟩
  · simp [joinI] at h
    simp [← h, sepBy]
  rcases List.eq_nil_or_concat es with rfl | ⟨mid, s1, rfl⟩
  · have := joinI_one e more delim
    obtain rfl := C.ok.inj (this.symm.trans h)
    simp [sepBy]
  · have hm := joinI_many e (mid.map some) s1 more delim
    have e1 : (e :: mid.concat s1).map some ++ more = some e :: mid.map some ++ some s1 :: more := by simp
    have e2 : (e :: mid.concat s1).length = (mid.map some).length + 2 := by simp
    rw [e1, e2, hm, present_map_some] at h
    simp only at h
    split at h
    · cases h
    split at h
    · obtain rfl := C.ok.inj h
      simp
    · cases h

/-- C06 is false: two strings of 1 GiB. -/
theorem C06_refuted : ¬ C06_statement := by
  intro h
  obtain ⟨t, ht, hn⟩ := exists_long (2 ^ 30)
  have h2 : [t, t].length = 2 := rfl
  have hr := h [t, t] [44] (by rw [h2]; omega) (by simp [hn]) (by decide)
  have hs : ([t, t].map List.length).sum = t.length + (t.length + 0) := rfl
  have := (C06_exact [t, t] [] [44] (Nat.le_refl 2) (by rw [List.length_singleton]; omega)).mp
    ⟨_, by rw [List.append_nil]; exact hr⟩
  rw [hs, h2, ht] at this
  omega

example := C06_partial [b!"a", b!"", b!"bc"] [none] b!", " (by decide)
example : joinI (some [some b!"a", none, some b!"bc"]) 3 b!", " = ok ⟨true, b!"a, bc"⟩ := by decide
example := C06_agree [some b!"a", none, some b!"bc"] 3 b!", " (by decide)
example := C06_exact [b!"a", b!"", b!"bc"] [none] b!", " (by decide) (by decide)

/-! ### C13 -/

/-- C13, below 2 GiB the `int` makes no difference: `C13_exact` says what the right-hand side is. -/
theorem C13_agree (a : List (Option Str)) (size : Int)
    (h : ((a.take size.toNat).map fun p => (p.getD []).length).sum + size.toNat * 3 + 6 < 2 ^ 31) :
    json_array_of_stringsI (some a) size = json_array_of_strings (some a) size := by
  have h3 : JSON_ARRAY_STR_SEP.length = 3 := by decide
  have h2 : JSON_ARRAY_STR_BEGIN.length = 2 := by decide
  have h2' : JSON_ARRAY_STR_END.length = 2 := by decide
  have hj := C06_agree a size JSON_ARRAY_STR_SEP (by rw [h3]; omega)
  unfold json_array_of_stringsI json_array_of_strings
  simp only
  split
  · rfl
  rw [joinLenI_joinLen, hj]
  cases hl : joinLen a size.toNat 0 with
  | ub f => rfl
  | ok t =>
    have ht := joinLen_le a size.toNat 0 t hl
    rw [List.drop_zero] at ht
    simp only [ok_bind]
    rw [(addSize_eq_iff _).mpr (by rw [h2, h2', h3]; omega)]
    generalize JSON_ARRAY_STR_BEGIN.length + JSON_ARRAY_STR_END.length
      + size.toNat * JSON_ARRAY_STR_SEP.length + 2 + t = k
    rw [show callocInt (k : Int) = ok k by simp [callocInt]]
    rfl

/-- C13, the limit, exactly: the array is rendered if and only if the lengths of the strings, three bytes for each and
six more sum up to less than 2^31. From there on memory is corrupted or NULL is written to. -/
theorem C13_limit (es : List Str) (more : List (Option Str)) (h0 : es ≠ []) :
    (json_array_of_stringsI (some (es.map some ++ more)) es.length).IsOk ↔
      (es.map List.length).sum + es.length * 3 + 6 < 2 ^ 31 := by
  have h3 : JSON_ARRAY_STR_SEP.length = 3 := by decide
  have h2 : JSON_ARRAY_STR_BEGIN.length = 2 := by decide
  have h2' : JSON_ARRAY_STR_END.length = 2 := by decide
  have hpos : 0 < es.length := List.length_pos_iff.mpr h0
  constructor
  · rintro ⟨r, hr⟩
    unfold json_array_of_stringsI at hr
    simp only at hr
    rw [if_neg (by omega)] at hr
    have hl := joinLenI_eq [] (es.map some) more 0
      (JSON_ARRAY_STR_BEGIN.length + JSON_ARRAY_STR_END.length + es.length * JSON_ARRAY_STR_SEP.length + 2)
    simp only [List.nil_append, List.length_map, List.length_nil, present_map_some, h2, h2', h3] at hl
    simp only [Int.toNat_natCast, h2, h2', h3] at hr
    rw [hl] at hr
    simp only [ok_bind, bind_eq_ok] at hr
    obtain ⟨cap, hcap, j1, hj1, joined, hj, j2, hj2, j3, hj3, -⟩ := hr
    have hjs : joined.s = sepBy JSON_ARRAY_STR_SEP es := joinI_text es more _ joined hj
    obtain ⟨-, rfl⟩ := fmtInto_eq_ok.mp hj1
    obtain ⟨-, rfl⟩ := fmtInto_eq_ok.mp hj2
    obtain ⟨hlen, -⟩ := fmtInto_eq_ok.mp hj3
    have hls := length_sepBy JSON_ARRAY_STR_SEP es
    rw [hjs, List.length_append, List.length_append, hls, h2, h2', h3] at hlen
    have htot : totalLen es = (es.map List.length).sum := rfl
    rw [htot] at hlen hcap
    have e : 2 + 2 + es.length * 3 + 2 + (es.map List.length).sum = (es.map List.length).sum + es.length * 3 + 6 := by
      omega
    rw [e] at hcap
    rw [← addSize_eq_iff]
    have hr := addSize_range ((es.map List.length).sum + es.length * 3 + 6)
    generalize addSize 0 ((es.map List.length).sum + es.length * 3 + 6) = w at *
    unfold callocInt at hcap
    split at hcap
    · cases hcap
    · have hcap := C.ok.inj hcap
      omega
  · intro h
    rw [C13_agree _ _ (by simpa [List.take_append, Function.comp_def] using h)]
    have hlen := joinLen_eq [] (es.map some) more
    simp only [List.nil_append, List.length_map, List.length_nil, present_map_some] at hlen
    have hjoin := join_strings es more JSON_ARRAY_STR_SEP
    unfold json_array_of_strings
    simp only
    rw [if_neg (by omega)]
    simp only [Int.toNat_natCast]
    rw [hlen]
    simp only [ok_bind]
    rw [hjoin]
    have hls := length_sepBy JSON_ARRAY_STR_SEP es
    rw [h3] at hls
    rw [h2, h2', h3]
    rw [fmtInto_ok (by rw [h2]; omega)]
    simp only [ok_bind]
    rw [fmtInto_ok (by rw [List.length_append, hls, h2]; omega)]
    simp only [ok_bind]
    rw [fmtInto_ok (by rw [List.length_append, List.length_append, hls, h2, h2']; omega)]
    simp only [ok_bind, freeStr, h0, ne_eq, not_false_eq_true, decide_true, if_true]
    exact ⟨_, rfl⟩

example := C13_limit [b!"a", b!"bc"] [none] (by decide)
example := C13_agree [some b!"a", none, some b!"bc"] 3 (by decide)

/-! ### C16 -/

/-- C16 in full. -/
def C16_statement : Prop :=
  ∀ (xs : List Str), xs.length < 2 ^ 31 → (∀ x ∈ xs, NulFree x) →
    json_array_of_entitiesI (fun x => ok (some x)) xs = ok (91 :: sepBy [44] xs ++ [93])

/-- C16, what holds: any number of elements and any serialiser that returns strings, if the lengths of the strings and
one byte for each sum up to less than 2^31 - 1. Missing: longer arrays (`C16_exact`: none, except single elements). -/
theorem C16_partial {α : Type} (ser : α → C (Option Str)) (xs : List α) (out : α → Str)
    (hser : ∀ x ∈ xs, ser x = ok (some (out x)))
    (h : xs.length ≤ 1 ∨ (xs.map fun x => (out x).length).sum + xs.length + 1 < 2 ^ 31) :
    json_array_of_entitiesI ser xs = ok (91 :: sepBy [44] (xs.map out) ++ [93]) := by
  rw [← C16_entities ser xs out hser]
  unfold json_array_of_entitiesI json_array_of_entities
  by_cases h0 : xs = []
  · rw [if_pos (by rw [h0]; rfl), if_pos (by rw [h0]; rfl)]
  have hpos : xs.length ≠ 0 := fun h => h0 (List.length_eq_zero_iff.mp h)
  rw [if_neg hpos, if_neg hpos, serializeAll_eq ser xs out hser]
  simp only [ok_bind]
  have e : joinI (some (xs.map fun x => some (out x))) xs.length b!"," =
      join (some (xs.map fun x => some (out x))) xs.length b!"," := by
    rcases h with h | h
    · obtain ⟨x, rfl⟩ := List.length_eq_one_iff.mp (show xs.length = 1 by omega)
      exact (joinI_one (out x) [] _).trans (join_one (out x) [] _).symm
    · apply C06_agree
      rw [show (b!"," : Str).length = 1 from rfl, Nat.mul_one, Int.toNat_natCast, List.take_of_length_le (by simp), List.map_map]
      exact h
  rw [e]

/-- C16, exactly: serialisers that return strings, two or more elements. -/
theorem C16_exact {α : Type} (ser : α → C (Option Str)) (xs : List α) (out : α → Str)
    (hser : ∀ x ∈ xs, ser x = ok (some (out x))) (h2 : 2 ≤ xs.length) :
    (json_array_of_entitiesI ser xs).IsOk ↔ (xs.map fun x => (out x).length).sum + xs.length + 1 < 2 ^ 31 := by
  constructor
  · rintro ⟨r, hr⟩
    unfold json_array_of_entitiesI at hr
    rw [if_neg (by omega), serializeAll_eq ser xs out hser] at hr
    simp only [ok_bind, bind_eq_ok] at hr
    obtain ⟨joined, hj, -⟩ := hr
    have := (C06_exact (xs.map out) [] b!"," (by simpa using h2)
      (by rw [show (b!"," : Str).length = 1 from rfl]; omega)).mp ⟨joined, by simpa [Function.comp_def] using hj⟩
    rw [List.map_map, List.length_map, show (b!"," : Str).length = 1 from rfl, Nat.mul_one] at this
    exact this
  · exact fun h => ⟨_, C16_partial ser xs out hser (.inr h)⟩

/-- C16 is false: two elements of 1 GiB. -/
theorem C16_refuted : ¬ C16_statement := by
  intro h
  obtain ⟨t, ht, hn⟩ := exists_long (2 ^ 30)
  have h2 : [t, t].length = 2 := rfl
  have hr := h [t, t] (by rw [h2]; omega) (by simp [hn])
  have hs : ([t, t].map fun x : Str => x.length).sum = t.length + (t.length + 0) := rfl
  have := (C16_exact (fun x => ok (some x)) [t, t] (fun x => x) (fun _ _ => rfl) (Nat.le_refl 2)).mp ⟨_, hr⟩
  rw [hs, h2, ht] at this
  omega

example := C16_partial (fun n => ok (some (fmtInt n))) [1, -22] fmtInt (fun _ _ => rfl) (.inr (by decide))
example := C16_exact (fun n => ok (some (fmtInt n))) [1, -22] fmtInt (fun _ _ => rfl) (by decide)

end Wayuu
