import Verif.Lemmas.Strings2
/-
More lemmas about string_utils.c: join, startswith, text_find_after, chop_string, string_isalnum, md5sum.
-/
namespace Wayuu
open C

/-! ### join -/

/-- The non-NULL elements. -/
def present (a : List (Option Str)) : List Str := a.filterMap id

@[simp] theorem present_nil : present [] = [] := rfl
@[simp] theorem present_cons_some (s : Str) (a : List (Option Str)) : present (some s :: a) = s :: present a := rfl
@[simp] theorem present_cons_none (a : List (Option Str)) : present (none :: a) = present a := rfl
@[simp] theorem present_append (a b : List (Option Str)) : present (a ++ b) = present a ++ present b := by
  simp [present, List.filterMap_append]
@[simp] theorem present_map_some (es : List Str) : present (es.map some) = es := by
  induction es with
  | nil => rfl
  | cons e es ih => simp [ih]

/-- Total length of a list of strings. -/
def totalLen (es : List Str) : Nat := (es.map List.length).sum

@[simp] theorem totalLen_nil : totalLen [] = 0 := rfl
@[simp] theorem totalLen_cons (e : Str) (es : List Str) : totalLen (e :: es) = e.length + totalLen es := by
  simp [totalLen]
@[simp] theorem totalLen_append (a b : List Str) : totalLen (a ++ b) = totalLen a + totalLen b := by
  simp [totalLen]

theorem elemAt_mid (pre : List (Option Str)) (x : Option Str) (post : List (Option Str)) :
    elemAt (pre ++ x :: post) pre.length = ok x := by
  simp [elemAt]

theorem joinLen_eq (pre mid post : List (Option Str)) :
    joinLen (pre ++ mid ++ post) mid.length pre.length = ok (totalLen (present mid)) := by
  induction mid generalizing pre with
  | nil => simp [joinLen]
  | cons x mid ih =>
    simp only [List.length_cons, joinLen]
    have e1 : pre ++ x :: mid ++ post = pre ++ x :: (mid ++ post) := by simp
    rw [e1, elemAt_mid]
    simp only [ok_bind]
    have e2 : pre ++ x :: (mid ++ post) = pre ++ [x] ++ mid ++ post := by simp
    have := ih (pre ++ [x])
    simp only [List.length_append, List.length_singleton] at this
    rw [e2, this]
    cases x <;> simp

/-- Each string followed by the delimiter. -/
def withDelim (delim : Str) (es : List Str) : Str := es.flatMap (· ++ delim)

@[simp] theorem withDelim_nil (d : Str) : withDelim d [] = [] := rfl
@[simp] theorem withDelim_cons (d e : Str) (es : List Str) : withDelim d (e :: es) = e ++ d ++ withDelim d es := by
  simp [withDelim]

theorem length_withDelim (d : Str) (es : List Str) :
    (withDelim d es).length = totalLen es + es.length * d.length := by
  induction es with
  | nil => simp
  | cons e es ih => simp [ih, Nat.add_mul]; omega

theorem sepBy_concat (d : Str) (es : List Str) (e : Str) :
    Spec.sepBy d (es ++ [e]) = withDelim d es ++ e := by
  induction es with
  | nil => simp [Spec.sepBy]
  | cons x es ih =>
    cases es with
    | nil => simp [Spec.sepBy]
    | cons y es =>
      simp only [List.cons_append] at ih
      simp [Spec.sepBy, ih]

theorem joinFill_eq (pre mid post : List (Option Str)) (delim : Str) (cap : Nat) (acc : Str)
    (hcap : acc.length + totalLen (present mid) + (present mid).length * delim.length + 1 ≤ cap) :
    joinFill (pre ++ mid ++ post) delim cap mid.length pre.length acc =
      ok (acc ++ withDelim delim (present mid)) := by
  induction mid generalizing pre acc with
  | nil => simp [joinFill]
  | cons x mid ih =>
    simp only [List.length_cons, joinFill]
    have e1 : pre ++ x :: mid ++ post = pre ++ x :: (mid ++ post) := by simp
    have e2 : pre ++ x :: (mid ++ post) = pre ++ [x] ++ mid ++ post := by simp
    have h2 := ih (pre ++ [x])
    simp only [List.length_append, List.length_singleton] at h2
    rw [e1, elemAt_mid]
    simp only [ok_bind]
    cases x with
    | none =>
      simp only [present_cons_none] at hcap ⊢
      rw [e2, h2 acc hcap]
    | some s =>
      simp only [present_cons_some, totalLen_cons, List.length_cons, Nat.add_mul, Nat.one_mul] at hcap
      simp only
      rw [fmtInto_ok (by simp; omega)]
      simp only [ok_bind]
      rw [fmtInto_ok (by simp; omega)]
      simp only [ok_bind]
      rw [e2, h2 _ (by simp; omega)]
      simp

theorem present_length_le (a : List (Option Str)) : (present a).length ≤ a.length := by
  unfold present; exact List.length_filterMap_le _ _

/-- `join` on at least two elements, the first and the last not NULL. -/
theorem join_many (s0 : Str) (mid : List (Option Str)) (s1 : Str) (post : List (Option Str)) (delim : Str) :
    join (some (some s0 :: mid ++ some s1 :: post)) (mid.length + 2 : Nat) delim =
      ok ⟨true, Spec.sepBy delim (s0 :: present mid ++ [s1])⟩ := by
  unfold join
  simp only
  rw [if_neg (by omega)]
  have e0 : elemAt (some s0 :: mid ++ some s1 :: post) 0 = ok (some s0) := by simp [elemAt]
  rw [e0]
  simp only [ok_bind]
  rw [if_neg (by omega)]
  have hn : ((mid.length + 2 : Nat) : Int).toNat = mid.length + 2 := by omega
  rw [hn]
  have hlen := joinLen_eq [] (some s0 :: mid ++ [some s1]) post
  have hfill := joinFill_eq [] (some s0 :: mid) (some s1 :: post) delim
  have hlast := elemAt_mid (some s0 :: mid) (some s1) post
  simp only [List.nil_append, List.length_nil, List.cons_append, List.append_assoc,
    List.length_cons, List.length_append, Nat.zero_add] at hlen hfill hlast ⊢
  rw [hlen]
  simp only [ok_bind]
  have hp := present_length_le mid
  have hmul : (present mid).length * delim.length ≤ mid.length * delim.length := Nat.mul_le_mul_right _ hp
  rw [show mid.length + 2 - 1 = mid.length + 1 by omega]
  rw [hfill _ _ (by simp [Nat.add_mul]; omega)]
  simp only [ok_bind]
  rw [hlast]
  simp only [ok_bind]
  rw [fmtInto_ok]
  · simp only [ok_bind]
    rw [show s0 :: (present mid ++ [s1]) = (s0 :: present mid) ++ [s1] by simp, sepBy_concat]
    rfl
  · simp [length_withDelim, Nat.add_mul]; omega

/-- `join` on at least two elements, the first not NULL and the last NULL. -/
theorem join_last_null (s0 : Str) (mid : List (Option Str)) (post : List (Option Str)) (delim : Str) :
    join (some (some s0 :: mid ++ none :: post)) (mid.length + 2 : Nat) delim = ub .null := by
  unfold join
  simp only
  rw [if_neg (by omega)]
  have e0 : elemAt (some s0 :: mid ++ none :: post) 0 = ok (some s0) := by simp [elemAt]
  rw [e0]
  simp only [ok_bind]
  rw [if_neg (by omega)]
  have hn : ((mid.length + 2 : Nat) : Int).toNat = mid.length + 2 := by omega
  rw [hn]
  have hlen := joinLen_eq [] (some s0 :: mid ++ [none]) post
  have hfill := joinFill_eq [] (some s0 :: mid) (none :: post) delim
  have hlast := elemAt_mid (some s0 :: mid) none post
  simp only [List.nil_append, List.length_nil, List.cons_append, List.append_assoc,
    List.length_cons, List.length_append, Nat.zero_add] at hlen hfill hlast ⊢
  rw [hlen]
  simp only [ok_bind]
  have hp := present_length_le mid
  have hmul : (present mid).length * delim.length ≤ mid.length * delim.length := Nat.mul_le_mul_right _ hp
  rw [show mid.length + 2 - 1 = mid.length + 1 by omega]
  rw [hfill _ _ (by simp [Nat.add_mul]; omega)]
  simp only [ok_bind]
  rw [hlast]
  rfl

theorem join_one (s0 : Str) (post : List (Option Str)) (delim : Str) :
    join (some (some s0 :: post)) 1 delim = ok ⟨true, s0⟩ := by
  simp [join, elemAt]

/-- `join` of any number of non-NULL strings. -/
theorem join_strings (es : List Str) (post : List (Option Str)) (delim : Str) :
    join (some (es.map some ++ post)) es.length delim = ok ⟨decide (es ≠ []), Spec.sepBy delim es⟩ := by
  rcases es with _ | ⟨e, es⟩
  · simp [join, Spec.sepBy]
  · rcases List.eq_nil_or_concat es with rfl | ⟨mid, s1, rfl⟩
    · simpa [Spec.sepBy] using join_one e post delim
    · have := join_many e (mid.map some) s1 post delim
      simp at this ⊢
      exact this

/-! ### startswith -/

theorem toLower_eq (c : Byte) : toLower c = Spec.lower c := by
  have : ∀ n : Fin 256, toLower (UInt8.ofNat n) = Spec.lower (UInt8.ofNat n) := by decide +kernel
  have h := this ⟨c.toNat, c.toNat_lt⟩
  simpa using h

theorem strncaseEq_iff (s p : Str) : strncaseEq s p p.length = true ↔ Spec.CasePrefix p s := by
  induction p generalizing s with
  | nil => simp [strncaseEq, Spec.CasePrefix, Spec.CaseEq]
  | cons y p ih =>
    cases s with
    | nil =>
      simp only [List.length_cons, strncaseEq, Bool.false_eq_true, false_iff]
      rintro ⟨a, b, hab, hc⟩
      have ha : a = [] := by
        cases a with
        | nil => rfl
        | cons => simp at hab
      subst ha
      simp [Spec.CaseEq] at hc
    | cons x s =>
      simp only [List.length_cons, strncaseEq, Bool.and_eq_true, beq_iff_eq, ih, toLower_eq]
      constructor
      · rintro ⟨hxy, a, b, rfl, hc⟩
        exact ⟨x :: a, b, rfl, by simp [Spec.CaseEq] at hc ⊢; exact ⟨hxy, hc⟩⟩
      · rintro ⟨a, b, hab, hc⟩
        cases a with
        | nil => simp [Spec.CaseEq] at hc
        | cons a0 a =>
          simp only [List.cons_append, List.cons.injEq] at hab
          obtain ⟨rfl, rfl⟩ := hab
          simp only [Spec.CaseEq, List.map_cons, List.cons.injEq] at hc
          exact ⟨hc.1, a, b, rfl, hc.2⟩

theorem startswith_iff (s p : Str) : startswith s p = true ↔ Spec.CasePrefix p s := strncaseEq_iff s p

/-! ### text_find_after -/

theorem matchAt_eq (t : List Byte) (r : Buf) (needle : Str) (hn : NulFree needle) (i : Nat) (hi : i ≤ t.length) :
    matchAt (t.map some ++ some 0 :: r) i needle = ok (decide (needle <+: t.drop i)) := by
  induction needle generalizing i with
  | nil => simp [matchAt]
  | cons c needle ih =>
    simp only [nulFree_cons] at hn
    simp only [matchAt]
    by_cases h : i < t.length
    · rw [load_append_some h, List.drop_eq_getElem_cons h]
      simp only [ok_bind]
      by_cases hc : t[i] = c
      · simp only [hc, ne_eq, not_true_eq_false, if_false]
        rw [ih hn.2 (i + 1) h]
        simp [List.cons_prefix_cons]
      · have hc' : ¬ c = t[i] := fun h => hc h.symm
        rw [if_pos hc]
        simp only [List.cons_prefix_cons, hc', false_and, decide_false]
    · have : i = t.length := by omega
      subst this
      rw [load_append_right (by simp)]
      have hc0 : (0 : Byte) ≠ c := fun h => hn.1 h.symm
      simp [hc0]

theorem findLoop_spec (t : List Byte) (r : Buf) (needle : Str) (hn : NulFree needle) (n i : Nat)
    (hb : i + n ≤ t.length) :
    (∃ k : Nat, findLoop (t.map some ++ some 0 :: r) needle n i = ok ((k : Int) + needle.length) ∧
        Spec.FirstOcc t needle i (i + n) k) ∨
    (findLoop (t.map some ++ some 0 :: r) needle n i = ok (-1) ∧
        ∀ j, i ≤ j → j < i + n → ¬ needle <+: t.drop j) := by
  induction n generalizing i with
  | zero => right; exact ⟨by simp [findLoop], by omega⟩
  | succ n ih =>
    simp only [findLoop]
    rw [matchAt_eq t r needle hn i (by omega)]
    simp only [ok_bind]
    by_cases h : needle <+: t.drop i
    · left
      refine ⟨i, by simp [h], Nat.le_refl _, by omega, h, by omega⟩
    · simp only [h, decide_false, Bool.false_eq_true, if_false]
      rcases ih (i + 1) (by omega) with ⟨k, hk, h1, h2, h3, h4⟩ | ⟨hk, h1⟩
      · left
        refine ⟨k, hk, by omega, by omega, h3, fun j hj1 hj2 => ?_⟩
        by_cases hji : j = i
        · subst hji; exact h
        · exact h4 j (by omega) hj2
      · right
        refine ⟨hk, fun j hj1 hj2 => ?_⟩
        by_cases hji : j = i
        · subst hji; exact h
        · exact h1 j (by omega) (by omega)

/-! ### chop_string, string_isalnum -/

/-- Bytes that `chop_string` keeps. -/
def keeps (c : Byte) : Bool := 35 ≤ c.toNat && c.toNat ≤ 127

theorem schar_keeps (c : Byte) : schar c ≤ 34 ↔ keeps c = false := by
  have : ∀ n : Fin 256, schar (UInt8.ofNat n) ≤ 34 ↔ keeps (UInt8.ofNat n) = false := by decide +kernel
  have h := this ⟨c.toNat, c.toNat_lt⟩
  simpa using h

theorem chopLoop_eq (p s : Str) (hp : NulFree p) (hs : NulFree s) (r : Buf) :
    ∃ q, chopLoop ((p ++ s).map some ++ some 0 :: r) s.length p.length =
      ok ((p ++ s.takeWhile keeps).map some ++ some 0 :: q) ∧
      ∃ q1, q = q1 ++ r ∧ (p ++ s.takeWhile keeps).length + q1.length = (p ++ s).length := by
  induction s generalizing p with
  | nil => exact ⟨r, by simp [chopLoop], [], by simp, by simp⟩
  | cons c s ih =>
    simp only [nulFree_cons] at hs
    simp only [List.length_cons, chopLoop]
    rw [load_append_some (by simp)]
    simp only [List.getElem_append_right (Nat.le_refl _), Nat.sub_self, List.getElem_cons_zero, ok_bind]
    by_cases hc : schar c ≤ 34
    · rw [if_pos hc]
      have e : (p ++ c :: s).map some ++ some 0 :: r
          = p.map some ++ some c :: (s.map some ++ some 0 :: r) := by simp
      rw [e, store_append_cons (by simp)]
      have hk := (schar_keeps c).mp hc
      refine ⟨s.map some ++ some 0 :: r, by simp [hk], s.map some ++ [some 0], by simp, by simp [hk]⟩
    · rw [if_neg hc]
      have hk : keeps c = true := by
        cases h : keeps c with
        | true => rfl
        | false => exact absurd ((schar_keeps c).mpr h) hc
      have := ih (p ++ [c]) (by simp [hp, hs.1]) hs.2
      simp only [List.append_assoc, List.singleton_append, List.length_append, List.length_singleton] at this
      simpa [hk] using this

theorem chop_eq (s : Str) (hs : NulFree s) (r : Buf) :
    ∃ q, chop_string (s.map some ++ some 0 :: r) =
      ok ((s.takeWhile keeps).map some ++ some 0 :: (q ++ r)) ∧ (s.takeWhile keeps).length + q.length = s.length := by
  obtain ⟨q, hq, q1, h1, h2⟩ := chopLoop_eq [] s (by simp) hs r
  unfold chop_string
  rw [cstr_mk hs]
  simp only [ok_bind]
  simp only [List.nil_append, List.length_nil] at hq h2
  exact ⟨q1, by rw [hq, h1], h2⟩

theorem isAlnum_eq (c : Byte) : isAlnum c = Spec.alnum c := by
  have : ∀ n : Fin 256, isAlnum (UInt8.ofNat n) = Spec.alnum (UInt8.ofNat n) := by decide +kernel
  have h := this ⟨c.toNat, c.toNat_lt⟩
  simpa using h

theorem alnumLoop_eq (p s : Str) (r : Buf) :
    alnumLoop ((p ++ s).map some ++ r) s.length p.length = ok (s.all isAlnum) := by
  induction s generalizing p with
  | nil => simp [alnumLoop]
  | cons c s ih =>
    simp only [List.length_cons, alnumLoop]
    rw [load_append_some (by simp)]
    simp only [List.getElem_append_right (Nat.le_refl _), Nat.sub_self, List.getElem_cons_zero, ok_bind]
    by_cases hc : isAlnum c = true
    · have := ih (p ++ [c])
      simp only [List.append_assoc, List.singleton_append, List.length_append, List.length_singleton] at this
      simp only [hc, List.all_cons, Bool.true_and]
      exact this
    · simp [hc]

/-! ### md5sum -/

theorem readBytes_eq (pre : Buf) (bs : List Byte) (post : Buf) :
    readBytes (pre ++ (bs.map some ++ post)) pre.length bs.length = ok bs := by
  induction bs generalizing pre with
  | nil => simp [readBytes]
  | cons b bs ih =>
    simp only [List.length_cons, readBytes]
    rw [load_append_right (Nat.le_refl _)]
    simp only [Nat.sub_self, List.map_cons, List.cons_append, load_cons_zero, ok_bind]
    have := ih (pre ++ [some b])
    simp only [List.append_assoc, List.singleton_append, List.length_append, List.length_singleton] at this
    rw [this]
    rfl

theorem md5Feed_eq (n : Nat) (pre : Buf) (bs : List Byte) (post : Buf) (hn : bs.length ≤ n) :
    md5Feed (pre ++ (bs.map some ++ post)) n pre.length bs.length = ok bs := by
  induction n generalizing pre bs with
  | zero =>
    have : bs = [] := List.length_eq_zero_iff.mp (by omega)
    subst this; simp [md5Feed]
  | succ n ih =>
    unfold md5Feed
    by_cases h0 : bs = []
    · subst h0; simp
    · have hpos : 0 < bs.length := List.length_pos_iff.mpr h0
      rw [if_pos (by omega)]
      by_cases h512 : 512 < bs.length
      · rw [if_pos (by omega)]
        have hsplit : pre ++ (bs.map some ++ post)
            = pre ++ ((bs.take 512).map some ++ ((bs.drop 512).map some ++ post)) := by
          rw [← List.append_assoc ((bs.take 512).map some), ← List.map_append, List.take_append_drop]
        have hr := readBytes_eq pre (bs.take 512) ((bs.drop 512).map some ++ post)
        rw [← hsplit] at hr
        have hl : (bs.take 512).length = 512 := by simp; omega
        rw [hl] at hr
        rw [hr]
        simp only [ok_bind]
        have hi := ih (pre ++ (bs.take 512).map some) (bs.drop 512) (by simp; omega)
        have hlen2 : (pre ++ (bs.take 512).map some).length = pre.length + 512 := by
          rw [List.length_append, List.length_map, hl]
        rw [hlen2, List.append_assoc, ← hsplit] at hi
        have hz : ((bs.length : Int) - 512) = ((bs.drop 512).length : Nat) := by simp; omega
        rw [hz, hi]
        simp [List.take_append_drop]
      · rw [if_neg (by omega)]
        have hr := readBytes_eq pre bs post
        rw [show ((bs.length : Int)).toNat = bs.length by simp, hr]
        simp only [ok_bind]
        have hz : ∀ m o, md5Feed (pre ++ (bs.map some ++ post)) m o ((bs.length : Int) - 512) = ok [] := by
          intro m o
          cases m with
          | zero => rfl
          | succ m => unfold md5Feed; rw [if_neg (by omega)]
        rw [hz]
        simp

theorem md5Hex_eq (ds : List Byte) (done : List Byte) (m : Buf) (i : Nat) (hi : done.length = 2 * i)
    (hm : done.length + 2 * ds.length + 1 ≤ m.length) (hpre : ∃ q, m = done.map some ++ q) :
    ∃ q, md5Hex m ds i = ok ((done ++ ds.flatMap fmtHex2).map some ++ q) ∧
      (done ++ ds.flatMap fmtHex2).length + q.length = m.length ∧
      (ds ≠ [] → ∃ q', q = some 0 :: q') := by
  induction ds generalizing done m i with
  | nil =>
    obtain ⟨q, rfl⟩ := hpre
    exact ⟨q, by simp [md5Hex], by simp, by simp⟩
  | cons d ds ih =>
    obtain ⟨q, rfl⟩ := hpre
    simp only [md5Hex]
    have hl2 : (fmtHex2 d).length = 2 := by simp [fmtHex2]
    simp only [List.length_cons, List.length_append, List.length_map] at hm
    rw [writeAt_ok (by simp [hl2]; omega)]
    simp only [ok_bind]
    have e : List.take (2 * i) (done.map some ++ q) = done.map some := by
      rw [← hi]; exact List.take_left' (by simp)
    rw [e]
    have hb := ih (done ++ fmtHex2 d)
      (done.map some ++ (fmtHex2 d ++ [0]).map some ++
        List.drop (2 * i + (fmtHex2 d ++ [0]).length) (done.map some ++ q)) (i + 1)
      (by simp [hl2]; omega)
      (by simp [hl2]; omega)
      ⟨[some 0] ++ List.drop (2 * i + (fmtHex2 d ++ [0]).length) (done.map some ++ q), by simp⟩
    obtain ⟨q2, h1, h2, h3⟩ := hb
    refine ⟨q2, ?_, ?_, ?_⟩
    · rw [h1]; simp
    · rw [List.flatMap_cons, ← List.append_assoc, h2]
      simp [hl2]; omega
    · intro _
      cases ds with
      | cons => exact h3 (by simp)
      | nil =>
        simp only [md5Hex, List.flatMap_nil, List.append_nil, ok.injEq] at h1
        rw [List.append_assoc, List.map_append, List.map_append, List.append_assoc, List.append_assoc,
          List.append_cancel_left_eq, List.append_cancel_left_eq] at h1
        exact ⟨_, h1.symm⟩

theorem fmtHex2_eq (c : Byte) : fmtHex2 c = Spec.hex2 c := by
  have : ∀ n : Fin 256, fmtHex2 (UInt8.ofNat n) = Spec.hex2 (UInt8.ofNat n) := by decide +kernel
  have h := this ⟨c.toNat, c.toNat_lt⟩
  simpa using h

theorem hex2_inj (a b : Byte) (h : Spec.hex2 a = Spec.hex2 b) : a = b := by
  have inj : ∀ i j : Fin 16, (b!"0123456789abcdef").getD i 0 = (b!"0123456789abcdef").getD j 0 → i = j := by
    decide +kernel
  have ha := a.toNat_lt
  have hb := b.toNat_lt
  simp only [Spec.hex2, List.cons.injEq, and_true] at h
  have h1 := inj ⟨a.toNat / 16, by omega⟩ ⟨b.toNat / 16, by omega⟩ h.1
  have h2 := inj ⟨a.toNat % 16, by omega⟩ ⟨b.toNat % 16, by omega⟩ h.2
  simp only [Fin.mk.injEq] at h1 h2
  apply UInt8.toNat_inj.mp
  omega

theorem hexText_inj (d1 d2 : List Byte) (h : Spec.hexText d1 = Spec.hexText d2) : d1 = d2 := by
  induction d1 generalizing d2 with
  | nil =>
    cases d2 with
    | nil => rfl
    | cons d d2 => simp [Spec.hexText, Spec.hex2] at h
  | cons c d1 ih =>
    cases d2 with
    | nil => simp [Spec.hexText, Spec.hex2] at h
    | cons d d2 =>
      simp only [Spec.hexText, List.flatMap_cons] at h
      have hl : (Spec.hex2 c).length = (Spec.hex2 d).length := by simp [Spec.hex2]
      obtain ⟨h1, h2⟩ := List.append_inj h hl
      rw [hex2_inj c d h1, ih d2 h2]

theorem length_hex (ds : List Byte) : (ds.flatMap fmtHex2).length = 2 * ds.length := by
  induction ds with
  | nil => rfl
  | cons d ds ih => simp [ih, fmtHex2]; omega

theorem md5sum_eq (md5 : List Byte → List Byte) (h16 : ∀ x, (md5 x).length = 16) (evpMax : Nat)
    (hmax : 16 ≤ evpMax) (out : Buf) (hout : 2 * evpMax + 1 ≤ out.length)
    (before : Buf) (bytes : List Byte) (after : Buf) :
    ∃ q, md5sum md5 evpMax out (before ++ (bytes.map some ++ after)) before.length bytes.length =
      ok (((md5 bytes).flatMap fmtHex2).map some ++ some 0 :: q) ∧ 33 + q.length = out.length := by
  have hd := h16 bytes
  have hstore : Buf.store (malloc (evpMax * 2 + 1)) 0 0 = ok ((malloc (evpMax * 2 + 1)).set 0 (some 0)) :=
    store_ok (by simp)
  have hfeed := md5Feed_eq bytes.length before bytes after (Nat.le_refl _)
  obtain ⟨q, h1, h2, h3⟩ := md5Hex_eq (md5 bytes) [] ((malloc (evpMax * 2 + 1)).set 0 (some 0)) 0 rfl
    (by simp [hd]; omega) ⟨_, rfl⟩
  obtain ⟨q', rfl⟩ := h3 (by intro e; rw [e] at hd; simp at hd)
  rw [List.nil_append] at h1 h2
  have hH : ((md5 bytes).flatMap fmtHex2).length = 32 := by rw [length_hex, hd]
  generalize (md5 bytes).flatMap fmtHex2 = H at h1 h2 hH
  unfold md5sum
  rw [hstore]
  simp only [ok_bind, Int.toNat_natCast]
  rw [hfeed]
  simp only [ok_bind]
  rw [h1]
  simp only [ok_bind]
  simp only [List.length_cons, List.length_set, length_malloc] at h2
  unfold copyCells
  rw [if_pos (by simp; omega)]
  simp only [ok_bind, List.take_zero, List.nil_append, List.drop_zero, Nat.zero_add]
  by_cases hE : evpMax = 16
  · subst hE
    have e1 : List.take (16 * 2) (H.map some ++ some 0 :: q') = H.map some := List.take_left' (by simp [hH])
    rw [e1]
    obtain ⟨x, o, ho⟩ : ∃ x o, out.drop (16 * 2) = x :: o := by
      cases hx : out.drop (16 * 2) with
      | nil => simp at hx; omega
      | cons x o => exact ⟨x, o, rfl⟩
    rw [ho, store_append_cons (by simp [hH])]
    have := congrArg List.length ho
    simp at this
    exact ⟨o, rfl, by omega⟩
  · have e1 : List.take (evpMax * 2) (H.map some ++ some 0 :: q') =
        H.map some ++ some 0 :: q'.take (evpMax * 2 - 33) := by
      rw [List.take_append, List.take_of_length_le (by simp [hH]; omega)]
      simp only [List.length_map, hH]
      rw [show evpMax * 2 - 32 = (evpMax * 2 - 33) + 1 by omega]
      simp
    rw [e1, store_ok (by simp [hH]; omega)]
    generalize hA : q'.take (evpMax * 2 - 33) ++ out.drop (evpMax * 2) = A
    have hAl : A.length = out.length - 33 := by rw [← hA]; simp; omega
    refine ⟨A.take (evpMax * 2 - 33) ++ some 0 :: A.drop (evpMax * 2 - 33 + 1), ?_, ?_⟩
    · congr 1
      rw [List.append_assoc, List.cons_append, hA, List.take_append, List.drop_append,
        List.take_of_length_le (by simp [hH]; omega), List.drop_of_length_le (by simp [hH]; omega)]
      simp only [List.length_map, hH]
      rw [show evpMax * 2 - 32 = (evpMax * 2 - 33) + 1 by omega,
        show evpMax * 2 + 1 - 32 = (evpMax * 2 - 33 + 1) + 1 by omega]
      simp
    · simp [hAl]; omega

/-! ### small list facts -/

theorem takeWhile_first {a : Str} {c : Byte} (h : c ∉ a) (b : Str) :
    (a ++ c :: b).takeWhile (· != c) = a := by
  induction a with
  | nil => simp
  | cons x a ih =>
    simp only [List.mem_cons, not_or] at h
    have : x ≠ c := fun e => h.1 e.symm
    simp [this, ih h.2]

theorem dropWhile_first {a : Str} {c : Byte} (h : c ∉ a) (b : Str) :
    (a ++ c :: b).dropWhile (· != c) = c :: b := by
  induction a with
  | nil => simp
  | cons x a ih =>
    simp only [List.mem_cons, not_or] at h
    have : x ≠ c := fun e => h.1 e.symm
    simp [this, ih h.2]

theorem strip_of_ends {t : Str} (h1 : ∀ c, t.head? = some c → Spec.ws c = false)
    (h2 : ∀ c, t.getLast? = some c → Spec.ws c = false) : strip t = t := by
  unfold strip
  have e1 : t.dropWhile isSpace = t := by
    cases t with
    | nil => rfl
    | cons c t =>
      have := h1 c rfl
      rw [← isSpace_eq_ws] at this
      simp [this]
  rw [e1, List.rdropWhile_eq_self_iff]
  intro hl
  have := h2 _ (List.getLast?_eq_some_getLast hl)
  rw [← isSpace_eq_ws] at this
  simp [this]

theorem isStrip_eq {s t : Str} (h : Spec.IsStrip s t) : t = strip s := by
  obtain ⟨l, r, rfl, hl, hr, h1, h2⟩ := h
  have hl' : ∀ c ∈ l, isSpace c = true := fun c hc => by rw [isSpace_eq_ws]; exact hl c hc
  have hr' : ∀ c ∈ r, isSpace c = true := fun c hc => by rw [isSpace_eq_ws]; exact hr c hc
  have e1 : (l ++ t ++ r).dropWhile isSpace = (t ++ r).dropWhile isSpace := by
    rw [List.append_assoc, List.dropWhile_append_of_pos hl']
  unfold strip
  rw [e1]
  cases t with
  | nil =>
    simp only [List.nil_append]
    rw [List.dropWhile_eq_nil_iff.mpr hr']
    rfl
  | cons c t =>
    have hc := h1 c rfl
    rw [← isSpace_eq_ws] at hc
    have e2 : (c :: t ++ r).dropWhile isSpace = c :: t ++ r := by simp [hc]
    rw [e2]
    have e3 : (c :: t ++ r).rdropWhile isSpace = (c :: t).rdropWhile isSpace := by
      unfold List.rdropWhile
      rw [List.reverse_append, List.dropWhile_append_of_pos (by simpa using hr')]
    rw [e3, List.rdropWhile_eq_self_iff.mpr]
    intro hne
    have := h2 _ (List.getLast?_eq_some_getLast hne)
    rw [← isSpace_eq_ws] at this
    simp [this]

theorem strip_strip (s : Str) : strip (strip s) = strip s := by
  obtain ⟨l, r, _, _, _, h1, h2⟩ := isStrip_strip s
  exact strip_of_ends h1 h2

theorem length_splitBuf {t : Str} (h : t.length < 1023) : (splitBuf t).length = 1024 := by
  simp [splitBuf]; omega

end Wayuu
