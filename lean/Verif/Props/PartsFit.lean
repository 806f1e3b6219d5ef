import Verif.Spec.PartsFit
import Verif.Props.Mixed
/-
Property C72 (ws.c:165-277), continued: the bodies that are read without leaving the arrays, and what they give.
-/
namespace Wayuu
open C Spec

theorem firstAt_some {w t : List Byte} {i n k : Nat} (h : firstAt w t i n = some k) : FirstOcc t w i n k := by
  unfold firstAt at h
  obtain ⟨h1, as, bs, h2, h3⟩ := List.find?_eq_some_iff_append.mp h
  have hk : k ∈ List.range' i (n - i) := by rw [h2]; simp
  rw [List.mem_range'_1] at hk
  refine ⟨hk.1, by omega, by simpa using h1, fun j hj1 hj2 hj => ?_⟩
  have hl : as.length = k - i := by
    have := congrArg (fun l => l[as.length]?) h2
    simp only [List.getElem?_append_right (Nat.le_refl _), Nat.sub_self, List.getElem?_cons_zero] at this
    obtain ⟨hlt, hh⟩ := List.getElem?_eq_some_iff.mp this
    simp at hh
    omega
  have : j ∈ as := by
    have hm : (List.range' i (n - i))[j - i]? = some j := by
      rw [List.getElem?_eq_getElem (by simp; omega)]
      simp; omega
    rw [h2, List.getElem?_append_left (by omega)] at hm
    exact List.mem_of_getElem? hm
  have := h3 j this
  simp [hj] at this

theorem firstAt_none {w t : List Byte} {i n : Nat} (h : firstAt w t i n = none) : ∀ j, i ≤ j → j < n → ¬ w <+: t.drop j := by
  intro j h1 h2
  unfold firstAt at h
  rw [List.find?_eq_none] at h
  simpa using h j (by rw [List.mem_range'_1]; omega)

theorem firstOcc_unique {w t : List Byte} {i n k k' : Nat} (h : FirstOcc t w i n k) (h' : FirstOcc t w i n k') : k = k' := by
  obtain ⟨a1, a2, a3, a4⟩ := h
  obtain ⟨b1, b2, b3, b4⟩ := h'
  rcases Nat.lt_trichotomy k k' with h | h | h
  · exact absurd a3 (b4 k a1 h)
  · exact h
  · exact absurd b3 (a4 k' b1 h)

theorem firstAt_iff {w t : List Byte} {i n k : Nat} : firstAt w t i n = some k ↔ FirstOcc t w i n k := by
  refine ⟨firstAt_some, fun h => ?_⟩
  cases hf : firstAt w t i n with
  | none => exact absurd h.2.2.1 (firstAt_none hf k h.1 h.2.1)
  | some k' => rw [firstOcc_unique (firstAt_some hf) h]

/-- A search, whatever it gives. -/
theorem find_at {t : List Byte} {r : Buf} {needle : Str} (hn : NulFree needle) {start bytes : Nat} (hb : bytes ≤ t.length) :
    text_find_after (t.map some ++ some 0 :: r) needle start bytes =
      ok (match firstAt needle t start bytes with | none => -1 | some k => ((k + needle.length : Nat) : Int)) := by
  cases h : firstAt needle t start bytes with
  | none => exact find_none hn hb (firstAt_none h)
  | some k => rw [find_first hn hb (firstAt_some h)]; simp

theorem uptoNul_eq (s : List Byte) : uptoNul s = untilNul s := by
  unfold uptoNul untilNul
  congr 1
  funext c
  by_cases h : c = 0 <;> simp [h]

theorem cutName_eq (s : List Byte) : cutName s = s.takeWhile keeps := rfl

theorem joined_eq (s : List Byte) : joined s = amp s := rfl

theorem store_map {l : List Byte} {k : Nat} {c : Byte} (h : k < l.length) :
    Buf.store (l.map some) k c = ok ((l.set k c).map some) := by
  rw [store_ok (by simpa using h), List.map_set, List.set_eq_take_append_cons_drop, if_pos (by simpa using h)]

theorem isSpace_fun : isSpace = Spec.ws := funext isSpace_eq_ws

/-- `trim` on a block of bytes that ends with a NUL, byte for byte. -/
theorem trim_array (d : List Byte) : trim (d.map some ++ [some 0]) = ok ((trimmedArray d).map some ++ [some 0]) ∧
    (trimmedArray d).length = d.length := by
  obtain ⟨rr, hrr⟩ := untilNul_split d
  have hnf := nulFree_untilNul d
  unfold trimmedArray
  simp only [uptoNul_eq]
  generalize untilNul d = s at *
  have hD : d.map some ++ [some 0] = (s ++ 0 :: rr).map some := by
    rw [← hrr]; simp
  have hdl : d.length = s.length + rr.length := by
    have := congrArg List.length hrr
    simp at this; omega
  have hDL : ∀ x : Byte, (d ++ [0]).getLast? = some 0 := by simp
  have hs := trimLeftScan_eq s (some 0 :: rr.map some) 0 (Nat.zero_le _)
  simp only [Nat.sub_zero, List.drop_zero, Nat.zero_add] at hs
  rw [hD, hrr, ← isSpace_fun]
  have hmap : (s ++ 0 :: rr).map some = s.map some ++ some 0 :: rr.map some := by simp
  unfold trim
  rw [hmap, cstr_mk hnf]
  simp only [ok_bind, hs]
  generalize hi : (s.takeWhile isSpace).length = i
  generalize hu : s.dropWhile isSpace = u
  have hsu : s = s.takeWhile isSpace ++ u := by rw [← hu, List.takeWhile_append_dropWhile]
  have hlen : s.length = i + u.length := (congrArg List.length hsu).trans (by simp [hi])
  have hdrop : s.drop i = u := by
    have := congrArg (List.drop i) hsu
    rwa [List.drop_left' hi] at this
  have hnu : NulFree u := by rw [← hdrop]; exact hnf.drop i
  -- the state after the optional memmove
  have step : ∃ q : List Byte, trimShift (s.map some ++ some 0 :: rr.map some) i = ok ((u ++ 0 :: q).map some) ∧
      (if u.length = s.length then s ++ 0 :: rr else u ++ 0 :: (s ++ 0 :: rr).drop (u.length + 1)) = u ++ 0 :: q ∧
      u.length + 1 + q.length = d.length + 1 ∧ (0 :: q).getLast? = some 0 := by
    have hlast : (0 :: rr).getLast? = some (0 : Byte) := by
      have := congrArg List.getLast? hrr
      rw [List.getLast?_append, List.getLast?_append] at this
      simp only [List.getLast?_singleton, Option.some_or] at this
      rw [List.getLast?_cons] at this ⊢
      simpa using this.symm
    unfold trimShift
    by_cases h0 : i = 0
    · subst h0
      simp at hdrop
      subst hdrop
      exact ⟨rr, by simp, by simp, by omega, hlast⟩
    · simp only [ne_eq, h0, not_false_eq_true, if_true]
      rw [strAt_str (by omega) hnf, if_neg (by omega)]
      simp only [ok_bind, hdrop]
      have hc : copyCells (s.map some ++ some 0 :: rr.map some) 0 (s.map some ++ some 0 :: rr.map some) i u.length
          = ok ((u ++ s.drop u.length).map some ++ some 0 :: rr.map some) := by
        unfold copyCells
        rw [if_pos (by simp; omega)]
        have e1 : (List.drop i (s.map some ++ some 0 :: rr.map some)).take u.length = u.map some := by
          rw [List.drop_append_of_le_length (by simp; omega), ← List.map_drop, hdrop, List.take_left' (by simp)]
        have e2 : List.drop (0 + u.length) (s.map some ++ some 0 :: rr.map some)
            = (s.drop u.length).map some ++ some 0 :: rr.map some := by
          rw [Nat.zero_add, List.drop_append_of_le_length (by simp; omega), ← List.map_drop]
        rw [e1, e2]
        simp
      rw [hc]
      simp only [ok_bind]
      rw [strAt_str (by simp; omega) (by simp [hnu, hnf.drop])]
      simp only [ok_bind, List.length_drop, List.length_append]
      rw [show u.length + (s.length - u.length) - i = u.length by omega]
      cases hd : s.drop u.length with
      | nil =>
        have := congrArg List.length hd
        simp at this; omega
      | cons x xs =>
        have hxs : s.drop (u.length + 1) = xs := by rw [← List.drop_drop, hd]; rfl
        refine ⟨xs ++ 0 :: rr, ?_, ?_, ?_, ?_⟩
        · have : List.map some (u ++ x :: xs) ++ some 0 :: rr.map some
              = u.map some ++ some x :: (xs.map some ++ some 0 :: rr.map some) := by simp
          rw [this, store_append_cons (by simp)]
          simp
        · rw [List.drop_append_of_le_length (by omega), hxs]
        · have := congrArg List.length hxs
          simp at this; simp; omega
        · rw [← List.cons_append, List.getLast?_append, hlast]; rfl
  obtain ⟨q, hq, e1, e2, e3⟩ := step
  rw [hq, e1]
  have hmap2 : (u ++ 0 :: q).map some = u.map some ++ some 0 :: q.map some := by simp
  simp only [ok_bind]
  rw [hmap2, cstr_mk hnu]
  simp only [ok_bind]
  rw [trimRightScan_eq]
  simp only [ok_bind]
  obtain ⟨t, ht⟩ := List.rdropWhile_prefix isSpace u
  generalize u.rdropWhile isSpace = v at ht
  have hvl : v.length ≤ u.length := by rw [← ht]; simp
  have hset : (u ++ 0 :: q).set v.length 0 = v ++ 0 :: (u ++ 0 :: q).drop (v.length + 1) := by
    rw [List.set_eq_take_append_cons_drop, if_pos (by simp; omega), List.take_append_of_le_length hvl, ← ht, List.take_left' rfl]
  rw [← hmap2, store_map (by simp; omega), hset]
  have hne : (v ++ 0 :: (u ++ 0 :: q).drop (v.length + 1)).getLast? = some 0 := by
    rw [← hset]
    by_cases hvq : v.length = u.length ∧ q = []
    · obtain ⟨h1, h2⟩ := hvq
      subst h2
      rw [List.set_append_right _ _ (by omega)]
      simp [h1]
    · rw [List.getLast?_eq_getElem?, List.length_set, List.getElem?_set_ne (by
        intro h
        apply hvq
        simp at h
        refine ⟨by omega, List.length_eq_zero_iff.mp (by omega)⟩)]
      rw [← List.getLast?_eq_getElem?, List.getLast?_append, e3]; rfl
  obtain ⟨w, hw⟩ := List.getLast?_eq_some_iff.mp hne
  rw [hw]
  have hl := congrArg List.length hw
  have hl2 := congrArg List.length hset
  simp only [List.length_set] at hl2
  rw [← hl2] at hl
  simp at hl
  exact ⟨by simp, by simp; omega⟩

/-- Receiving a file is never defined (see `C12_overflow`). -/
theorem md5sum_never {md5 : List Byte → List Byte} {evpMax : Nat} (hmax : 18 ≤ evpMax) (data : Buf) (off : Nat) (len : Int) (x : Buf) :
    md5sum md5 evpMax (malloc 36) data off len ≠ ok x := by
  intro h
  unfold md5sum at h
  obtain ⟨m, -, h⟩ := bind_eq_ok.mp h
  obtain ⟨b, -, h⟩ := bind_eq_ok.mp h
  obtain ⟨m2, -, h⟩ := bind_eq_ok.mp h
  obtain ⟨o, h1, h⟩ := bind_eq_ok.mp h
  unfold copyCells at h1
  split at h1
  · rename_i hc
    simp at h1 hc
    have hl := congrArg List.length h1
    simp at hl
    unfold Buf.store at h
    split at h
    · rename_i hlt; omega
    · cases h
  · cases h1

theorem save_tmp_file_never {env : Env} (hmax : 18 ≤ env.evpMax) (fs : FS) (T : Buf) (field : Str) (sf : Nat) (D : Buf) (ds : Nat) (len : Int)
    (x : Buf × FS) : save_tmp_file env fs T field sf D ds len ≠ ok x := by
  intro h
  unfold save_tmp_file at h
  obtain ⟨_, -, h⟩ := bind_eq_ok.mp h
  obtain ⟨_, -, h⟩ := bind_eq_ok.mp h
  obtain ⟨_, -, h⟩ := bind_eq_ok.mp h
  obtain ⟨_, -, h⟩ := bind_eq_ok.mp h
  obtain ⟨_, h1, h⟩ := bind_eq_ok.mp h
  exact md5sum_never hmax _ _ _ _ h1

theorem appendStr_exact {f s : Str} {r : Buf} (hf : NulFree f) :
    if r.length < s.length then ∀ x, appendStr (f.map some ++ some 0 :: r) s ≠ ok x
    else appendStr (f.map some ++ some 0 :: r) s = ok ((f ++ s).map some ++ some 0 :: r.drop s.length) := by
  split
  · rename_i hlt
    intro x h
    unfold appendStr strcat at h
    rw [cstr_mk hf] at h
    simp only [ok_bind] at h
    unfold strcpyAt writeAt at h
    split at h
    · rename_i hc
      simp at hc; omega
    · cases h
  · exact strcat_mk hf (by omega)

/-- One part, whatever its bytes. -/
theorem part_parse_exact {env : Env} (hmax : 18 ≤ env.evpMax) (fs : FS) {part e : List Byte} {f : Str} {r : Buf} (hf : NulFree f)
    (hr : f.length + r.length = part.length + e.length) (o : Option (List Byte))
    (ho : takePart (part.length + e.length) f part (part ++ e) = o) :
    match (generalizing := false) o with
    | none => ∀ x, part_parse env fs (f.map some ++ some 0 :: r) ((part ++ e).map some ++ [some 0]) part.length ≠ ok x
    | some f' => NulFree f' ∧ ∃ r' : Buf, f'.length + r'.length = part.length + e.length ∧
        part_parse env fs (f.map some ++ some 0 :: r) ((part ++ e).map some ++ [some 0]) part.length =
          ok (f'.map some ++ some 0 :: r', fs) := by
  obtain ⟨rr, hrr⟩ := untilNul_split (part ++ e)
  have hD : (part ++ e).map some ++ [some 0] = (untilNul (part ++ e)).map some ++ some 0 :: rr.map some := by
    have := congrArg (List.map some) hrr
    simpa using this
  have htn : NulFree (untilNul (part ++ e)) := nulFree_untilNul _
  have hcs : cstr ((part ++ e).map some ++ [some 0]) = ok (untilNul (part ++ e)) := by
    rw [hD]; exact cstr_mk htn _
  have hf1 := find_at (t := untilNul (part ++ e)) (r := rr.map some) (needle := nameMark) (start := 0) (by decide) (Nat.le_refl _)
  have hf2 := find_at (t := part ++ e) (r := []) (needle := blankLine) (start := 0) (bytes := part.length) (by decide) (by simp)
  have hf3 := find_at (t := untilNul (part ++ e)) (r := rr.map some) (needle := fileMark) (start := 0) (by decide) (Nat.le_refl _)
  rw [← hD] at hf1 hf3
  have hul : (untilNul (part ++ e)).length ≤ (part ++ e).length := (List.takeWhile_prefix _).length_le
  unfold takePart at ho
  simp only [uptoNul_eq] at ho
  unfold part_parse
  rw [hcs]
  simp only [ok_bind]
  rw [hf1]
  simp only [ok_bind]
  cases h1 : firstAt nameMark (untilNul (part ++ e)) 0 (untilNul (part ++ e)).length with
  | none =>
    rw [h1] at ho
    subst ho
    exact ⟨hf, r, hr, rfl⟩
  | some k =>
    rw [h1] at ho
    have hk := firstAt_some h1
    have hkl : k + 17 ≤ (untilNul (part ++ e)).length := by
      have h1 := hk.2.2.1.length_le
      have h2 := hk.2.1
      rw [List.length_drop, show nameMark.length = 17 from rfl] at h1
      omega
    simp only at ho ⊢
    rw [show nameMark.length = 17 from rfl, if_neg (by omega)]
    have htail : strAt ((part ++ e).map some ++ [some 0]) ((k + 17 : Nat) : Int).toNat = ok ((untilNul (part ++ e)).drop (k + 17)) := by
      rw [Int.toNat_natCast, hD]
      exact strAt_str hkl htn _
    rw [htail]
    simp only [ok_bind, List.length_drop]
    by_cases h2 : (untilNul (part ++ e)).length ≤ k + 17
    · rw [if_pos h2] at ho
      rw [if_pos (by omega)]
      subst ho
      exact ⟨hf, r, hr, rfl⟩
    rw [if_neg h2] at ho
    rw [if_neg (by omega), if_neg (by omega)]
    by_cases h3 : part.length < k + 17
    · rw [if_pos h3] at ho
      subst ho
      intro x h
      unfold memcpyI at h
      rw [if_pos (by omega)] at h
      cases h
    rw [if_neg h3] at ho
    -- the name
    have hfield : memcpyI (calloc (part.length + 1)) ((part ++ e).map some ++ [some 0]) (k + 17)
        ((part.length - (k + 17) : Nat) : Int) =
        ok ((part.drop (k + 17)).map some ++ some 0 :: calloc (k + 17)) := by
      rw [memcpyI_ok (by simp; omega) (by simp; omega)]
      congr 2
      · rw [List.map_append, List.append_assoc, List.drop_append_of_le_length (by simp; omega),
          List.take_left' (by simp), List.map_drop]
      · unfold calloc
        rw [List.drop_replicate, show part.length + 1 - (part.length - (k + 17)) = k + 17 + 1 by omega]
        rfl
    obtain ⟨rr2, hrr2⟩ := untilNul_split (part.drop (k + 17))
    obtain ⟨q, hchop, -⟩ := chop_eq _ (nulFree_untilNul (part.drop (k + 17))) (rr2.map some ++ calloc (k + 17))
    have hfb : (part.drop (k + 17)).map some ++ some 0 :: calloc (k + 17) =
        (untilNul (part.drop (k + 17))).map some ++ some 0 :: (rr2.map some ++ calloc (k + 17)) := by
      have := congrArg (fun l => List.map some l ++ calloc (k + 17)) hrr2
      simpa using this
    rw [cutName_eq, joined_eq] at ho
    generalize hname : (untilNul (part.drop (k + 17))).takeWhile keeps = name at *
    have hnn : NulFree name := by
      rw [← hname]
      exact (nulFree_untilNul _).sublist (List.takeWhile_sublist _)
    rw [show ((part.length : Int) + 1).toNat = part.length + 1 by omega,
      show (part.length : Int) - ((k + 17 : Nat) : Int) = ((part.length - (k + 17) : Nat) : Int) by omega, Int.toNat_natCast]
    rw [hfield]
    simp only [ok_bind]
    have hst : Buf.storeI ((part.drop (k + 17)).map some ++ some 0 :: calloc (k + 17))
        ((part.length - (k + 17) : Nat) : Int) 0 =
        ok ((part.drop (k + 17)).map some ++ some 0 :: calloc (k + 17)) := by
      unfold Buf.storeI
      rw [if_neg (by omega), Int.toNat_natCast, store_append_cons (by simp)]
    rw [hst]
    simp only [ok_bind]
    rw [hfb, hchop]
    simp only [ok_bind]
    rw [Int.toNat_natCast, hf2]
    simp only [ok_bind]
    rw [cstr_mk hf]
    simp only [ok_bind]
    -- the '&'
    have hamp : if part.length + e.length < (amp f).length then
          ∀ x, (if 0 < f.length then appendStr (f.map some ++ some 0 :: r) b!"&" else ok (f.map some ++ some 0 :: r)) ≠ ok x
        else ∃ r1 : Buf, (if 0 < f.length then appendStr (f.map some ++ some 0 :: r) b!"&" else ok (f.map some ++ some 0 :: r)) =
          ok ((amp f).map some ++ some 0 :: r1) ∧ (amp f).length + r1.length = part.length + e.length ∧ NulFree (amp f) := by
      by_cases h0 : f = []
      · subst h0
        rw [if_neg (by simp [amp])]
        exact ⟨r, by simp [amp], by simpa [amp] using hr, by simp [amp]⟩
      · have hpos : 0 < f.length := List.length_pos_iff.mpr h0
        have ha : amp f = f ++ b!"&" := by simp [amp, h0]
        rw [ha]
        have := appendStr_exact (s := b!"&") (r := r) hf
        simp only [if_pos hpos]
        split
        · rename_i hlt
          rw [List.length_append] at hlt
          rw [if_pos (by omega)] at this
          exact this
        · rename_i hlt
          rw [List.length_append] at hlt
          rw [if_neg (by omega)] at this
          refine ⟨_, this, ?_, by simp [hf]⟩
          rw [List.length_append, List.length_drop]
          omega
    have push : ∀ g : Buf → C (Buf × FS), (if 0 < f.length then (do let b ← appendStr (f.map some ++ some 0 :: r) b!"&"; g b) else
        g (f.map some ++ some 0 :: r)) =
          (if 0 < f.length then appendStr (f.map some ++ some 0 :: r) b!"&" else ok (f.map some ++ some 0 :: r)) >>= g := by
      intro g
      split <;> rfl
    rw [push]
    by_cases h4 : part.length + e.length < (amp f).length
    · rw [if_pos h4] at hamp ho
      subst ho
      intro x h
      obtain ⟨_, h, -⟩ := bind_eq_ok.mp h
      exact hamp _ h
    rw [if_neg h4] at hamp ho
    obtain ⟨r1, a1, a2, a3⟩ := hamp
    rw [a1]
    simp only [ok_bind]
    rw [hf3]
    simp only [ok_bind]
    cases h5 : firstAt blankLine (part ++ e) 0 part.length with
    | none =>
      rw [h5] at ho
      subst ho
      exact ⟨a3, r1, a2, rfl⟩
    | some j =>
      rw [h5] at ho
      simp only at ho ⊢
      rw [show blankLine.length = 4 from rfl, if_pos (by omega)]
      cases h6 : firstAt fileMark (untilNul (part ++ e)) 0 (untilNul (part ++ e)).length with
      | some l =>
        rw [h6] at ho
        simp only [Option.isSome_some, if_true] at ho
        subst ho
        simp only
        rw [show fileMark.length = 12 from rfl, if_pos (by omega)]
        intro x h
        obtain ⟨_, -, h⟩ := bind_eq_ok.mp h
        exact save_tmp_file_never hmax _ _ _ _ _ _ _ _ h
      | none =>
        rw [h6] at ho
        simp only [Option.isSome_none, Bool.false_eq_true, if_false] at ho ⊢
        rw [if_neg (by omega)]
        by_cases h7 : part.length < j + 6
        · rw [if_pos h7] at ho
          subst ho
          intro x h
          unfold memcpyI at h
          rw [if_pos (by omega)] at h
          cases h
        rw [if_neg h7] at ho
        have hval : ((part ++ e).take (part.length - 2)).drop (j + 4) = ((part ++ e).drop (j + 4)).take (part.length - (j + 4) - 2) := by
          rw [List.drop_take]
          congr 1
          omega
        rw [hval] at ho
        generalize hv : ((part ++ e).drop (j + 4)).take (part.length - (j + 4) - 2) = value at *
        have hvl : value.length = part.length - (j + 4) - 2 := by rw [← hv]; simp; omega
        have hmem : memcpyI (calloc (part.length + 1)) ((part ++ e).map some ++ [some 0]) ((j + 4 : Nat) : Int).toNat
            ((part.length : Int) - ((j + 4 : Nat) : Int) - 2) = ok (value.map some ++ some 0 :: calloc (j + 6)) := by
          rw [show (part.length : Int) - ((j + 4 : Nat) : Int) - 2 = ((part.length - (j + 4) - 2 : Nat) : Int) by omega, Int.toNat_natCast,
            memcpyI_ok (by simp; omega) (by simp; omega)]
          congr 2
          · rw [List.drop_append_of_le_length (by simp; omega), List.take_append_of_le_length (by simp; omega), ← List.map_drop,
              ← List.map_take, hv]
          · unfold calloc
            rw [List.drop_replicate, show part.length + 1 - (part.length - (j + 4) - 2) = j + 6 + 1 by omega]
            rfl
        rw [hmem]
        simp only [ok_bind]
        rw [cstr_mk hnn]
        simp only [ok_bind]
        obtain ⟨rr3, hrr3⟩ := untilNul_split value
        have hvb : value.map some ++ some 0 :: calloc (j + 6) =
            (untilNul value).map some ++ some 0 :: (rr3.map some ++ calloc (j + 6)) := by
          have := congrArg (fun l => List.map some l ++ calloc (j + 6)) hrr3
          simpa using this
        rw [hvb, cstr_mk (nulFree_untilNul _)]
        simp only [ok_bind]
        have key := appendStr_exact (s := name ++ b!"=" ++ untilNul value) (r := r1) a3
        by_cases h8 : part.length + e.length < (amp f ++ name ++ b!"=" ++ untilNul value).length
        · rw [if_pos h8] at ho
          subst ho
          rw [if_pos (by simp at h8 ⊢; omega)] at key
          intro x h
          obtain ⟨_, h, -⟩ := bind_eq_ok.mp h
          exact key _ h
        · rw [if_neg h8] at ho
          subst ho
          rw [if_neg (by simp at h8 ⊢; omega)] at key
          rw [key]
          simp only [ok_bind]
          refine ⟨?_, r1.drop (name ++ b!"=" ++ untilNul value).length, ?_, ?_⟩
          · simp only [nulFree_append]; exact ⟨⟨⟨a3, hnn⟩, by decide⟩, nulFree_untilNul _⟩
          · simp at h8 ⊢; omega
          · simp only [List.append_assoc]

/-! ### the parts of a body -/

theorem nextPart_unique {delim body : List Byte} {ptr s s' : Nat} {p p' : List Byte} (h : NextPart delim body ptr s p)
    (h' : NextPart delim body ptr s' p') : s = s' ∧ p = p' := by
  obtain ⟨i, j, h1, rfl, h2, rfl⟩ := h
  obtain ⟨i', j', h1', rfl, h2', rfl⟩ := h'
  cases firstOcc_unique h1 h1'
  cases firstOcc_unique h2 h2'
  exact ⟨rfl, rfl⟩

/-- Either there is a next part, or one of the two searches for a delimiter fails. -/
theorem nextPart_cases (delim body : List Byte) (ptr : Nat) :
    (∃ i j, firstAt delim body ptr body.length = some i ∧ firstAt delim body (i + delim.length) body.length = some j ∧
      NextPart delim body ptr (i + delim.length) ((body.take j).drop (i + delim.length))) ∨
    ((firstAt delim body ptr body.length = none ∨ ∃ i, firstAt delim body ptr body.length = some i ∧
      firstAt delim body (i + delim.length) body.length = none) ∧ ∀ s p, ¬ NextPart delim body ptr s p) := by
  cases h1 : firstAt delim body ptr body.length with
  | none =>
    right
    refine ⟨Or.inl rfl, ?_⟩
    rintro s p ⟨i, j, hi, -⟩
    rw [firstAt_iff.mpr hi] at h1
    cases h1
  | some i =>
    cases h2 : firstAt delim body (i + delim.length) body.length with
    | none =>
      right
      refine ⟨Or.inr ⟨i, rfl, h2⟩, ?_⟩
      rintro s p ⟨i', j, hi, rfl, hj, -⟩
      cases firstOcc_unique (firstAt_some h1) hi
      rw [firstAt_iff.mpr hj] at h2
      cases h2
    | some j =>
      left
      exact ⟨i, j, rfl, h2, i, j, firstAt_some h1, rfl, firstAt_some h2, rfl⟩

theorem nextPart_bounds {delim body : List Byte} {ptr s : Nat} {p : List Byte} (h : NextPart delim body ptr s p) :
    ptr < body.length ∧ ptr ≤ s ∧ p.length ≤ body.length := by
  obtain ⟨i, j, ⟨h1, h2, -⟩, rfl, ⟨h3, h4, -⟩, rfl⟩ := h
  refine ⟨by omega, by omega, ?_⟩
  rw [List.length_drop, List.length_take]
  omega

/-- Every body has an outcome, ... -/
theorem gathers_exists (delim body : List Byte) (n : Nat) : ∀ ptr array form, body.length - ptr ≤ n → ∃ r, Gathers delim body ptr array form r := by
  induction n with
  | zero =>
    intro ptr array form h
    refine ⟨_, .last fun s p hp => ?_⟩
    have := nextPart_bounds hp
    omega
  | succ n ih =>
    intro ptr array form h
    rcases nextPart_cases delim body ptr with ⟨i, j, -, -, hp⟩ | ⟨-, hp⟩
    · cases ht : takePart body.length form ((body.take j).drop (i + delim.length))
          ((body.take j).drop (i + delim.length) ++ array.drop ((body.take j).drop (i + delim.length)).length) with
      | none => exact ⟨_, .fault hp ht⟩
      | some f' =>
        have := nextPart_bounds hp
        obtain ⟨r, hr⟩ := ih (i + delim.length + 1) (trimmedArray
          ((body.take j).drop (i + delim.length) ++ array.drop ((body.take j).drop (i + delim.length)).length)) f' (by omega)
        exact ⟨r, .part hp ht hr⟩
    · exact ⟨_, .last hp⟩

/-- ... and only one. -/
theorem gathers_unique {delim body : List Byte} {ptr : Nat} {array form : List Byte} {r r' : Option (List Byte)}
    (h : Gathers delim body ptr array form r) (h' : Gathers delim body ptr array form r') : r = r' := by
  induction h with
  | last hno =>
    cases h' with
    | last => rfl
    | fault hp => exact absurd hp (hno _ _)
    | part hp => exact absurd hp (hno _ _)
  | fault hp ht =>
    cases h' with
    | last hno => exact absurd hp (hno _ _)
    | fault => rfl
    | part hp' ht' =>
      obtain ⟨rfl, rfl⟩ := nextPart_unique hp hp'
      rw [ht] at ht'
      cases ht'
  | part hp ht _ ih =>
    cases h' with
    | last hno => exact absurd hp (hno _ _)
    | fault hp' ht' =>
      obtain ⟨rfl, rfl⟩ := nextPart_unique hp hp'
      rw [ht] at ht'
      cases ht'
    | part hp' ht' hr' =>
      obtain ⟨rfl, rfl⟩ := nextPart_unique hp hp'
      rw [ht] at ht'
      cases ht'
      exact ih hr'

/-- The loop over the parts, whatever they are. -/
theorem partsLoop_exact {env : Env} (hmax : 18 ≤ env.evpMax) (fs : FS) {delim body : List Byte} (hd : NulFree delim) {ptr : Nat}
    {array form : List Byte} {o : Option (List Byte)} (h : Gathers delim body ptr array form o) :
    ∀ (fuel : Nat) (r : Buf), array.length = body.length → NulFree form → form.length + r.length = body.length →
      body.length - ptr < fuel →
      match (generalizing := false) o with
      | none => ∀ x, partsLoop env (body.map some ++ [some 0]) delim body.length fuel ptr (array.map some ++ [some 0])
          (form.map some ++ some 0 :: r) fs ≠ ok x
      | some f' => NulFree f' ∧ ∃ r' : Buf, f'.length + r'.length = body.length ∧
          partsLoop env (body.map some ++ [some 0]) delim body.length fuel ptr (array.map some ++ [some 0])
            (form.map some ++ some 0 :: r) fs = ok (f'.map some ++ some 0 :: r', fs) := by
  have hfind : ∀ i, text_find_after (body.map some ++ [some 0]) delim i body.length = _ := fun i =>
    find_at (t := body) (r := []) (start := i) hd (Nat.le_refl _)
  -- one round
  have round : ∀ {ptr start : Nat} {part array : List Byte} {form : Str} {r : Buf} (fuel : Nat), NextPart delim body ptr start part →
      array.length = body.length →
      partsLoop env (body.map some ++ [some 0]) delim body.length (fuel + 1) ptr (array.map some ++ [some 0]) (form.map some ++ some 0 :: r) fs =
      (do
        let x ← part_parse env fs (form.map some ++ some 0 :: r) ((part ++ array.drop part.length).map some ++ [some 0]) part.length
        partsLoop env (body.map some ++ [some 0]) delim body.length fuel (start + 1)
          ((trimmedArray (part ++ array.drop part.length)).map some ++ [some 0]) x.1 x.2) := by
    intro ptr start part array form r fuel hp ha
    have hb := nextPart_bounds hp
    obtain ⟨i, j, h1, rfl, h2, rfl⟩ := hp
    have hpl : ((body.take j).drop (i + delim.length)).length = j - (i + delim.length) := by
      have := h2.2.1
      rw [List.length_drop, List.length_take]; omega
    conv_lhs => unfold partsLoop
    rw [if_neg (by omega), hfind, firstAt_iff.mpr h1]
    simp only [ok_bind]
    rw [if_neg (by omega), Int.toNat_natCast, hfind, firstAt_iff.mpr h2]
    simp only [ok_bind]
    rw [if_neg (by omega)]
    have h21 := h2.1
    have h22 := h2.2.1
    rw [show ((j + delim.length : Nat) : Int) - ((i + delim.length : Nat) : Int) - delim.length = ((j - (i + delim.length) : Nat) : Int) by omega]
    have hmem : memcpyI (array.map some ++ [some 0]) (body.map some ++ [some 0]) (i + delim.length) ((j - (i + delim.length) : Nat) : Int) =
        ok (((body.take j).drop (i + delim.length) ++ array.drop ((body.take j).drop (i + delim.length)).length).map some ++ [some 0]) := by
      rw [memcpyI_ok (by simp; omega) (by simp; omega), hpl]
      rw [List.drop_append_of_le_length (by simp; omega), List.take_append_of_le_length (by simp; omega), ← List.map_drop, ← List.map_take,
        List.drop_append_of_le_length (by simp; omega), ← List.map_drop, List.map_append, List.append_assoc, List.drop_take]
    rw [hmem]
    simp only [ok_bind]
    rw [(trim_array _).1]
    rw [hpl]
    rfl
  induction h with
  | last hno =>
    rename_i ptr array form
    intro fuel r ha hf hr hfu
    refine ⟨hf, r, hr, ?_⟩
    cases fuel with
    | zero => omega
    | succ fuel =>
      rcases nextPart_cases delim body ptr with ⟨i, j, -, -, hp⟩ | ⟨hp, -⟩
      · exact absurd hp (hno _ _)
      · unfold partsLoop
        by_cases hle : body.length ≤ ptr
        · rw [if_pos hle]
        · rw [if_neg hle, hfind]
          rcases hp with hp | ⟨i, hp, hp2⟩
          · rw [hp]
            rfl
          · rw [hp]
            simp only [ok_bind]
            rw [if_neg (by omega), Int.toNat_natCast, hfind, hp2]
            rfl
  | fault hp ht =>
    rename_i ptr array form start part
    intro fuel r ha hf hr hfu
    have hb := nextPart_bounds hp
    cases fuel with
    | zero => omega
    | succ fuel =>
      intro x
      rw [round fuel hp ha]
      have hl : body.length = part.length + (array.drop part.length).length := by rw [List.length_drop]; omega
      have := part_parse_exact hmax fs (e := array.drop part.length) hf (hr.trans hl) none (by rw [← hl]; exact ht)
      intro h
      obtain ⟨y, h, -⟩ := bind_eq_ok.mp h
      exact this y h
  | part hp ht _ ih =>
    rename_i ptr array form start part form' o _
    intro fuel r ha hf hr hfu
    have hb := nextPart_bounds hp
    cases fuel with
    | zero => omega
    | succ fuel =>
      rw [round fuel hp ha]
      have hl : body.length = part.length + (array.drop part.length).length := by rw [List.length_drop]; omega
      have := part_parse_exact hmax fs (e := array.drop part.length) hf (hr.trans hl) (some form') (by rw [← hl]; exact ht)
      obtain ⟨h1, r', h2, h3⟩ := this
      rw [← hl] at h2
      rw [h3]
      simp only [ok_bind]
      exact ih fuel r' (by rw [(trim_array _).2, List.length_append]; omega) h1 h2 (by omega)

/-- C72, the exact condition: what becomes of a body of type multipart/form-data, whatever its bytes and its delimiter: either the
form is what `FormOf` says, and no file is touched, or an array is left. -/
theorem C72_exact (env : Env) (fs : FS) (delim body : List Byte) (hmax : 18 ≤ env.evpMax) (hd : NulFree delim) :
    ∃ r, FormOf delim body r ∧
      match (generalizing := false) r with
      | none => ∀ x, multipart_parse env fs (body.map some ++ [some 0]) delim body.length ≠ ok x
      | some f => NulFree f ∧ f.length ≤ body.length ∧
          multipart_parse env fs (body.map some ++ [some 0]) delim body.length =
            ok (f.map some ++ some 0 :: (body.drop (f.length + 1)).map some ++ (if f.length < body.length then [some 0] else []), fs) := by
  obtain ⟨r, hr⟩ := gathers_exists delim body body.length 0 (List.replicate body.length 0) [] (by omega)
  refine ⟨r, hr, ?_⟩
  have key := partsLoop_exact hmax fs hd hr (body.length + 1) (List.replicate body.length (some 0)) (by simp) (by simp) (by simp) (by omega)
  rw [multipart_loop]
  cases r with
  | none =>
    intro x h
    obtain ⟨y, h, -⟩ := bind_eq_ok.mp h
    exact key y h
  | some f =>
    obtain ⟨h1, r', h2, h3⟩ := key
    refine ⟨h1, by omega, ?_⟩
    have h3' := h3
    simp only [List.length_nil] at h3 ⊢
    rw [h3]
    simp only [ok_bind]
    rw [cstr_mk h1]
    simp only [ok_bind]
    rw [strcpyAt_ok (by simp; omega)]
    simp only [ok_bind, List.take_zero, List.nil_append]
    congr 2
    by_cases hlt : f.length < body.length
    · rw [if_pos hlt, List.drop_append_of_le_length (by simp; omega)]
      simp
    · rw [if_neg hlt, List.drop_eq_nil_of_le (by simp; omega), List.drop_eq_nil_of_le (by omega)]
      simp

/-- C72 as a condition: a body is read without leaving an array exactly if it gives a form. -/
theorem C72_iff (env : Env) (fs : FS) (delim body : List Byte) (hmax : 18 ≤ env.evpMax) (hd : NulFree delim) :
    (∃ x, multipart_parse env fs (body.map some ++ [some 0]) delim body.length = ok x) ↔ ∃ f, FormOf delim body (some f) := by
  obtain ⟨r, hr, h⟩ := C72_exact env fs delim body hmax hd
  cases r with
  | none =>
    constructor
    · rintro ⟨x, hx⟩
      exact absurd hx (h x)
    · rintro ⟨f, hf⟩
      cases gathers_unique hr hf
  | some f => exact ⟨fun _ => ⟨f, hr⟩, fun _ => ⟨_, h.2.2⟩⟩

/-- Two fields, and a part that names none between them. -/
example : FormOf b!"--xY" mixedBody (some b!"n=7&m=8") := by
  obtain ⟨form, h1, h2, -⟩ := C72_partial sampleEnv ⟨fun _ => none, fun _ => true, fun _ => true⟩ b!"--xY" mixedBody mixedPieces
    [(b!"n", b!"7"), (b!"m", b!"8")] xY_delimiter mixed_multipart
    (by unfold mixedPieces; decide +kernel)
    (.cons ⟨⟨[], rfl, by decide, by decide⟩, by decide, Or.inl rfl⟩ (.cons ⟨⟨[], rfl, by decide, by decide⟩, by decide, Or.inl rfl⟩ .nil))
  obtain ⟨r, hr, h⟩ := C72_exact sampleEnv ⟨fun _ => none, fun _ => true, fun _ => true⟩ b!"--xY" mixedBody (by decide) (by decide)
  cases r with
  | none => exact absurd h1 (h _)
  | some f =>
    have e := h.2.2.symm.trans h1
    injection e with e
    injection e with e
    rw [← e, List.append_assoc, List.cons_append, cstr_mk h.1] at h2
    injection h2 with h2
    rw [h2] at hr
    exact hr

/-- A name behind the empty line: an array is left. -/
example : FormOf b!"--xY" (b!"--xY" ++ earlyPart b!"abcdefghijklmnopqrstuvwxyz" ++ b!"--xY--\r\n") none := by
  obtain ⟨r, hr, h⟩ := C72_exact sampleEnv ⟨fun _ => none, fun _ => true, fun _ => true⟩ b!"--xY"
    (b!"--xY" ++ earlyPart b!"abcdefghijklmnopqrstuvwxyz" ++ b!"--xY--\r\n") (by decide) (by decide)
  cases r with
  | none => exact hr
  | some f =>
    have := h.2.2.symm.trans (C72_early sampleEnv ⟨fun _ => none, fun _ => true, fun _ => true⟩ b!"--xY" [] b!"--\r\n"
      b!"abcdefghijklmnopqrstuvwxyz" xY_delimiter (by decide) (Or.inl rfl) (by decide) _ _ rfl
      (by decide +kernel) (by decide +kernel) rfl (by decide))
    cases this

end Wayuu
