import Verif.Lemmas.StepsBound
import Verif.Lemmas.Multipart2
import Verif.Props.Headers
/-
A body of many short parts after a long one: every part costs as much as the long one.
-/
namespace Wayuu.Steps
open C Spec

theorem of_erase {α : Type} {x : T α} {a : α} (h : erase x = ok a) : ∃ m, x = (ok (a, m) : C _) := by
  cases x with
  | ub e => cases h
  | ok p =>
    obtain ⟨b, m⟩ := p
    change ok b = ok a at h
    cases h
    exact ⟨m, rfl⟩

/-- The computation ends with `a` after at least `c` steps. -/
def Takes {α : Type} (x : T α) (a : α) (c : Nat) : Prop := ∃ m, x = (ok (a, m) : C _) ∧ c ≤ m

theorem Takes.bind {α β : Type} {x : T α} {f : α → T β} {a : α} {b : β} {c d : Nat} (h : Takes x a c) (h' : Takes (f a) b d) :
    Takes (x >>= f) b (c + d) := by
  obtain ⟨m, e, hm⟩ := h
  obtain ⟨k, e', hk⟩ := h'
  refine ⟨m + k, ?_, by omega⟩
  rw [e]
  change C.bind (f a) (fun q => ok (q.1, m + q.2)) = _
  rw [e']
  rfl

theorem Takes.of {α : Type} {x : T α} {a : α} (h : erase x = ok a) : Takes x a 0 := by
  obtain ⟨m, e⟩ := of_erase h
  exact ⟨m, e, Nat.zero_le _⟩

theorem Takes.skip {α β : Type} {x : T α} {f : α → T β} {a : α} {b : β} {d : Nat} (h : erase x = ok a) (h' : Takes (f a) b d) :
    Takes (x >>= f) b d := by
  simpa using (Takes.of h).bind h'

theorem Takes.mono {α : Type} {x : T α} {a : α} {c d : Nat} (h : Takes x a c) (hd : d ≤ c) : Takes x a d := by
  obtain ⟨m, e, hm⟩ := h
  exact ⟨m, e, by omega⟩

theorem Takes.pure {α : Type} {a : α} : Takes (pure a) a 0 := ⟨0, rfl, Nat.le_refl _⟩

/-- `---`, `k` times `x`, `j` times `-`. -/
def xd (k j : Nat) : List Byte := b!"---" ++ (List.replicate k 120 ++ List.replicate j 45)

theorem xd_length (k j : Nat) : (xd k j).length = 3 + k + j := by simp [xd]; omega

theorem xd_get (k j i : Nat) : (xd k j)[i]? = if i < 3 then some 45 else if i < 3 + k then some 120 else if i < 3 + k + j then some 45 else none := by
  unfold xd
  by_cases h : i < 3
  · rw [if_pos h, List.getElem?_append_left (by simpa using h)]
    match i, h with
    | 0, _ => rfl
    | 1, _ => rfl
    | 2, _ => rfl
  · rw [if_neg h, List.getElem?_append_right (by simp; omega)]
    simp only [List.length_cons, List.length_nil]
    by_cases h2 : i < 3 + k
    · rw [if_pos h2, List.getElem?_append_left (by simp; omega), List.getElem?_replicate, if_pos (by omega)]
    · rw [if_neg h2, List.getElem?_append_right (by simp; omega), List.getElem?_replicate]
      simp only [List.length_replicate]
      by_cases h3 : i < 3 + k + j
      · rw [if_pos h3, if_pos (by omega)]
      · rw [if_neg h3, if_neg (by omega)]

theorem prefix3 {l : List Byte} {a b c : Byte} {i : Nat} : [a, b, c] <+: l.drop i ↔ l[i]? = some a ∧ l[i + 1]? = some b ∧ l[i + 2]? = some c := by
  constructor
  · rintro ⟨r, hr⟩
    have h : ∀ n, l[i + n]? = ([a, b, c] ++ r)[n]? := by intro n; rw [hr, List.getElem?_drop]
    exact ⟨h 0, h 1, h 2⟩
  · rintro ⟨h0, h1, h2⟩
    refine ⟨l.drop (i + 3), ?_⟩
    obtain ⟨e0, h0⟩ := List.getElem?_eq_some_iff.mp h0
    obtain ⟨e1, h1⟩ := List.getElem?_eq_some_iff.mp h1
    obtain ⟨e2, h2⟩ := List.getElem?_eq_some_iff.mp h2
    rw [List.drop_eq_getElem_cons e0, List.drop_eq_getElem_cons e1, List.drop_eq_getElem_cons e2, h0, h1, h2]
    rfl

theorem xd_at (k j i : Nat) (hk : 0 < k) : b!"---" <+: (xd k j).drop i ↔ i = 0 ∨ (3 + k ≤ i ∧ i + 3 ≤ 3 + k + j) := by
  rw [prefix3, xd_get, xd_get, xd_get]
  constructor
  · rintro ⟨h0, h1, h2⟩
    by_cases e : i = 0
    · exact Or.inl e
    · right
      by_cases a : i < 3 + k
      · exfalso
        by_cases b : i < 3
        · by_cases c : i = 1
          · subst c; simp [hk] at h2
          · have : i = 2 := by omega
            subst this
            simp at h1
            rw [if_pos (by omega)] at h1
            cases h1
        · rw [if_neg b, if_pos a] at h0
          cases h0
      · refine ⟨by omega, ?_⟩
        by_cases c : i + 2 < 3 + k + j
        · omega
        · rw [if_neg (by omega), if_neg (by omega), if_neg c] at h2
          cases h2
  · rintro (rfl | ⟨h1, h2⟩)
    · simp
    · refine ⟨?_, ?_, ?_⟩ <;> rw [if_neg (by omega), if_neg (by omega), if_pos (by omega)]

theorem xd_find (k j i p : Nat) (hk : 0 < k) (h1 : i ≤ p) (h2 : p = 0 ∨ (3 + k ≤ p ∧ p + 3 ≤ 3 + k + j)) (h3 : p = i ∨ (0 < i ∧ p = 3 + k)) :
    Wayuu.text_find_after ((xd k j).map some ++ [some 0]) b!"---" i (3 + k + j) = ok ((p : Int) + 3) := by
  refine find_first (needle := b!"---") (by decide) (by rw [xd_length]) ⟨h1, by omega, (xd_at k j p hk).mpr h2, ?_⟩
  intro q q1 q2 hq
  rw [xd_at k j q hk] at hq
  omega

theorem xd_none (k j i : Nat) (hk : 0 < k) (h : 3 + k + j < i + 3) (hi : 0 < i) :
    Wayuu.text_find_after ((xd k j).map some ++ [some 0]) b!"---" i (3 + k + j) = ok (-1) := by
  refine find_none (needle := b!"---") (by decide) (by rw [xd_length]) (fun q q1 q2 hq => ?_)
  rw [xd_at k j q hk] at hq
  omega

/-- The scratch block once the long part was copied into it. -/
def xpart (k n : Nat) : Buf := (List.replicate k (120 : Byte)).map some ++ some 0 :: calloc n

theorem xs_free (k : Nat) : NulFree (List.replicate k (120 : Byte)) := fun c h => by
  rw [List.eq_of_mem_replicate h]
  decide

theorem xpart_trim (k n : Nat) : Wayuu.trim (xpart k n) = ok (xpart k n) := by
  have hs : strip (List.replicate k (120 : Byte)) = List.replicate k 120 :=
    strip_of_ends (fun c h => by
      have := List.eq_of_mem_replicate (List.mem_of_mem_head? h)
      subst this; decide) (fun c h => by
      have := List.eq_of_mem_replicate (List.mem_of_mem_getLast? h)
      subst this; decide)
  obtain ⟨q, h1, h2, -⟩ := trim_bytes _ (xs_free k) (calloc n)
  rw [hs] at h1 h2
  have hq : q = [] := List.length_eq_zero_iff.mp (by omega)
  subst hq
  simpa [xpart] using h1

theorem xpart_part (env : Env) (fs : FS) (t : Buf) (k n : Nat) (l : Int) : Takes (part_parse env fs t (xpart k n) l) (t, fs) k := by
  unfold part_parse
  have hc : cstr (xpart k n) = ok (List.replicate k (120 : Byte)) := cstr_mk (xs_free k) _
  obtain ⟨m, hm⟩ := of_erase (x := strlen (xpart k n)) (by rw [erase_strlen]; exact hc)
  have hm2 := strlen_cost hm
  refine Takes.mono (c := k + 0) (Takes.bind (a := List.replicate k 120) ⟨m, hm, ?_⟩ ?_) (by omega)
  · have := hm2.2.1; simp at this; omega
  · refine Takes.skip (a := -1) ?_ ?_
    · rw [erase_find]
      simp only [List.length_replicate]
      refine find_none (needle := b!"form-data; name=\"") (by decide) (by simp) (fun q q1 q2 hq => ?_)
      have := hq.subset (show (102 : Byte) ∈ b!"form-data; name=\"" by decide)
      have := List.eq_of_mem_replicate (List.mem_of_mem_drop this)
      exact absurd this (by decide)
    · rw [if_pos (by decide)]
      exact Takes.pure

theorem memcpyI_zero {d s : Buf} {i : Nat} (h : i ≤ s.length) : Wayuu.memcpyI d s i 0 = ok d := by
  have := memcpyI_ok (dst := d) (src := s) (off := i) (n := 0) (by omega) (by omega)
  simpa using this

theorem dashes_take (env : Env) (k j r : Nat) (hk : 0 < k) (t : Buf) (fs : FS) : ∀ (fuel ptr : Nat), 3 + k ≤ ptr → 3 + k + j < fuel + ptr →
    Takes (partsLoop env ((xd k j).map some ++ [some 0]) b!"---" (3 + k + j) fuel ptr (xpart k r) t fs) (t, fs)
      (k * ((3 + k + j - ptr - 2) / 4))
  | 0, ptr, h, hf => by
    rw [show (3 + k + j - ptr - 2) / 4 = 0 by omega]
    exact Takes.pure
  | fuel + 1, ptr, h, hf => by
    unfold partsLoop
    split
    · rw [show (3 + k + j - ptr - 2) / 4 = 0 by omega]
      exact Takes.pure
    by_cases h3 : ptr + 3 ≤ 3 + k + j
    · refine Takes.skip (by rw [erase_find]; exact xd_find k j ptr ptr hk (by omega) (by omega) (by omega)) ?_
      rw [if_neg (by omega), show (((ptr : Int) + 3).toNat) = ptr + 3 by omega]
      by_cases h6 : ptr + 6 ≤ 3 + k + j
      · refine Takes.skip (by rw [erase_find]; exact xd_find k j (ptr + 3) (ptr + 3) hk (by omega) (by omega) (by omega)) ?_
        rw [if_neg (by omega)]
        refine Takes.skip (a := ()) rfl ?_
        rw [show (((ptr + 3 : Nat) : Int) + 3 - ((ptr : Int) + 3) - ((b!"---").length : Nat)) = 0 by simp; omega]
        refine Takes.skip (a := xpart k r) (by
          rw [erase_memcpyI]
          exact memcpyI_zero (by simp [xd_length]; omega)) ?_
        have e : (3 + k + j - ptr - 2) / 4 = 1 + (3 + k + j - (ptr + 3 + 1) - 2) / 4 := by omega
        rw [e, Nat.mul_add, Nat.mul_one]
        refine Takes.bind (xpart_part env fs t k r 0) ?_
        dsimp only
        refine Takes.skip (a := xpart k r) (by rw [erase_trim]; exact xpart_trim k r) ?_
        exact dashes_take env k j r hk t fs fuel (ptr + 3 + 1) (by omega) (by omega)
      · refine Takes.skip (a := -1) (by rw [erase_find]; exact xd_none k j (ptr + 3) hk (by omega) (by omega)) ?_
        rw [if_pos (by decide), show (3 + k + j - ptr - 2) / 4 = 0 by omega]
        exact Takes.pure
    · refine Takes.skip (a := -1) (by rw [erase_find]; exact xd_none k j ptr hk (by omega) (by omega)) ?_
      rw [if_pos (by decide), show (3 + k + j - ptr - 2) / 4 = 0 by omega]
      exact Takes.pure

theorem parts_take (env : Env) (k j : Nat) (hk : 0 < k) (hj : 6 ≤ j) (t : Buf) (fs : FS) :
    Takes (partsLoop env ((xd k j).map some ++ [some 0]) b!"---" (3 + k + j) (3 + k + j + 1) 0 (calloc (3 + k + j + 1)) t fs) (t, fs)
      (k * ((j - 6) / 4)) := by
  unfold partsLoop
  rw [if_neg (by omega)]
  refine Takes.skip (by rw [erase_find]; exact xd_find k j 0 0 hk (by omega) (by omega) (by omega)) ?_
  rw [if_neg (by omega), show ((((0 : Nat) : Int) + 3).toNat) = 3 by omega]
  refine Takes.skip (by rw [erase_find]; exact xd_find k j 3 (3 + k) hk (by omega) (by omega) (by omega)) ?_
  rw [if_neg (by omega)]
  refine Takes.skip (a := ()) rfl ?_
  rw [show (((3 + k : Nat) : Int) + 3 - (((0 : Nat) : Int) + 3) - ((b!"---").length : Nat)) = (k : Int) by simp; omega]
  have hcopy : Wayuu.memcpyI (calloc (3 + k + j + 1)) ((xd k j).map some ++ [some 0]) 3 (k : Int) = ok (xpart k (3 + j)) := by
    rw [memcpyI_ok (by simp [calloc]; omega) (by simp [xd_length]; omega)]
    congr 1
    unfold xpart xd
    congr 1
    · rw [List.map_append, List.append_assoc, List.drop_append_of_le_length (by simp)]
      simp
    · simp only [calloc, List.drop_replicate]
      rw [show 3 + k + j + 1 - k = (3 + j) + 1 by omega, List.replicate_succ]
  refine Takes.skip (a := xpart k (3 + j)) (by rw [erase_memcpyI]; exact hcopy) ?_
  refine Takes.mono (c := k + k * ((j - 6) / 4)) (Takes.bind (xpart_part env fs t k _ _) ?_) (by omega)
  dsimp only
  refine Takes.skip (a := xpart k (3 + j)) (by rw [erase_trim]; exact xpart_trim k _) ?_
  -- the second round starts before the run of dashes
  rw [show 3 + k + j = (2 + k + j) + 1 by omega]
  unfold partsLoop
  rw [show (2 + k + j) + 1 = 3 + k + j by omega, if_neg (by omega)]
  refine Takes.skip (by rw [erase_find]; exact xd_find k j 4 (3 + k) hk (by omega) (by omega) (by omega)) ?_
  rw [if_neg (by omega), show ((((3 + k : Nat) : Int) + 3).toNat) = 6 + k by omega]
  refine Takes.skip (by rw [erase_find]; exact xd_find k j (6 + k) (6 + k) hk (by omega) (by omega) (by omega)) ?_
  rw [if_neg (by omega)]
  refine Takes.skip (a := ()) rfl ?_
  rw [show (((6 + k : Nat) : Int) + 3 - (((3 + k : Nat) : Int) + 3) - ((b!"---").length : Nat)) = 0 by simp; omega]
  refine Takes.skip (a := xpart k (3 + j)) (by
    rw [erase_memcpyI]
    exact memcpyI_zero (by simp [xd_length]; omega)) ?_
  refine Takes.skip (by rw [erase_part_parse]; exact (by
    obtain ⟨m, e, -⟩ := xpart_part env fs t k (3 + j) 0
    have := erase_ok e
    rw [erase_part_parse] at this
    exact this)) ?_
  dsimp only
  refine Takes.skip (a := xpart k (3 + j)) (by rw [erase_trim]; exact xpart_trim k _) ?_
  have := dashes_take env k j (3 + j) hk t fs (2 + k + j) (6 + k + 1) (by omega) (by omega)
  exact Takes.mono this (Nat.mul_le_mul_left _ (by omega))

end Wayuu.Steps
