import Verif.Spec.Files
import Verif.Lemmas.Fs
import Verif.Lemmas.Router
import Verif.Lemmas.Strings3
import Verif.Model.Ws
/-
Lemmas about file_utils.c and the address filter.
-/
namespace Wayuu
open C Spec

namespace FS

theorem comps_snoc (s : Str) : comps (s ++ [47]) = comps s ++ [[]] := by
  induction s with
  | nil => decide
  | cons c s ih =>
    simp only [List.cons_append, comps, ih]
    by_cases h : c = 47
    · simp [h]
    · simp only [h, if_false]
      cases hc : comps s with
      | nil =>
        exfalso
        cases s with
        | nil => simp [comps] at hc
        | cons d s =>
          unfold comps at hc
          split at hc
          · simp at hc
          · split at hc <;> simp at hc
      | cons a b => simp

theorem comps_slashes (s : Str) (n : Nat) : comps (s ++ List.replicate n 47) = comps s ++ List.replicate n [] := by
  induction n with
  | zero => simp
  | succ n ih =>
    rw [List.replicate_succ', ← List.append_assoc, comps_snoc, ih, List.append_assoc, ← List.replicate_succ']

theorem noTrail_split (s : Str) : ∃ n, s = noTrail s ++ List.replicate n 47 := by
  unfold noTrail
  have h : ∀ l : Str, ∃ n, l = List.replicate n 47 ++ l.dropWhile (· == 47) := by
    intro l
    induction l with
    | nil => exact ⟨0, rfl⟩
    | cons c l ih =>
      by_cases hc : c = 47
      · obtain ⟨n, hn⟩ := ih
        refine ⟨n + 1, ?_⟩
        subst hc
        simp only [List.dropWhile, BEq.rfl]
        rw [List.replicate_succ, List.cons_append, ← hn]
      · exact ⟨0, by simp [List.dropWhile_cons, hc]⟩
  obtain ⟨n, hn⟩ := h s.reverse
  refine ⟨n, ?_⟩
  have := congrArg List.reverse hn
  simpa using this

theorem walk_append (fs : FS) (cur a b : List Str) :
    fs.walk cur (a ++ b) = (fs.walk cur a).bind (fun q => fs.walk q b) := by
  induction a generalizing cur with
  | nil => rfl
  | cons c a ih =>
    simp only [List.cons_append, walk]
    split
    · rfl
    · split
      · exact ih _
      · split
        · exact ih _
        · exact ih _

theorem walk_empties {fs : FS} {p : List Str} (h : fs.nodeAt p = some .dir) (n : Nat) :
    fs.walk p (List.replicate n []) = some p := by
  induction n with
  | zero => rfl
  | succ n ih => simp [List.replicate_succ, walk, h, ih]

/-- Creating a directory where there was nothing does not change how other names resolve. -/
theorem walk_mkdir {fs : FS} {p : List Str} (hp : fs.nodeAt p = none) (cur cs q : List Str)
    (h : fs.walk cur cs = some q) : (fs.update p (some .dir)).walk cur cs = some q := by
  have hpne : p ≠ [] := by rintro rfl; simp [nodeAt] at hp
  induction cs generalizing cur with
  | nil => exact h
  | cons c cs ih =>
    simp only [walk] at h ⊢
    by_cases hd : fs.nodeAt cur = some .dir
    · have hcp : cur ≠ p := by rintro rfl; rw [hp] at hd; cases hd
      rw [nodeAt_update hpne, if_neg hcp]
      simp only [hd, ne_eq, not_true_eq_false, if_false] at h ⊢
      split at h
      · rw [if_pos ‹_›]; exact ih _ h
      · rw [if_neg ‹_›]
        split at h
        · rw [if_pos ‹_›]; exact ih _ h
        · rw [if_neg ‹_›]; exact ih _ h
    · simp [hd] at h

theorem update_update (fs : FS) (p : List Str) (a b : Option Node) : (fs.update p a).update p b = fs.update p b := by
  unfold update
  congr 1
  funext q
  by_cases h : q = p <;> simp [h]

end FS

theorem untilNul_before (s : List Byte) : BeforeNul s (untilNul s) := by
  refine ⟨nulFree_untilNul s, ?_⟩
  unfold untilNul
  induction s with
  | nil => left; rfl
  | cons c s ih =>
    by_cases h : c = 0
    · right; exact ⟨s, by simp [List.takeWhile, h]⟩
    · have : (c != 0) = true := by simpa using h
      simp only [List.takeWhile, this]
      rcases ih with ih | ⟨r, ih⟩
      · left; rw [← ih]
      · right; exact ⟨r, by rw [List.cons_append, ← ih]⟩

theorem beforeNul_unique {s t t' : List Byte} (h : BeforeNul s t) (h' : BeforeNul s t') : t = t' := by
  have key : ∀ {s t : List Byte}, BeforeNul s t → t = untilNul s := by
    intro s t ⟨h1, h2⟩
    rcases h2 with rfl | ⟨r, rfl⟩
    · exact (untilNul_of_nulFree h1).symm
    · unfold untilNul
      induction t with
      | nil => simp
      | cons c t ih =>
        have : (c != 0) = true := by simpa using h1 c (by simp)
        simp only [List.cons_append, List.takeWhile, this]
        rw [← ih (fun c hc => h1 c (by simp [hc]))]
  rw [key h, key h']

theorem cstr_untilNul (s : List Byte) (r : Buf) : cstr (s.map some ++ some 0 :: r) = ok (untilNul s) := by
  rcases (untilNul_before s).2 with h | ⟨q, h⟩
  · rw [← h]
    exact cstr_mk (h ▸ nulFree_untilNul s) r
  · have : s.map some ++ some 0 :: r = (untilNul s).map some ++ some 0 :: (q.map some ++ some 0 :: r) := by
      conv_lhs => rw [h]
      simp
    rw [this]
    exact cstr_mk (nulFree_untilNul s) _

theorem is_file_of_openRead {fs : FS} {path : Str} {c : List Byte} (h : fs.openRead path = some c) :
    is_file fs path = true := is_file_iff.mpr ⟨c, openRead_of_lookup h⟩

/-- The number of bytes `read_file` copies. -/
def readLen (content : List Byte) (maxlen : Nat) : Nat :=
  if maxlen = 0 then content.length else min content.length (maxlen - 1)

theorem read_file_eq {fs : FS} {out : Buf} {path : Str} {maxlen : Nat} {content : List Byte}
    (h : fs.openRead path = some content) (hl : readLen content maxlen < out.length) :
    read_file fs out path maxlen =
      ok ((content.take (readLen content maxlen)).map some ++ some 0 :: out.drop (readLen content maxlen + 1)) := by
  obtain ⟨x, out, rfl⟩ : ∃ x o, out = x :: o := by
    cases out with
    | nil => simp at hl
    | cons x o => exact ⟨x, o, rfl⟩
  unfold read_file
  rw [show Buf.store (x :: out) 0 0 = ok (some 0 :: out) from rfl]
  simp only [ok_bind, is_file_of_openRead h, Bool.not_true, Bool.false_eq_true, if_false, h]
  have e : (if 0 < maxlen then if maxlen - 1 < content.length then maxlen - 1 else content.length else content.length)
      = readLen content maxlen := by
    unfold readLen
    by_cases hm : maxlen = 0
    · simp [hm]
    · rw [if_pos (by omega), if_neg hm]
      split <;> omega
  rw [e]
  have hlen : (content.take (readLen content maxlen)).length = readLen content maxlen := by
    rw [List.length_take]
    unfold readLen
    split <;> omega
  have hl' : readLen content maxlen < (some 0 :: out).length := by simpa using hl
  rw [writeAt_ok (by simp only [hlen]; omega)]
  simp only [ok_bind, hlen, Nat.zero_add, List.take_zero, List.nil_append]
  rw [List.drop_eq_getElem_cons hl', store_append_cons (by simp only [List.length_map]; exact hlen.symm)]
  simp

theorem read_file_over {fs : FS} {out : Buf} {path : Str} {maxlen : Nat} {content : List Byte}
    (h : fs.openRead path = some content) (hl : out.length ≤ readLen content maxlen) :
    read_file fs out path maxlen = ub .oob := by
  unfold read_file
  by_cases h0 : out.length = 0
  · unfold Buf.store
    rw [if_neg (by omega)]
    rfl
  obtain ⟨x, out, rfl⟩ : ∃ x o, out = x :: o := by
    cases out with
    | nil => simp at h0
    | cons x o => exact ⟨x, o, rfl⟩
  rw [show Buf.store (x :: out) 0 0 = ok (some 0 :: out) from rfl]
  simp only [ok_bind, is_file_of_openRead h, Bool.not_true, Bool.false_eq_true, if_false, h]
  have e : (if 0 < maxlen then if maxlen - 1 < content.length then maxlen - 1 else content.length else content.length)
      = readLen content maxlen := by
    unfold readLen
    by_cases hm : maxlen = 0
    · simp [hm]
    · rw [if_pos (by omega), if_neg hm]
      split <;> omega
  rw [e]
  have hlen : (content.take (readLen content maxlen)).length = readLen content maxlen := by
    rw [List.length_take]
    unfold readLen
    split <;> omega
  unfold writeAt
  split
  · rename_i h2
    simp only [hlen, Nat.zero_add, List.length_cons] at h2 hl
    simp only [ok_bind, Buf.store]
    rw [if_neg]
    simp only [List.length_append, List.length_take, List.length_map, List.length_drop, hlen, List.length_cons]
    omega
  · rfl

theorem find_in_file_eq {fs : FS} {path needle : Str} :
    find_in_file fs path needle =
      (match fs.openRead path with
       | some content => if content.length < 8192 then ok (strstr (untilNul content) needle).isSome else ub .oob
       | none => ok (is_file fs path && needle.isEmpty)) := by
  unfold find_in_file
  cases h : fs.openRead path with
  | some content =>
    simp only [is_file_of_openRead h, Bool.not_true, Bool.false_eq_true, if_false]
    by_cases hl : content.length < 8192
    · rw [read_file_eq h (by rw [length_calloc]; simpa [readLen] using hl)]
      simp only [ok_bind, readLen, if_true, List.take_length]
      rw [cstr_untilNul, if_pos hl]
      rfl
    · rw [read_file_over h (by rw [length_calloc]; simpa [readLen] using hl), if_neg hl]
      rfl
  | none =>
    cases hf : is_file fs path with
    | false => simp
    | true =>
      simp only [Bool.not_true, Bool.false_eq_true, if_false]
      unfold read_file
      have key : ∀ n, Buf.store (calloc (n + 1)) 0 0 = ok (some 0 :: calloc n) := fun n => rfl
      rw [show (8192 : Nat) = 8191 + 1 from rfl, key 8191]
      simp only [ok_bind, hf, Bool.not_true, Bool.false_eq_true, if_false, h]
      have key2 : ∀ b, cstr (some 0 :: b) = ok [] := fun b => rfl
      rw [key2]
      simp only [ok_bind]
      cases needle <;> simp [strstr]

theorem strstr_occurs {h n : Str} : (strstr h n).isSome = true ↔ Occurs n h := strstr_isSome

/-- A text without line breaks occurs in a file iff it occurs in one of its lines. -/
theorem occurs_line {ip text : Str} (hip : (10 : Byte) ∉ ip) : Occurs ip text ↔ ∃ l, LineIn l text ∧ Occurs ip l := by
  constructor
  · rintro ⟨a, b, rfl⟩
    -- the line starts after the last newline of `a` and ends before the first one of `b`
    have ha : ∃ a1 a2, a = a1 ++ a2 ∧ (a1 = [] ∨ a1.getLast? = some 10) ∧ (10 : Byte) ∉ a2 := by
      clear hip
      induction a using List.reverseRecOn with
      | nil => exact ⟨[], [], rfl, Or.inl rfl, by simp⟩
      | append_singleton a c ih =>
        by_cases hc : c = 10
        · exact ⟨a ++ [c], [], by simp, Or.inr (by simp [hc]), by simp⟩
        · obtain ⟨a1, a2, rfl, h1, h2⟩ := ih
          exact ⟨a1, a2 ++ [c], by simp, h1, by simp [h2, Ne.symm hc]⟩
    have hb : ∃ b1 b2, b = b1 ++ b2 ∧ (b2 = [] ∨ b2.head? = some 10) ∧ (10 : Byte) ∉ b1 := by
      clear ha hip
      induction b with
      | nil => exact ⟨[], [], rfl, Or.inl rfl, by simp⟩
      | cons c b ih =>
        by_cases hc : c = 10
        · exact ⟨[], c :: b, rfl, Or.inr (by simp [hc]), by simp⟩
        · obtain ⟨b1, b2, rfl, h1, h2⟩ := ih
          exact ⟨c :: b1, b2, rfl, h1, by simp [h2, Ne.symm hc]⟩
    obtain ⟨a1, a2, rfl, ha1, ha2⟩ := ha
    obtain ⟨b1, b2, rfl, hb1, hb2⟩ := hb
    exact ⟨a2 ++ ip ++ b1, ⟨a1, b2, by simp, ha1, hb1, by simp [ha2, hip, hb2]⟩, a2, b1, rfl⟩
  · rintro ⟨l, ⟨a, b, rfl, -⟩, c, d, rfl⟩
    exact ⟨a ++ c, d ++ b, by simp⟩

/-- The address occurs in the readable file at `path`. -/
def Listed (fs : FS) (path ip : Str) : Prop :=
  ∃ content text, fs.openRead path = some content ∧ BeforeNul content text ∧ Occurs ip text

theorem find_listed {fs : FS} {path ip : Str} (hip : ip ≠ [])
    (hl : ∀ c, fs.openRead path = some c → c.length < 8192) :
    ∃ r, find_in_file fs path ip = ok r ∧ (r = true ↔ Listed fs path ip) := by
  rw [find_in_file_eq]
  cases h : fs.openRead path with
  | none =>
    refine ⟨_, rfl, ?_⟩
    constructor
    · intro h2
      have : ip.isEmpty = true := by simp at h2; simp [h2.2]
      simp at this; exact absurd this hip
    · rintro ⟨c, t, h2, -⟩
      rw [h] at h2; cases h2
  | some c =>
    simp only [if_pos (hl c h)]
    refine ⟨_, rfl, ?_⟩
    rw [strstr_occurs]
    constructor
    · intro h2
      exact ⟨c, _, h, untilNul_before c, h2⟩
    · rintro ⟨c', t, h2, h3, h4⟩
      rw [h] at h2
      cases h2
      rw [beforeNul_unique (untilNul_before c) h3]
      exact h4

end Wayuu
