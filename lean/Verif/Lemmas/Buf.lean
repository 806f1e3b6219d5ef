import Verif.Libc
import Mathlib.Data.List.TakeWhile
/-
Lemmas about blocks.
-/
namespace Wayuu
open C

/-- The bytes contain no NUL, i.e. they are the contents of a C string. -/
def NulFree (s : List Byte) : Prop := ∀ c ∈ s, c ≠ 0

instance (s : List Byte) : Decidable (NulFree s) := inferInstanceAs (Decidable (∀ c ∈ s, c ≠ 0))

@[simp] theorem nulFree_nil : NulFree [] := by simp [NulFree]
@[simp] theorem nulFree_cons {c : Byte} {s : List Byte} : NulFree (c :: s) ↔ c ≠ 0 ∧ NulFree s := by
  simp [NulFree]
@[simp] theorem nulFree_append {s t : List Byte} : NulFree (s ++ t) ↔ NulFree s ∧ NulFree t := by
  simp [NulFree, or_imp, forall_and]

theorem NulFree.mono {s t : List Byte} (h : NulFree t) (hs : ∀ c ∈ s, c ∈ t) : NulFree s :=
  fun c hc => h c (hs c hc)
theorem NulFree.take {s : List Byte} (h : NulFree s) (n : Nat) : NulFree (s.take n) :=
  h.mono fun _ hc => List.mem_of_mem_take hc
theorem NulFree.drop {s : List Byte} (h : NulFree s) (n : Nat) : NulFree (s.drop n) :=
  h.mono fun _ hc => List.mem_of_mem_drop hc
theorem NulFree.sublist {s t : List Byte} (h : NulFree t) (hs : s.Sublist t) : NulFree s :=
  h.mono fun _ hc => hs.subset hc

theorem cstr_mk {s : Str} (h : NulFree s) (r : Buf) : cstr (s.map some ++ some 0 :: r) = ok s := by
  induction s with
  | nil => simp [cstr]
  | cons c s ih =>
    simp only [nulFree_cons] at h
    simp [cstr, h.1, ih h.2]

theorem cstr_eq_ok {b : Buf} {s : Str} :
    cstr b = ok s ↔ NulFree s ∧ ∃ r, b = s.map some ++ some 0 :: r := by
  constructor
  · induction b generalizing s with
    | nil => simp [cstr]
    | cons x b ih =>
      cases x with
      | none => simp [cstr]
      | some c =>
        simp only [cstr]
        split
        · rename_i hc
          intro h
          cases h
          exact ⟨by simp, b, by simp [hc]⟩
        · rename_i hc
          cases hb : cstr b with
          | ub e => simp
          | ok t =>
            intro h
            simp only [map_ok, ok.injEq] at h
            subst h
            obtain ⟨h1, r, hr⟩ := ih hb
            exact ⟨by simp [hc, h1], r, by simp [hr]⟩
  · rintro ⟨h, r, rfl⟩
    exact cstr_mk h r

@[simp] theorem length_strdup (s : Str) : (strdup s).length = s.length + 1 := by simp [strdup]
@[simp] theorem length_malloc (n : Nat) : (malloc n).length = n := by simp [malloc]
@[simp] theorem length_calloc (n : Nat) : (calloc n).length = n := by simp [calloc]

theorem cstr_strdup {s : Str} (h : NulFree s) : cstr (strdup s) = ok s := cstr_mk h []

theorem load_append_some {s : Str} {r : Buf} {i : Nat} (h : i < s.length) :
    Buf.load (s.map some ++ r) i = ok s[i] := by
  have h' : i < (s.map some).length := by simpa using h
  simp [Buf.load, List.getElem?_append_left h', h]

theorem load_append_right {s r : Buf} {i : Nat} (h : s.length ≤ i) :
    Buf.load (s ++ r) i = Buf.load r (i - s.length) := by
  simp [Buf.load, List.getElem?_append_right h]

@[simp] theorem load_cons_zero (c : Byte) (r : Buf) : Buf.load (some c :: r) 0 = ok c := rfl
@[simp] theorem load_cons_succ (x : Cell) (r : Buf) (i : Nat) : Buf.load (x :: r) (i + 1) = Buf.load r i := by
  simp [Buf.load]

theorem store_append_cons {p r : Buf} {x : Cell} {i : Nat} {v : Byte} (h : i = p.length) :
    Buf.store (p ++ x :: r) i v = ok (p ++ some v :: r) := by
  subst h
  simp [Buf.store]

theorem store_ok {b : Buf} {i : Nat} {v : Byte} (h : i < b.length) :
    b.store i v = ok (b.take i ++ some v :: b.drop (i + 1)) := by
  simp [Buf.store, h, List.set_eq_take_append_cons_drop]

theorem strAt_mk {s : Str} {p : Buf} {i : Nat} (hi : i = p.length) (h : NulFree s) (r : Buf) :
    strAt (p ++ (s.map some ++ some 0 :: r)) i = ok s := by
  subst hi
  simp [strAt, cstr_mk h r]

theorem strAt_str {s : Str} {i : Nat} (hi : i ≤ s.length) (h : NulFree s) (r : Buf) :
    strAt (s.map some ++ some 0 :: r) i = ok (s.drop i) := by
  have e : s.map some ++ some 0 :: r = (s.take i).map some ++ ((s.drop i).map some ++ some 0 :: r) := by
    rw [← List.append_assoc, ← List.map_append, List.take_append_drop]
  rw [e]
  exact strAt_mk (by simp; omega) (h.drop i) r

theorem writeAt_ok {b : Buf} {off : Nat} {bs : List Byte} (h : off + bs.length ≤ b.length) :
    writeAt b off bs = ok (b.take off ++ bs.map some ++ b.drop (off + bs.length)) := by
  simp [writeAt, h]

theorem length_writeAt {b b' : Buf} {off : Nat} {bs : List Byte} (h : writeAt b off bs = ok b') :
    b'.length = b.length := by
  unfold writeAt at h
  split at h
  · cases h; simp; omega
  · cases h

theorem fmtInto_ok {cap : Nat} {s : Str} (h : s.length + 1 ≤ cap) : fmtInto cap s = ok s := by
  simp [fmtInto, h]

theorem fmtInto_eq_ok {cap : Nat} {s t : Str} : fmtInto cap s = ok t ↔ s.length + 1 ≤ cap ∧ t = s := by
  unfold fmtInto
  split
  · simp_all [eq_comm]
  · simp; omega

theorem strcpyAt_ok {b : Buf} {off : Nat} {s : Str} (h : off + s.length + 1 ≤ b.length) :
    strcpyAt b off s = ok (b.take off ++ (s.map some ++ some 0 :: b.drop (off + s.length + 1))) := by
  unfold strcpyAt
  rw [writeAt_ok (by simp; omega)]
  simp [Nat.add_assoc]

/-- `strcat` onto a block holding `d`. -/
theorem strcat_mk {d s : Str} {r : Buf} (hd : NulFree d) (h : s.length ≤ r.length) :
    strcat (d.map some ++ some 0 :: r) s =
      ok ((d ++ s).map some ++ some 0 :: r.drop s.length) := by
  unfold strcat
  rw [cstr_mk hd]
  simp only [ok_bind]
  rw [strcpyAt_ok (by simp; omega)]
  have : d.length + s.length + 1 = (d.map some).length + (s.length + 1) := by simp; omega
  rw [this, List.drop_append]
  simp

theorem fresh_strncpy {n m : Nat} {s : Str} (h : s.length < n) (hm : n ≤ m) :
    strncpyAt (malloc m) 0 s n =
      ok (s.map some ++ some 0 :: (List.replicate (n - s.length - 1) (some 0) ++ List.replicate (m - n) none)) := by
  unfold strncpyAt
  rw [writeAt_ok (by simp [Nat.min_eq_right (Nat.le_of_lt h)]; omega)]
  obtain ⟨k, hk⟩ : ∃ k, n - s.length = k + 1 := ⟨n - s.length - 1, by omega⟩
  simp only [List.take_of_length_le (Nat.le_of_lt h), hk, List.replicate_succ]
  simp [malloc]
  congr 2; omega

theorem untilNul_of_nulFree {s : List Byte} (h : NulFree s) : untilNul s = s := by
  unfold untilNul
  apply List.takeWhile_eq_self_iff.mpr
  intro c hc
  simp [h c hc]

theorem nulFree_untilNul (s : List Byte) : NulFree (untilNul s) := by
  intro c hc
  have := List.mem_takeWhile_imp hc
  simpa using this

end Wayuu
