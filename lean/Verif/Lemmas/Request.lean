import Verif.Spec.Request
import Verif.Lemmas.Keeps
import Verif.Lemmas.Http2
import Verif.Lemmas.Router
/-
Lemmas about reading a request (ws.c:463-550).
-/
namespace Wayuu
open C Spec

theorem isSpace_iff (c : Byte) : isSpace c = true ↔ White c := by
  have key : ∀ n : Fin 256, isSpace (UInt8.ofNat n.val) = true ↔
      (UInt8.ofNat n.val = 32 ∨ (9 ≤ (UInt8.ofNat n.val).toNat ∧ (UInt8.ofNat n.val).toNat ≤ 13)) := by decide +kernel
  have := key ⟨c.toNat, c.toNat_lt⟩
  simpa [White] using this

theorem load_map_some {bs : List Byte} {i : Nat} (h : i < bs.length) : Buf.load (bs.map some) i = ok bs[i] := by
  unfold Buf.load
  simp [h]

theorem load_map_over {bs : List Byte} {i : Nat} (h : bs.length ≤ i) : Buf.load (bs.map some) i = ub .oob := by
  unfold Buf.load
  simp [h]

/-- The word at a position: bytes that are not white space, at most `n`. -/
def wordAt (bs : List Byte) (n j : Nat) : List Byte := ((bs.drop j).takeWhile (fun c => !isSpace c)).take n

theorem scanWord_eq (bs : List Byte) (n j : Nat) :
    scanWord (bs.map some) n j =
      if j + (wordAt bs n j).length < bs.length then ok (wordAt bs n j, j + (wordAt bs n j).length) else ub .oob := by
  induction n generalizing j with
  | zero =>
    have hw : wordAt bs 0 j = [] := by simp [wordAt]
    rw [hw]
    simp only [scanWord, List.length_nil, Nat.add_zero]
    by_cases h : j < bs.length
    · simp [load_map_some h, h]
    · rw [load_map_over (by omega), if_neg h]; rfl
  | succ n ih =>
    simp only [scanWord]
    by_cases h : j < bs.length
    · have hd : bs.drop j = bs[j] :: bs.drop (j + 1) := List.drop_eq_getElem_cons h
      rw [load_map_some h]
      simp only [ok_bind]
      by_cases hs : isSpace bs[j] = true
      · have hw : wordAt bs (n + 1) j = [] := by rw [wordAt, hd, List.takeWhile_cons]; simp [hs]
        simp [hs, hw, h]
      · have hw : wordAt bs (n + 1) j = bs[j] :: wordAt bs n (j + 1) := by
          rw [wordAt, hd, List.takeWhile_cons]; simp [hs, wordAt]
        simp only [hs, Bool.false_eq_true, if_false, ih, hw, List.length_cons]
        by_cases h2 : j + 1 + (wordAt bs n (j + 1)).length < bs.length
        · rw [if_pos h2, if_pos (by omega)]
          simp; omega
        · rw [if_neg h2, if_neg (by omega)]; rfl
    · have hw : wordAt bs (n + 1) j = [] := by simp [wordAt, List.drop_eq_nil_of_le (Nat.le_of_not_lt h)]
      rw [load_map_over (by omega), hw, if_neg (by simpa using h)]; rfl

/-- The white space at a position. -/
def gapAt (bs : List Byte) (j : Nat) : List Byte := (bs.drop j).takeWhile (fun c => isSpace c)

theorem skipSpaces_eq (bs : List Byte) (n j : Nat) (hn : bs.length < n + j) :
    skipSpaces (bs.map some) n j =
      if j + (gapAt bs j).length < bs.length then ok (j + (gapAt bs j).length) else
        if n = 0 then ok j else ub .oob := by
  induction n generalizing j with
  | zero =>
    have : gapAt bs j = [] := by simp [gapAt, List.drop_eq_nil_of_le (show bs.length ≤ j by omega)]
    simp [skipSpaces, this]
  | succ n ih =>
    simp only [skipSpaces]
    by_cases h : j < bs.length
    · have hd : bs.drop j = bs[j] :: bs.drop (j + 1) := List.drop_eq_getElem_cons h
      rw [load_map_some h]
      simp only [ok_bind, List.length_map]
      by_cases hs : isSpace bs[j] = true
      · have hw : gapAt bs j = bs[j] :: gapAt bs (j + 1) := by
          rw [gapAt, hd, List.takeWhile_cons]; simp [hs, gapAt]
        rw [if_pos ⟨hs, h⟩, ih (j + 1) (by omega), hw]
        simp only [List.length_cons]
        by_cases h2 : j + 1 + (gapAt bs (j + 1)).length < bs.length
        · rw [if_pos h2, if_pos (by omega)]; congr 1; omega
        · rw [if_neg h2, if_neg (by omega), if_neg (show ¬ n + 1 = 0 by omega), if_neg (by omega)]
      · have hw : gapAt bs j = [] := by
          rw [gapAt, hd, List.takeWhile_cons]; simp [hs]
        rw [if_neg (by simp [hs]), hw]
        simp [h]
    · have hw : gapAt bs j = [] := by simp [gapAt, List.drop_eq_nil_of_le (Nat.le_of_not_lt h)]
      rw [load_map_over (by omega), hw, if_neg (by simpa using h)]; rfl

/-- The contents of the 1024-byte buffer after the first line was read. -/
def lineBytes (line : List Byte) : List Byte := line ++ List.replicate (1024 - line.length) 0

theorem length_lineBytes {line : List Byte} (h : line.length ≤ 1023) : (lineBytes line).length = 1024 := by
  simp [lineBytes]; omega

theorem get_line_first (inp : List Byte) :
    ∃ line rest, LineOf inp 1023 line rest ∧
      get_line inp (calloc 1024) 1024 = ok (line.length, (lineBytes line).map some, rest) := by
  have hc : (calloc 1024).length = 1024 := by unfold calloc; rw [List.length_replicate]
  obtain ⟨line, rest, h1, h2, h3⟩ := get_line_eq inp (calloc 1024) (size := 1024) (by omega) (by omega)
  refine ⟨line, rest, h1, ?_⟩
  rw [h3]
  have : ∀ n, line.length < n → line.map some ++ some 0 :: (calloc n).drop (line.length + 1) =
      (line ++ List.replicate (n - line.length) 0).map some := by
    intro n hn
    obtain ⟨k, rfl⟩ : ∃ k, n = line.length + 1 + k := ⟨n - (line.length + 1), by omega⟩
    unfold calloc
    rw [List.drop_replicate, List.map_append, List.map_replicate]
    rw [show line.length + 1 + k - (line.length + 1) = k by omega, show line.length + 1 + k - line.length = k + 1 by omega]
    rfl
  unfold lineBytes
  rw [this 1024 h2]

theorem cstr_lineBytes {line text : List Byte} (hl : line.length ≤ 1023) (hb : BeforeNul line text) :
    cstr ((lineBytes line).map some) = ok text := by
  obtain ⟨hn, h⟩ := hb
  rw [cstr_eq_ok]
  refine ⟨hn, ?_⟩
  rcases h with rfl | ⟨r, rfl⟩
  · obtain ⟨k, hk⟩ : ∃ k, 1024 - line.length = k + 1 := ⟨1023 - line.length, by omega⟩
    refine ⟨(List.replicate k 0).map some, ?_⟩
    simp [lineBytes, hk, List.replicate_succ]
  · refine ⟨(r ++ List.replicate (1024 - (text ++ 0 :: r).length) 0).map some, ?_⟩
    simp [lineBytes]

theorem untilNul_append_zero {s : List Byte} (h : NulFree s) (r : List Byte) : untilNul (s ++ 0 :: r) = s :=
  beforeNul_unique (untilNul_before _) ⟨h, Or.inr ⟨r, rfl⟩⟩

theorem untilNul_prefix_lineBytes {line text : List Byte} (hl : line.length ≤ 1023) (hb : BeforeNul line text) :
    ∃ r, lineBytes line = text ++ 0 :: r := by
  rcases hb.2 with rfl | ⟨r, rfl⟩
  · obtain ⟨k, hk⟩ : ∃ k, 1024 - line.length = k + 1 := ⟨1023 - line.length, by omega⟩
    exact ⟨List.replicate k 0, by simp [lineBytes, hk, List.replicate_succ]⟩
  · exact ⟨r ++ List.replicate (1024 - (text ++ 0 :: r).length) 0, by simp [lineBytes]⟩

theorem takeWhile_prefix_append {p : Byte → Bool} {s t : List Byte} (h : ∀ c ∈ s, p c = true) :
    (s ++ t).takeWhile p = s ++ t.takeWhile p := by
  induction s with
  | nil => rfl
  | cons c s ih => simp [h c (by simp), ih (fun d hd => h d (by simp [hd]))]

theorem isSpace_zero : isSpace 0 = false := by decide

/-- The bytes up to the first NUL of the word at a position lie in the text. -/
theorem untilNul_wordAt (text r : List Byte) (ht : NulFree text) (n j : Nat) (hj : j ≤ text.length) :
    untilNul (wordAt (text ++ 0 :: r) n j) = wordAt text n j := by
  unfold wordAt
  have hd : (text ++ 0 :: r).drop j = text.drop j ++ 0 :: r := by
    rw [List.drop_append_of_le_length hj]
  rw [hd]
  have hn : NulFree (text.drop j) := ht.drop j
  generalize text.drop j = s at hn
  induction s generalizing n with
  | nil =>
    cases n with
    | zero => rfl
    | succ n => simp [isSpace_zero, untilNul]
  | cons c s ih =>
    cases n with
    | zero => rfl
    | succ n =>
      by_cases hc : isSpace c = true
      · simp [hc, untilNul]
      · have hc0 : c ≠ 0 := hn c (by simp)
        have := ih n (fun d hd => hn d (by simp [hd]))
        simp [hc, untilNul, hc0] at this ⊢
        exact this

theorem wordAt_length_le (bs : List Byte) (n j : Nat) : (wordAt bs n j).length ≤ n := by
  unfold wordAt; simp; omega

/-- Reading the request line: for every input, unless the line has fewer than two bytes before a NUL. -/
theorem readRequestLine_eq {input line rest text : List Byte} (hl : LineOf input 1023 line rest) (hb : BeforeNul line text)
    (h2 : 2 ≤ text.length) :
    readRequestLine input = ok ((lineBytes line).map some, rest, text.take (text.length - 2), wordAt text 254 0,
      (wordAt (lineBytes line) 254 0).length) := by
  obtain ⟨line', rest', h1, hg⟩ := get_line_first input
  obtain ⟨rfl, rfl⟩ := lineOf_unique hl h1
  unfold readRequestLine
  rw [hg]
  simp only [ok_bind, cstr_lineBytes hl.2.1 hb]
  have hlen : (lineBytes line).length = 1024 := length_lineBytes hl.2.1
  have hst : (strdup text).storeI ((text.length : Int) - 2) 0 =
      ok ((text.take (text.length - 2)).map some ++ some 0 :: ((text.drop (text.length - 1)).map some ++ [some 0])) := by
    unfold Buf.storeI
    rw [if_neg (by omega), show ((text.length : Int) - 2).toNat = text.length - 2 by omega]
    rw [store_ok (by simp [strdup]; omega)]
    congr 1
    unfold strdup
    rw [List.take_append_of_le_length (by simp), List.drop_append_of_le_length (by simp; omega), ← List.map_take,
      ← List.map_drop, show text.length - 2 + 1 = text.length - 1 by omega]
  rw [hst]
  simp only [ok_bind]
  rw [cstr_mk (NulFree.take hb.1 _)]
  simp only [ok_bind]
  rw [scanWord_eq]
  have := wordAt_length_le (lineBytes line) 254 0
  rw [if_pos (by omega)]
  simp only [ok_bind, Nat.zero_add]
  obtain ⟨r, hr⟩ := untilNul_prefix_lineBytes hl.2.1 hb
  rw [hr, untilNul_wordAt text r hb.1 254 0 (by omega)]

theorem readRequestLine_short {input line rest text : List Byte} (hl : LineOf input 1023 line rest) (hb : BeforeNul line text)
    (h2 : text.length < 2) : readRequestLine input = ub .oob := by
  obtain ⟨line', rest', h1, hg⟩ := get_line_first input
  obtain ⟨rfl, rfl⟩ := lineOf_unique hl h1
  unfold readRequestLine
  rw [hg]
  simp only [ok_bind, cstr_lineBytes hl.2.1 hb]
  unfold Buf.storeI
  rw [if_pos (by omega)]
  rfl


theorem wordAt_eq {bs w t : List Byte} {c : Byte} {n j : Nat} (h : bs.drop j = w ++ c :: t) (hw : ∀ c ∈ w, ¬ White c)
    (hc : White c) (hn : w.length ≤ n) : wordAt bs n j = w := by
  unfold wordAt
  rw [h, takeWhile_prefix_append (fun d hd => by
    have := hw d hd
    rw [← isSpace_iff] at this
    simpa using this), List.takeWhile_cons, (isSpace_iff c).mpr hc]
  simp [List.take_of_length_le hn]

theorem gapAt_eq {bs w t : List Byte} {c : Byte} {j : Nat} (h : bs.drop j = w ++ c :: t) (hw : ∀ c ∈ w, White c)
    (hc : ¬ White c) : gapAt bs j = w := by
  unfold gapAt
  have hc' : isSpace c = false := by
    rw [← isSpace_iff] at hc; simpa using hc
  rw [h, takeWhile_prefix_append (fun d hd => (isSpace_iff d).mpr (hw d hd)), List.takeWhile_cons, hc']
  simp

theorem drop_length_append (a b : List Byte) : (a ++ b).drop a.length = b := by simp

theorem drop_at {a b : List Byte} {n : Nat} (h : n = a.length) : (a ++ b).drop n = b := by subst h; simp

/-- Reading a request line of the usual form. -/
theorem requestLine_eq {input line rest text method url : List Byte} (hl : LineOf input 1023 line rest)
    (hb : BeforeNul line text) (hr : RequestLine text method url) (hm : method.length ≤ 254) (hu : url.length ≤ 254) :
    readRequestLine input = ok ((lineBytes line).map some, rest, text.take (text.length - 2), method, method.length) ∧
    readUrl ((lineBytes line).map some) method.length = ok url := by
  obtain ⟨gap, w, more, rfl, h1, h2, h3, h4, h5, h6⟩ := hr
  obtain ⟨g, gap, rfl⟩ := List.exists_cons_of_ne_nil h2
  obtain ⟨u, url, rfl⟩ := List.exists_cons_of_ne_nil h4
  obtain ⟨r, hbytes⟩ := untilNul_prefix_lineBytes hl.2.1 hb
  have hlen := length_lineBytes hl.2.1
  have hlen' := hbytes ▸ hlen
  simp only [List.length_append, List.length_cons] at hlen'
  have hw1 : wordAt (method ++ g :: gap ++ u :: url ++ w :: more) 254 0 = method :=
    wordAt_eq (t := gap ++ u :: url ++ w :: more) (c := g) (by simp) h1 (h3 g (by simp)) hm
  have hw2 : wordAt (lineBytes line) 254 0 = method :=
    wordAt_eq (t := gap ++ u :: url ++ w :: more ++ 0 :: r) (c := g) (by rw [hbytes]; simp) h1 (h3 g (by simp)) hm
  have hw3 : gapAt (lineBytes line) method.length = g :: gap :=
    gapAt_eq (t := url ++ w :: more ++ 0 :: r) (c := u)
      (by rw [hbytes, show method ++ g :: gap ++ u :: url ++ w :: more ++ 0 :: r =
            method ++ ((g :: gap) ++ u :: (url ++ w :: more ++ 0 :: r)) by simp, drop_length_append]) h3 (h5 u (by simp))
  have hw4 : wordAt (lineBytes line) 254 (method.length + (g :: gap).length) = u :: url :=
    wordAt_eq (t := more ++ 0 :: r) (c := w)
      (by rw [hbytes, show method ++ g :: gap ++ u :: url ++ w :: more ++ 0 :: r =
            (method ++ g :: gap) ++ ((u :: url) ++ w :: (more ++ 0 :: r)) by simp, drop_at (by simp)])
      h5 h6 hu
  constructor
  · rw [readRequestLine_eq hl hb (by simp; omega), hw1, hw2]
  · unfold readUrl
    rw [skipSpaces_eq _ _ _ (by simp; omega), hw3]
    have hgl : (g :: gap).length = gap.length + 1 := rfl
    rw [if_pos (by omega)]
    simp only [ok_bind]
    rw [scanWord_eq, hw4, if_pos (by simp only [List.length_cons]; omega)]
    simp only [ok_bind]
    rw [untilNul_of_nulFree]
    exact NulFree.mono hb.1 (fun c hc => by simp at hc ⊢; tauto)

theorem casePrefix_trans_prefix {m a b : List Byte} (h : CasePrefix m a) (hp : ∃ t, b = a ++ t) : CasePrefix m b := by
  obtain ⟨t, rfl⟩ := hp
  obtain ⟨x, y, rfl, h2⟩ := h
  exact ⟨x, y ++ t, by simp, h2⟩

theorem wordAt_zero_prefix (text : List Byte) (n : Nat) : ∃ t, text = wordAt text n 0 ++ t := by
  unfold wordAt
  have h1 : text.takeWhile (fun c => !isSpace c) <+: text := List.takeWhile_prefix _
  have h2 := (List.take_prefix n (text.takeWhile (fun c => !isSpace c))).trans h1
  obtain ⟨t, ht⟩ := h2
  exact ⟨t, by simpa using ht.symm⟩

theorem startswithany_methods (s : List Byte) :
    ∃ b, startswithany s ALLOWED_HTTP_METHODS = ok b ∧ (b = true ↔ Supported s) := by
  refine ⟨startswith s b!"GET" || startswith s b!"POST" || startswith s b!"PUT" || startswith s b!"DELETE", ?_, ?_⟩
  · simp only [ALLOWED_HTTP_METHODS, startswithany]
    cases startswith s b!"GET" <;> cases startswith s b!"POST" <;> cases startswith s b!"PUT" <;>
      cases startswith s b!"DELETE" <;> simp
  · simp only [Supported, Bool.or_eq_true, startswith_iff, List.mem_cons, List.not_mem_nil, or_false]
    constructor
    · rintro (((h | h) | h) | h)
      · exact ⟨_, Or.inl rfl, h⟩
      · exact ⟨_, Or.inr (Or.inl rfl), h⟩
      · exact ⟨_, Or.inr (Or.inr (Or.inl rfl)), h⟩
      · exact ⟨_, Or.inr (Or.inr (Or.inr rfl)), h⟩
    · rintro ⟨m, rfl | rfl | rfl | rfl, h⟩
      · exact Or.inl (Or.inl (Or.inl h))
      · exact Or.inl (Or.inl (Or.inr h))
      · exact Or.inl (Or.inr h)
      · exact Or.inr h

end Wayuu
