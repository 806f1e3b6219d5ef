import Verif.Lemmas.Strings3
/-
Properties C01–C11: the string utilities (string_utils.c).

Strings are lists of non-NUL bytes; a block holding a string is `s.map some ++ some 0 :: rest`,
where `rest` is whatever follows the terminator in the same block.
-/
namespace Wayuu
open C

/-- The block contains string `s`, NUL-terminated, followed by the cells `rest`. -/
abbrev holding (s : Str) (rest : Buf) : Buf := s.map some ++ some 0 :: rest

/-! ### C01 -/

/-- C01. `trim` leaves the stripped string, touches only the cells of the original string and its
terminator (everything after it is unchanged), and applying it again changes nothing. -/
theorem C01_trim (s : Str) (hs : NulFree s) (rest : Buf) :
    ∃ (t : Str) (q : Buf), trim (holding s rest) = ok (holding t (q ++ rest)) ∧ Spec.IsStrip s t ∧
      t.length + q.length = s.length ∧ trim (holding t (q ++ rest)) = ok (holding t (q ++ rest)) := by
  obtain ⟨q, h1, h2⟩ := trim_eq s hs rest
  obtain ⟨q', h3, h4⟩ := trim_eq (strip s) (nulFree_strip hs) (q ++ rest)
  have hss : strip (strip s) = strip s := strip_strip s
  rw [hss] at h3 h4
  have : q' = [] := List.length_eq_zero_iff.mp (by omega)
  subst this
  exact ⟨strip s, q, h1, isStrip_strip s, h2, h3⟩

example := C01_trim b!" \ta b \r\n" (by decide) [none, some 7]

/-- The specification of C01 determines the result. -/
theorem C01_strip_unique (s t u : Str) (h1 : Spec.IsStrip s t) (h2 : Spec.IsStrip s u) : t = u := by
  rw [isStrip_eq h1, isStrip_eq h2]

example : Spec.IsStrip b!" \ta b \r\n" b!"a b" :=
  ⟨b!" \t", b!" \r\n", by decide, by decide, by decide, by decide, by decide⟩
example : (trim (holding b!" \ta b \r\n" [none, some 7]) >>= cstr) = ok b!"a b" := by decide

/-! ### C02 -/

/-- C02, separator present: `rtrim` is the part before the first separator, `ltrim` the part after. -/
theorem C02_found (a b : Str) (sep : Byte) (ha : NulFree a) (hb : NulFree b) (hsep : sep ≠ 0)
    (hfirst : sep ∉ a) :
    rtrim (a ++ sep :: b) sep = ok a ∧ ltrim (a ++ sep :: b) sep = ok b := by
  have hn : NulFree (a ++ sep :: b) := by simp [ha, hb, hsep]
  have htw : (a ++ sep :: b).takeWhile (· != sep) = a := takeWhile_first hfirst b
  have hdw : (a ++ sep :: b).dropWhile (· != sep) = sep :: b := dropWhile_first hfirst b
  rw [rtrim_eq hn, ltrim_eq hn, htw, hdw]
  simp

example : rtrim b!"a?b?c" 63 = ok b!"a" ∧ ltrim b!"a?b?c" 63 = ok b!"b?c" :=
  C02_found b!"a" b!"b?c" 63 (by decide) (by decide) (by decide) (by decide)

/-- C02, separator absent: both return a copy of the whole string. -/
theorem C02_absent (s : Str) (sep : Byte) (hs : NulFree s) (h : sep ∉ s) :
    rtrim s sep = ok s ∧ ltrim s sep = ok s := by
  rw [rtrim_eq hs, ltrim_eq hs, if_neg h]
  refine ⟨congrArg ok ?_, rfl⟩
  exact List.takeWhile_eq_self_iff.mpr fun c hc => by
    have : c ≠ sep := fun e => h (e ▸ hc)
    simp [this]

example : rtrim b!"/index.html" 63 = ok b!"/index.html" ∧ ltrim b!"/index.html" 63 = ok b!"/index.html" :=
  C02_absent b!"/index.html" 63 (by decide) (by decide)

/-- C02, recombination: whenever the separator occurs, the two parts and the separator rebuild the string. -/
theorem C02_rebuild (s : Str) (sep : Byte) (hs : NulFree s) (h : sep ∈ s) :
    ∃ a b, rtrim s sep = ok a ∧ ltrim s sep = ok b ∧ a ++ [sep] ++ b = s ∧ sep ∉ a := by
  refine ⟨s.takeWhile (· != sep), (s.dropWhile (· != sep)).drop 1, ?_, ?_, ?_, ?_⟩
  · rw [rtrim_eq hs]
  · rw [ltrim_eq hs, if_pos h]
  · simpa using first_split h
  · intro hm
    have := List.mem_takeWhile_imp hm
    simp at this

example := C02_rebuild b!"a?b?c" 63 (by decide) (by decide)

example : rtrim b!"a?b?c" 63 = ok b!"a" ∧ ltrim b!"a?b?c" 63 = ok b!"b?c" := by decide
example : NulFree b!"a" ∧ (63 : Byte) ∉ b!"a" := by decide

/-! ### C03, C04 -/

/-- C03. On every line the server can read (at most 1023 bytes), `split_once(line, ":")` yields two
strings exactly when there is a colon: the stripped text before and after the first one. -/
theorem C03_split_once (line : Str) (hs : NulFree line) (hl : line.length ≤ 1023) :
    ∃ strings, split_once line b!":" = ok strings ∧
      (strings.length = 2 ↔ (58 : Byte) ∈ line) ∧ (strings.length = 1 ↔ (58 : Byte) ∉ line) ∧
      ∀ a b, line = a ++ 58 :: b → (58 : Byte) ∉ a →
        ∃ b0 b1 s0 s1, strings = [b0, b1] ∧ cstr b0 = ok s0 ∧ cstr b1 = ok s1 ∧
          Spec.IsStrip a s0 ∧ Spec.IsStrip b s1 := by
  by_cases hc : (58 : Byte) ∈ line
  · obtain ⟨r0, r1, h⟩ := split_once_colon (delim := b!":") hs hl hc
    refine ⟨_, h, by simp [hc], by simp [hc], ?_⟩
    intro a b hab ha
    rw [hab, takeWhile_first ha b, dropWhile_first ha b]
    rw [hab] at hs
    simp only [nulFree_append, nulFree_cons] at hs
    exact ⟨_, _, _, _, rfl, cstr_mk (nulFree_strip hs.1) _, cstr_mk (nulFree_strip (by simpa using hs.2.2)) _,
      isStrip_strip _, by simpa using isStrip_strip b⟩
  · obtain ⟨b0, h, _⟩ := split_once_nocolon (delim := b!":") hs hl hc
    refine ⟨_, h, by simp [hc], by simp [hc], ?_⟩
    intro a b hab _
    exact absurd (by rw [hab]; simp) hc

example : NulFree b!"Host: a:1\r\n" ∧ (b!"Host: a:1\r\n").length ≤ 1023 ∧ (58 : Byte) ∈ b!"Host: a:1\r\n" ∧
    b!"Host: a:1\r\n" = b!"Host" ++ 58 :: b!" a:1\r\n" := by decide

/-- C04 in full: the delimiter the caller passes is the one used. Stated for one-byte delimiters and
short strings, which is already false. -/
def C04_statement : Prop :=
  ∀ (d : Byte) (a b : Str), d ≠ 0 → NulFree a → NulFree b → a.length < 100 → b.length < 100 → d ∉ a →
    ∃ strings b0 b1 s0 s1, split_once (a ++ d :: b) [d] = ok strings ∧ strings = [b0, b1] ∧
      cstr b0 = ok s0 ∧ cstr b1 = ok s1 ∧ Spec.IsStrip a s0 ∧ Spec.IsStrip b s1

/-- C04 is false: `split_once("k=v", "=")` reports a single string; the argument is ignored. -/
theorem C04_refuted : ¬ C04_statement := by
  intro h
  obtain ⟨strings, b0, b1, s0, s1, h1, h2, -⟩ := h 61 b!"k" b!"v" (by decide) (by decide) (by decide)
    (by decide) (by decide) (by decide)
  have h1 : (split_once b!"k=v" b!"=") = ok [b0, b1] := by rw [← h2]; exact h1
  obtain ⟨c0, hc, -⟩ := split_once_nocolon (line := b!"k=v") (delim := b!"=") (by decide) (by decide) (by decide)
  rw [hc] at h1
  simp at h1

/-- C04, what does hold: with the delimiter `":"` the split is at the first occurrence.
Missing: every other delimiter (see `C04_refuted`). -/
theorem C04_partial (a b : Str) (ha : NulFree a) (hb : NulFree b) (hl : a.length + b.length < 1023)
    (hfirst : (58 : Byte) ∉ a) :
    ∃ strings b0 b1 s0 s1, split_once (a ++ 58 :: b) [58] = ok strings ∧ strings = [b0, b1] ∧
      cstr b0 = ok s0 ∧ cstr b1 = ok s1 ∧ Spec.IsStrip a s0 ∧ Spec.IsStrip b s1 := by
  obtain ⟨strings, h1, -, -, h2⟩ := C03_split_once (a ++ 58 :: b) (by simp [ha, hb]) (by simp; omega)
  obtain ⟨b0, b1, s0, s1, h3, h4, h5, h6, h7⟩ := h2 a b rfl hfirst
  exact ⟨strings, b0, b1, s0, s1, h1, h3, h4, h5, h6, h7⟩

example : NulFree b!"Host" ∧ NulFree b!" x:y" ∧ (b!"Host").length + (b!" x:y").length < 1023 ∧
    (58 : Byte) ∉ b!"Host" := by decide

/-- C04, how far it fails: whatever delimiter is passed, the split is at the first colon, and a line without colon is one
string - so a delimiter other than the colon is obeyed only on lines where both come to the same. -/
theorem C04_colon (line delim : Str) (hs : NulFree line) (hl : line.length ≤ 1023) :
    ((58 : Byte) ∉ line → ∃ b0, split_once line delim = ok [b0] ∧
      (line.length < 1023 → ∃ s0, cstr b0 = ok s0 ∧ Spec.IsStrip line s0)) ∧
    ∀ a b, line = a ++ 58 :: b → (58 : Byte) ∉ a →
      ∃ b0 b1 s0 s1, split_once line delim = ok [b0, b1] ∧ cstr b0 = ok s0 ∧ cstr b1 = ok s1 ∧
        Spec.IsStrip a s0 ∧ Spec.IsStrip b s1 := by
  constructor
  · intro hc
    obtain ⟨b0, h1, h2⟩ := split_once_nocolon (delim := delim) hs hl hc
    exact ⟨b0, h1, fun h => ⟨_, h2 h, isStrip_strip _⟩⟩
  · intro a b e hc
    obtain ⟨strings, h1, -, -, h2⟩ := C03_split_once line hs hl
    obtain ⟨b0, b1, s0, s1, rfl, h4⟩ := h2 a b e hc
    exact ⟨b0, b1, s0, s1, h1, h4⟩

example : NulFree b!"k=v:w" ∧ b!"k=v:w" = b!"k=v" ++ 58 :: b!"w" ∧ (58 : Byte) ∉ b!"k=v" := by decide

/-! ### C05 -/

/-- C05. For every string and delimiter set there is exactly one list of maximal delimiter-free runs,
and `split` returns it as terminated strings, provided runs are shorter than 1023 bytes and at most 50. -/
theorem C05_split (s delim : Str) (hs : NulFree s) :
    ∃ ts, Spec.Runs delim s ts ∧ (∀ us, Spec.Runs delim s us → us = ts) ∧
      ((∀ t ∈ ts, t.length < 1023) → ts.length ≤ 50 →
        ∃ bufs, split s delim = ok bufs ∧ bufs.map cstr = ts.map ok ∧ ∀ b ∈ bufs, b.length = 1024) := by
  obtain ⟨ts, h⟩ := runs_exists delim s
  refine ⟨ts, h, fun us hu => (runs_unique h hu).symm, fun hlen hcnt => ⟨_, split_eq h hlen hcnt, ?_, ?_⟩⟩
  · rw [List.map_map]
    apply List.map_congr_left
    intro t ht
    exact cstr_splitBuf (fun c hc => hs c (runs_mem h t ht c hc))
  · intro b hb
    obtain ⟨t, ht, rfl⟩ := List.mem_map.mp hb
    exact length_splitBuf (by have := hlen t ht; omega)

example : ∃ bufs, split b!" ab,, c" b!" ," = ok bufs ∧ bufs.map cstr = [ok b!"ab", ok b!"c"] := by
  obtain ⟨ts, -, hu, h⟩ := C05_split b!" ab,, c" b!" ," (by decide)
  have e := hu [b!"ab", b!"c"] (.cons b!" " b!"ab" 44 b!", c" [b!"c"] (by decide) (by decide) (by decide) (by decide)
    (.last b!", " b!"c" (by decide) (by decide) (by decide)))
  subst e
  obtain ⟨bufs, h1, h2, -⟩ := h (by decide) (by decide)
  exact ⟨bufs, h1, h2⟩

/-- The limit of 50 tokens in C05 is sharp: with more, the code writes past the declared array. -/
theorem C05_over (s delim : Str) (ts : List Str) (h : Spec.Runs delim s ts)
    (hlen : ∀ t ∈ ts, t.length < 1023) (hcnt : 50 < ts.length) : split s delim = ub .oob :=
  splitLoop_over h [] (s.length + 1) (by have := runs_length h; omega) (by simp) (by simpa using hcnt) hlen

example : Spec.Runs b!" ," b!" ab,, c" [b!"ab", b!"c"] :=
  .cons b!" " b!"ab" 44 b!", c" [b!"c"] (by decide) (by decide) (by decide) (by decide)
    (.last b!", " b!"c" (by decide) (by decide) (by decide))

/-! ### C06 -/

/-- C06, no NULL elements: any number of strings, joined by the delimiter. The array may be longer
than `size`. No write leaves the allocated block (the outcome is not `ub`). The result is a heap block
unless there are no elements. -/
theorem C06_join (es : List Str) (more : List (Option Str)) (delim : Str) :
    join (some (es.map some ++ more)) es.length delim = ok ⟨decide (es ≠ []), Spec.sepBy delim es⟩ :=
  join_strings es more delim

example : join (some [some b!"a", some b!"", some b!"cd", none]) 3 b!", " = ok ⟨true, b!"a, , cd"⟩ :=
  C06_join [b!"a", b!"", b!"cd"] [none] b!", "

/-- C06, NULL elements strictly between the first and the last are skipped. -/
theorem C06_join_nulls (s0 s1 : Str) (mid : List (Option Str)) (more : List (Option Str)) (delim : Str) :
    join (some (some s0 :: mid ++ some s1 :: more)) (mid.length + 2 : Nat) delim =
      ok ⟨true, Spec.sepBy delim (s0 :: mid.filterMap id ++ [s1])⟩ :=
  join_many s0 mid s1 more delim

example : join (some [some b!"a", none, some b!"b", none, some b!"cd"]) 5 b!"--" = ok ⟨true, b!"a--b--cd"⟩ :=
  C06_join_nulls b!"a" b!"cd" [none, some b!"b", none] [] b!"--"

/-- C06, the two other places for a NULL: as first element it hides all others, as last element it is dereferenced. -/
theorem C06_join_ends (rest mid more : List (Option Str)) (s0 : Str) (size : Int) (delim : Str) (h : 0 < size) :
    join (some (none :: rest)) size delim = ok ⟨false, []⟩ ∧
    join (some (some s0 :: mid ++ none :: more)) (mid.length + 2 : Nat) delim = ub .null := by
  refine ⟨?_, join_last_null s0 mid more delim⟩
  unfold join
  simp only
  rw [if_neg (by omega)]
  rfl

example : join (some [none, some b!"a"]) 2 b!"," = ok ⟨false, []⟩ ∧
    join (some [some b!"a", some b!"b", none]) 3 b!"," = ub .null :=
  C06_join_ends [some b!"a"] [some b!"b"] [] b!"a" 2 b!"," (by decide)

/-- C06, a NULL array and a size of zero or less give the empty string. -/
theorem C06_join_empty (array : Option (List (Option Str))) (size : Int) (delim : Str)
    (h : array = none ∨ size ≤ 0) : join array size delim = ok ⟨false, []⟩ := by
  unfold join
  cases array with
  | none => rfl
  | some a =>
    rcases h with h | h
    · simp at h
    · simp [h]

example : join (some [some b!"a"]) (-1) b!"," = ok ⟨false, []⟩ := C06_join_empty _ _ _ (Or.inr (by decide))

example : Spec.sepBy b!", " [b!"a", b!"", b!"cd"] = b!"a, , cd" := by decide
example : join (some [some b!"a", none, some b!"cd"]) 3 b!"--" = ok ⟨true, b!"a--cd"⟩ := by decide

/-! ### C07 -/

/-- C07, one prefix. -/
theorem C07_startswith (s p : Str) : startswith s p = true ↔ Spec.CasePrefix p s := startswith_iff s p

example : startswith b!"/Api/x" b!"/api" = true ∧ startswith b!"/ap" b!"/api" = false := by decide

/-- C07, a list of prefixes ended by NULL or an empty string; what follows the terminator is irrelevant. -/
theorem C07_startswithany (s : Str) (ps : List Str) (hps : ∀ p ∈ ps, p ≠ []) (stop : Option Str)
    (hstop : stop = none ∨ stop = some []) (more : List (Option Str)) :
    ∃ r, startswithany s (ps.map some ++ stop :: more) = ok r ∧ (r = true ↔ ∃ p ∈ ps, Spec.CasePrefix p s) := by
  induction ps with
  | nil =>
    refine ⟨false, ?_, by simp⟩
    rcases hstop with rfl | rfl <;> rfl
  | cons p ps ih =>
    obtain ⟨r, h1, h2⟩ := ih (fun q hq => hps q (by simp [hq]))
    obtain ⟨c, p', rfl⟩ : ∃ c p', p = c :: p' := by
      cases p with
      | nil => exact absurd rfl (hps [] (by simp))
      | cons c p' => exact ⟨c, p', rfl⟩
    simp only [List.map_cons, List.cons_append, startswithany]
    by_cases h : startswith s (c :: p') = true
    · exact ⟨true, by simp [h], by simpa using Or.inl ((startswith_iff _ _).mp h)⟩
    · refine ⟨r, by simp [h, h1], ?_⟩
      rw [h2]
      have : ¬ Spec.CasePrefix (c :: p') s := fun hp => h ((startswith_iff _ _).mpr hp)
      simp [this]

example : Spec.CasePrefix b!"/API" b!"/api/x" := ⟨b!"/api", b!"/x", by decide, by unfold Spec.CaseEq; decide⟩
example : startswithany b!"post /" [some b!"GET", some b!"POST", none] = ok true ∧
    startswithany b!"put /" [some b!"GET", some b!"POST", some b!"", some b!"PUT"] = ok false := by decide

/-! ### C08 -/

/-- C08. The text (any bytes, NUL included) is followed by a NUL; the result is the position just
after the first occurrence at or after `start`, or −1 iff there is none. No access leaves the text and
its terminator: the outcome is the same whatever follows, even nothing. -/
theorem C08_find (text : List Byte) (rest : Buf) (needle : Str) (start : Nat) (hn : NulFree needle)
    (hne : needle ≠ []) :
    (∃ k : Nat, text_find_after (text.map some ++ some 0 :: rest) needle start text.length =
        ok ((k : Int) + needle.length) ∧ Spec.FirstOcc text needle start text.length k) ∨
    (text_find_after (text.map some ++ some 0 :: rest) needle start text.length = ok (-1) ∧
        ∀ j, start ≤ j → ¬ needle <+: text.drop j) := by
  have hbeyond : ∀ j, text.length ≤ j → ¬ needle <+: text.drop j := by
    intro j hj
    rw [List.drop_eq_nil_of_le hj]
    simpa using hne
  unfold text_find_after
  by_cases hb : start ≤ text.length
  · rcases findLoop_spec text rest needle hn (text.length - start) start (by omega) with ⟨k, h1, h2⟩ | ⟨h1, h2⟩
    · left
      rw [Nat.add_sub_of_le hb] at h2
      exact ⟨k, h1, h2⟩
    · right
      refine ⟨h1, fun j hj => ?_⟩
      by_cases hj2 : j < text.length
      · exact h2 j hj (by omega)
      · exact hbeyond j (by omega)
  · right
    rw [Nat.sub_eq_zero_of_le (by omega)]
    exact ⟨rfl, fun j hj => hbeyond j (by omega)⟩

example := C08_find b!"a--b--c" [none] b!"--" 2 (by decide) (by decide)

/-- C08 for any window inside the text and any needle, the empty one included: the first occurrence that begins in the window (it may
reach beyond it), or −1 iff none does. -/
theorem C08_window (text : List Byte) (rest : Buf) (needle : Str) (start bytes : Nat) (hn : NulFree needle) (hb : bytes ≤ text.length) :
    (∃ k : Nat, text_find_after (text.map some ++ some 0 :: rest) needle start bytes = ok ((k : Int) + needle.length) ∧
        Spec.FirstOcc text needle start bytes k) ∨
    (text_find_after (text.map some ++ some 0 :: rest) needle start bytes = ok (-1) ∧
        ∀ j, start ≤ j → j < bytes → ¬ needle <+: text.drop j) := by
  unfold text_find_after
  by_cases h : start ≤ bytes
  · rcases findLoop_spec text rest needle hn (bytes - start) start (by omega) with ⟨k, h1, h2⟩ | ⟨h1, h2⟩
    · left
      rw [Nat.add_sub_of_le h] at h2
      exact ⟨k, h1, h2⟩
    · exact Or.inr ⟨h1, fun j hj hj2 => h2 j hj (by omega)⟩
  · right
    rw [Nat.sub_eq_zero_of_le (by omega)]
    exact ⟨rfl, fun j hj hj2 => by omega⟩

example := C08_window b!"a--b--c" [none] [] 2 5 (by decide) (by decide)

/-- C08, safety for any window inside the text, whatever follows the terminator. -/
theorem C08_safe (text : List Byte) (rest : Buf) (needle : Str) (start bytes : Nat) (hn : NulFree needle)
    (hb : bytes ≤ text.length) :
    ∃ r, text_find_after (text.map some ++ some 0 :: rest) needle start bytes = ok r := by
  unfold text_find_after
  by_cases h : start ≤ bytes
  · rcases findLoop_spec text rest needle hn (bytes - start) start (by omega) with ⟨k, h1, _⟩ | ⟨h1, _⟩
    · exact ⟨_, h1⟩
    · exact ⟨_, h1⟩
  · rw [Nat.sub_eq_zero_of_le (by omega)]; exact ⟨_, rfl⟩

example := C08_safe b!"a--b--c" [] b!"--" 3 5 (by decide) (by decide)

example : text_find_after ((b!"a--b--c").map some ++ [some 0]) b!"--" 2 7 = ok 6 ∧
    Spec.FirstOcc b!"a--b--c" b!"--" 2 7 4 :=
  ⟨by decide, by decide, by decide, by decide, by decide⟩
example : text_find_after ((b!"a--b--").map some ++ [some 0]) b!"--c" 0 6 = ok (-1) := by decide

/-! ### C09 -/

/-- C09. `chop_string` leaves the longest prefix of bytes 35..127 and does not touch anything after
the original terminator. -/
theorem C09_chop (s : Str) (hs : NulFree s) (rest : Buf) :
    ∃ (t u : Str) (q : Buf), s = t ++ u ∧ chop_string (holding s rest) = ok (holding t (q ++ rest)) ∧
      t.length + q.length = s.length ∧
      (∀ c ∈ t, 35 ≤ c.toNat ∧ c.toNat ≤ 127) ∧ (∀ c, u.head? = some c → c.toNat < 35 ∨ 127 < c.toNat) := by
  obtain ⟨q, h1, h2⟩ := chop_eq s hs rest
  refine ⟨s.takeWhile keeps, s.dropWhile keeps, q, List.takeWhile_append_dropWhile.symm, h1, h2, ?_, ?_⟩
  · intro c hc
    have := List.mem_takeWhile_imp hc
    simpa [keeps] using this
  · intro c hc
    have := List.head?_dropWhile_not keeps s
    rw [hc] at this
    simp only [keeps, Bool.and_eq_false_iff, decide_eq_false_iff_not] at this
    omega

example : chop_string (holding b!"abc\"d e" [none]) =
    ok (holding b!"abc" ([some 100, some 32, some 101, some 0] ++ [none])) := by decide

/-! ### C10 -/

/-- C10. -/
theorem C10_isalnum (s : Str) (hs : NulFree s) (rest : Buf) :
    ∃ r, string_isalnum (holding s rest) = ok r ∧
      (r = true ↔ s ≠ [] ∧ ∀ c ∈ s, Spec.alnum c = true) := by
  unfold string_isalnum holding
  cases s with
  | nil => exact ⟨false, by simp, by simp⟩
  | cons c s =>
    have h := alnumLoop_eq [] (c :: s) (some 0 :: rest)
    rw [List.nil_append, List.length_nil] at h
    rw [cstr_mk hs]
    simp only [nulFree_cons] at hs
    refine ⟨(c :: s).all isAlnum, ?_, ?_⟩
    · simp only [List.map_cons, List.cons_append, load_cons_zero, ok_bind, if_neg hs.1] at h ⊢
      exact h
    · simp only [List.all_eq_true, isAlnum_eq]
      simp

example : NulFree b!"Ab9" ∧ (∀ c ∈ b!"Ab9", Spec.alnum c = true) ∧ Spec.alnum 0x5f = false := by decide

/-! ### C11 -/

/-- C11. `md5` is the digest function of the library (any function to 16 bytes) and `evpMax`
(`EVP_MAX_MD_SIZE`) is at least 16. The output starts with the 32 hex digits of the digest of exactly
the first `len` bytes, then NUL. -/
theorem C11_md5sum (md5 : List Byte → List Byte) (h16 : ∀ x, (md5 x).length = 16) (evpMax : Nat)
    (hmax : 16 ≤ evpMax) (out : Buf) (hout : 2 * evpMax + 1 ≤ out.length)
    (before : Buf) (bytes : List Byte) (after : Buf) :
    ∃ q, md5sum md5 evpMax out (before ++ (bytes.map some ++ after)) before.length bytes.length =
      ok ((Spec.hexText (md5 bytes)).map some ++ some 0 :: q) ∧ (Spec.hexText (md5 bytes)).length = 32 ∧
      33 + q.length = out.length := by
  obtain ⟨q, h⟩ := md5sum_eq md5 h16 evpMax hmax out hout before bytes after
  have e : (md5 bytes).flatMap fmtHex2 = Spec.hexText (md5 bytes) := by
    unfold Spec.hexText; congr 1; funext c; exact fmtHex2_eq c
  rw [e] at h
  refine ⟨q, h.1, ?_, h.2⟩
  rw [← e, length_hex, h16]

example := C11_md5sum (fun x => List.replicate 16 (x.headD 0)) (by simp) 64 (by decide) (List.replicate 129 none) (by simp)
  [some 9] b!"abc" [none]

/-- C11, non-positive lengths hash the empty string whatever the data pointer is. -/
theorem C11_md5sum_empty (md5 : List Byte → List Byte) (evpMax : Nat)
    (out data : Buf) (off : Nat) (len : Int) (hlen : len ≤ 0) :
    md5sum md5 evpMax out data off len = md5sum md5 evpMax out [] 0 0 := by
  unfold md5sum
  have h : md5Feed data len.toNat off len = ok [] := by
    have : len.toNat = 0 := by omega
    rw [this]; rfl
  rw [h]
  rfl

example := C11_md5sum_empty (fun x => List.replicate 16 (x.headD 0)) 64 (List.replicate 129 none) [some 1] 0 (-5) (by decide)

/-- C11, different digests print differently. -/
theorem C11_injective (d1 d2 : List Byte) (h : Spec.hexText d1 = Spec.hexText d2) : d1 = d2 :=
  hexText_inj d1 d2 h

example : Spec.hexText [10, 1] ≠ Spec.hexText [161] := fun h => absurd (C11_injective _ _ h) (by decide)

example : Spec.hexText [0, 255, 161] = b!"00ffa1" := by decide
example : ∃ f : List Byte → List Byte, (∀ x, (f x).length = 16) ∧ f [1] ≠ f [2] :=
  ⟨fun x => List.replicate 16 (x.headD 0), by simp, by decide⟩

end Wayuu
