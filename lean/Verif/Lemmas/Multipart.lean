import Verif.Spec.Multipart
import Verif.Lemmas.Strings3
import Verif.Model.Ws
/-
multipart_parse (ws.c).
-/
namespace Wayuu
open C Spec

/-! ### Searching -/

theorem find_first {t : List Byte} {r : Buf} {needle : Str} (hn : NulFree needle) {start bytes k : Nat} (hb : bytes ≤ t.length)
    (h : FirstOcc t needle start bytes k) :
    text_find_after (t.map some ++ some 0 :: r) needle start bytes = ok ((k : Int) + needle.length) := by
  obtain ⟨h1, h2, h3, h4⟩ := h
  unfold text_find_after
  rcases findLoop_spec t r needle hn (bytes - start) start (by omega) with ⟨k', e, g1, g2, g3, g4⟩ | ⟨e, g⟩
  · rw [e]
    have : k' = k := by
      by_contra hne
      rcases Nat.lt_or_gt_of_ne hne with hlt | hlt
      · exact h4 k' g1 hlt g3
      · exact g4 k h1 hlt h3
    rw [this]
  · exact absurd h3 (g k h1 (by omega))

theorem find_none {t : List Byte} {r : Buf} {needle : Str} (hn : NulFree needle) {start bytes : Nat} (hb : bytes ≤ t.length)
    (h : ∀ j, start ≤ j → j < bytes → ¬ needle <+: t.drop j) :
    text_find_after (t.map some ++ some 0 :: r) needle start bytes = ok (-1) := by
  unfold text_find_after
  by_cases hs : start ≤ bytes
  · rcases findLoop_spec t r needle hn (bytes - start) start (by omega) with ⟨k', e, g1, g2, g3, g4⟩ | ⟨e, g⟩
    · exact absurd g3 (h k' g1 (by omega))
    · exact e
  · rw [Nat.sub_eq_zero_of_le (by omega)]; rfl

theorem infix_of_prefix_drop {w t : List Byte} {j : Nat} (h : w <+: t.drop j) : w <:+: t :=
  h.isInfix.trans (List.drop_suffix j t).isInfix

theorem not_prefix_drop {w t : List Byte} (h : ¬ w <:+: t) (j : Nat) : ¬ w <+: t.drop j :=
  fun hp => h (infix_of_prefix_drop hp)

theorem prefix_sep {w x y : List Byte} {c : Byte} (h : w <+: x ++ c :: y) (hc : c ∉ w) : w <+: x := by
  have h2 : x ++ [c] <+: x ++ c :: y := ⟨y, by simp⟩
  rcases List.prefix_or_prefix_of_prefix h h2 with h3 | h3
  · obtain ⟨u, hu⟩ := h3
    rcases List.append_eq_append_iff.mp hu with ⟨v, e1, e2⟩ | ⟨v, e1, e2⟩
    · exact ⟨v, e1.symm⟩
    · cases v with
      | nil => simp at e1; rw [e1]; exact List.prefix_refl x
      | cons d v =>
        simp only [List.cons_append, List.cons.injEq] at e2
        exact absurd (by rw [e1, e2.1]; simp) hc
  · exact absurd (h3.subset (by simp)) hc

/-- The word `w` in `z ++ a ++ w ++ y`, searched from behind `z`: nothing in `a`, and nothing that begins in `a` either if `a`
ends with a byte that is not in `w`. -/
theorem firstOcc_sep {z a w y : List Byte} {c : Byte} {bytes : Nat} (hc : c ∉ w) (ha : a = [] ∨ a.getLast? = some c)
    (hf : ¬ w <:+: a) (hb : z.length + a.length < bytes) :
    FirstOcc (z ++ a ++ w ++ y) w z.length bytes (z.length + a.length) := by
  refine ⟨by omega, hb, ?_, ?_⟩
  · rw [List.append_assoc, List.append_assoc, ← List.append_assoc, List.drop_left' (by simp)]
    exact List.prefix_append w y
  · intro j h1 h2 hp
    obtain ⟨i, rfl⟩ : ∃ i, j = z.length + i := ⟨j - z.length, by omega⟩
    have e : (z ++ a ++ w ++ y).drop (z.length + i) = a.drop i ++ (w ++ y) := by
      rw [List.append_assoc, List.append_assoc, ← List.drop_drop, List.drop_left, List.drop_append_of_le_length (by omega)]
    rw [e] at hp
    rcases ha with rfl | ha
    · simp at h2; omega
    · obtain ⟨a', rfl⟩ := List.getLast?_eq_some_iff.mp ha
      simp only [List.length_append, List.length_singleton] at h2
      rw [List.drop_append_of_le_length (by omega)] at hp
      rw [List.append_assoc, List.singleton_append] at hp
      exact hf ((infix_of_prefix_drop (prefix_sep hp hc)).trans (List.prefix_append a' [c]).isInfix)

/-! ### One part -/

abbrev nameMark : Str := b!"form-data; name=\""
abbrev fileMark : Str := b!"; filename=\""
abbrev blankLine : Str := b!"\r\n\r\n"

/-- What the parser relies on in a part: the first name, and the first empty line behind it. -/
structure PartShape (text x name rest content : List Byte) : Prop where
  eq : text = x ++ nameMark ++ name ++ rest ++ blankLine ++ content ++ b!"\r\n"
  nul : NulFree (x ++ nameMark ++ name ++ rest)
  first : ∀ j, j < x.length → ∀ y, ¬ nameMark <+: (x ++ nameMark ++ y).drop j
  blank : ∀ j, j < (x ++ nameMark ++ name ++ rest).length → ∀ y, ¬ blankLine <+: (x ++ nameMark ++ name ++ rest ++ blankLine ++ y).drop j
  keep : ∀ c ∈ name, keeps c = true
  stop : ∀ c, (rest ++ blankLine).head? = some c → keeps c = false
  pos : x ≠ []

theorem untilNul_append {s : Str} (h : NulFree s) (t : List Byte) : untilNul (s ++ t) = s ++ untilNul t := by
  unfold untilNul
  rw [List.takeWhile_append_of_pos]
  intro c hc
  simp [h c hc]

/-- Every list of bytes with a NUL is a string, a NUL, and more. -/
theorem untilNul_split (d : List Byte) : ∃ r, d ++ [0] = untilNul d ++ 0 :: r := by
  induction d with
  | nil => exact ⟨[], rfl⟩
  | cons c d ih =>
    by_cases hc : c = 0
    · subst hc
      exact ⟨d ++ [0], by simp [untilNul]⟩
    · obtain ⟨r, hr⟩ := ih
      refine ⟨r, ?_⟩
      simp only [List.cons_append, hr]
      simp [untilNul, hc]

theorem memcpyI_ok {dst src : Buf} {off n : Nat} (h1 : n ≤ dst.length) (h2 : off + n ≤ src.length) :
    memcpyI dst src off (n : Int) = ok ((src.drop off).take n ++ dst.drop n) := by
  unfold memcpyI copyCells
  rw [if_neg (by omega), if_pos (by simp; omega)]
  simp

/-- The buffer with the fields gathered so far, and an '&' if there are any. -/
def amp (f : Str) : Str := if f = [] then [] else f ++ b!"&"

theorem amp_step {f : Str} {r : Buf} (hf : NulFree f) (hr : 1 ≤ r.length) :
    ∃ r' : Buf, (if 0 < f.length then appendStr (f.map some ++ some 0 :: r) b!"&" else ok (f.map some ++ some 0 :: r)) =
      ok ((amp f).map some ++ some 0 :: r') ∧ r.length ≤ r'.length + 1 ∧ (amp f).length + r'.length = f.length + r.length ∧
      NulFree (amp f) := by
  unfold amp
  by_cases h : f = []
  · subst h
    exact ⟨r, by simp, by omega, by simp, by simp⟩
  · refine ⟨r.drop 1, ?_, by simp; omega, by simp [h]; omega, by simp [h, hf]⟩
    rw [if_pos (List.length_pos_iff.mpr h), if_neg h]
    exact strcat_mk hf (by simpa using hr)

/-- What is left of `part_parse` once name and content are found. -/
def part_tail (env : Env) (fs : FS) (tmpfields tmpdata : Buf) (length : Nat) (name : Str) (data_start start_file : Int) : C (Buf × FS) :=
  if 0 < start_file then save_tmp_file env fs tmpfields name start_file.toNat tmpdata data_start.toNat length
  else do
    let value ← memcpyI (calloc (length + 1)) tmpdata data_start.toNat (length - data_start - 2)
    let value ← cstr value
    let tmpfields ← appendStr tmpfields (name ++ b!"=" ++ value)
    ok (tmpfields, fs)

/-- The same for a part that goes on in any way behind the empty line. -/
structure PartHead (text x name rest tail : List Byte) : Prop where
  eq : text = x ++ nameMark ++ name ++ rest ++ blankLine ++ tail
  nul : NulFree (x ++ nameMark ++ name ++ rest)
  first : ∀ j, j < x.length → ∀ y, ¬ nameMark <+: (x ++ nameMark ++ y).drop j
  blank : ∀ j, j < (x ++ nameMark ++ name ++ rest).length → ∀ y, ¬ blankLine <+: (x ++ nameMark ++ name ++ rest ++ blankLine ++ y).drop j
  keep : ∀ c ∈ name, keeps c = true
  stop : ∀ c, (rest ++ blankLine).head? = some c → keeps c = false
  pos : x ≠ []

theorem PartShape.head {text x name rest content : List Byte} (h : PartShape text x name rest content) :
    PartHead text x name rest (content ++ b!"\r\n") :=
  ⟨by rw [h.eq]; simp, h.nul, h.first, h.blank, h.keep, h.stop, h.pos⟩

/-- Any tail will do for the shape. -/
theorem PartShape.cut {text x name rest content : List Byte} (h : PartShape text x name rest content) (tail : List Byte) :
    PartHead (x ++ nameMark ++ name ++ rest ++ blankLine ++ tail) x name rest tail :=
  ⟨rfl, h.nul, h.first, h.blank, h.keep, h.stop, h.pos⟩

theorem part_parse_gen (env : Env) (fs : FS) {text x name rest tail : List Byte} (hp : PartHead text x name rest tail)
    (e : List Byte) {f : Str} {r : Buf} (hf : NulFree f) (hr : 1 ≤ r.length) :
    ∃ r' : Buf, (amp f).length + r'.length = f.length + r.length ∧ NulFree (amp f) ∧
      part_parse env fs (f.map some ++ some 0 :: r) ((text ++ e).map some ++ [some 0]) text.length =
        (do
          let start_file ← text_find_after ((text ++ e).map some ++ [some 0]) fileMark 0 (untilNul (text ++ e)).length
          part_tail env fs ((amp f).map some ++ some 0 :: r') ((text ++ e).map some ++ [some 0]) text.length name
            (((x ++ nameMark ++ name ++ rest ++ blankLine).length : Nat) : Int) start_file) := by
  obtain ⟨r', hamp, -, hlen, hna⟩ := amp_step hf hr
  refine ⟨r', hlen, hna, ?_⟩
  obtain ⟨rr, hrr⟩ := untilNul_split (text ++ e)
  have hD : (text ++ e).map some ++ [some 0] = (untilNul (text ++ e)).map some ++ some 0 :: rr.map some := by
    have := congrArg (List.map some) hrr
    simpa using this
  -- the string seen by the searches
  have ht : untilNul (text ++ e) = x ++ nameMark ++ (name ++ rest ++ blankLine ++ untilNul (tail ++ e)) := by
    rw [hp.eq, show x ++ nameMark ++ name ++ rest ++ blankLine ++ tail ++ e =
      (x ++ nameMark ++ name ++ rest ++ blankLine) ++ (tail ++ e) by simp]
    rw [untilNul_append (by
      have := hp.nul
      simp only [nulFree_append] at this ⊢
      exact ⟨this, by decide⟩)]
    simp
  have htn : NulFree (untilNul (text ++ e)) := nulFree_untilNul _
  have hl : text.length = x.length + 17 + name.length + rest.length + 4 + tail.length := by
    rw [hp.eq]; simp; omega
  have hfind1 : text_find_after ((text ++ e).map some ++ [some 0]) nameMark 0 (untilNul (text ++ e)).length =
      ok (((x.length + 17 : Nat)) : Int) := by
    rw [hD, find_first (k := x.length) (by decide) (Nat.le_refl _)]
    · simp
    · refine ⟨Nat.zero_le _, by rw [ht]; simp, ?_, ?_⟩
      · rw [ht, List.append_assoc, List.drop_left]
        exact List.prefix_append _ _
      · intro j _ hj
        rw [ht]
        exact hp.first j hj _
  have hfind2 : text_find_after ((text ++ e).map some ++ [some 0]) blankLine 0 text.length =
      ok ((((x ++ nameMark ++ name ++ rest ++ blankLine).length : Nat)) : Int) := by
    have := find_first (t := text ++ e) (r := []) (needle := blankLine) (start := 0) (bytes := text.length)
      (k := (x ++ nameMark ++ name ++ rest).length) (by decide) (by simp) ?_
    · rw [this]
      simp; omega
    · have he : text ++ e = x ++ nameMark ++ name ++ rest ++ blankLine ++ (tail ++ e) := by
        rw [hp.eq]; simp
      refine ⟨Nat.zero_le _, by rw [hl]; simp; omega, ?_, ?_⟩
      · rw [he, List.append_assoc _ blankLine, List.drop_left]
        exact List.prefix_append _ _
      · intro j _ hj
        rw [he]
        exact hp.blank j hj _
  -- the name
  have hdrop : text.drop (x.length + 17) = name ++ rest ++ blankLine ++ tail := by
    rw [hp.eq, show x ++ nameMark ++ name ++ rest ++ blankLine ++ tail =
      (x ++ nameMark) ++ (name ++ rest ++ blankLine ++ tail) by simp, List.drop_left' (by simp)]
  have hfield : memcpyI (calloc (text.length + 1)) ((text ++ e).map some ++ [some 0]) (x.length + 17)
      ((text.length - (x.length + 17) : Nat) : Int) =
      ok ((text.drop (x.length + 17)).map some ++ some 0 :: calloc (x.length + 17)) := by
    rw [memcpyI_ok (by simp; omega) (by simp; omega)]
    congr 2
    · rw [List.map_append, List.append_assoc, List.drop_append_of_le_length (by simp; omega),
        List.take_left' (by simp), List.map_drop]
    · unfold calloc
      rw [List.drop_replicate, show text.length + 1 - (text.length - (x.length + 17)) = x.length + 17 + 1 by omega]
      rfl
  obtain ⟨rr2, hrr2⟩ := untilNul_split (text.drop (x.length + 17))
  have hun : untilNul (text.drop (x.length + 17)) = name ++ (rest ++ blankLine ++ untilNul tail) := by
    rw [hdrop, show name ++ rest ++ blankLine ++ tail = (name ++ rest ++ blankLine) ++ tail by simp]
    rw [untilNul_append (by
      have := hp.nul
      simp only [nulFree_append] at this ⊢
      exact ⟨⟨this.1.2, this.2⟩, by decide⟩)]
    simp
  have htw : (untilNul (text.drop (x.length + 17))).takeWhile keeps = name := by
    rw [hun, List.takeWhile_append_of_pos hp.keep]
    have : (rest ++ blankLine ++ untilNul tail).takeWhile keeps = [] := by
      cases hc : rest ++ blankLine with
      | nil => simp at hc
      | cons c s =>
        have := hp.stop c (by rw [hc]; rfl)
        simp [this]
    rw [this, List.append_nil]
  obtain ⟨q, hchop, -⟩ := chop_eq _ (nulFree_untilNul (text.drop (x.length + 17))) (rr2.map some ++ calloc (x.length + 17))
  rw [htw] at hchop
  have hfb : (text.drop (x.length + 17)).map some ++ some 0 :: calloc (x.length + 17) =
      (untilNul (text.drop (x.length + 17))).map some ++ some 0 :: (rr2.map some ++ calloc (x.length + 17)) := by
    have := congrArg (fun l => List.map some l ++ calloc (x.length + 17)) hrr2
    simpa using this
  have hnn : NulFree name := by
    have := hp.nul
    simp only [nulFree_append] at this
    exact this.1.2
  unfold part_parse
  have hcs : cstr ((text ++ e).map some ++ [some 0]) = ok (untilNul (text ++ e)) := by
    rw [hD]; exact cstr_mk htn _
  rw [hcs]
  simp only [ok_bind]
  rw [hfind1]
  simp only [ok_bind]
  rw [if_neg (by omega)]
  have htail : strAt ((text ++ e).map some ++ [some 0]) ((x.length + 17 : Nat) : Int).toNat = ok ((untilNul (text ++ e)).drop (x.length + 17)) := by
    rw [Int.toNat_natCast, hD]
    exact strAt_str (by rw [ht]; simp) htn _
  rw [htail]
  simp only [ok_bind]
  rw [if_neg (by rw [ht]; simp), if_neg (by omega)]
  rw [show ((text.length : Int) + 1).toNat = text.length + 1 by omega,
    show (text.length : Int) - ((x.length + 17 : Nat) : Int) = ((text.length - (x.length + 17) : Nat) : Int) by omega, Int.toNat_natCast]
  rw [hfield]
  simp only [ok_bind]
  have hst : Buf.storeI ((text.drop (x.length + 17)).map some ++ some 0 :: calloc (x.length + 17))
      ((text.length - (x.length + 17) : Nat) : Int) 0 =
      ok ((text.drop (x.length + 17)).map some ++ some 0 :: calloc (x.length + 17)) := by
    unfold Buf.storeI
    rw [if_neg (by omega), Int.toNat_natCast, store_append_cons (by simp)]
  rw [hst]
  simp only [ok_bind]
  rw [hfb, hchop]
  simp only [ok_bind]
  rw [Int.toNat_natCast, hfind2]
  simp only [ok_bind]
  rw [cstr_mk hf]
  simp only [ok_bind]
  have fin : ∀ T : Buf, (do
      let start_file ← text_find_after ((text ++ e).map some ++ [some 0]) fileMark 0 (untilNul (text ++ e)).length
      if 0 < (((x ++ nameMark ++ name ++ rest ++ blankLine).length : Nat) : Int) then
        if 0 < start_file then do
          let field ← cstr (name.map some ++ some 0 :: (q ++ (rr2.map some ++ calloc (x.length + 17))))
          save_tmp_file env fs T field start_file.toNat ((text ++ e).map some ++ [some 0])
            (((x ++ nameMark ++ name ++ rest ++ blankLine).length : Nat) : Int).toNat text.length
        else do
          let value ← memcpyI (calloc (text.length + 1)) ((text ++ e).map some ++ [some 0])
            (((x ++ nameMark ++ name ++ rest ++ blankLine).length : Nat) : Int).toNat
            (text.length - (((x ++ nameMark ++ name ++ rest ++ blankLine).length : Nat) : Int) - 2)
          let field ← cstr (name.map some ++ some 0 :: (q ++ (rr2.map some ++ calloc (x.length + 17))))
          let value ← cstr value
          let tmpfields ← appendStr T (field ++ b!"=" ++ value)
          ok (tmpfields, fs)
      else ok (T, fs)) = (do
        let start_file ← text_find_after ((text ++ e).map some ++ [some 0]) fileMark 0 (untilNul (text ++ e)).length
        part_tail env fs T ((text ++ e).map some ++ [some 0]) text.length name
          (((x ++ nameMark ++ name ++ rest ++ blankLine).length : Nat) : Int) start_file) := by
    intro T
    congr 1
    funext sf
    rw [if_pos (by simp; omega)]
    unfold part_tail
    rw [cstr_mk hnn]
    simp only [ok_bind]
  by_cases h0 : 0 < f.length
  · rw [if_pos h0] at hamp ⊢
    rw [hamp]
    simp only [ok_bind]
    exact fin _
  · rw [if_neg h0] at hamp ⊢
    simp only [ok.injEq] at hamp
    rw [hamp]
    exact fin _

theorem part_parse_eq (env : Env) (fs : FS) {text x name rest content : List Byte} (hp : PartShape text x name rest content)
    (e : List Byte) {f : Str} {r : Buf} (hf : NulFree f) (hr : 1 ≤ r.length) :
    ∃ r' : Buf, (amp f).length + r'.length = f.length + r.length ∧ NulFree (amp f) ∧
      part_parse env fs (f.map some ++ some 0 :: r) ((text ++ e).map some ++ [some 0]) text.length =
        (do
          let start_file ← text_find_after ((text ++ e).map some ++ [some 0]) fileMark 0 (untilNul (text ++ e)).length
          part_tail env fs ((amp f).map some ++ some 0 :: r') ((text ++ e).map some ++ [some 0]) text.length name
            (((x ++ nameMark ++ name ++ rest ++ blankLine).length : Nat) : Int) start_file) :=
  part_parse_gen env fs hp.head e hf hr

end Wayuu
