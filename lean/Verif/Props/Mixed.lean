import Verif.Props.Malformed
/-
Property C72 (ws.c:165-277), continued: bodies with parts that name no field.
-/
namespace Wayuu
open C Spec

/-- `trim` on a block of bytes that ends with a NUL: what it leaves. -/
theorem trim_block (d : List Byte) : ∃ d' m : List Byte, trim (d.map some ++ [some 0]) = ok (d'.map some ++ [some 0]) ∧
    d'.length = d.length ∧ d' ++ [0] = strip (untilNul d) ++ 0 :: m ∧ (∀ w, NulFree w → w <:+: d' → w <:+: d) ∧
    ∀ n, (∀ c ∈ d.drop n, c = 0) → ∀ c ∈ d'.drop n, c = 0 := by
  obtain ⟨d', h1, h2, h3⟩ := trim_scratch d
  obtain ⟨rr, hrr⟩ := untilNul_split d
  obtain ⟨q, g1, g2, g3, -⟩ := trim_bytes (untilNul d) (nulFree_untilNul d) (rr.map some)
  have hD : d.map some ++ [some 0] = (untilNul d).map some ++ some 0 :: rr.map some := by
    have := congrArg (List.map some) hrr
    simpa using this
  have he : d' ++ [0] = strip (untilNul d) ++ 0 :: (q ++ rr) := by
    rw [hD, g1] at h1
    simp only [ok.injEq] at h1
    have : (d' ++ [0]).map some = (strip (untilNul d) ++ 0 :: (q ++ rr)).map some := by
      simpa using h1.symm
    exact (List.map_inj_right (fun _ _ h => Option.some.inj h)).mp this
  refine ⟨d', _, h1, h2, he, h3, ?_⟩
  intro n hn c hc
  have hu : (untilNul d).length ≤ n := by
    by_contra hlt
    have hlen : (untilNul d).length ≤ d.length := (List.takeWhile_prefix _).length_le
    have hpre : untilNul d <+: d := List.takeWhile_prefix _
    have : d[n]'(by omega) = 0 := hn _ (List.mem_iff_getElem.mpr ⟨0, by simp; omega, by simp⟩)
    have h0 := hpre.getElem (i := n) (by omega)
    exact nulFree_untilNul d _ (List.getElem_mem (by omega : n < (untilNul d).length)) (h0.trans this)
  have hsuf : ∀ k, (d' ++ [0]).drop ((untilNul d).length + 1 + k) = rr.drop k := by
    intro k
    rw [he, show strip (untilNul d) ++ 0 :: (q ++ rr) = (strip (untilNul d) ++ 0 :: q) ++ rr by simp, ← List.drop_drop,
      List.drop_left' (by simp; omega)]
  have hsufd : ∀ k, (d ++ [0]).drop ((untilNul d).length + 1 + k) = rr.drop k := by
    intro k
    rw [hrr, show untilNul d ++ 0 :: rr = (untilNul d ++ [0]) ++ rr by simp, ← List.drop_drop, List.drop_left' (by simp)]
  have hmem : c ∈ (d' ++ [0]).drop n := by
    by_cases h : n ≤ d'.length
    · rw [List.drop_append_of_le_length h]; simp [hc]
    · rw [List.drop_eq_nil_of_le (by omega)] at hc; simp at hc
  have key : ∀ k, (untilNul d).length + 1 + k ≥ n → ∀ c ∈ rr.drop k, c = 0 := by
    intro k hk c hc
    rw [← hsufd k] at hc
    have : c ∈ (d ++ [0]).drop n := by
      rw [show (untilNul d).length + 1 + k = n + ((untilNul d).length + 1 + k - n) by omega, ← List.drop_drop] at hc
      exact List.mem_of_mem_drop hc
    rw [List.drop_append] at this
    rcases List.mem_append.mp this with h | h
    · exact hn c h
    · simpa using List.mem_of_mem_drop h
  rcases Nat.lt_or_ge (untilNul d).length n with h | h
  · obtain ⟨k, rfl⟩ : ∃ k, n = (untilNul d).length + 1 + k := ⟨n - (untilNul d).length - 1, by omega⟩
    rw [hsuf] at hmem
    exact key k (by omega) c hmem
  · have hn' : n = (untilNul d).length := by omega
    subst hn'
    have e2 : (strip (untilNul d) ++ 0 :: q).drop (untilNul d).length = [0] := by
      rcases g3 with rfl | g3
      · rw [List.drop_left' (by simpa using g2)]
      · obtain ⟨q', rfl⟩ := List.getLast?_eq_some_iff.mp g3
        rw [show strip (untilNul d) ++ 0 :: (q' ++ [0]) = (strip (untilNul d) ++ 0 :: q') ++ [0] by simp, List.drop_left' (by
          simp at g2 ⊢; omega)]
    rw [he, show strip (untilNul d) ++ 0 :: (q ++ rr) = (strip (untilNul d) ++ 0 :: q) ++ rr by simp,
      List.drop_append_of_le_length (by simp; omega), e2] at hmem
    rcases List.mem_append.mp hmem with h | h
    · simpa using h
    · exact key 0 (by omega) c (by simpa using h)

/-- What becomes of the state of the loop with a plain part, with more about the scratch memory. -/
theorem partsLoop_field (env : Env) (fs : FS) {delim : List Byte} (hd : Delimiter delim) {body z a text tail d : List Byte} {f : Str} {r : Buf}
    (h : At delim body z a (text ++ delim ++ tail) d f r) (fuel : Nat) {p : Str × Str} (hpl : Plain p text) (hnt : ¬ delim <:+: text) :
    ∃ (z' a' d' : List Byte) (r' : Buf), At delim body z' a' tail d' (amp f ++ p.1 ++ b!"=" ++ p.2) r' ∧
      (∃ m, d' ++ [0] = strip (untilNul (text ++ d.drop text.length)) ++ 0 :: m) ∧
      (∀ n, (∀ c ∈ d.drop n, c = 0) → ∀ c ∈ d'.drop (max n text.length), c = 0) ∧
      partsLoop env (body.map some ++ [some 0]) delim body.length (fuel + 1) z.length (d.map some ++ [some 0])
        (f.map some ++ some 0 :: r) fs =
      partsLoop env (body.map some ++ [some 0]) delim body.length fuel z'.length (d'.map some ++ [some 0])
        ((amp f ++ p.1 ++ b!"=" ++ p.2).map some ++ some 0 :: r') fs := by
  obtain ⟨hlast, htl⟩ := hpl.last
  obtain ⟨hb, ha, hna, hdl, hdf, hf, hfr, hfl⟩ := h
  have hbl : body.length = z.length + a.length + delim.length + (text.length + delim.length + tail.length) := by
    rw [hb]; simp; omega
  have hb2 : body = (z ++ a ++ delim ++ text.take 1) ++ text.drop 1 ++ delim ++ tail := by
    rw [hb]
    have := List.take_append_drop 1 text
    simp only [List.append_assoc]
    rw [← List.append_assoc (text.take 1), this]
  have hdf' : ¬ fileMark <:+: d.drop text.length := fun h => hdf (h.trans (List.drop_suffix _ _).isInfix)
  obtain ⟨r1, k1, k2, k3, k4, k5⟩ := part_plain env fs hpl hdf' hf (r := r) (by omega)
  obtain ⟨d', m, t1, t2, t4, t3, t5⟩ := trim_block (text ++ d.drop text.length)
  have hz : z.length + a.length + delim.length + 1 = (z ++ a ++ delim ++ text.take 1).length := by
    simp; omega
  refine ⟨z ++ a ++ delim ++ text.take 1, text.drop 1, d', r1, ⟨hb2, ?_, ?_, ?_, ?_, k2, ?_, ?_⟩, ⟨m, t4⟩, ?_, ?_⟩
  · right
    rw [List.getLast?_drop, if_neg (by omega), hlast]
  · exact fun h => hnt (h.trans (List.drop_suffix _ _).isInfix)
  · rw [t2]; simp; omega
  · exact fun h => k5 (t3 _ (by decide) h)
  · rw [k1, hfr]
  · simp at k3 ⊢; omega
  · intro n hn
    refine t5 _ (fun c hc => hn c ?_)
    rw [List.drop_append, List.drop_drop, List.drop_eq_nil_of_le (by omega), List.nil_append] at hc
    rw [show text.length + (max n text.length - text.length) = n + (max n text.length - n) by omega, ← List.drop_drop] at hc
    exact List.mem_of_mem_drop hc
  · rw [partsLoop_begin env fs hd fuel z a text tail hb ha hna hlast hnt d hdl, k4]
    simp only [ok_bind]
    rw [t1]
    simp only [ok_bind]
    rw [hz]

theorem untilNul_zeros (text e : List Byte) (h : (0 : Byte) ∈ text ∨ ∀ c ∈ e, c = 0) : untilNul (text ++ e) = untilNul text := by
  induction text with
  | nil =>
    cases e with
    | nil => rfl
    | cons c e =>
      have := (h.resolve_left (by simp)) c (by simp)
      subst this
      rfl
  | cons c text ih =>
    by_cases hc : c = 0
    · subst hc; rfl
    · have := ih (h.imp (fun h => by simpa [Ne.symm hc] using h) id)
      unfold untilNul at this ⊢
      simp only [List.cons_append, List.takeWhile_cons]
      rw [this]

/-- A part that names no field changes nothing, if nothing of earlier parts can be seen behind it. -/
theorem partsLoop_other (env : Env) (fs : FS) {delim : List Byte} (hd : Delimiter delim) {body z a text tail d : List Byte} {f : Str} {r : Buf}
    (h : At delim body z a (text ++ delim ++ tail) d f r) (fuel : Nat) (hlast : text.getLast? = some 10) (hnm : ¬ nameMark <:+: text)
    (hfm : ¬ fileMark <:+: text) (hnt : ¬ delim <:+: text) (hz : (0 : Byte) ∈ text ∨ ∀ c ∈ d.drop text.length, c = 0) :
    ∃ (z' a' d' : List Byte), At delim body z' a' tail d' f r ∧
      (∀ n, (∀ c ∈ d.drop n, c = 0) → ∀ c ∈ d'.drop (max n text.length), c = 0) ∧
      partsLoop env (body.map some ++ [some 0]) delim body.length (fuel + 1) z.length (d.map some ++ [some 0])
        (f.map some ++ some 0 :: r) fs =
      partsLoop env (body.map some ++ [some 0]) delim body.length fuel z'.length (d'.map some ++ [some 0])
        (f.map some ++ some 0 :: r) fs := by
  obtain ⟨hb, ha, hna, hdl, hdf, hf, hfr, hfl⟩ := h
  have htl : 1 ≤ text.length := by
    cases text with
    | nil => simp at hlast
    | cons c t => simp
  have hbl : body.length = z.length + a.length + delim.length + (text.length + delim.length + tail.length) := by
    rw [hb]; simp; omega
  have hb2 : body = (z ++ a ++ delim ++ text.take 1) ++ text.drop 1 ++ delim ++ tail := by
    rw [hb]
    have := List.take_append_drop 1 text
    simp only [List.append_assoc]
    rw [← List.append_assoc (text.take 1), this]
  have hdf' : ¬ fileMark <:+: d.drop text.length := fun h => hdf (h.trans (List.drop_suffix _ _).isInfix)
  have k5 : ¬ fileMark <:+: text ++ d.drop text.length := by
    obtain ⟨t, ht⟩ := List.getLast?_eq_some_iff.mp hlast
    intro h
    generalize d.drop text.length = e at h hdf'
    rw [ht, List.append_assoc, List.singleton_append] at h
    rcases infix_sep h (by decide) with h | h
    · exact hfm (by rw [ht]; exact h.trans (List.prefix_append _ _).isInfix)
    · exact hdf' h
  have hpp : part_parse env fs (f.map some ++ some 0 :: r) ((text ++ d.drop text.length).map some ++ [some 0]) text.length =
      ok (f.map some ++ some 0 :: r, fs) := by
    unfold part_parse
    have hu := untilNul_zeros text (d.drop text.length) hz
    obtain ⟨rr, hrr⟩ := untilNul_split (text ++ d.drop text.length)
    have hD : (text ++ d.drop text.length).map some ++ [some 0] = (untilNul text).map some ++ some 0 :: rr.map some := by
      have := congrArg (List.map some) hrr
      rw [hu] at this
      simpa using this
    have hc : cstr ((text ++ d.drop text.length).map some ++ [some 0]) = ok (untilNul text) := by
      rw [hD]
      exact cstr_mk (nulFree_untilNul _) _
    rw [hc]
    simp only [ok_bind]
    have hfind : text_find_after ((text ++ d.drop text.length).map some ++ [some 0]) nameMark 0 (untilNul text).length = ok (-1) := by
      rw [hD]
      exact find_none (by decide) (Nat.le_refl _) (fun j _ _ h => hnm ((infix_of_prefix_drop h).trans (List.takeWhile_prefix _).isInfix))
    rw [hfind]
    rfl
  obtain ⟨d', m, t1, t2, t4, t3, t5⟩ := trim_block (text ++ d.drop text.length)
  have hz : z.length + a.length + delim.length + 1 = (z ++ a ++ delim ++ text.take 1).length := by
    simp; omega
  refine ⟨z ++ a ++ delim ++ text.take 1, text.drop 1, d', ⟨hb2, ?_, ?_, ?_, ?_, hf, hfr, ?_⟩, ?_, ?_⟩
  · by_cases h1 : text.length = 1
    · left; exact List.drop_eq_nil_of_le (by omega)
    · right
      rw [List.getLast?_drop, if_neg (by omega), hlast]
  · exact fun h => hnt (h.trans (List.drop_suffix _ _).isInfix)
  · rw [t2]; simp; omega
  · exact fun h => k5 (t3 _ (by decide) h)
  · simp; omega
  · intro n hn
    refine t5 _ (fun c hc => hn c ?_)
    rw [List.drop_append, List.drop_drop, List.drop_eq_nil_of_le (by omega), List.nil_append] at hc
    rw [show text.length + (max n text.length - text.length) = n + (max n text.length - n) by omega, ← List.drop_drop] at hc
    exact List.mem_of_mem_drop hc
  · rw [partsLoop_begin env fs hd fuel z a text tail hb ha hna hlast hnt d hdl, hpp]
    simp only [ok_bind]
    rw [t1]
    simp only [ok_bind]
    rw [hz]

theorem partsLoop_mixed (env : Env) (fs : FS) {delim : List Byte} (hd : Delimiter delim) {body : List Byte} (pieces : List Piece) :
    ∀ (fuel n : Nat) {z a tail d : List Byte} {f : Str} {r : Buf} {seen : List (Str × Str)}, At delim body z a tail d f r →
      Parts PiecePart delim pieces tail →
      List.Forall₂ (fun f s => Cut f.1 s.1 ∧ BeforeNul f.2 s.2) (pieces.filterMap Piece.field) seen → pieces.length < fuel →
      (∀ c ∈ d.drop n, c = 0) → (∀ p ∈ pieces, p.field = none → (0 : Byte) ∈ p.text ∨ n ≤ p.text.length) →
      (pieces.Pairwise fun q p => p.field = none → (0 : Byte) ∈ p.text ∨ q.text.length ≤ p.text.length) →
      ∃ r' : Buf, (gather f seen).length + r'.length = body.length ∧ NulFree (gather f seen) ∧
        partsLoop env (body.map some ++ [some 0]) delim body.length fuel z.length (d.map some ++ [some 0])
          (f.map some ++ some 0 :: r) fs = ok ((gather f seen).map some ++ some 0 :: r', fs) := by
  induction pieces with
  | nil =>
    intro fuel n z a tail d f r seen h hp hs hfuel hz hn hpw
    cases fuel with
    | zero => simp at hfuel
    | succ fuel =>
      cases hs
      cases hp with
      | last _ ht => exact ⟨r, h.room, h.nul, partsLoop_end env fs hd h fuel ht _⟩
  | cons p pieces ih =>
    intro fuel n z a tail d f r seen h hp hs hfuel hz hn hpw
    rw [List.pairwise_cons] at hpw
    cases fuel with
    | zero => simp at hfuel
    | succ fuel =>
      cases hp with
      | part _ _ text tail' hpl hnt hps =>
        obtain ⟨rfl, hfm, hpf⟩ := hpl
        have hn' : ∀ q ∈ pieces, q.field = none → (0 : Byte) ∈ q.text ∨ max n p.text.length ≤ q.text.length := by
          intro q hq hq0
          rcases hn q (by simp [hq]) hq0 with h1 | h1
          · exact Or.inl h1
          rcases hpw.1 q hq hq0 with h2 | h2
          · exact Or.inl h2
          · exact Or.inr (by omega)
        cases hfld : p.field with
        | some g =>
          rw [hfld] at hpf
          rw [List.filterMap_cons_some hfld] at hs
          cases hs with
          | cons h1 h2 =>
            rename_i sn seen'
            obtain ⟨before, after, k1, k2, k3, k4⟩ := hpf
            obtain ⟨more, -, hsh⟩ := part_shape (params := []) (content := g.2) k1 k2 k3 (by simp) h1.1
            rw [← k4] at hsh
            obtain ⟨z', a', d', r', h', -, hz', e⟩ := partsLoop_field env fs hd h fuel (p := sn)
              ⟨_, _, _, hsh, beforeNul_eq h1.2, hfm⟩ hnt
            rw [e]
            exact ih fuel _ h' hps h2 (by simp at hfuel; omega) (hz' n hz) hn' hpw.2
        | none =>
          rw [hfld] at hpf
          rw [List.filterMap_cons_none hfld] at hs
          have hzz : (0 : Byte) ∈ p.text ∨ ∀ c ∈ d.drop p.text.length, c = 0 := by
            rcases hn p (by simp) hfld with h1 | h1
            · exact Or.inl h1
            · right
              intro c hc
              rw [show p.text.length = n + (p.text.length - n) by omega, ← List.drop_drop] at hc
              exact hz c (List.mem_of_mem_drop hc)
          obtain ⟨z', a', d', h', hz', e⟩ := partsLoop_other env fs hd h fuel hpf.1 hpf.2 hfm hnt hzz
          rw [e]
          exact ih fuel _ h' hps hs (by simp at hfuel; omega) (hz' n hz) hn' hpw.2

/-- C72, what holds: bodies of fields mixed with parts that name no field are parsed without accessing memory out of bounds, and
give the fields in order, provided each part that names no field is at least as long as all parts before it, or contains a NUL
byte. Missing: parts that end at or before their empty line (`C72_truncated`), short parts behind fields (`C72_short`), names behind
the empty line (`C72_early`), files (C12). -/
theorem C72_partial (env : Env) (fs : FS) (delim body : List Byte) (pieces : List Piece) (seen : List (Str × Str)) (hd : Delimiter delim)
    (hm : Multipart PiecePart delim pieces body)
    (hl : pieces.Pairwise fun q p => p.field = none → (0 : Byte) ∈ p.text ∨ q.text.length ≤ p.text.length)
    (hs : List.Forall₂ (fun f s => Cut f.1 s.1 ∧ BeforeNul f.2 s.2) (pieces.filterMap Piece.field) seen) :
    ∃ form, multipart_parse env fs (body.map some ++ [some 0]) delim body.length = ok (form, fs) ∧
      cstr form = ok (formText seen) ∧ form.length = body.length + 1 := by
  obtain ⟨pre, tail, hb, hpre, hline, hp⟩ := hm
  have h2 : 2 ≤ delim.length := by simpa using hd.1.length_le
  have hlen : ∀ {tail : List Byte} {pieces : List Piece}, Parts PiecePart delim pieces tail → pieces.length ≤ tail.length := by
    intro tail pieces h
    induction h with
    | last => simp
    | part f fs text tail hpl hnt hps ih => simp; omega
  obtain ⟨r, h1, h2, h3⟩ := partsLoop_mixed env fs hd pieces (body.length + 1) 0 (At.init hb hpre hline) hp hs
    (by have := hlen hp; rw [hb]; simp; omega)
    (by intro c hc; exact List.eq_of_mem_replicate (List.mem_of_mem_drop hc)) (fun p _ _ => Or.inr (Nat.zero_le _)) hl
  have hg : gather [] seen = formText seen := by
    rw [gather_eq]
    split
    · rename_i h; rw [h]; rfl
    · rfl
  rw [hg] at h1 h2 h3
  rw [multipart_loop, h3]
  simp only [ok_bind]
  rw [cstr_mk h2]
  simp only [ok_bind]
  rw [strcpyAt_ok (by simp; omega)]
  simp only [ok_bind, List.take_zero, List.nil_append]
  exact ⟨_, rfl, cstr_mk h2 _, by simp; omega⟩

/-! ### Short parts behind fields -/

theorem dropWhile_stop {p : Byte → Bool} {c : Byte} (hc : p c = false) (a b : List Byte) :
    ∃ v, (a ++ c :: b).dropWhile p = v ++ c :: b ∧ v <:+ a := by
  induction a with
  | nil => exact ⟨[], by simp [hc], by simp⟩
  | cons x a ih =>
    by_cases hx : p x = true
    · obtain ⟨v, h1, h2⟩ := ih
      exact ⟨v, by simp [hx, h1], h2.trans (List.suffix_cons _ _)⟩
    · exact ⟨x :: a, by simp [hx], List.suffix_refl _⟩

theorem rdropWhile_stop {p : Byte → Bool} {c : Byte} (hc : p c = false) (a b : List Byte) :
    ∃ w, (a ++ c :: b).rdropWhile p = a ++ c :: w := by
  unfold List.rdropWhile
  rw [List.reverse_append, List.reverse_cons, List.append_assoc, List.singleton_append]
  obtain ⟨v, h1, -⟩ := dropWhile_stop hc b.reverse a.reverse
  rw [h1]
  exact ⟨v.reverse, by simp⟩

/-- The scratch memory holds a name, not at its very beginning. -/
def Stale (d : List Byte) : Prop := ∃ v c w, d = v ++ nameMark ++ c :: w ∧ NulFree v ∧ 21 ≤ v.length ∧ c ≠ 0

theorem stale_of {before after : List (List Byte)} {name content e d' m : List Byte}
    (hb : ∀ l ∈ before, PartLine l ∧ ¬ b!"form-data; name=\"" <:+: l) (hn : ∀ c ∈ name, c ≠ 0 ∧ c ≠ 10 ∧ c ≠ 13 ∧ c ≠ 34)
    (h : d' ++ [0] = strip (untilNul (partText before after name [] content ++ e)) ++ 0 :: m) : Stale d' := by
  generalize hx : b!"\r\n" ++ before.flatMap (· ++ b!"\r\n") = x at *
  have hxn : NulFree x := by
    rw [← hx]
    simp only [nulFree_append]
    refine ⟨by decide, ?_⟩
    intro c hc
    rw [List.mem_flatMap] at hc
    obtain ⟨l, hl, hc⟩ := hc
    rcases List.mem_append.mp hc with hc | hc
    · exact ((hb l hl).1.2 c hc).1
    · clear * - hc; revert hc; revert c; decide
  have hnn : NulFree name := fun c hc => (hn c hc).1
  obtain ⟨g, hg⟩ : ∃ g, partText before after name [] content ++ e = (x ++ b!"Content-Disposition: " ++ nameMark ++ name ++ [34]) ++ g := by
    refine ⟨after.flatMap (b!"\r\n" ++ ·) ++ b!"\r\n\r\n" ++ content ++ b!"\r\n" ++ e, ?_⟩
    unfold partText
    rw [hx, show b!"Content-Disposition: form-data; name=\"" = b!"Content-Disposition: " ++ nameMark from rfl]
    simp only [List.append_assoc, List.append_nil]
  rw [hg, untilNul_append (by simp only [nulFree_append]; exact ⟨⟨⟨⟨hxn, by decide⟩, by decide⟩, hnn⟩, by decide⟩)] at h
  obtain ⟨v, hv, hvs⟩ := dropWhile_stop (p := isSpace) (c := 67) (by decide) x
    (b!"ontent-Disposition: " ++ nameMark ++ name ++ [34] ++ untilNul g)
  obtain ⟨w, hw⟩ := rdropWhile_stop (p := isSpace) (c := 34) (by decide) (v ++ b!"Content-Disposition: " ++ nameMark ++ name) (untilNul g)
  have hstrip : strip (x ++ b!"Content-Disposition: " ++ nameMark ++ name ++ [34] ++ untilNul g) =
      v ++ b!"Content-Disposition: " ++ nameMark ++ name ++ 34 :: w := by
    unfold strip
    rw [show x ++ b!"Content-Disposition: " ++ nameMark ++ name ++ [34] ++ untilNul g =
      x ++ 67 :: (b!"ontent-Disposition: " ++ nameMark ++ name ++ [34] ++ untilNul g) by simp, hv,
      show v ++ 67 :: (b!"ontent-Disposition: " ++ nameMark ++ name ++ [34] ++ untilNul g) =
      v ++ b!"Content-Disposition: " ++ nameMark ++ name ++ 34 :: untilNul g by simp, hw]
  rw [hstrip] at h
  have hvn : NulFree v := fun c hc => hxn c (hvs.subset hc)
  have hd : ∃ w', d' = v ++ b!"Content-Disposition: " ++ nameMark ++ name ++ 34 :: w' := by
    rcases List.eq_nil_or_concat m with rfl | ⟨m', b, rfl⟩
    · refine ⟨w, ?_⟩
      exact List.append_cancel_right (as := d') (bs := [0]) h
    · refine ⟨w ++ 0 :: m', ?_⟩
      have : d' ++ [0] = (v ++ b!"Content-Disposition: " ++ nameMark ++ name ++ 34 :: (w ++ 0 :: m')) ++ [b] := by
        rw [h]; simp
      exact (List.append_inj' this rfl).1
  obtain ⟨w', hd⟩ := hd
  have hvl : NulFree (v ++ b!"Content-Disposition: ") ∧ 21 ≤ (v ++ b!"Content-Disposition: ").length := by
    refine ⟨by rw [nulFree_append]; exact ⟨hvn, by decide⟩, by simp⟩
  cases name with
  | nil => exact ⟨_, 34, w', by rw [hd]; simp, hvl.1, hvl.2, by decide⟩
  | cons c name => exact ⟨_, c, name ++ 34 :: w', by rw [hd]; simp, hvl.1, hvl.2, hnn c (by simp)⟩

/-- A short part without a name of its own finds the name of the part before, behind its end. -/
theorem part_parse_stale (env : Env) (fs : FS) {text d : List Byte} (T : Buf) (hd : Stale d) (hn : NulFree text) (hl : text.length ≤ 21)
    (hnm : ¬ nameMark <:+: text) :
    part_parse env fs T ((text ++ d.drop text.length).map some ++ [some 0]) text.length = ub .oob := by
  obtain ⟨v, c, w, rfl, hv, hvl, hc⟩ := hd
  have he : text ++ (v ++ nameMark ++ c :: w).drop text.length = (text ++ v.drop text.length ++ nameMark ++ [c]) ++ w := by
    rw [List.append_assoc v, List.drop_append_of_le_length (by omega)]
    simp
  rw [he]
  generalize hy : text ++ v.drop text.length = y
  have hyn : NulFree (y ++ nameMark ++ [c]) := by
    rw [← hy]
    simp only [nulFree_append]
    exact ⟨⟨⟨hn, fun b hb => hv b (List.mem_of_mem_drop hb)⟩, by decide⟩, by intro b hb; simp at hb; rw [hb]; exact hc⟩
  obtain ⟨rr, hrr⟩ := untilNul_split (y ++ nameMark ++ [c] ++ w)
  have hu : untilNul (y ++ nameMark ++ [c] ++ w) = y ++ nameMark ++ [c] ++ untilNul w := untilNul_append hyn w
  have hD : (y ++ nameMark ++ [c] ++ w).map some ++ [some 0] = (y ++ nameMark ++ [c] ++ untilNul w).map some ++ some 0 :: rr.map some := by
    have := congrArg (List.map some) hrr
    rw [hu] at this
    simpa using this
  have hun : NulFree (y ++ nameMark ++ [c] ++ untilNul w) := by
    rw [nulFree_append]; exact ⟨hyn, nulFree_untilNul w⟩
  unfold part_parse
  rw [hD, cstr_mk hun]
  simp only [ok_bind]
  have hlen : (y ++ nameMark ++ [c] ++ untilNul w).length = y.length + 18 + (untilNul w).length := by simp; omega
  unfold text_find_after
  rcases findLoop_spec (y ++ nameMark ++ [c] ++ untilNul w) (rr.map some) nameMark (by decide) ((y ++ nameMark ++ [c] ++ untilNul w).length - 0) 0
    (by omega) with ⟨k, e, g1, g2, g3, g4⟩ | ⟨e, g⟩
  swap
  · exact absurd (show nameMark <+: (y ++ nameMark ++ [c] ++ untilNul w).drop y.length by
      rw [List.append_assoc, List.append_assoc, List.drop_left]; exact List.prefix_append _ _) (g y.length (by omega) (by omega))
  have hky : k ≤ y.length := by
    by_contra hlt
    exact g4 y.length (by omega) (by omega) (by
      rw [List.append_assoc, List.append_assoc, List.drop_left]; exact List.prefix_append _ _)
  have hkt : text.length < k + 17 := by
    by_contra hle
    refine hnm (List.IsInfix.trans (l₂ := text.drop k) ?_ (List.drop_suffix _ _).isInfix)
    rw [← hy] at g3
    rw [show text ++ v.drop text.length ++ nameMark ++ [c] ++ untilNul w = text ++ (v.drop text.length ++ nameMark ++ [c] ++ untilNul w) by simp,
      List.drop_append_of_le_length (by omega)] at g3
    exact (List.prefix_of_prefix_length_le g3 (List.prefix_append _ _) (by simp; omega)).isInfix
  rw [e]
  simp only [ok_bind]
  rw [if_neg (by simp; omega), show ((k : Int) + ((nameMark.length : Nat) : Int)).toNat = k + 17 by simp; omega,
    strAt_str (by omega) hun]
  simp only [ok_bind]
  rw [if_neg (by rw [List.length_drop]; omega), if_neg (by omega)]
  have : ∀ dst src : Buf, memcpyI dst src (k + 17) ((text.length : Int) - ((k : Int) + ((nameMark.length : Nat) : Int))) = ub .oob := by
    intro dst src
    unfold memcpyI
    rw [if_pos (by simp; omega)]
  rw [this]
  rfl

theorem partsLoop_short (env : Env) (fs : FS) {delim : List Byte} (hd : Delimiter delim) {body text tail : List Byte}
    (hlast : text.getLast? = some 10) (hn : NulFree text) (hl : text.length ≤ 21) (hnm : ¬ nameMark <:+: text) (hnt : ¬ delim <:+: text)
    {fields : List (Str × Str)} {mid : List Byte} (hm : Leading (fun f t => FieldPart f.1 f.2 t ∧ ¬ b!"; filename=\"" <:+: t) delim fields mid) :
    ∀ (fuel : Nat) (z a d : List Byte) (f : Str) (r : Buf), fields.length < fuel → (fields = [] → Stale d) →
      At delim body z a (mid ++ (text ++ delim ++ tail)) d f r →
      partsLoop env (body.map some ++ [some 0]) delim body.length fuel z.length (d.map some ++ [some 0])
        (f.map some ++ some 0 :: r) fs = ub .oob := by
  induction hm with
  | nil =>
    intro fuel z a d f r hfu hst h
    cases fuel with
    | zero => simp at hfu
    | succ fuel =>
      rw [partsLoop_begin env fs hd fuel z a text tail h.eq h.line h.none hlast hnt d h.len,
        part_parse_stale env fs _ (hst rfl) hn hl hnm]
      rfl
  | part p ps t mid ht hnt' _ ih =>
    intro fuel z a d f r hfu hst h
    cases fuel with
    | zero => simp at hfu
    | succ fuel =>
      obtain ⟨⟨before, after, k1, k2, k3, rfl⟩, k4⟩ := ht
      obtain ⟨cut, hc⟩ := exists_cut p.1
      obtain ⟨more, -, hsh⟩ := part_shape (params := []) (content := p.2) k1 k2 k3 (by simp) hc
      rw [List.append_assoc] at h
      obtain ⟨z', a', d', r', h', ⟨m, hm⟩, -, e⟩ := partsLoop_field env fs hd h fuel (p := (cut, untilNul p.2)) ⟨_, _, _, hsh, rfl, k4⟩ hnt'
      rw [e]
      exact ih fuel z' a' d' _ r' (by simp at hfu; omega) (fun _ => stale_of k1 k3 hm) h'

/-- C72, what a short part does: if behind at least one field there are two delimiters with at most 21 bytes between them (such as
the end of a line, or the end of the closing delimiter), the name of the field before is found behind the end of the short part and
a negative number of bytes is copied, whatever follows. -/
theorem C72_short (env : Env) (fs : FS) (delim pre mid text rest : List Byte) (fields : List (Str × Str)) (hd : Delimiter delim)
    (hpre : ¬ delim <:+: pre) (hl : pre = [] ∨ pre.getLast? = some 10) (hf : fields ≠ [])
    (hm : Leading (fun f t => FieldPart f.1 f.2 t ∧ ¬ b!"; filename=\"" <:+: t) delim fields mid)
    (ht : text.getLast? = some 10) (hn : NulFree text) (htl : text.length ≤ 21) (hnm : ¬ b!"form-data; name=\"" <:+: text)
    (hnd : ¬ delim <:+: text) :
    multipart_parse env fs ((pre ++ delim ++ mid ++ text ++ delim ++ rest).map some ++ [some 0]) delim
      (pre ++ delim ++ mid ++ text ++ delim ++ rest).length = ub .oob := by
  have hlen : fields.length ≤ mid.length := by
    clear * - hm hd
    have h2 : 2 ≤ delim.length := by simpa using hd.1.length_le
    induction hm with
    | nil => simp
    | part p ps t mid ht hn _ ih => simp; omega
  have hbody : pre ++ delim ++ mid ++ text ++ delim ++ rest = pre ++ delim ++ (mid ++ (text ++ delim ++ rest)) := by
    simp only [List.append_assoc]
  generalize hbd : pre ++ delim ++ mid ++ text ++ delim ++ rest = body at hbody ⊢
  rw [multipart_loop, partsLoop_short env fs hd ht hn htl hnm hnd hm (body.length + 1) [] pre _ [] _ (by rw [hbody]; simp; omega)
    (fun h => absurd h hf) (At.init hbody hpre hl)]
  rfl

/-! ### Names behind the empty line -/

/-- A part whose lines start with the empty one: the name is both name and content. -/
def earlyPart (name : List Byte) : List Byte := b!"\r\n\r\nform-data; name=\"" ++ name ++ b!"\"\r\n"

theorem part_parse_early (env : Env) (fs : FS) {name e : List Byte} {n : Nat} (hk : ∀ c ∈ name, 35 ≤ c.toNat ∧ c.toNat ≤ 127)
    (he : ∀ c ∈ e, c = 0) (hfm : ¬ fileMark <:+: earlyPart name) (hov : n < 2 * name.length + 19) :
    part_parse env fs (some 0 :: List.replicate n (some 0)) ((earlyPart name ++ e).map some ++ [some 0]) (earlyPart name).length = ub .oob := by
  have hkeep : ∀ c ∈ name, keeps c = true := fun c hc => by simp [keeps, hk c hc]
  have hnn : NulFree name := by
    intro c hc h0
    have := (hk c hc).1
    rw [h0] at this
    revert this; decide
  have hsplit : earlyPart name = blankLine ++ nameMark ++ (name ++ b!"\"\r\n") := by unfold earlyPart; simp
  have hen : NulFree (earlyPart name) := by
    unfold earlyPart
    simp only [nulFree_append]
    exact ⟨⟨by decide, hnn⟩, by decide⟩
  have hlen : (earlyPart name).length = name.length + 24 := by rw [hsplit]; simp
  obtain ⟨rr, hrr⟩ := untilNul_split (earlyPart name ++ e)
  have hu : untilNul (earlyPart name ++ e) = earlyPart name := by
    rw [untilNul_zeros _ _ (Or.inr he), ← List.append_nil (earlyPart name), untilNul_append hen]; rfl
  have hD : (earlyPart name ++ e).map some ++ [some 0] = (earlyPart name).map some ++ some 0 :: rr.map some := by
    have := congrArg (List.map some) hrr
    rw [hu] at this
    simpa using this
  rw [hD]
  have hfind1 : text_find_after ((earlyPart name).map some ++ some 0 :: rr.map some) nameMark 0 (earlyPart name).length = ok 21 := by
    rw [find_first (k := 4) (by decide) (Nat.le_refl _)]
    · rfl
    · refine ⟨by omega, by omega, ?_, ?_⟩
      · rw [hsplit]; exact ⟨_, rfl⟩
      · intro j _ hj
        rw [hsplit]
        exact nameMark_first (x := blankLine) (by decide) j hj _
  have hfind2 : text_find_after ((earlyPart name).map some ++ some 0 :: rr.map some) blankLine 0 (earlyPart name).length = ok 4 := by
    rw [find_first (k := 0) (by decide) (Nat.le_refl _)]
    · rfl
    · exact ⟨by omega, by omega, by rw [hsplit]; exact ⟨_, rfl⟩, by omega⟩
  have hfind3 : text_find_after ((earlyPart name).map some ++ some 0 :: rr.map some) fileMark 0 (earlyPart name).length = ok (-1) :=
    find_none (by decide) (Nat.le_refl _) (fun j _ _ => not_prefix_drop hfm j)
  have hd21 : (earlyPart name).drop 21 = name ++ b!"\"\r\n" := by rw [hsplit]; rfl
  unfold part_parse
  rw [cstr_mk hen]
  simp only [ok_bind]
  rw [hfind1]
  simp only [ok_bind]
  rw [if_neg (by decide), show (21 : Int).toNat = 21 from rfl, strAt_str (by omega) hen]
  simp only [ok_bind]
  rw [if_neg (by rw [List.length_drop]; omega), if_neg (by omega), hlen,
    show (((name.length + 24 : Nat) : Int) + 1).toNat = name.length + 25 by omega,
    show ((name.length + 24 : Nat) : Int) - 21 = ((name.length + 3 : Nat) : Int) by omega]
  have hfield : memcpyI (calloc (name.length + 25)) ((earlyPart name).map some ++ some 0 :: rr.map some) 21 ((name.length + 3 : Nat) : Int) =
      ok ((name ++ b!"\"\r\n").map some ++ some 0 :: calloc 21) := by
    rw [memcpyI_ok (by simp) (by simp; omega)]
    congr 2
    · rw [List.drop_append_of_le_length (by simp; omega), ← List.map_drop, hd21, List.take_left' (by simp)]
    · unfold calloc
      rw [List.drop_replicate, show name.length + 25 - (name.length + 3) = 21 + 1 by omega]
      rfl
  rw [hfield]
  simp only [ok_bind]
  have hst : Buf.storeI ((name ++ b!"\"\r\n").map some ++ some 0 :: calloc 21) ((name.length + 3 : Nat) : Int) 0 =
      ok ((name ++ b!"\"\r\n").map some ++ some 0 :: calloc 21) := by
    unfold Buf.storeI
    rw [if_neg (by omega), Int.toNat_natCast, store_append_cons (by simp)]
  rw [hst]
  simp only [ok_bind]
  obtain ⟨q, hchop, -⟩ := chop_eq (name ++ b!"\"\r\n") (by rw [nulFree_append]; exact ⟨hnn, by decide⟩) (calloc 21)
  have htw : (name ++ b!"\"\r\n").takeWhile keeps = name := by
    rw [List.takeWhile_append_of_pos hkeep]
    have : b!"\"\r\n".takeWhile keeps = [] := by decide
    rw [this, List.append_nil]
  rw [htw] at hchop
  rw [hchop]
  simp only [ok_bind]
  rw [show (((name.length + 24 : Nat) : Int)).toNat = (earlyPart name).length by omega, hfind2]
  simp only [ok_bind]
  have hc0 : cstr (some 0 :: List.replicate n (some (0 : Byte))) = ok [] := cstr_mk (s := []) (by simp) _
  rw [hc0]
  simp only [ok_bind, List.length_nil, Nat.lt_irrefl, if_false]
  rw [show name.length + 24 = (earlyPart name).length from hlen.symm, hfind3]
  simp only [ok_bind]
  rw [if_pos (by decide), if_neg (by decide), show (4 : Int).toNat = 4 from rfl, hlen,
    show ((name.length + 24 : Nat) : Int) - 4 - 2 = ((name.length + 18 : Nat) : Int) by omega]
  have hval : memcpyI (calloc (name.length + 25)) ((earlyPart name).map some ++ some 0 :: rr.map some) 4 ((name.length + 18 : Nat) : Int) =
      ok ((nameMark ++ name ++ b!"\"").map some ++ some 0 :: calloc 6) := by
    rw [memcpyI_ok (by simp) (by simp; omega)]
    congr 2
    · rw [show (earlyPart name).map some ++ some 0 :: rr.map some = blankLine.map some ++ ((nameMark ++ name ++ b!"\"").map some ++
        (b!"\r\n".map some ++ some 0 :: rr.map some)) by rw [hsplit]; simp, List.drop_left' (by simp), List.take_left' (by simp)]
    · unfold calloc
      rw [List.drop_replicate, show name.length + 25 - (name.length + 18) = 6 + 1 by omega]
      rfl
  rw [hval]
  simp only [ok_bind]
  rw [cstr_mk hnn]
  simp only [ok_bind]
  rw [cstr_mk (by simp only [nulFree_append]; exact ⟨⟨by decide, hnn⟩, by decide⟩)]
  simp only [ok_bind]
  have : appendStr (some 0 :: List.replicate n (some 0)) (name ++ b!"=" ++ (nameMark ++ name ++ b!"\"")) = ub .oob := by
    unfold appendStr strcat
    rw [hc0]
    simp only [ok_bind]
    exact strcpyAt_over (by simp; omega)
  rw [this]
  rfl

/-- C72, what a name behind the empty line does: it counts as name and as content, so that about twice as many bytes are written as
were sent. -/
theorem C72_early (env : Env) (fs : FS) (delim pre rest name : List Byte) (hd : Delimiter delim)
    (hpre : ¬ delim <:+: pre) (hl : pre = [] ∨ pre.getLast? = some 10) (hk : ∀ c ∈ name, 35 ≤ c.toNat ∧ c.toNat ≤ 127) (part body : List Byte)
    (hp : part = b!"\r\n\r\nform-data; name=\"" ++ name ++ b!"\"\r\n") (hnd : ¬ delim <:+: part) (hnf : ¬ b!"; filename=\"" <:+: part)
    (hb : body = pre ++ delim ++ part ++ delim ++ rest) (hov : body.length < 2 * name.length + 19) :
    multipart_parse env fs (body.map some ++ [some 0]) delim body.length = ub .oob := by
  have hp' : part = earlyPart name := hp
  subst hp'
  have hb' : body = ([] : List Byte) ++ pre ++ delim ++ (earlyPart name ++ delim ++ rest) := by rw [hb]; simp
  rw [multipart_loop, partsLoop_begin env fs hd body.length [] pre (earlyPart name) rest hb' hl hpre (by
      unfold earlyPart
      rw [List.getLast?_append]; simp) hnd _ (by simp)]
  rw [List.map_nil, List.nil_append, part_parse_early env fs hk (by
    intro c hc
    exact List.eq_of_mem_replicate (List.mem_of_mem_drop hc)) hnf hov]
  rfl

/-- A body with a comment, a field, a part without a name that is longer, and another field: the form is n=7&m=8. -/
def mixedPieces : List Piece :=
  [⟨b!" comment\r\n", none⟩, ⟨partText [] [] b!"n" [] b!"7", some (b!"n", b!"7")⟩,
    ⟨b!"\r\nContent-Type: text/plain\r\n\r\na part without a name, but long\r\n", none⟩,
    ⟨partText [] [] b!"m" [] b!"8", some (b!"m", b!"8")⟩]

def mixedBody : List Byte := b!"--xY" ++ mixedPieces.flatMap (fun p => p.text ++ b!"--xY") ++ b!"--\r\n"

theorem mixed_multipart : Multipart PiecePart b!"--xY" mixedPieces mixedBody := by
  refine ⟨[], _, ?_, by decide, Or.inl rfl, .part _ _ _ _ ⟨rfl, by decide +kernel, by decide +kernel⟩ (by decide +kernel)
    (.part _ _ _ _ ⟨rfl, by decide +kernel, ⟨[], [], by simp, by simp, by decide, rfl⟩⟩ (by decide +kernel)
    (.part _ _ _ _ ⟨rfl, by decide +kernel, by decide +kernel⟩ (by decide +kernel)
    (.part _ _ _ _ ⟨rfl, by decide +kernel, ⟨[], [], by simp, by simp, by decide, rfl⟩⟩ (by decide +kernel)
    (.last b!"--\r\n" (by decide)))))⟩
  decide +kernel

example : ∃ form, multipart_parse sampleEnv ⟨fun _ => none, fun _ => true, fun _ => true⟩ (mixedBody.map some ++ [some 0]) b!"--xY"
    mixedBody.length = ok (form, ⟨fun _ => none, fun _ => true, fun _ => true⟩) ∧ cstr form = ok b!"n=7&m=8" := by
  obtain ⟨form, h1, h2, -⟩ := C72_partial sampleEnv ⟨fun _ => none, fun _ => true, fun _ => true⟩ b!"--xY" mixedBody mixedPieces
    [(b!"n", b!"7"), (b!"m", b!"8")] xY_delimiter mixed_multipart
    (by unfold mixedPieces; decide +kernel)
    (.cons ⟨⟨[], rfl, by decide, by decide⟩, by decide, Or.inl rfl⟩ (.cons ⟨⟨[], rfl, by decide, by decide⟩, by decide, Or.inl rfl⟩ .nil))
  exact ⟨form, h1, h2⟩

/-- A form that is closed and followed by one more delimiter. -/
example (env : Env) (fs : FS) : ∃ body : List Byte, body = b!"--xY" ++ partText [] [] b!"n" [] b!"7" ++ b!"--xY--\r\n--xY--\r\n" ∧
    multipart_parse env fs (body.map some ++ [some 0]) b!"--xY" body.length = ub .oob := by
  have := C72_short env fs b!"--xY" [] (partText [] [] b!"n" [] b!"7" ++ b!"--xY" ++ []) b!"--\r\n" b!"--\r\n" [(b!"n", b!"7")] xY_delimiter
    (by decide) (Or.inl rfl) (by simp)
    (.part _ _ _ _ ⟨⟨[], [], by simp, by simp, by decide, rfl⟩, by decide +kernel⟩ (by decide +kernel) .nil)
    (by decide) (by decide) (by decide) (by decide) (by decide)
  exact ⟨_, by decide +kernel, this⟩

example (env : Env) (fs : FS) : ∃ body : List Byte, multipart_parse env fs (body.map some ++ [some 0]) b!"--xY" body.length = ub .oob :=
  ⟨_, C72_early env fs b!"--xY" [] b!"--\r\n" b!"abcdefghijklmnopqrstuvwxyz" xY_delimiter (by decide) (Or.inl rfl) (by decide) _ _ rfl
    (by decide +kernel) (by decide +kernel) rfl (by decide)⟩

end Wayuu
