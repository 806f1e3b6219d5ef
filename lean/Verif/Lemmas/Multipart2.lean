import Verif.Lemmas.Multipart
/-
multipart_parse (ws.c): the loop over the parts.
-/
namespace Wayuu
open C Spec

/-- `trim` on a block of bytes that ends with a NUL: still such a block, with no new words. -/
theorem trim_scratch (d : List Byte) : ∃ d' : List Byte, trim (d.map some ++ [some 0]) = ok (d'.map some ++ [some 0]) ∧
    d'.length = d.length ∧ ∀ w, NulFree w → w <:+: d' → w <:+: d := by
  obtain ⟨rr, hrr⟩ := untilNul_split d
  obtain ⟨q, h1, h2, h3, h4⟩ := trim_bytes (untilNul d) (nulFree_untilNul d) (rr.map some)
  have hD : d.map some ++ [some 0] = (untilNul d).map some ++ some 0 :: rr.map some := by
    have := congrArg (List.map some) hrr
    simpa using this
  have hlast : (strip (untilNul d) ++ 0 :: (q ++ rr)).getLast? = some 0 := by
    have hr : rr = [] ∨ rr.getLast? = some 0 := by
      by_cases h : rr = []
      · exact Or.inl h
      · right
        have := congrArg List.getLast? hrr
        rw [List.getLast?_append, List.getLast?_append] at this
        simp only [List.getLast?_singleton, Option.some_or, List.getLast?_cons] at this
        obtain ⟨v, hv⟩ := Option.ne_none_iff_exists'.mp (by rw [ne_eq, List.getLast?_eq_none_iff]; exact h : rr.getLast? ≠ none)
        rw [hv] at this ⊢
        simpa using this.symm
    rw [List.getLast?_append]
    have : (0 :: (q ++ rr)).getLast? = some 0 := by
      rw [List.getLast?_cons, List.getLast?_append]
      rcases hr with rfl | hr
      · rcases h3 with rfl | h3
        · simp
        · simp [h3]
      · simp [hr]
    rw [this]
    rfl
  obtain ⟨d', hd'⟩ := List.getLast?_eq_some_iff.mp hlast
  refine ⟨d', ?_, ?_, ?_⟩
  · rw [hD, h1]
    have := congrArg (List.map some) hd'
    congr 1
    simpa using this
  · have e1 := congrArg List.length hd'
    have e2 := congrArg List.length hrr
    simp at e1 e2
    omega
  · intro w hw hi
    have h0 : (0 : Byte) ∉ w := fun h => hw 0 h rfl
    have hs : untilNul d <:+: d := (List.takeWhile_prefix _).isInfix
    have hrd : ∀ w, NulFree w → w <:+: rr → w <:+: d := by
      intro w hw hi
      have : w <:+: d ++ 0 :: [] := by
        rw [hrr]
        exact hi.trans ⟨untilNul d ++ [0], [], by simp⟩
      rcases infix_sep this (fun h => hw 0 h rfl) with h | h
      · exact h
      · rw [List.infix_nil.mp h]; exact List.nil_infix
    have : w <:+: strip (untilNul d) ++ 0 :: (q ++ rr) := by
      rw [hd']
      exact hi.trans (List.prefix_append _ _).isInfix
    rcases infix_sep this h0 with h | h
    · refine h.trans (List.IsInfix.trans ?_ hs)
      unfold strip
      exact (List.rdropWhile_prefix _ _).isInfix.trans (List.dropWhile_suffix _).isInfix
    · rcases h3 with rfl | h3
      · exact hrd w hw (by simpa using h)
      · obtain ⟨q', rfl⟩ := List.getLast?_eq_some_iff.mp h3
        rw [List.append_assoc, List.singleton_append] at h
        rcases infix_sep h h0 with h | h
        · exact (h4 w hw (h.trans (List.prefix_append _ _).isInfix)).trans hs
        · exact hrd w hw h

/-- A part that carries a plain field, as far as the parser is concerned. -/
def Plain (f : Str × Str) (text : List Byte) : Prop :=
  ∃ x rest content, PartShape text x f.1 rest content ∧ f.2 = untilNul content ∧ ¬ fileMark <:+: text

theorem PartShape.length {text x name rest content : List Byte} (h : PartShape text x name rest content) :
    text.length = x.length + 17 + name.length + rest.length + 4 + content.length + 2 := by
  rw [h.eq]; simp; omega

theorem PartShape.last {text x name rest content : List Byte} (h : PartShape text x name rest content) :
    ∃ t, text = t ++ [10] := ⟨x ++ nameMark ++ name ++ rest ++ blankLine ++ content ++ b!"\r", by rw [h.eq]; simp⟩

theorem part_plain (env : Env) (fs : FS) {text : List Byte} {p : Str × Str} (hp : Plain p text) {e : List Byte}
    (he : ¬ fileMark <:+: e) {f : Str} {r : Buf} (hf : NulFree f) (hr : text.length ≤ r.length) :
    ∃ r' : Buf, (amp f ++ p.1 ++ b!"=" ++ p.2).length + r'.length = f.length + r.length ∧
      NulFree (amp f ++ p.1 ++ b!"=" ++ p.2) ∧ (amp f ++ p.1 ++ b!"=" ++ p.2).length ≤ f.length + text.length ∧
      part_parse env fs (f.map some ++ some 0 :: r) ((text ++ e).map some ++ [some 0]) text.length =
        ok ((amp f ++ p.1 ++ b!"=" ++ p.2).map some ++ some 0 :: r', fs) ∧ ¬ fileMark <:+: text ++ e := by
  obtain ⟨name, value⟩ := p
  obtain ⟨x, rest, content, hs, hv, hfm⟩ := hp
  simp only at hs hv
  have hl := hs.length
  obtain ⟨r1, h1, h2, h3⟩ := part_parse_eq env fs hs e hf (by omega : 1 ≤ r.length)
  have hnf : ¬ fileMark <:+: text ++ e := by
    obtain ⟨t, rfl⟩ := hs.last
    intro h
    rw [List.append_assoc, List.singleton_append] at h
    rcases infix_sep h (by decide) with h | h
    · exact hfm (h.trans (List.prefix_append _ _).isInfix)
    · exact he h
  have hfind : text_find_after ((text ++ e).map some ++ [some 0]) fileMark 0 (untilNul (text ++ e)).length = ok (-1) := by
    refine find_none (by decide) ?_ (fun j _ _ => not_prefix_drop hnf j)
    exact (List.takeWhile_prefix _).length_le
  rw [hfind] at h3
  simp only [ok_bind] at h3
  unfold part_tail at h3
  rw [if_neg (by omega), Int.toNat_natCast] at h3
  have hds : (x ++ nameMark ++ name ++ rest ++ blankLine).length = text.length - content.length - 2 := by
    rw [hl]; simp; omega
  have hmem : memcpyI (calloc (text.length + 1)) ((text ++ e).map some ++ [some 0]) (x ++ nameMark ++ name ++ rest ++ blankLine).length
      ((text.length : Int) - (((x ++ nameMark ++ name ++ rest ++ blankLine).length : Nat) : Int) - 2) =
      ok (content.map some ++ some 0 :: calloc (text.length - content.length)) := by
    rw [show (text.length : Int) - (((x ++ nameMark ++ name ++ rest ++ blankLine).length : Nat) : Int) - 2 = ((content.length : Nat) : Int) by
      rw [hds]; omega]
    rw [memcpyI_ok (by simp; omega) (by rw [hds]; simp; omega)]
    congr 2
    · have : (text ++ e).map some ++ [some (0 : Byte)] = (x ++ nameMark ++ name ++ rest ++ blankLine).map some ++
          (content.map some ++ (b!"\r\n" ++ e ++ [0]).map some) := by
        rw [hs.eq]; simp
      rw [this, List.drop_left' (by simp), List.take_left' (by simp)]
    · unfold calloc
      rw [List.drop_replicate, show text.length + 1 - content.length = (text.length - content.length) + 1 by omega]
      rfl
  rw [hmem] at h3
  simp only [ok_bind] at h3
  obtain ⟨rr, hrr⟩ := untilNul_split content
  have hcv : cstr (content.map some ++ some 0 :: calloc (text.length - content.length)) = ok value := by
    have : content.map some ++ some 0 :: calloc (text.length - content.length) =
        (untilNul content).map some ++ some 0 :: (rr.map some ++ calloc (text.length - content.length)) := by
      have := congrArg (fun l => List.map some l ++ calloc (text.length - content.length)) hrr
      simpa using this
    rw [this, cstr_mk (nulFree_untilNul _), hv]
  rw [hcv] at h3
  simp only [ok_bind] at h3
  have hvl : value.length ≤ content.length := by rw [hv]; exact (List.takeWhile_prefix _).length_le
  have hal : (amp f).length ≤ f.length + 1 := by unfold amp; split <;> simp
  have hnn : NulFree name := by
    have := hs.nul
    simp only [nulFree_append] at this
    exact this.1.2
  have hcat : appendStr ((amp f).map some ++ some 0 :: r1) (name ++ b!"=" ++ value) =
      ok ((amp f ++ name ++ b!"=" ++ value).map some ++ some 0 :: r1.drop (name ++ b!"=" ++ value).length) := by
    have := strcat_mk (s := name ++ b!"=" ++ value) (r := r1) h2 (by simp; omega)
    unfold appendStr
    rw [this]
    simp
  rw [hcat] at h3
  simp only [ok_bind] at h3
  refine ⟨_, ?_, ?_, ?_, h3, hnf⟩
  · simp only [List.length_append, List.length_drop, List.length_singleton] at h1 ⊢
    omega
  · simp only [nulFree_append]
    exact ⟨⟨⟨h2, hnn⟩, by decide⟩, by rw [hv]; exact nulFree_untilNul _⟩
  · simp only [List.length_append, List.length_singleton]
    omega

/-- The fields gathered one after the other. -/
def gather (f : Str) (fields : List (Str × Str)) : Str := fields.foldl (fun f p => amp f ++ p.1 ++ b!"=" ++ p.2) f

theorem parts_head {body z a delim tail : List Byte} (hd : Delimiter delim) (hb : body = z ++ a ++ delim ++ tail)
    (ha : a = [] ∨ a.getLast? = some 10) (hna : ¬ delim <:+: a) :
    text_find_after (body.map some ++ [some 0]) delim z.length body.length =
      ok (((z.length + a.length + delim.length : Nat)) : Int) := by
  have h2 : 2 ≤ delim.length := by simpa using hd.1.length_le
  have hn : NulFree delim := fun c hc => (hd.2 c hc).1
  rw [find_first (k := z.length + a.length) hn (Nat.le_refl _)]
  · simp
  · rw [hb]
    refine firstOcc_sep (c := 10) (fun h => (hd.2 _ h).2 rfl) ha hna ?_
    simp; omega

theorem parts_none {body z delim tail : List Byte} (hd : Delimiter delim) (hb : body = z ++ tail) (hna : ¬ delim <:+: tail) :
    text_find_after (body.map some ++ [some 0]) delim z.length body.length = ok (-1) := by
  have hn : NulFree delim := fun c hc => (hd.2 c hc).1
  refine find_none hn (Nat.le_refl _) (fun j h1 _ h => ?_)
  obtain ⟨i, rfl⟩ : ∃ i, j = z.length + i := ⟨j - z.length, by omega⟩
  rw [hb, ← List.drop_drop, List.drop_left] at h
  exact hna (infix_of_prefix_drop h)

/-- The first part and delimiter of what follows the delimiter behind `z ++ a`. -/
theorem partsLoop_begin (env : Env) (fs : FS) {delim : List Byte} (hd : Delimiter delim) {body : List Byte} (fuel : Nat)
    (z a text tail : List Byte) (hb : body = z ++ a ++ delim ++ (text ++ delim ++ tail)) (ha : a = [] ∨ a.getLast? = some 10)
    (hna : ¬ delim <:+: a) (hlast : text.getLast? = some 10) (hnt : ¬ delim <:+: text) (d : List Byte) (hdl : d.length = body.length)
    (T : Buf) :
    partsLoop env (body.map some ++ [some 0]) delim body.length (fuel + 1) z.length (d.map some ++ [some 0]) T fs =
      (do
        let x ← part_parse env fs T ((text ++ d.drop text.length).map some ++ [some 0]) text.length
        let tmppart ← trim ((text ++ d.drop text.length).map some ++ [some 0])
        partsLoop env (body.map some ++ [some 0]) delim body.length fuel (z.length + a.length + delim.length + 1) tmppart x.1 x.2) := by
  have h2 : 2 ≤ delim.length := by simpa using hd.1.length_le
  have hbl : body.length = z.length + a.length + delim.length + (text.length + delim.length + tail.length) := by
    rw [hb]; simp; omega
  have hb1 : body = (z ++ a ++ delim) ++ text ++ delim ++ tail := by rw [hb]; simp
  have hps2 := parts_head (z := z ++ a ++ delim) hd hb1 (Or.inr hlast) hnt
  rw [List.length_append, List.length_append] at hps2
  conv_lhs => unfold partsLoop
  rw [if_neg (by omega), parts_head hd hb ha hna]
  simp only [ok_bind]
  rw [if_neg (by omega), Int.toNat_natCast, hps2]
  simp only [ok_bind]
  rw [if_neg (by omega)]
  rw [show (((z.length + a.length + delim.length + text.length + delim.length : Nat)) : Int) -
    (((z.length + a.length + delim.length : Nat)) : Int) - delim.length = (text.length : Int) by omega]
  have hmem : memcpyI (d.map some ++ [some 0]) (body.map some ++ [some 0]) (z.length + a.length + delim.length) (text.length : Int) =
      ok ((text ++ d.drop text.length).map some ++ [some 0]) := by
    rw [memcpyI_ok (by simp; omega) (by simp; omega)]
    have e1 : (body.map some ++ [some 0]).drop (z.length + a.length + delim.length) =
        text.map some ++ ((delim ++ tail).map some ++ [some 0]) := by
      rw [hb1, show (z ++ a ++ delim ++ text ++ delim ++ tail).map some ++ [some (0 : Byte)] =
        (z ++ a ++ delim).map some ++ (text.map some ++ ((delim ++ tail).map some ++ [some 0])) by simp]
      exact List.drop_left' (by simp; omega)
    rw [e1, List.take_left' (by simp), List.drop_append_of_le_length (by simp; omega), ← List.map_drop]
    simp only [List.map_append, List.append_assoc]
  rw [hmem]
  simp only [ok_bind]

/-- Where the loop stands, and what it can rely on. -/
structure At (delim body z a tail d : List Byte) (f : Str) (r : Buf) : Prop where
  eq : body = z ++ a ++ delim ++ tail
  line : a = [] ∨ a.getLast? = some 10
  none : ¬ delim <:+: a
  len : d.length = body.length
  mark : ¬ fileMark <:+: d
  nul : NulFree f
  room : f.length + r.length = body.length
  used : f.length ≤ z.length + a.length

theorem Plain.last {p : Str × Str} {text : List Byte} (hpl : Plain p text) : text.getLast? = some 10 ∧ 23 ≤ text.length := by
  obtain ⟨x, rest, content, hs, -⟩ := hpl
  obtain ⟨t, ht⟩ := hs.last
  have := hs.length
  exact ⟨by rw [ht]; simp, by omega⟩

/-- One plain part. -/
theorem partsLoop_step (env : Env) (fs : FS) {delim : List Byte} (hd : Delimiter delim) {body z a text tail d : List Byte} {f : Str} {r : Buf}
    (h : At delim body z a (text ++ delim ++ tail) d f r) (fuel : Nat) {p : Str × Str} (hpl : Plain p text) (hnt : ¬ delim <:+: text) :
    ∃ (z' a' d' : List Byte) (r' : Buf), At delim body z' a' tail d' (amp f ++ p.1 ++ b!"=" ++ p.2) r' ∧
      partsLoop env (body.map some ++ [some 0]) delim body.length (fuel + 1) z.length (d.map some ++ [some 0])
        (f.map some ++ some 0 :: r) fs =
      partsLoop env (body.map some ++ [some 0]) delim body.length fuel z'.length (d'.map some ++ [some 0])
        ((amp f ++ p.1 ++ b!"=" ++ p.2).map some ++ some 0 :: r') fs := by
  obtain ⟨hlast, htl⟩ := hpl.last
  obtain ⟨hb, ha, hna, hdl, hdf, hf, hfr, hfl⟩ := h
  have hbl : body.length = z.length + a.length + delim.length + (text.length + delim.length + tail.length) := by
    rw [hb]; simp; omega
  have hb2 : body = (z ++ a ++ delim ++ text.take 1) ++ text.drop 1 ++ delim ++ tail := by
    rw [hb]
    have := List.take_append_drop 1 text
    simp only [List.append_assoc]
    rw [← List.append_assoc (text.take 1), this]
  have hdf' : ¬ fileMark <:+: d.drop text.length := fun h => hdf (h.trans (List.drop_suffix _ _).isInfix)
  obtain ⟨r1, k1, k2, k3, k4, k5⟩ := part_plain env fs hpl hdf' hf (r := r) (by omega)
  obtain ⟨d', t1, t2, t3⟩ := trim_scratch (text ++ d.drop text.length)
  have hz : z.length + a.length + delim.length + 1 = (z ++ a ++ delim ++ text.take 1).length := by
    simp; omega
  refine ⟨z ++ a ++ delim ++ text.take 1, text.drop 1, d', r1, ⟨hb2, ?_, ?_, ?_, ?_, k2, ?_, ?_⟩, ?_⟩
  · right
    rw [List.getLast?_drop, if_neg (by omega), hlast]
  · exact fun h => hnt (h.trans (List.drop_suffix _ _).isInfix)
  · rw [t2]; simp; omega
  · exact fun h => k5 (t3 _ (by decide) h)
  · rw [k1, hfr]
  · simp at k3 ⊢; omega
  · rw [partsLoop_begin env fs hd fuel z a text tail hb ha hna hlast hnt d hdl, k4]
    simp only [ok_bind]
    rw [t1]
    simp only [ok_bind]
    rw [hz]

theorem partsLoop_stop (env : Env) (fs : FS) {delim : List Byte} (hd : Delimiter delim) {body z a tail : List Byte} (D : Buf)
    (hb : body = z ++ a ++ delim ++ tail) (hline : a = [] ∨ a.getLast? = some 10) (hnone : ¬ delim <:+: a) (fuel : Nat)
    (ht : ¬ delim <:+: tail) (T : Buf) :
    partsLoop env (body.map some ++ [some 0]) delim body.length (fuel + 1) z.length D T fs = ok (T, fs) := by
  have h2 : 2 ≤ delim.length := by simpa using hd.1.length_le
  unfold partsLoop
  rw [if_neg (by rw [hb]; simp; omega), parts_head hd hb hline hnone]
  simp only [ok_bind]
  rw [if_neg (by omega), Int.toNat_natCast]
  have := parts_none (z := z ++ a ++ delim) hd hb ht
  rw [List.length_append, List.length_append] at this
  rw [this]
  simp only [ok_bind]
  rw [if_pos (by omega)]

theorem partsLoop_end (env : Env) (fs : FS) {delim : List Byte} (hd : Delimiter delim) {body z a tail d : List Byte} {f : Str} {r : Buf}
    (h : At delim body z a tail d f r) (fuel : Nat) (ht : ¬ delim <:+: tail) (T : Buf) :
    partsLoop env (body.map some ++ [some 0]) delim body.length (fuel + 1) z.length (d.map some ++ [some 0]) T fs = ok (T, fs) :=
  partsLoop_stop env fs hd _ h.eq h.line h.none fuel ht T

theorem partsLoop_plain (env : Env) (fs : FS) {delim : List Byte} (hd : Delimiter delim) {body : List Byte} (fields : List (Str × Str))
    (fuel : Nat) {z a tail d : List Byte} {f : Str} {r : Buf} (h : At delim body z a tail d f r)
    (hp : Parts Plain delim fields tail) (hfuel : fields.length < fuel) :
    ∃ r' : Buf, (gather f fields).length + r'.length = body.length ∧ NulFree (gather f fields) ∧
      partsLoop env (body.map some ++ [some 0]) delim body.length fuel z.length (d.map some ++ [some 0])
        (f.map some ++ some 0 :: r) fs = ok ((gather f fields).map some ++ some 0 :: r', fs) := by
  induction fields generalizing fuel z a tail d f r with
  | nil =>
    cases fuel with
    | zero => simp at hfuel
    | succ fuel =>
      cases hp with
      | last _ ht => exact ⟨r, h.room, h.nul, partsLoop_end env fs hd h fuel ht _⟩
  | cons p fields ih =>
    cases fuel with
    | zero => simp at hfuel
    | succ fuel =>
      cases hp with
      | part _ _ text tail' hpl hnt hps =>
        obtain ⟨z', a', d', r', h', e⟩ := partsLoop_step env fs hd h fuel hpl hnt
        rw [e]
        exact ih fuel h' hps (by simp at hfuel; omega)

theorem gather_eq (f : Str) (fields : List (Str × Str)) :
    gather f fields = if fields = [] then f else amp f ++ formText fields := by
  induction fields generalizing f with
  | nil => rfl
  | cons p fields ih =>
    show gather _ fields = _
    rw [ih]
    cases fields with
    | nil => simp [formText, sepBy]
    | cons p' fields =>
      simp only [List.cons_ne_nil, if_false]
      unfold amp
      rw [if_neg (by simp)]
      simp [formText, sepBy]

theorem At.init {delim body pre tail : List Byte} (hb : body = pre ++ delim ++ tail) (hpre : ¬ delim <:+: pre)
    (hl : pre = [] ∨ pre.getLast? = some 10) :
    At delim body [] pre tail (List.replicate body.length 0) [] (List.replicate body.length (some 0)) := by
  refine ⟨by simpa using hb, hl, hpre, by simp, ?_, by simp, by simp, by simp⟩
  intro h
  have : (59 : Byte) ∈ List.replicate body.length (0 : Byte) := h.subset (by decide)
  rw [List.mem_replicate] at this
  exact absurd this.2 (by decide)

/-- `multipart_parse` in terms of the loop. -/
theorem multipart_loop (env : Env) (fs : FS) (delim body : List Byte) :
    multipart_parse env fs (body.map some ++ [some 0]) delim body.length = (do
      let x ← partsLoop env (body.map some ++ [some 0]) delim body.length (body.length + 1) ([] : Str).length
        ((List.replicate body.length (0 : Byte)).map some ++ [some 0]) (([] : Str).map some ++ some 0 :: List.replicate body.length (some 0)) fs
      let t ← cstr x.1
      let form ← strcpyAt (body.map some ++ [some 0]) 0 t
      ok (form, x.2)) := by
  have hc : calloc (body.length + 1) = (List.replicate body.length (0 : Byte)).map some ++ [some 0] := by
    unfold calloc
    rw [List.replicate_succ']
    simp
  have hc' : calloc (body.length + 1) = ([] : Str).map some ++ some 0 :: List.replicate body.length (some 0) := rfl
  rw [← hc, ← hc']
  rfl

theorem multipart_plain (env : Env) (fs : FS) {delim body : List Byte} {fields : List (Str × Str)} (hd : Delimiter delim)
    (hm : Multipart Plain delim fields body) :
    ∃ r : Buf, (formText fields).length + r.length = body.length ∧ NulFree (formText fields) ∧
      multipart_parse env fs (body.map some ++ [some 0]) delim body.length =
        ok ((formText fields).map some ++ some 0 :: r, fs) := by
  obtain ⟨pre, tail, hb, hpre, hl, hp⟩ := hm
  have hlen : ∀ {tail : List Byte} {fields : List (Str × Str)}, Parts Plain delim fields tail → fields.length ≤ tail.length := by
    intro tail fields h
    induction h with
    | last => simp
    | part f fs text tail hpl hnt hps ih =>
      obtain ⟨x, rest, content, hs, -⟩ := hpl
      have := hs.length
      simp; omega
  obtain ⟨r, h1, h2, h3⟩ := partsLoop_plain env fs hd fields (body.length + 1) (At.init hb hpre hl) hp
    (by have := hlen hp; rw [hb]; simp; omega)
  have hg : gather [] fields = formText fields := by
    rw [gather_eq]
    split
    · rename_i h; rw [h]; rfl
    · rfl
  rw [hg] at h1 h2 h3
  rw [multipart_loop, h3]
  simp only [ok_bind]
  rw [cstr_mk h2]
  simp only [ok_bind]
  rw [strcpyAt_ok (by simp; omega)]
  simp only [ok_bind, List.take_zero, List.nil_append]
  refine ⟨_, ?_, h2, rfl⟩
  simp; omega

end Wayuu
