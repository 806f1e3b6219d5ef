import Verif.Props.Multipart
/-
Property C72 (ws.c:165-277): bodies of type multipart/form-data that are not well-formed.
-/
namespace Wayuu
open C Spec

/-- C72 in full: whatever the body and the delimiter, parsing it accesses no memory out of bounds. -/
def C72_statement : Prop :=
  ∀ (env : Env) (fs : FS) (delim body : List Byte), Delimiter delim →
    C.IsOk (multipart_parse env fs (body.map some ++ [some 0]) delim body.length)

theorem partsLoop_quiet (env : Env) (fs : FS) {delim body : List Byte} (hd : NulFree delim) (hq : (34 : Byte) ∉ body) (T : Buf) (fuel : Nat) :
    ∀ (ptr : Nat) (d : List Byte), d.length = body.length → (34 : Byte) ∉ d →
      partsLoop env (body.map some ++ [some 0]) delim body.length fuel ptr (d.map some ++ [some 0]) T fs = ok (T, fs) := by
  induction fuel with
  | zero => intro ptr d _ _; rfl
  | succ fuel ih =>
    intro ptr d hd1 hd2
    unfold partsLoop
    by_cases h0 : body.length ≤ ptr
    · rw [if_pos h0]
    rw [if_neg h0]
    unfold text_find_after
    rcases findLoop_spec body [] delim hd (body.length - ptr) ptr (by omega) with ⟨k, e, g⟩ | ⟨e, g⟩
    swap
    · rw [e]; rfl
    rw [e]
    have hk : k + delim.length ≤ body.length := by
      have := g.2.2.1.length_le
      rw [List.length_drop] at this
      have := g.2.1
      omega
    simp only [ok_bind]
    rw [if_neg (by omega), show ((k : Int) + (delim.length : Int)).toNat = k + delim.length by omega]
    rcases findLoop_spec body [] delim hd (body.length - (k + delim.length)) (k + delim.length) (by omega) with ⟨k2, e2, g2⟩ | ⟨e2, g2⟩
    swap
    · rw [e2]; rfl
    rw [e2]
    have hk2 : k2 + delim.length ≤ body.length := by
      have := g2.2.2.1.length_le
      rw [List.length_drop] at this
      have := g2.2.1
      omega
    have hge : k + delim.length ≤ k2 := g2.1
    simp only [ok_bind]
    rw [if_neg (by omega), show ((k2 : Int) + (delim.length : Int)) - ((k : Int) + (delim.length : Int)) - (delim.length : Int) =
      ((k2 - (k + delim.length) : Nat) : Int) by omega]
    generalize hn : k2 - (k + delim.length) = n
    have hmem : memcpyI (d.map some ++ [some 0]) (body.map some ++ [some 0]) (k + delim.length) (n : Int) =
        ok (((body.drop (k + delim.length)).take n ++ d.drop n).map some ++ [some 0]) := by
      rw [memcpyI_ok (by simp; omega) (by simp; omega)]
      rw [List.drop_append_of_le_length (by simp; omega), List.take_append_of_le_length (by simp; omega),
        List.drop_append_of_le_length (by simp; omega)]
      simp
    rw [hmem]
    simp only [ok_bind]
    generalize hx : (body.drop (k + delim.length)).take n ++ d.drop n = x
    have hxl : x.length = body.length := by rw [← hx]; simp; omega
    have hxq : (34 : Byte) ∉ x := by
      rw [← hx]
      intro h
      rcases List.mem_append.mp h with h | h
      · exact hq (List.mem_of_mem_drop (List.mem_of_mem_take h))
      · exact hd2 (List.mem_of_mem_drop h)
    have hpp : part_parse env fs T (x.map some ++ [some 0]) (n : Int) = ok (T, fs) := by
      unfold part_parse
      obtain ⟨rr, hrr⟩ := untilNul_split x
      have hc : cstr (x.map some ++ [some 0]) = ok (untilNul x) := by
        have := congrArg (List.map some) hrr
        simp only [List.map_append, List.map_cons, List.map_nil] at this
        rw [this]
        exact cstr_mk (nulFree_untilNul x) _
      rw [hc]
      simp only [ok_bind]
      have hfind : text_find_after (x.map some ++ [some 0]) nameMark 0 (untilNul x).length = ok (-1) :=
        find_none (by decide) (List.takeWhile_prefix _).length_le (fun j _ _ h => hxq ((infix_of_prefix_drop h).subset (by decide)))
      rw [hfind]
      rfl
    rw [hpp]
    simp only [ok_bind]
    obtain ⟨d', t1, t2, t3⟩ := trim_scratch x
    rw [t1]
    simp only [ok_bind]
    refine ih _ d' (by omega) (fun h => hxq ?_)
    have hi : [(34 : Byte)] <:+: d' := by
      obtain ⟨u, v, rfl⟩ := List.append_of_mem h
      exact ⟨u, v, by simp⟩
    exact (t3 [34] (by decide) hi).subset (by simp)

/-- C72, bodies without a quotation mark: whatever the delimiters in it and wherever they stand, such a body is harmless and gives an
empty form. -/
theorem C72_quotes (env : Env) (fs : FS) (delim body : List Byte) (hd : NulFree delim) (hq : (34 : Byte) ∉ body) :
    ∃ form, multipart_parse env fs (body.map some ++ [some 0]) delim body.length = ok (form, fs) ∧ cstr form = ok [] ∧
      form.length = body.length + 1 := by
  rw [multipart_loop, partsLoop_quiet env fs hd hq _ _ _ _ (by simp) (by
    intro h
    have := List.eq_of_mem_replicate h
    revert this; decide)]
  simp only [ok_bind]
  rw [show cstr (([] : Str).map some ++ some 0 :: List.replicate body.length (some 0)) = ok [] from cstr_mk (by simp) _]
  simp only [ok_bind]
  cases hb : body with
  | nil => exact ⟨[some 0], rfl, by decide, rfl⟩
  | cons c b =>
    refine ⟨some 0 :: (b.map some ++ [some 0]), ?_, rfl, by simp⟩
    have : strcpyAt ((c :: b).map some ++ [some 0]) 0 [] = ok (some 0 :: (b.map some ++ [some 0])) := by
      have := strcpyAt_ok (b := (c :: b).map some ++ [some 0]) (off := 0) (s := []) (by simp)
      rw [this]
      simp
    rw [this]
    rfl

example := C72_quotes sampleEnv sampleSt.fs b!"--xY" b!"--xY--xY\r\n\r\nform-data; name=a\r\n--xY----xY" (by decide) (by decide +kernel)

theorem exists_cut (name : List Byte) : ∃ cut, Cut name cut := by
  refine ⟨name.takeWhile keeps, name.dropWhile keeps, (List.takeWhile_append_dropWhile ..).symm, ?_, ?_⟩
  · intro c hc
    have := List.mem_takeWhile_imp hc
    simpa [keeps] using this
  · intro c hc
    have := List.head?_dropWhile_not keeps name
    rw [hc] at this
    simp only [keeps, Bool.and_eq_false_iff, decide_eq_false_iff_not] at this
    omega

/-- The loop comes to a part whose content lacks the final CRLF. -/
theorem partsLoop_cut (env : Env) (fs : FS) {delim : List Byte} (hd : Delimiter delim) {body z a text tail d x name rest : List Byte}
    {f : Str} {r : Buf} (h : At delim body z a (text ++ delim ++ tail) d f r) (fuel : Nat) (hp : PartHead text x name rest [])
    (hfm : ¬ fileMark <:+: text) (hnt : ¬ delim <:+: text) :
    partsLoop env (body.map some ++ [some 0]) delim body.length (fuel + 1) z.length (d.map some ++ [some 0])
      (f.map some ++ some 0 :: r) fs = ub .oob := by
  obtain ⟨hb, ha, hna, hdl, hdf, hf, hfr, hfl⟩ := h
  have hbl : body.length = z.length + a.length + delim.length + (text.length + delim.length + tail.length) := by
    rw [hb]; simp; omega
  have htx : text = (x ++ nameMark ++ name ++ rest ++ b!"\r\n\r") ++ [10] := by rw [hp.eq]; simp
  have hlast : text.getLast? = some 10 := by rw [htx, List.getLast?_concat]
  have htl : 1 ≤ text.length := by rw [htx, List.length_append]; simp
  have hdf' : ¬ fileMark <:+: d.drop text.length := fun h => hdf (h.trans (List.drop_suffix _ _).isInfix)
  have hnf : ¬ fileMark <:+: text ++ d.drop text.length := by
    intro h
    generalize d.drop text.length = e at h hdf'
    rw [htx, List.append_assoc, List.singleton_append] at h
    rcases infix_sep h (by decide) with h | h
    · exact hfm (h.trans (by rw [htx]; exact (List.prefix_append _ _).isInfix))
    · exact hdf' h
  rw [partsLoop_begin env fs hd fuel z a text tail hb ha hna hlast hnt d hdl]
  obtain ⟨r1, h1, h2, h3⟩ := part_parse_gen env fs hp (d.drop text.length) hf (by omega : 1 ≤ r.length)
  have hfind : text_find_after ((text ++ d.drop text.length).map some ++ [some 0]) fileMark 0 (untilNul (text ++ d.drop text.length)).length =
      ok (-1) :=
    find_none (by decide) (List.takeWhile_prefix _).length_le (fun j _ _ => not_prefix_drop hnf j)
  rw [h3, hfind]
  simp only [ok_bind]
  unfold part_tail
  rw [if_neg (by omega)]
  have hds : (x ++ nameMark ++ name ++ rest ++ blankLine).length = text.length := by rw [hp.eq]; simp
  have hmem : ∀ dst src : Buf, memcpyI dst src (x ++ nameMark ++ name ++ rest ++ blankLine).length
      ((text.length : Int) - (((x ++ nameMark ++ name ++ rest ++ blankLine).length : Nat) : Int) - 2) = ub .oob := by
    intro dst src
    unfold memcpyI
    rw [if_pos (by rw [hds]; omega)]
  rw [Int.toNat_natCast, hmem]
  rfl

theorem partsLoop_lead (env : Env) (fs : FS) {delim : List Byte} (hd : Delimiter delim) {body text tail x name rest : List Byte}
    (hp : PartHead text x name rest []) (hfm : ¬ fileMark <:+: text) (hnt : ¬ delim <:+: text) {fields : List (Str × Str)} {mid : List Byte}
    (hm : Leading (fun f t => FieldPart f.1 f.2 t ∧ ¬ b!"; filename=\"" <:+: t) delim fields mid) :
    ∀ (fuel : Nat) (z a d : List Byte) (f : Str) (r : Buf), fields.length < fuel →
      At delim body z a (mid ++ (text ++ delim ++ tail)) d f r →
      partsLoop env (body.map some ++ [some 0]) delim body.length fuel z.length (d.map some ++ [some 0])
        (f.map some ++ some 0 :: r) fs = ub .oob := by
  induction hm with
  | nil =>
    intro fuel z a d f r hfu h
    cases fuel with
    | zero => simp at hfu
    | succ fuel => exact partsLoop_cut env fs hd h fuel hp hfm hnt
  | part p ps t mid ht hn _ ih =>
    intro fuel z a d f r hfu h
    cases fuel with
    | zero => simp at hfu
    | succ fuel =>
      obtain ⟨⟨before, after, k1, k2, k3, rfl⟩, k4⟩ := ht
      obtain ⟨cut, hc⟩ := exists_cut p.1
      obtain ⟨more, -, hsh⟩ := part_shape (params := []) (content := p.2) k1 k2 k3 (by simp) hc
      rw [List.append_assoc] at h
      obtain ⟨z', a', d', r', h', e⟩ := partsLoop_step env fs hd h fuel (p := (cut, untilNul p.2)) ⟨_, _, _, hsh, rfl, k4⟩ hn
      rw [e]
      exact ih fuel z' a' d' _ r' (by simp at hfu; omega) h'

/-- C72, what a part without content does: if the empty line that ends the head of a part is directly followed by the next delimiter
(the content is empty and its final CRLF missing), a negative number of bytes is copied, whatever fields come first and
whatever follows. -/
theorem C72_truncated (env : Env) (fs : FS) (delim pre mid rest : List Byte) (fields : List (Str × Str)) (before after : List (List Byte))
    (name : Str) (hd : Delimiter delim) (hpre : ¬ delim <:+: pre) (hl : pre = [] ∨ pre.getLast? = some 10)
    (hm : Leading (fun f t => FieldPart f.1 f.2 t ∧ ¬ b!"; filename=\"" <:+: t) delim fields mid)
    (hb : ∀ l ∈ before, PartLine l ∧ ¬ b!"form-data; name=\"" <:+: l) (ha : ∀ l ∈ after, PartLine l)
    (hn : ∀ c ∈ name, c ≠ 0 ∧ c ≠ 10 ∧ c ≠ 13 ∧ c ≠ 34) (head : List Byte)
    (hhead : head = b!"\r\n" ++ before.flatMap (· ++ b!"\r\n") ++ b!"Content-Disposition: form-data; name=\"" ++ name ++ b!"\"" ++
      after.flatMap (b!"\r\n" ++ ·) ++ b!"\r\n\r\n")
    (hnd : ¬ delim <:+: head) (hnf : ¬ b!"; filename=\"" <:+: head) :
    multipart_parse env fs ((pre ++ delim ++ mid ++ head ++ delim ++ rest).map some ++ [some 0]) delim
      (pre ++ delim ++ mid ++ head ++ delim ++ rest).length = ub .oob := by
  obtain ⟨cut, hc⟩ := exists_cut name
  obtain ⟨more, hnm, hsh⟩ := part_shape (params := []) (content := []) hb ha hn (by simp) hc
  have hph := hsh.cut []
  have he : b!"\r\n" ++ before.flatMap (· ++ b!"\r\n") ++ b!"Content-Disposition: " ++ nameMark ++ cut ++
      (more ++ b!"\"" ++ [] ++ after.flatMap (b!"\r\n" ++ ·)) ++ blankLine ++ [] = head := by
    rw [hhead, hnm, show b!"Content-Disposition: form-data; name=\"" = b!"Content-Disposition: " ++ nameMark from rfl]
    simp only [List.append_assoc, List.append_nil]
  rw [he] at hph
  have hlen : fields.length ≤ mid.length := by
    clear * - hm hd
    have h2 : 2 ≤ delim.length := by simpa using hd.1.length_le
    induction hm with
    | nil => simp
    | part p ps t mid ht hn _ ih => simp; omega
  have hbody : pre ++ delim ++ mid ++ head ++ delim ++ rest = pre ++ delim ++ (mid ++ (head ++ delim ++ rest)) := by
    simp only [List.append_assoc]
  generalize hbd : pre ++ delim ++ mid ++ head ++ delim ++ rest = body at hbody ⊢
  rw [multipart_loop, partsLoop_lead env fs hd hph hnf hnd hm (body.length + 1) [] pre _ [] _ (by rw [hbody]; simp; omega)
    (At.init hbody hpre hl)]
  rfl

/-- A part with the name "a" and no content. -/
def emptyPart : List Byte := b!"\r\nContent-Disposition: form-data; name=\"a\"\r\n\r\n"

/-- C72 is false: a part that ends at the empty line is enough. -/
theorem C72_refuted : ¬ C72_statement := by
  intro h
  obtain ⟨v, hv⟩ := h sampleEnv ⟨fun _ => none, fun _ => true, fun _ => true⟩ b!"--xY" (b!"--xY" ++ emptyPart ++ b!"--xY--") xY_delimiter
  have := C72_truncated sampleEnv ⟨fun _ => none, fun _ => true, fun _ => true⟩ b!"--xY" [] [] b!"--" [] [] [] b!"a" xY_delimiter
    (by decide) (Or.inl rfl) .nil (by simp) (by simp) (by decide) emptyPart rfl (by decide +kernel) (by decide +kernel)
  rw [show ([] : List Byte) ++ b!"--xY" ++ [] ++ emptyPart ++ b!"--xY" ++ b!"--" = b!"--xY" ++ emptyPart ++ b!"--xY--" by decide +kernel] at this
  rw [hv] at this
  cases this

/-- The hypotheses of `C72_truncated`, with a proper field first. -/
example : Leading (fun f t => FieldPart f.1 f.2 t ∧ ¬ b!"; filename=\"" <:+: t) b!"--xY" [(b!"n", b!"7")]
    (partText [] [] b!"n" [] b!"7" ++ b!"--xY" ++ []) ∧ ¬ b!"--xY" <:+: emptyPart ∧ ¬ b!"; filename=\"" <:+: emptyPart :=
  ⟨.part _ _ _ _ ⟨⟨[], [], by simp, by simp, by decide, rfl⟩, by decide +kernel⟩ (by decide +kernel) .nil, by decide +kernel, by decide +kernel⟩

/-- Delimiters all over the place, but no quotation mark. -/
example : (34 : Byte) ∉ b!"--xY--xY\r\n\r\nform-data; name=a\r\n--xY----xY" ∧ NulFree b!"--xY" := by
  constructor <;> decide +kernel

end Wayuu
