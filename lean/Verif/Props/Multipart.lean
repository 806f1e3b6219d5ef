import Verif.Lemmas.Multipart2
import Verif.Lemmas.Headers2
import Verif.Lemmas.Sample
/-
Properties C45 and C12: multipart bodies (ws.c).
-/
namespace Wayuu
open C Spec

/-! ### What the parser finds in a well-formed part -/

theorem flatMap_lines (before : List (List Byte)) (l : List Byte) (after : List (List Byte)) :
    b!"\r\n" ++ before.flatMap (· ++ b!"\r\n") ++ l ++ after.flatMap (b!"\r\n" ++ ·) =
      (before ++ l :: after).flatMap (b!"\r\n" ++ ·) := by
  induction before with
  | nil => simp
  | cons b before ih =>
    simp only [List.flatMap_cons, List.cons_append, List.append_assoc] at ih ⊢
    rw [← ih]

theorem no_blank (lines : List (List Byte)) (hl : ∀ l ∈ lines, PartLine l) (y : List Byte) (j : Nat)
    (hj : j < (lines.flatMap (b!"\r\n" ++ ·)).length) : ¬ blankLine <+: (lines.flatMap (b!"\r\n" ++ ·) ++ y).drop j := by
  induction lines generalizing j with
  | nil => simp at hj
  | cons l lines ih =>
    obtain ⟨hne, hcl⟩ := hl l (by simp)
    simp only [List.flatMap_cons, List.append_assoc]
    match j with
    | 0 =>
      intro h
      obtain ⟨c, l', rfl⟩ := List.exists_cons_of_ne_nil hne
      simp only [List.drop_zero, List.cons_append, List.nil_append, List.cons_prefix_cons, true_and] at h
      exact (hcl c (by simp)).2.2 h.1.symm
    | 1 =>
      intro h
      simp [List.cons_prefix_cons] at h
    | j + 2 =>
      rw [show b!"\r\n" ++ (l ++ (lines.flatMap (b!"\r\n" ++ ·) ++ y)) = 13 :: 10 :: (l ++ (lines.flatMap (b!"\r\n" ++ ·) ++ y)) from rfl]
      simp only [List.drop_succ_cons]
      by_cases h : j < l.length
      · rw [List.drop_append_of_le_length (by omega), List.drop_eq_getElem_cons h]
        intro hp
        simp only [List.cons_append, List.cons_prefix_cons] at hp
        exact (hcl l[j] (List.getElem_mem h)).2.2 hp.1.symm
      · have e : j = l.length + (j - l.length) := by omega
        rw [e, ← List.drop_drop, List.drop_left]
        apply ih (fun x hx => hl x (by simp [hx]))
        simp at hj ⊢
        omega

theorem nameMark_first {x : List Byte} (h : ¬ nameMark <:+: x) (j : Nat) (hj : j < x.length) (y : List Byte) :
    ¬ nameMark <+: (x ++ nameMark ++ y).drop j := by
  intro hp
  rw [List.append_assoc, List.drop_append_of_le_length (by omega)] at hp
  have h2 : x.drop j ++ b!"form-data; name=" <+: x.drop j ++ (nameMark ++ y) := ⟨34 :: y, by simp⟩
  rcases List.prefix_or_prefix_of_prefix hp h2 with ⟨u, hu⟩ | h3
  · rcases List.append_eq_append_iff.mp hu with ⟨v, e1, e2⟩ | ⟨v, e1, e2⟩
    · exact h (infix_of_prefix_drop ⟨v, e1.symm⟩)
    · by_cases hv : v = []
      · subst hv
        rw [List.append_nil] at e1
        exact h (infix_of_prefix_drop ⟨[], by rw [List.append_nil]; exact e1⟩)
      · have : (34 : Byte) ∈ v := by
          have := congrArg List.getLast? e1
          rw [List.getLast?_append] at this
          obtain ⟨w, hw⟩ := Option.ne_none_iff_exists'.mp (by rw [ne_eq, List.getLast?_eq_none_iff]; exact hv : v.getLast? ≠ none)
          rw [hw] at this
          simp only [Option.some_or] at this
          have h34 : w = 34 := by simpa using this.symm
          rw [← h34]
          exact List.mem_of_getLast? hw
        have hm : (34 : Byte) ∈ b!"form-data; name=" := by rw [e2]; simp [this]
        revert hm; decide
  · obtain ⟨u, hu⟩ := h3
    have hl := congrArg List.length hu
    have hu0 : u = [] := by
      simp at hl
      exact List.length_eq_zero_iff.mp (by omega)
    have := congrArg List.getLast? hu
    rw [hu0, List.append_nil, List.getLast?_append] at this
    simp at this

theorem no_name (before : List (List Byte)) (hb : ∀ l ∈ before, ¬ nameMark <:+: l) :
    ¬ nameMark <:+: b!"\r\n" ++ before.flatMap (· ++ b!"\r\n") ++ b!"Content-Disposition: " := by
  have key : ¬ nameMark <:+: before.flatMap (· ++ b!"\r\n") ++ b!"Content-Disposition: " := by
    induction before with
    | nil => simp only [List.flatMap_nil, List.nil_append]; decide
    | cons l before ih =>
      intro h
      rw [List.flatMap_cons, List.append_assoc, List.append_assoc] at h
      rcases infix_sep (c := 13) h (by decide) with h | h
      · exact hb l (by simp) h
      · rcases infix_sep (c := 10) (a := []) h (by decide) with h | h
        · revert h; decide
        · exact ih (fun x hx => hb x (by simp [hx])) h
  intro h
  rw [List.append_assoc] at h
  rcases infix_sep (c := 13) (a := []) h (by decide) with h | h
  · revert h; decide
  · rcases infix_sep (c := 10) (a := []) h (by decide) with h | h
    · revert h; decide
    · exact key h

theorem part_shape {before after : List (List Byte)} {name params content cut : List Byte}
    (hb : ∀ l ∈ before, PartLine l ∧ ¬ b!"form-data; name=\"" <:+: l) (ha : ∀ l ∈ after, PartLine l)
    (hn : ∀ c ∈ name, c ≠ 0 ∧ c ≠ 10 ∧ c ≠ 13 ∧ c ≠ 34) (hpar : ∀ c ∈ params, c ≠ 0 ∧ c ≠ 10 ∧ c ≠ 13) (hc : Cut name cut) :
    ∃ more, name = cut ++ more ∧ PartShape (partText before after name params content)
      (b!"\r\n" ++ before.flatMap (· ++ b!"\r\n") ++ b!"Content-Disposition: ") cut
      (more ++ b!"\"" ++ params ++ after.flatMap (b!"\r\n" ++ ·)) content := by
  obtain ⟨more, hnm, hk, hst⟩ := hc
  refine ⟨more, hnm, ?_⟩
  have hlines : ∀ l ∈ before ++ (b!"Content-Disposition: " ++ nameMark ++ name ++ b!"\"" ++ params) :: after, PartLine l := by
    intro l hl
    simp only [List.mem_append, List.mem_cons] at hl
    rcases hl with hl | rfl | hl
    · exact (hb l hl).1
    · refine ⟨by simp, fun c hc => ?_⟩
      simp only [List.mem_append] at hc
      have lit : ∀ s : List Byte, s.all (fun c => c != 0 && c != 10 && c != 13) = true → c ∈ s → c ≠ 0 ∧ c ≠ 10 ∧ c ≠ 13 := by
        intro s hs hcs
        have := List.all_eq_true.mp hs c hcs
        simpa [and_assoc] using this
      rcases hc with (((hc | hc) | hc) | hc) | hc
      · exact lit _ (by decide) hc
      · exact lit _ (by decide) hc
      · exact ⟨(hn c hc).1, (hn c hc).2.1, (hn c hc).2.2.1⟩
      · exact lit _ (by decide) hc
      · exact hpar c hc
    · exact ha l hl
  have hflat : b!"\r\n" ++ before.flatMap (· ++ b!"\r\n") ++ b!"Content-Disposition: " ++ nameMark ++ cut ++
      (more ++ b!"\"" ++ params ++ after.flatMap (b!"\r\n" ++ ·)) =
      (before ++ (b!"Content-Disposition: " ++ nameMark ++ name ++ b!"\"" ++ params) :: after).flatMap (b!"\r\n" ++ ·) := by
    rw [← flatMap_lines, hnm]
    simp only [List.append_assoc]
  refine ⟨?_, ?_, ?_, ?_, ?_, ?_, ?_⟩
  · unfold partText
    rw [hnm]
    rw [show b!"Content-Disposition: form-data; name=\"" = b!"Content-Disposition: " ++ nameMark from rfl]
    simp only [List.append_assoc]
  · rw [hflat]
    intro c hc
    rw [List.mem_flatMap] at hc
    obtain ⟨l, hl, hc⟩ := hc
    rw [List.mem_append] at hc
    rcases hc with hc | hc
    · revert hc; clear hflat hlines; revert c; decide
    · exact ((hlines l hl).2 c hc).1
  · intro j hj y
    exact nameMark_first (no_name before (fun l hl => (hb l hl).2)) j hj y
  · intro j hj y
    rw [hflat] at hj ⊢
    rw [List.append_assoc]
    exact no_blank _ hlines _ j hj
  · intro c hc
    have := hk c hc
    simp [keeps, this]
  · intro c hc
    cases hm : more with
    | nil =>
      rw [hm] at hc
      simp at hc
      subst hc
      decide
    | cons d more' =>
      rw [hm] at hc
      simp at hc
      have := hst d (by rw [hm]; rfl)
      rw [hc] at this
      simp only [keeps, Bool.and_eq_false_iff, decide_eq_false_iff_not]
      omega
  · simp

theorem parts_imp {α β : Type} {P : α → List Byte → Prop} {Q : β → List Byte → Prop} {R : α → β → Prop} {delim : List Byte}
    (h : ∀ a b t, P a t → R a b → Q b t) {as : List α} {bs : List β} {tail : List Byte} (hr : List.Forall₂ R as bs)
    (hp : Parts P delim as tail) : Parts Q delim bs tail := by
  induction hp generalizing bs with
  | last tail ht => cases hr; exact Parts.last tail ht
  | part f fs text tail hpf hnt hps ih =>
    cases hr with
    | cons h1 h2 => exact Parts.part _ _ text tail (h _ _ _ hpf h1) hnt (ih h2)

/-! ### C45 -/

/-- C45 in full: every body made of fields gives the fields, in order. -/
def C45_statement : Prop :=
  ∀ (env : Env) (fs : FS) (delim body : List Byte) (fields : List (Str × Str)), Delimiter delim →
    Multipart (fun f => FieldPart f.1 f.2) delim fields body → (∀ f ∈ fields, NulFree f.2) →
    ∃ form, multipart_parse env fs (body.map some ++ [some 0]) delim body.length = ok (form, fs) ∧ cstr form = ok (formText fields)

/-- C45 for every field that does not contain the text `; filename="`: the form holds, in order, the names up to the first byte
outside 35..127, and the values up to the first NUL, however long they are and whatever the part before left in the buffer. -/
theorem C45_general (env : Env) (fs : FS) (delim body : List Byte) (fields seen : List (Str × Str)) (hd : Delimiter delim)
    (hm : Multipart (fun f t => FieldPart f.1 f.2 t ∧ ¬ b!"; filename=\"" <:+: t) delim fields body)
    (hs : List.Forall₂ (fun f s => Cut f.1 s.1 ∧ BeforeNul f.2 s.2) fields seen) :
    ∃ form, multipart_parse env fs (body.map some ++ [some 0]) delim body.length = ok (form, fs) ∧
      cstr form = ok (formText seen) ∧ form.length = body.length + 1 := by
  obtain ⟨pre, tail, hb, hpre, hl, hp⟩ := hm
  have hp' : Parts Plain delim seen tail := by
    refine parts_imp ?_ hs hp
    rintro ⟨n, v⟩ ⟨n', v'⟩ t ⟨⟨before, after, h1, h2, h3, rfl⟩, hf⟩ ⟨hc, hv⟩
    obtain ⟨more, -, hsh⟩ := part_shape (params := []) h1 h2 h3 (by simp) hc
    exact ⟨_, _, _, hsh, beforeNul_eq hv, hf⟩
  obtain ⟨r, h1, h2, h3⟩ := multipart_plain env fs hd ⟨pre, tail, hb, hpre, hl, hp'⟩
  exact ⟨_, h3, cstr_mk h2 _, by simp; omega⟩

/-- C45, what holds: fields with names of the bytes 35 to 127, values without NUL, and no part containing `; filename="`. Missing:
other names (`C45_general` says what becomes of them) and values containing that text (`C12_overflow`). -/
theorem C45_partial (env : Env) (fs : FS) (delim body : List Byte) (fields : List (Str × Str)) (hd : Delimiter delim)
    (hm : Multipart (fun f t => FieldPart f.1 f.2 t ∧ ¬ b!"; filename=\"" <:+: t) delim fields body)
    (hn : ∀ f ∈ fields, (∀ c ∈ f.1, 35 ≤ c.toNat ∧ c.toNat ≤ 127) ∧ NulFree f.2) :
    ∃ form, multipart_parse env fs (body.map some ++ [some 0]) delim body.length = ok (form, fs) ∧
      cstr form = ok (formText fields) ∧ form.length = body.length + 1 := by
  refine C45_general env fs delim body fields fields hd hm ?_
  rw [List.forall₂_same]
  intro f hf
  exact ⟨⟨[], by simp, (hn f hf).1, by simp⟩, (hn f hf).2, Or.inl rfl⟩

/-- A body with two fields, the second one shorter than the first. -/
def twoFields (n1 v1 n2 v2 : Str) : List Byte :=
  b!"--xY" ++ partText [] [] n1 [] v1 ++ b!"--xY" ++ partText [] [b!"Content-Type: text/plain"] n2 [] v2 ++ b!"--xY--\r\n"

theorem twoFields_multipart {P : Str × Str → List Byte → Prop} {n1 v1 n2 v2 : Str} (h1 : P (n1, v1) (partText [] [] n1 [] v1))
    (h2 : P (n2, v2) (partText [] [b!"Content-Type: text/plain"] n2 [] v2)) (h3 : ¬ b!"--xY" <:+: partText [] [] n1 [] v1)
    (h4 : ¬ b!"--xY" <:+: partText [] [b!"Content-Type: text/plain"] n2 [] v2) :
    Multipart P b!"--xY" [(n1, v1), (n2, v2)] (twoFields n1 v1 n2 v2) :=
  ⟨[], partText [] [] n1 [] v1 ++ b!"--xY" ++ (partText [] [b!"Content-Type: text/plain"] n2 [] v2 ++ b!"--xY" ++ b!"--\r\n"),
    by unfold twoFields; simp, by decide, Or.inl rfl,
    Parts.part _ _ _ _ h1 h3 (Parts.part _ _ _ _ h2 h4 (Parts.last _ (by decide)))⟩

theorem xY_delimiter : Delimiter b!"--xY" := ⟨⟨b!"xY", rfl⟩, by decide⟩

/-- C45 is false: a name is cut at the first space, for example. -/
theorem C45_refuted : ¬ C45_statement := by
  intro h
  obtain ⟨form, h1, h2⟩ := h sampleEnv ⟨fun _ => none, fun _ => true, fun _ => true⟩ b!"--xY"
    (twoFields b!"full name" b!"Ann" b!"age" b!"7") [(b!"full name", b!"Ann"), (b!"age", b!"7")] xY_delimiter
    (twoFields_multipart ⟨[], [], by simp, by simp, by decide, rfl⟩
      ⟨[], [b!"Content-Type: text/plain"], by simp, by simp only [List.mem_singleton, forall_eq]; exact ⟨by simp, by decide⟩, by decide, rfl⟩
      (by decide +kernel) (by decide +kernel)) (by unfold NulFree; decide)
  have key : (multipart_parse sampleEnv ⟨fun _ => none, fun _ => true, fun _ => true⟩
      ((twoFields b!"full name" b!"Ann" b!"age" b!"7").map some ++ [some 0]) b!"--xY"
      (twoFields b!"full name" b!"Ann" b!"age" b!"7").length).bind (fun x => cstr x.1) = ok b!"full=Ann&age=7" := by decide +kernel
  rw [h1] at key
  change cstr form = _ at key
  rw [h2] at key
  revert key
  decide

example : ∃ fields seen : List (Str × Str), Multipart (fun f t => FieldPart f.1 f.2 t ∧ ¬ b!"; filename=\"" <:+: t) b!"--xY" fields
      (twoFields b!"full name" b!"Ann" b!"age" b!"7") ∧ List.Forall₂ (fun f s => Cut f.1 s.1 ∧ BeforeNul f.2 s.2) fields seen ∧
      formText seen = b!"full=Ann&age=7" :=
  ⟨[(b!"full name", b!"Ann"), (b!"age", b!"7")], [(b!"full", b!"Ann"), (b!"age", b!"7")],
    twoFields_multipart ⟨⟨[], [], by simp, by simp, by decide, rfl⟩, by decide +kernel⟩
      ⟨⟨[], [b!"Content-Type: text/plain"], by simp, by simp only [List.mem_singleton, forall_eq]; exact ⟨by simp, by decide⟩, by decide, rfl⟩,
        by decide +kernel⟩ (by decide +kernel) (by decide +kernel),
    .cons ⟨⟨b!" name", rfl, by decide, by decide⟩, by decide, Or.inl rfl⟩
      (.cons ⟨⟨[], rfl, by decide, by decide⟩, by decide, Or.inl rfl⟩ .nil), rfl⟩

example : ((multipart_parse sampleEnv ⟨fun _ => none, fun _ => true, fun _ => true⟩
    ((twoFields b!"comment" b!"a rather long text" b!"n" b!"").map some ++ [some 0]) b!"--xY"
    (twoFields b!"comment" b!"a rather long text" b!"n" b!"").length).bind (fun x => cstr x.1)) =
    ok b!"comment=a rather long text&n=" := by decide +kernel

end Wayuu
