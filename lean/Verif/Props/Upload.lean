import Verif.Lemmas.Upload
import Verif.Props.Multipart
import Verif.Props.Files
import Verif.Props.Strings
/-
Property C12: uploaded files (ws.c).
-/
namespace Wayuu
open C Spec

theorem exists_cut (name : List Byte) : ∃ cut, Cut name cut := by
  refine ⟨name.takeWhile keeps, name.dropWhile keeps, List.takeWhile_append_dropWhile.symm, ?_, ?_⟩
  · intro c hc
    have := List.mem_takeWhile_imp hc
    simpa [keeps] using this
  · intro c hc
    have := List.head?_dropWhile_not keeps name
    rw [hc] at this
    simp [keeps] at this
    omega

theorem itemPart_cases (i : Item) (t : List Byte) (h : ItemPart i t) (hv : ∀ n v, i = .field n v → NulFree v) :
    (∃ p, Plain p t) ∨ Marked t := by
  cases i with
  | field n v =>
    obtain ⟨before, after, h1, h2, h3, rfl⟩ := h
    obtain ⟨cut, hc⟩ := exists_cut n
    obtain ⟨more, -, hs⟩ := part_shape (params := []) (content := v) h1 h2 h3 (by simp) hc
    by_cases hm : fileMark <:+: partText before after n [] v
    · right
      refine ⟨_, _, _, _, hs, ?_⟩
      rw [untilNul_of_nulFree]
      · exact hm
      · rw [hs.eq]
        simp only [nulFree_append]
        have := hs.nul
        simp only [nulFree_append] at this
        exact ⟨⟨⟨this, by decide⟩, hv n v rfl⟩, by decide⟩
    · left
      exact ⟨(cut, untilNul v), _, _, _, hs, rfl, hm⟩
  | file n o c =>
    right
    obtain ⟨before, after, h1, h2, h3, h4, rfl⟩ := h
    obtain ⟨cut, hc⟩ := exists_cut n
    have hpar : ∀ c ∈ b!"; filename=\"" ++ o ++ b!"\"", c ≠ 0 ∧ c ≠ 10 ∧ c ≠ 13 := by
      intro c hc
      simp only [List.mem_append] at hc
      rcases hc with (hc | hc) | hc
      · revert c; decide
      · exact ⟨(h4 c hc).1, (h4 c hc).2.1, (h4 c hc).2.2.1⟩
      · revert c; decide
    obtain ⟨more, -, hs⟩ := part_shape (content := c) (fun l hl => ⟨(h1 l hl).1, (h1 l hl).2.1⟩) h2 h3 hpar hc
    refine ⟨_, _, _, _, hs, ?_⟩
    rw [hs.eq, List.append_assoc, List.append_assoc, untilNul_append hs.nul]
    refine List.IsInfix.trans ?_ (List.prefix_append _ _).isInfix
    refine List.IsInfix.trans ?_ (List.suffix_append _ _).isInfix
    refine List.IsInfix.trans ?_ (List.prefix_append _ _).isInfix
    refine List.IsInfix.trans ?_ (List.suffix_append _ _).isInfix
    refine List.IsInfix.trans ?_ (List.prefix_append _ _).isInfix
    exact (List.prefix_append _ _).isInfix

theorem parts_len {α : Type} {P : α → List Byte → Prop} {delim : List Byte} (hd : Delimiter delim) {items : List α} {tail : List Byte}
    (h : Parts P delim items tail) : items.length ≤ tail.length := by
  have h2 : 2 ≤ delim.length := by simpa using hd.1.length_le
  induction h with
  | last => simp
  | part f fs text tail hpl hnt hps ih => simp; omega

/-- C12, what happens instead: whatever the file, its name and the other fields, receiving a file writes outside of an array.
(18 and more: the array has 36 bytes and md5sum writes twice the library's maximum digest size, 64, and one more.) The same holds
for a form with a field whose value contains `; filename="`. -/
theorem C12_overflow (env : Env) (fs : FS) (delim body : List Byte) (items : List Item) (h16 : ∀ x, (env.digest x).length = 16)
    (hmax : 18 ≤ env.evpMax) (hd : Delimiter delim) (hm : Multipart ItemPart delim items body)
    (hv : ∀ n v, Item.field n v ∈ items → NulFree v)
    (hf : (∃ n o c, Item.file n o c ∈ items) ∨ ∃ n v, Item.field n v ∈ items ∧ b!"; filename=\"" <:+: v) :
    multipart_parse env fs (body.map some ++ [some 0]) delim body.length = ub .oob := by
  obtain ⟨pre, tail, hb, hpre, hl, hp⟩ := hm
  have hp' : Parts (fun i t => ItemPart i t ∧ ∀ n v, i = .field n v → NulFree v) delim items tail := by
    clear hf hb
    induction hp with
    | last tail ht => exact Parts.last tail ht
    | part f fs text tail hpl hnt hps ih =>
      exact Parts.part _ _ _ _ ⟨hpl, fun n v e => hv n v (by rw [e]; simp)⟩ hnt (ih (fun n v h => hv n v (by simp [h])))
  rw [multipart_loop, partsLoop_marked env fs h16 hmax hd (fun i t h => itemPart_cases i t h.1 h.2) hp' ?_ (body.length + 1) ?_
    (At.init hb hpre hl)]
  · rfl
  · rcases hf with ⟨n, o, c, hi⟩ | ⟨n, v, hi, hiv⟩
    · refine ⟨_, hi, fun t ht => ?_⟩
      obtain ⟨⟨before, after, h1, h2, h3, h4, rfl⟩, -⟩ := ht
      rcases itemPart_cases (.file n o c) _ ⟨before, after, h1, h2, h3, h4, rfl⟩ (by simp) with ⟨p, x, rest, content, -, -, hc⟩ | h
      · exfalso
        apply hc
        unfold partText
        refine ⟨b!"\r\n" ++ before.flatMap (· ++ b!"\r\n") ++ b!"Content-Disposition: form-data; name=\"" ++ n ++ b!"\"",
          o ++ b!"\"" ++ after.flatMap (b!"\r\n" ++ ·) ++ b!"\r\n\r\n" ++ c ++ b!"\r\n", ?_⟩
        simp only [List.append_assoc]
      · exact h
    · refine ⟨_, hi, fun t ht => ?_⟩
      rcases itemPart_cases _ _ ht.1 ht.2 with ⟨p, x, rest, content, -, -, hc⟩ | h
      · exfalso
        apply hc
        obtain ⟨⟨before, after, h1, h2, h3, rfl⟩, -⟩ := ht
        unfold partText
        refine List.IsInfix.trans hiv ?_
        exact ⟨b!"\r\n" ++ before.flatMap (· ++ b!"\r\n") ++ b!"Content-Disposition: form-data; name=\"" ++ n ++ b!"\"" ++ [] ++
          after.flatMap (b!"\r\n" ++ ·) ++ b!"\r\n\r\n", b!"\r\n", rfl⟩
      · exact h
  · have := parts_len hd hp'
    rw [hb]; simp; omega

/-- The name of the stored file. -/
def tmpName (env : Env) (content : List Byte) : Str := env.tid ++ b!"-" ++ hexText (env.digest content)

/-- C12 in full, for a form with one file, a writable folder for uploads, and names that need no cutting. -/
def C12_for (evpMax : Nat) : Prop :=
  ∀ (env : Env) (fs : FS) (delim body name orig content : List Byte) (p : List Str), env.evpMax = evpMax →
    (∀ x, (env.digest x).length = 16) → NulFree env.tid → env.tid.length ≤ 20 → Delimiter delim →
    Multipart ItemPart delim [.file name orig content] body → (∀ c ∈ name ++ orig, 35 ≤ c.toNat ∧ c.toNat ≤ 127) → orig.length ≤ 255 →
    fs.lookup b!"/tmp/wayuu" = some .dir → fs.openWrite (b!"/tmp/wayuu/" ++ tmpName env content) = some p →
    ∃ form fs', multipart_parse env fs (body.map some ++ [some 0]) delim body.length = ok (form, fs') ∧
      cstr form = ok (name ++ b!"=" ++ orig ++ b!"&tmpfile=" ++ tmpName env content) ∧
      fs'.lookup (b!"/tmp/wayuu/" ++ tmpName env content) = some (.file content) ∧ ∀ q, q ≠ p → fs'.nodeAt q = fs.nodeAt q

/-- C12 with the library's value. -/
def C12_statement : Prop := C12_for 64

def uploadBody (orig content : Str) : List Byte :=
  b!"--xY" ++ partText [] [b!"Content-Type: image/png"] b!"pic" (b!"; filename=\"" ++ orig ++ b!"\"") content ++ b!"--xY--\r\n"

theorem upload_multipart : Multipart ItemPart b!"--xY" [.file b!"pic" b!"me.png" [1, 0, 2]] (uploadBody b!"me.png" [1, 0, 2]) :=
  ⟨[], partText [] [b!"Content-Type: image/png"] b!"pic" (b!"; filename=\"" ++ b!"me.png" ++ b!"\"") [1, 0, 2] ++ b!"--xY" ++ b!"--\r\n",
    by unfold uploadBody; simp, by decide, Or.inl rfl, Parts.part _ _ _ _
      ⟨[], [b!"Content-Type: image/png"], by simp, by simp only [List.mem_singleton, forall_eq]; exact ⟨by simp, by decide⟩,
        by decide, by decide, rfl⟩ (by decide +kernel) (Parts.last _ (by decide))⟩

/-- The sample environment with a 16 byte digest and the maximum digest size of the library. -/
def uploadEnv (evpMax : Nat) : Env := { sampleEnv with digest := fun _ => List.replicate 16 7, evpMax := evpMax, tid := b!"1234" }
/-- A tree with the folder for uploads. -/
def uploadFs : FS := ⟨fun p => if p = [b!"tmp"] ∨ p = [b!"tmp", b!"wayuu"] then some .dir else none, fun _ => true, fun _ => true⟩

/-- C12 is false. -/
theorem C12_refuted : ¬ C12_statement := by
  intro h
  have key : uploadFs.openWrite (b!"/tmp/wayuu/" ++ tmpName (uploadEnv 64) [1, 0, 2]) =
      some [b!"tmp", b!"wayuu", tmpName (uploadEnv 64) [1, 0, 2]] := by decide +kernel
  obtain ⟨form, fs', h1, -⟩ := h (uploadEnv 64) uploadFs b!"--xY" (uploadBody b!"me.png" [1, 0, 2]) b!"pic" b!"me.png" [1, 0, 2] _ rfl
    (fun _ => rfl) (by unfold NulFree; decide) (by decide) xY_delimiter upload_multipart (by decide) (by decide) (by decide +kernel) key
  rw [C12_overflow (uploadEnv 64) uploadFs _ _ _ (fun _ => rfl) (by decide) xY_delimiter upload_multipart (by simp) (Or.inl ⟨_, _, _, List.mem_singleton.mpr rfl⟩)] at h1
  cases h1

theorem no_lines {w : List Byte} (h0 : w ≠ []) (h13 : (13 : Byte) ∉ w) (h10 : (10 : Byte) ∉ w) (before : List (List Byte))
    (hb : ∀ l ∈ before, ¬ w <:+: l) {last : List Byte} (hl : ¬ w <:+: last) :
    ¬ w <:+: b!"\r\n" ++ before.flatMap (· ++ b!"\r\n") ++ last := by
  have hnil : ¬ w <:+: [] := fun h => h0 (List.eq_nil_of_infix_nil h)
  have step : ∀ {t : List Byte}, w <:+: b!"\r\n" ++ t → w <:+: t := by
    intro t h
    rcases infix_sep (c := 13) (a := []) h h13 with h | h
    · exact absurd h hnil
    · rcases infix_sep (c := 10) (a := []) h h10 with h | h
      · exact absurd h hnil
      · exact h
  intro h
  rw [List.append_assoc] at h
  have h := step h
  clear * - h hb hl step h13
  induction before with
  | nil => exact hl h
  | cons l before ih =>
    rw [List.flatMap_cons, List.append_assoc, List.append_assoc] at h
    rcases infix_sep (c := 13) h h13 with h' | h'
    · exact hb l (by simp) h'
    · have : w <:+: b!"\r\n" ++ (before.flatMap (· ++ b!"\r\n") ++ last) := h'.trans (List.suffix_cons 13 _).isInfix
      exact ih (fun x hx => hb x (by simp [hx])) (step this)

theorem quote_first {u x : List Byte} (hu : (34 : Byte) ∉ u) (h : ¬ u ++ [34] <:+: x) (j : Nat) (hj : j < x.length) (y : List Byte) :
    ¬ u ++ [34] <+: (x ++ (u ++ [34]) ++ y).drop j := by
  intro hp
  rw [List.append_assoc, List.drop_append_of_le_length (by omega)] at hp
  have h2 : x.drop j ++ u <+: x.drop j ++ (u ++ [34] ++ y) := ⟨34 :: y, by simp⟩
  rcases List.prefix_or_prefix_of_prefix hp h2 with ⟨v, hv⟩ | h3
  · rcases List.append_eq_append_iff.mp hv with ⟨v, e1, e2⟩ | ⟨v, e1, e2⟩
    · exact h (infix_of_prefix_drop ⟨v, e1.symm⟩)
    · by_cases hv : v = []
      · subst hv
        rw [List.append_nil] at e1
        exact h (infix_of_prefix_drop ⟨[], by rw [List.append_nil]; exact e1⟩)
      · have : (34 : Byte) ∈ v := by
          have := congrArg List.getLast? e1
          rw [List.getLast?_append, List.getLast?_append] at this
          obtain ⟨w, hw⟩ := Option.ne_none_iff_exists'.mp (by rw [ne_eq, List.getLast?_eq_none_iff]; exact hv : v.getLast? ≠ none)
          rw [hw] at this
          simp only [Option.some_or] at this
          have h34 : w = 34 := by simpa using this.symm
          rw [← h34]
          exact List.mem_of_getLast? hw
        exact hu (by rw [e2]; simp [this])
  · have := h3.length_le
    simp only [List.length_append, List.length_drop, List.length_singleton] at this
    have hl : (x.drop j).length = 1 := by rw [List.length_drop]; omega
    have e := h3.eq_of_length (by simp only [List.length_append, hl, List.length_singleton]; omega)
    by_cases hu0 : u = []
    · rw [hu0, List.append_nil, List.nil_append] at e
      exact h (infix_of_prefix_drop (j := j) (by rw [hu0, e]; exact List.prefix_refl _))
    · have e2 := congrArg List.getLast? e
      rw [List.getLast?_append, List.getLast?_append] at e2
      obtain ⟨w, hw⟩ := Option.ne_none_iff_exists'.mp (by rw [ne_eq, List.getLast?_eq_none_iff]; exact hu0 : u.getLast? ≠ none)
      rw [hw] at e2
      have h34 : w = 34 := by simpa using e2
      exact hu (h34 ▸ List.mem_of_getLast? hw)

theorem fileMark_first {before : List (List Byte)} {name : List Byte} (hb : ∀ l ∈ before, ¬ fileMark <:+: l)
    (hn : ∀ c ∈ name, 35 ≤ c.toNat) :
    ¬ fileMark <:+: b!"\r\n" ++ before.flatMap (· ++ b!"\r\n") ++ (b!"Content-Disposition: " ++ nameMark ++ name ++ b!"\"") := by
  refine no_lines (by decide) (by decide) (by decide) before hb ?_
  intro h
  have h : b!"; filename=" <:+: b!"Content-Disposition: form-data; name=" ++ 34 :: (name ++ 34 :: []) := by
    refine List.IsInfix.trans (List.prefix_append b!"; filename=" [34]).isInfix ?_
    simpa using h
  rcases infix_sep h (by decide) with h | h
  · revert h; decide
  · rcases infix_sep h (by decide) with h | h
    · have : (32 : Byte) ∈ name := h.subset (by decide)
      have := hn _ this
      revert this; decide
    · revert h; decide

theorem takeWhile_keeps_quote {orig rest : List Byte} (ho : ∀ c ∈ orig, keeps c = true) (hl : orig.length ≤ 255) :
    ((orig ++ 34 :: rest).take 255).takeWhile keeps = orig := by
  by_cases h : orig.length = 255
  · rw [List.take_left' h, List.takeWhile_eq_self_iff.mpr ho]
  · obtain ⟨n, hn⟩ : ∃ n, 255 - orig.length = n + 1 := ⟨254 - orig.length, by omega⟩
    rw [List.take_append, List.take_of_length_le hl, hn, List.take_succ_cons, List.takeWhile_append_of_pos ho,
      List.takeWhile_cons_of_neg (by decide), List.append_nil]

/-- C12, what would hold with a library whose maximum digest size is 16 or 17 (where the array is large enough): everything else about
storing a file is right. Missing: the actual value, 64 (`C12_overflow`). -/
theorem C12_partial : C12_for 16 ∧ C12_for 17 := by
  suffices ∀ n, 16 ≤ n → n ≤ 17 → C12_for n from ⟨this 16 (by omega) (by omega), this 17 (by omega) (by omega)⟩
  intro n hn1 hn2 env fs delim body name orig content p hevp h16 htn htl hd hm hno hol hdir hop
  obtain ⟨pre, tail, hb, hpre, hl, hp⟩ := hm
  cases hp with
  | part _ _ text tail' hpl hnt hps =>
    cases hps with
    | last _ ht =>
      obtain ⟨before, after, h1, h2, h3, h4, hte⟩ := hpl
      have hpar : ∀ c ∈ b!"; filename=\"" ++ orig ++ b!"\"", c ≠ 0 ∧ c ≠ 10 ∧ c ≠ 13 := by
        intro c hc
        simp only [List.mem_append] at hc
        rcases hc with (hc | hc) | hc
        · clear hno; revert c; decide
        · exact ⟨(h4 c hc).1, (h4 c hc).2.1, (h4 c hc).2.2.1⟩
        · clear hno; revert c; decide
      have hcut : Cut name name := ⟨[], by simp, fun c hc => hno c (by simp [hc]), by simp⟩
      obtain ⟨more, hmore, hs⟩ := part_shape (content := content) (fun l hl => ⟨(h1 l hl).1, (h1 l hl).2.1⟩) h2 h3 hpar hcut
      have hmore0 : more = [] := by simpa using hmore
      subst hmore0
      rw [← hte] at hs
      have hat := At.init hb hpre hl
      have hlast : text.getLast? = some 10 := by
        obtain ⟨t, ht⟩ := hs.last
        rw [ht]; simp
      generalize hdd : List.replicate body.length (0 : Byte) = d at hat
      generalize hee : d.drop text.length = e
      -- the part, read as a string
      obtain ⟨A, hA⟩ : ∃ A, A = b!"\r\n" ++ before.flatMap (· ++ b!"\r\n") ++ (b!"Content-Disposition: " ++ nameMark ++ name ++ b!"\"") :=
        ⟨_, rfl⟩
      have htext : text ++ e = (A ++ fileMark ++ orig ++ b!"\"") ++ (after.flatMap (b!"\r\n" ++ ·) ++ b!"\r\n\r\n" ++ content ++ b!"\r\n" ++ e) := by
        rw [hte, hA]
        unfold partText
        simp
      have hhead : NulFree (A ++ fileMark ++ orig ++ b!"\"") := by
        have := hs.nul
        rw [hA]
        simp only [nulFree_append] at this ⊢
        exact ⟨⟨⟨⟨this.1.1.1.1, ⟨⟨this.1.1.1.2, this.1.1.2⟩, this.1.2⟩, by decide⟩, by decide⟩, fun c hc => (h4 c hc).1⟩, by decide⟩
      have hU := untilNul_append hhead (after.flatMap (b!"\r\n" ++ ·) ++ b!"\r\n\r\n" ++ content ++ b!"\r\n" ++ e)
      rw [← htext] at hU
      generalize untilNul (after.flatMap (b!"\r\n" ++ ·) ++ b!"\r\n\r\n" ++ content ++ b!"\r\n" ++ e) = R at hU
      have hlenb : body.length = pre.length + delim.length + (text.length + delim.length + tail'.length) := by
        rw [hb]; simp; omega
      have h2d : 2 ≤ delim.length := by simpa using hd.1.length_le
      have hlent : 60 + name.length + orig.length ≤ text.length := by
        rw [hte]; unfold partText; simp; omega
      -- the name of the file
      have hfirst : text_find_after ((text ++ e).map some ++ [some 0]) fileMark 0 (untilNul (text ++ e)).length =
          ok (((A.length + 12 : Nat)) : Int) := by
        obtain ⟨rr, hrr⟩ := untilNul_split (text ++ e)
        have hD : (text ++ e).map some ++ [some 0] = (untilNul (text ++ e)).map some ++ some 0 :: rr.map some := by
          have := congrArg (List.map some) hrr
          simpa using this
        rw [hD, find_first (k := A.length) (by decide) (Nat.le_refl _)]
        · simp
        · refine ⟨Nat.zero_le _, by rw [hU]; simp, ?_, ?_⟩
          · rw [hU, List.append_assoc, List.append_assoc, List.append_assoc, List.drop_left]
            exact List.prefix_append _ _
          · intro j _ hj
            have := quote_first (u := b!"; filename=") (x := A) (by decide)
              (by rw [hA]; exact fileMark_first (fun l hl => (h1 l hl).2.2) (fun c hc => (hno c (by simp [hc])).1)) j hj (orig ++ b!"\"" ++ R)
            rw [hU]
            rw [show A ++ fileMark ++ orig ++ b!"\"" ++ R = A ++ (b!"; filename=" ++ [34]) ++ (orig ++ b!"\"" ++ R) by simp]
            exact this
      obtain ⟨r1, k1, k2, k3⟩ := part_parse_eq env fs hs e hat.nul (r := List.replicate body.length (some 0)) (by simp; omega)
      rw [hfirst] at k3
      simp only [ok_bind] at k3
      unfold part_tail at k3
      rw [if_pos (by omega), Int.toNat_natCast, Int.toNat_natCast] at k3
      obtain ⟨hx, hhx⟩ : ∃ hx, hx = b!"\r\n" ++ before.flatMap (· ++ b!"\r\n") ++ b!"Content-Disposition: " ++ nameMark ++ name ++
        ([] ++ b!"\"" ++ (b!"; filename=\"" ++ orig ++ b!"\"") ++ after.flatMap (b!"\r\n" ++ ·)) ++ blankLine := ⟨_, rfl⟩
      rw [← hhx] at k3
      have htx : text = hx ++ content ++ b!"\r\n" := by rw [hs.eq, hhx]
      obtain ⟨q, hq⟩ := save_eq env fs ((amp []).map some ++ some 0 :: r1) name (k := A.length + 12) (text := text) (e := e) (head := hx)
        (content := content) (by rw [htx]; simp; omega) (by rw [hU]; simp)
      have hD : (text ++ e).map some ++ [some 0] = hx.map some ++ (content.map some ++ ((b!"\r\n" ++ e).map some ++ [some 0])) := by
        rw [htx]; simp
      obtain ⟨qm, m1, m2, -⟩ := C11_md5sum env.digest h16 env.evpMax (by omega) (malloc 36) (by simp; omega) (hx.map some) content
        ((b!"\r\n" ++ e).map some ++ [some 0])
      rw [List.length_map] at m1
      have hhn : NulFree (hexText (env.digest content)) := by
        intro c hc
        unfold hexText at hc
        rw [List.mem_flatMap] at hc
        obtain ⟨a, -, ha⟩ := hc
        intro h0
        subst h0
        revert ha
        clear * -
        revert a
        have : ∀ n : Fin 256, (0 : Byte) ∉ hex2 (UInt8.ofNat n) := by decide +kernel
        intro a
        have := this ⟨a.toNat, a.toNat_lt⟩
        simpa using this
      have hdir' : is_dir fs FILE_DOWNLOAD_TMP_DIR = true := by
        unfold is_dir; rw [show FILE_DOWNLOAD_TMP_DIR = b!"/tmp/wayuu" from rfl, hdir]
      have hz : (strAt (hx.map some ++ (content.map some ++ ((b!"\r\n" ++ e).map some ++ [some 0]))) (hx.map some).length).IsOk := by
        unfold strAt
        rw [if_pos (by simp), List.drop_left, ← List.append_assoc, ← List.map_append]
        exact ⟨_, cstr_untilNul _ _⟩
      obtain ⟨fs', w1, -, w2, w3, -⟩ := (C59_write_partial fs (b!"/tmp/wayuu/" ++ tmpName env content) (hx.map some)
        ((b!"\r\n" ++ e).map some ++ [some 0]) content hz).1 p hop
      rw [List.length_map] at w1
      rw [hD, m1] at hq
      simp only [ok_bind] at hq
      rw [cstr_mk hhn] at hq
      simp only [ok_bind] at hq
      rw [fmtInto_ok (by simp only [List.length_append, m2]; simp; omega)] at hq
      simp only [ok_bind] at hq
      rw [fmtInto_ok (by simp only [List.length_append, m2]; simp [FILE_DOWNLOAD_TMP_DIR]; omega)] at hq
      simp only [ok_bind] at hq
      rw [hdir'] at hq
      simp only [Bool.not_true, Bool.false_eq_true, if_false] at hq
      rw [show FILE_DOWNLOAD_TMP_DIR ++ b!"/" ++ (env.tid ++ b!"-" ++ hexText (env.digest content)) = b!"/tmp/wayuu/" ++ tmpName env content from
        rfl, w1] at hq
      simp only [ok_bind] at hq
      have horig : (((untilNul (text ++ e)).drop (A.length + 12)).take 255).takeWhile keeps = orig := by
        have : (untilNul (text ++ e)).drop (A.length + 12) = orig ++ 34 :: R := by
          rw [hU, show A ++ fileMark ++ orig ++ b!"\"" ++ R = (A ++ fileMark) ++ (orig ++ 34 :: R) by simp, List.drop_left' (by simp)]
        rw [this]
        exact takeWhile_keeps_quote (fun c hc => by have := hno c (by simp [hc]); simp [keeps, this]) hol
      rw [horig, cstr_mk (fun c hc => (h4 c hc).1)] at hq
      simp only [ok_bind] at hq
      have hcat : appendStr ((amp []).map some ++ some 0 :: r1) (name ++ b!"=" ++ orig ++ b!"&tmpfile=" ++ (env.tid ++ b!"-" ++
          hexText (env.digest content))) = ok ((name ++ b!"=" ++ orig ++ b!"&tmpfile=" ++ tmpName env content).map some ++
            some 0 :: r1.drop (name ++ b!"=" ++ orig ++ b!"&tmpfile=" ++ tmpName env content).length) := by
        have := strcat_mk (d := amp []) (s := name ++ b!"=" ++ orig ++ b!"&tmpfile=" ++ tmpName env content) (r := r1) k2 (by
          simp [amp] at k1
          unfold tmpName
          simp [m2, k1]; omega)
        simpa [appendStr, amp, tmpName] using this
      rw [hcat] at hq
      simp only [ok_bind] at hq
      rw [hD, hq] at k3
      -- the loop
      have hb1 := hat.eq
      have htl1 : text.take 1 ++ text.drop 1 = text := List.take_append_drop 1 text
      obtain ⟨d', t1, -⟩ := trim_scratch (text ++ e)
      have hstop := partsLoop_stop env fs' hd (d'.map some ++ [some 0]) (z := pre ++ delim ++ text.take 1) (a := text.drop 1) (body := body)
        (tail := tail') (by rw [hb]; simp only [List.append_assoc]; rw [← List.append_assoc (text.take 1), htl1]) (Or.inr (by
          rw [List.getLast?_drop, if_neg (by omega)]; exact hlast)) (fun h => hnt (h.trans (List.drop_suffix 1 text).isInfix))
        (body.length - 1) ht ((name ++ b!"=" ++ orig ++ b!"&tmpfile=" ++ tmpName env content).map some ++
            some 0 :: r1.drop (name ++ b!"=" ++ orig ++ b!"&tmpfile=" ++ tmpName env content).length)
      have hfin : NulFree (name ++ b!"=" ++ orig ++ b!"&tmpfile=" ++ tmpName env content) := by
        unfold tmpName
        simp only [nulFree_append]
        exact ⟨⟨⟨⟨fun c hc => (h3 c hc).1, by decide⟩, fun c hc => (h4 c hc).1⟩, by decide⟩, ⟨htn, by decide⟩, hhn⟩
      have hflen : (name ++ b!"=" ++ orig ++ b!"&tmpfile=" ++ tmpName env content).length ≤ body.length := by
        unfold tmpName
        simp [m2]; omega
      refine ⟨(name ++ b!"=" ++ orig ++ b!"&tmpfile=" ++ tmpName env content).map some ++ some 0 ::
        (body.map some ++ [some 0]).drop ((name ++ b!"=" ++ orig ++ b!"&tmpfile=" ++ tmpName env content).length + 1), fs', ?_, cstr_mk hfin _, w2, w3⟩
      rw [multipart_loop, hdd, partsLoop_begin env fs hd body.length [] pre text tail' hb1 hat.line hat.none hlast hnt d hat.len, hee, hD, k3]
      simp only [ok_bind]
      rw [← hD, t1]
      simp only [ok_bind]
      rw [show body.length - 1 + 1 = body.length by omega, show (pre ++ delim ++ text.take 1).length =
        ([] : List Byte).length + pre.length + delim.length + 1 by
          rw [List.length_append, List.length_append, List.length_take, List.length_nil]; omega] at hstop
      rw [hstop]
      simp only [ok_bind]
      rw [cstr_mk hfin]
      simp only [ok_bind]
      rw [strcpyAt_ok (by simp only [List.length_append (as := body.map some), List.length_map, List.length_singleton]; omega)]
      simp only [ok_bind, List.take_zero, List.nil_append, Nat.zero_add]

example : ∃ p, uploadFs.openWrite (b!"/tmp/wayuu/" ++ tmpName (uploadEnv 16) [1, 0, 2]) = some p ∧ uploadFs.lookup b!"/tmp/wayuu" = some .dir ∧
    (∀ x, ((uploadEnv 16).digest x).length = 16) ∧ NulFree (uploadEnv 16).tid :=
  ⟨[b!"tmp", b!"wayuu", tmpName (uploadEnv 16) [1, 0, 2]], by decide +kernel, by decide +kernel, fun _ => rfl, by unfold NulFree; decide⟩
example : Delimiter b!"--xY" ∧ Multipart ItemPart b!"--xY" [.file b!"pic" b!"me.png" [1, 0, 2]] (uploadBody b!"me.png" [1, 0, 2]) :=
  ⟨xY_delimiter, upload_multipart⟩
example : (multipart_parse (uploadEnv 16) uploadFs ((uploadBody b!"me.png" [1, 0, 2]).map some ++ [some 0]) b!"--xY"
    (uploadBody b!"me.png" [1, 0, 2]).length).bind (fun x => cstr x.1) =
    ok b!"pic=me.png&tmpfile=1234-07070707070707070707070707070707" := by decide +kernel

end Wayuu
