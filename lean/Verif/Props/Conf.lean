import Verif.Lemmas.ConfHeap
import Verif.Lemmas.Fs
/-
Properties C17–C23: configuration files (conf_parser.c), against Spec/Conf.lean.
-/
namespace Wayuu
open C Spec

/-! ### C17 -/

/-- C17 in full: the key is the trimmed text before the first `=`, the value the trimmed text after
it, for every line; nothing crashes. -/
def C17_statement : Prop :=
  (∀ (k v key value : Str) (multi : Bool), NulFree (k ++ v) → (61 : Byte) ∉ k → IsStrip k key → IsStrip v value →
    ∃ it, conf_parse_line (k ++ 61 :: v) multi = ok (some it) ∧ it.key.s = key ∧ it.value.s = value) ∧
  (∀ (line : Str) (multi : Bool), NulFree line → (61 : Byte) ∉ line → conf_parse_line line multi = ok none)

/-- C17 is false: `a=b=c` gives the value `b`. -/
theorem C17_refuted : ¬ C17_statement := by
  intro ⟨h, _⟩
  obtain ⟨it, h1, _, h3⟩ := h b!"a" b!"b=c" b!"a" b!"b=c" false (by decide) (by decide)
    ⟨[], [], by decide, by decide, by decide, by decide, by decide⟩
    ⟨[], [], by decide, by decide, by decide, by decide, by decide⟩
  have e : conf_parse_line b!"a=b=c" false = ok (some ⟨⟨true, b!"a"⟩, ⟨true, b!"b"⟩, []⟩) := by decide
  have h1 : conf_parse_line b!"a=b=c" false = ok (some it) := h1
  rw [e] at h1
  simp only [ok.injEq, Option.some.injEq] at h1
  subst h1
  revert h3
  decide

/-- C17, further counterexamples: a line made of `=` dereferences NULL, a line without `=` does so
when multi-values are requested, and `=v` is read as the key `v`. -/
theorem C17_refuted_crash :
    conf_parse_line b!"=" false = ub .null ∧ conf_parse_line b!"novalue" true = ub .null ∧
    conf_parse_line b!"=v" false = ok (some ⟨⟨true, b!"v"⟩, ⟨false, []⟩, []⟩) := by decide

/-- C17, what holds: with a non-blank key and no further `=` in the value, key and value are the
trimmed parts. Missing: blank keys, values containing `=`. -/
theorem C17_partial (line key value : Str) (hs : NulFree line) (h : ConfLine line key value) :
    ∃ it, conf_parse_line line false = ok (some it) ∧ it.key.s = key ∧ it.value.s = value ∧ it.multi = [] := by
  refine ⟨⟨⟨true, key⟩, ⟨decide (value ≠ []), value⟩, []⟩, ?_, rfl, rfl, rfl⟩
  unfold conf_parse_line
  rw [first_pass_eq hs h]
  simp

example := C17_partial b!" name =\ta b \n" b!"name" b!"a b" (by decide) ⟨b!" name ", b!"\ta b \n", by decide, by decide, by decide,
    ⟨b!" ", b!" ", by decide, by decide, by decide, by decide, by decide⟩,
    ⟨b!"\t", b!" \n", by decide, by decide, by decide, by decide, by decide⟩, by decide⟩

/-- C17, lines without `=` yield no item (single-valued parsing). -/
theorem C17_none_partial (line : Str) (h : (61 : Byte) ∉ line) : conf_parse_line line false = ok none := by
  unfold conf_parse_line
  rw [first_pass_none h]
  simp

example : conf_parse_line b!"no sign here" false = ok none := C17_none_partial _ (by decide)

/-- C17, all the ways a line can crash single-valued parsing: it consists of white space and `=` only. -/
theorem C17_crash_partial (line : Str) (hs : NulFree line) (h : ∃ c ∈ line, c ≠ 61 ∧ ws c = false) :
    ∃ r, conf_parse_line line false = ok r := by
  unfold conf_parse_line
  rcases first_pass_cases hs with e | e | ⟨it, e, -⟩
  · exact ⟨none, by rw [e]; simp⟩
  · exfalso
    unfold conf_parse_first_pass at e
    cases hst : strstr line b!"=" with
    | none => simp [hst] at e
    | some x =>
      simp only [hst] at e
      rw [trimStr_eq hs] at e
      simp only [ok_bind] at e
      cases ht : strtok (strip line) b!"=" with
      | none =>
        obtain ⟨c, hc, hne, hw⟩ := h
        have hall := strtok_none ht
        obtain ⟨l, r, hlr, hl, hr, -, -⟩ := isStrip_strip line
        rw [hlr] at hc
        simp only [List.mem_append] at hc
        rcases hc with (hc | hc) | hc
        · rw [hl c hc] at hw; simp at hw
        · have := hall c hc; simp at this; exact hne this
        · rw [hr c hc] at hw; simp at hw
      | some p =>
        obtain ⟨key, rest⟩ := p
        obtain ⟨hk, hr⟩ := strtok_nulFree (nulFree_strip hs) ht
        simp only [ht] at e
        rw [trimStr_eq hk] at e
        simp only [ok_bind] at e
        cases ht2 : strtok rest b!"=" with
        | none => simp [ht2] at e
        | some q =>
          obtain ⟨v, r2⟩ := q
          obtain ⟨hv, _⟩ := strtok_nulFree hr ht2
          simp only [ht2] at e
          rw [trimStr_eq hv] at e
          simp only [ok_bind] at e
          rw [trimStr_eq (nulFree_strip hv)] at e
          simp at e
  · exact ⟨some it, by rw [e]; simp⟩

example : ConfLine b!" name =\ta b \n" b!"name" b!"a b" :=
  ⟨b!" name ", b!"\ta b \n", by decide, by decide, by decide,
    ⟨b!" ", b!" ", by decide, by decide, by decide, by decide, by decide⟩,
    ⟨b!"\t", b!" \n", by decide, by decide, by decide, by decide, by decide⟩, by decide⟩
example : ∃ c ∈ b!"==a=", c ≠ 61 ∧ ws c = false := ⟨97, by decide, by decide, by decide⟩

/-! ### C18 -/

/-- C18 in full. -/
def C18_statement : Prop :=
  ∀ (line key value : Str) (ms : List Str), NulFree line → ConfLine line key value → Elements value ms →
    ∃ it, conf_parse_line line true = ok (some it) ∧ it.key.s = key ∧ it.multi = ms

/-- C18 is false: any value with more than 20 elements writes past the item. -/
theorem C18_overflow (line key value : Str) (ms : List Str) (hs : NulFree line) (h : ConfLine line key value)
    (he : Elements value ms) (hl : 20 < ms.length) : conf_parse_line line true = ub .oob := by
  unfold conf_parse_line
  rw [first_pass_eq hs h]
  simp only [ok_bind, if_true]
  rw [parse_multi_over (ms := ms) (confLine_nulFree hs h).2 he hl]
  simp

/-- C18 is false: witness with 21 elements. -/
theorem C18_refuted : ¬ C18_statement := by
  intro hst
  have hclean : ∀ m ∈ List.replicate 21 b!"x", Clean m ∧ m ≠ [] ∧ (44 : Byte) ∉ m := by
    intro m hm
    rw [List.eq_of_mem_replicate hm]
    exact ⟨⟨⟨[], [], by decide, by decide, by decide, by decide, by decide⟩, by decide, by decide, by decide⟩,
      by decide, by decide⟩
  have hel := elements_sepBy _ hclean
  have hline : ConfLine (b!"k" ++ 61 :: sepBy [44] (List.replicate 21 b!"x")) b!"k"
      (sepBy [44] (List.replicate 21 b!"x")) :=
    ⟨b!"k", _, rfl, by decide, by decide, ⟨[], [], by decide, by decide, by decide, by decide, by decide⟩,
      ⟨[], [], by decide, by decide, by decide, by decide, by decide⟩, by decide⟩
  have hn : NulFree (b!"k" ++ 61 :: sepBy [44] (List.replicate 21 b!"x")) := by decide
  obtain ⟨it, h1, -⟩ := hst _ _ _ _ hn hline hel
  rw [C18_overflow _ _ _ _ hn hline hel (by simp)] at h1
  simp at h1

/-- C18, what holds: up to 20 elements, every non-empty one is listed, trimmed, in order.
Missing: more than 20 elements (see `C18_overflow`). -/
theorem C18_partial (line key value : Str) (ms : List Str) (hs : NulFree line) (h : ConfLine line key value)
    (he : Elements value ms) (hl : ms.length ≤ 20) :
    ∃ it, conf_parse_line line true = ok (some it) ∧ it.key.s = key ∧ it.value.s = value ∧ it.multi = ms := by
  refine ⟨⟨⟨true, key⟩, ⟨decide (value ≠ []), value⟩, ms⟩, ?_, rfl, rfl, rfl⟩
  unfold conf_parse_line
  rw [first_pass_eq hs h]
  simp only [ok_bind, if_true]
  rw [parse_multi_eq (ms := ms) (confLine_nulFree hs h).2 he hl]
  simp

/-- Every value has a list of elements, so the case split 20 / more than 20 is complete. -/
theorem C18_elements_exist (value : Str) : ∃ ms, Elements value ms := elements_exists value

example : Elements b!"a, b ,,c" [b!"a", b!"b", b!"c"] :=
  ⟨[b!"a", b!" b ", b!"c"],
    .cons [] b!"a" 44 b!" b ,,c" _ (by decide) (by decide) (by decide) (by decide)
      (.cons [] b!" b " 44 b!",c" _ (by decide) (by decide) (by decide) (by decide)
        (.last b!"," b!"c" (by decide) (by decide) (by decide))),
    .cons ⟨[], [], by decide, by decide, by decide, by decide, by decide⟩
      (.cons ⟨b!" ", b!" ", by decide, by decide, by decide, by decide, by decide⟩
        (.cons ⟨[], [], by decide, by decide, by decide, by decide, by decide⟩ .nil))⟩

/-! ### C19 -/

/-- C19. Serialising a clean item and parsing the text gives the same key, value and elements. -/
theorem C19_roundtrip (it : ConfItem) (h : CleanItem it.key.s it.value.s it.multi) :
    ∃ line it', conf_item_to_string it = ok line ∧
      conf_parse_line line (decide (it.multi ≠ [])) = ok (some it') ∧
      it'.key.s = it.key.s ∧ it'.value.s = it.value.s ∧ it'.multi = it.multi := by
  have hline := itemText_confLine h
  have hn : NulFree (itemText it.key.s it.value.s) := by
    unfold itemText; simp [clean_nulFree h.1, clean_nulFree h.2.2.1]
  by_cases h0 : it.multi = []
  · obtain ⟨it', h1, h2, h3, h4⟩ := C17_partial _ _ _ hn hline
    exact ⟨_, it', item_to_string_eq it h, by simpa [h0] using h1, h2, h3, by rw [h4, h0]⟩
  · obtain ⟨hv, hm⟩ := h.2.2.2.2 h0
    have hel := elements_sepBy it.multi hm
    rw [← hv] at hel
    obtain ⟨it', h1, h2, h3, h4⟩ := C18_partial _ _ _ _ hn hline hel h.2.2.2.1
    exact ⟨_, it', item_to_string_eq it h, by simpa [h0] using h1, h2, h3, h4⟩

example : CleanItem b!"k 1" b!"a,b c" [b!"a", b!"b c"] :=
  ⟨⟨⟨[], [], by decide, by decide, by decide, by decide, by decide⟩, by decide, by decide, by decide⟩, by decide,
   ⟨⟨[], [], by decide, by decide, by decide, by decide, by decide⟩, by decide, by decide, by decide⟩, by decide,
   fun _ => ⟨by decide, by
    intro m hm
    simp only [List.mem_cons, List.not_mem_nil, or_false] at hm
    rcases hm with rfl | rfl
    · exact ⟨⟨⟨[], [], by decide, by decide, by decide, by decide, by decide⟩, by decide, by decide, by decide⟩,
        by decide, by decide⟩
    · exact ⟨⟨⟨[], [], by decide, by decide, by decide, by decide, by decide⟩, by decide, by decide, by decide⟩,
        by decide, by decide⟩⟩⟩

/-! ### C20 -/

/-- C20 in full, return value only: `parse` returns 0 iff every line has an `=`. -/
def C20_statement : Prop :=
  ∀ (fs : FS) (path content : Str) (flags : KeyFlags), fs.openRead path = some content →
    ∃ ret calls, parse fs path flags = ok (ret, calls) ∧
      (ret = 0 ↔ ∀ l ∈ content.splitOn 10, l ≠ [] → (61 : Byte) ∈ l)

/-- A file system with the single file `/f`. -/
def oneFile (content : List Byte) : FS :=
  ⟨fun p => if p = [b!"f"] then some (.file content) else none, fun _ => true, fun _ => true⟩

/-- C20 is false: a line made of `=` crashes the parser. -/
theorem C20_refuted : ¬ C20_statement := by
  intro h
  obtain ⟨ret, calls, h1, -⟩ := h (oneFile b!"=\n") b!"/f" b!"=\n" [] (by decide)
  have : parse (oneFile b!"=\n") b!"/f" [] = ub .null := by decide
  rw [this] at h1
  simp at h1

/-- C20, what holds: for every file made of `key=value` lines (see `ConfFile`), possibly followed by a
line without `=` and anything after it, the handler gets exactly the expected items in order, and the
result is 0 or −1 accordingly. Missing: lines over 510 bytes, blank keys, values with `=`, more than 20
elements, and paths over 86 bytes (the message buffer). -/
theorem C20_partial (fs : FS) (path content : Str) (flags : KeyFlags) (es : List Entry) (good : Bool)
    (hopen : fs.openRead path = some content) (hfile : ConfFile content es good) (hp : path.length ≤ 86)
    (hm : ∀ e ∈ es, ∀ f, flags.find? (fun f => f.1 = e.key) = some f → f.2 = true → e.elems.length ≤ 20) :
    ∃ calls, parse fs path flags = ok (if good then 0 else -1, calls) ∧
      calls.map (fun it => (it.key.s, it.value.s, it.multi)) = expectedCalls flags es := by
  obtain ⟨its, h1, h2⟩ := parseLoop_eq path flags hfile hp hm (content.length + 1) (by omega) []
  refine ⟨its, ?_, h2⟩
  unfold parse
  rw [FS.fopenRead_of_openRead hopen]
  simpa using h1

/-- C20, a file that cannot be opened gives −1 and no call. (A directory can be opened: `C116_folder`.) -/
theorem C20_unreadable_partial (fs : FS) (path : Str) (flags : KeyFlags) (hopen : fs.openRead path = none)
    (hdir : ∀ p, fs.resolve path = some p → fs.nodeAt p = some .dir → fs.canRead p = false)
    (hp : path.length ≤ 98) : parse fs path flags = ok (-1, []) := by
  unfold parse
  rw [FS.fopenRead_none hopen hdir]
  simp only
  rw [fmtInto_ok (by simp; omega)]
  simp

example : ConfFile b!"a = 1\nb=x,y\noops\nc=2\n"
    [⟨b!"a = 1", b!"a", b!"1", [b!"1"]⟩, ⟨b!"b=x,y", b!"b", b!"x,y", [b!"x", b!"y"]⟩] false := by
  refine .line ⟨b!"a = 1", _, _, _⟩ b!"b=x,y\noops\nc=2\n" _ _
    ⟨⟨b!"a ", b!" 1", by decide, by decide, by decide,
      ⟨[], b!" ", by decide, by decide, by decide, by decide, by decide⟩,
      ⟨b!" ", [], by decide, by decide, by decide, by decide, by decide⟩, by decide⟩,
      ⟨[b!"1"], .last [] b!"1" (by decide) (by decide) (by decide),
        .cons ⟨[], [], by decide, by decide, by decide, by decide, by decide⟩ .nil⟩,
      by decide, by decide, by decide⟩ ?_
  refine .line ⟨b!"b=x,y", _, _, _⟩ b!"oops\nc=2\n" _ _
    ⟨⟨b!"b", b!"x,y", by decide, by decide, by decide,
      ⟨[], [], by decide, by decide, by decide, by decide, by decide⟩,
      ⟨[], [], by decide, by decide, by decide, by decide, by decide⟩, by decide⟩,
      ⟨[b!"x", b!"y"], .cons [] b!"x" 44 b!"y" _ (by decide) (by decide) (by decide) (by decide)
          (.last [] b!"y" (by decide) (by decide) (by decide)),
        .cons ⟨[], [], by decide, by decide, by decide, by decide, by decide⟩
          (.cons ⟨[], [], by decide, by decide, by decide, by decide, by decide⟩ .nil)⟩,
      by decide, by decide, by decide⟩ ?_
  exact .bad b!"oops" b!"c=2\n" (by decide) (by decide) (by decide)
example : expectedCalls [(b!"b", true), (b!"b", false)]
    [⟨b!"a = 1", b!"a", b!"1", [b!"1"]⟩, ⟨b!"b=x,y", b!"b", b!"x,y", [b!"x", b!"y"]⟩] =
    [(b!"b", b!"x,y", [b!"x", b!"y"])] := by decide

/-! ### C21 -/

/-- C21. Items written with `write_conf` and read back with `parse`: the handler receives exactly those
items in order. Every item is clean and fits in a line of 510 bytes; every key is registered with a
flag that agrees with the item having elements; the file can be written and read. -/
theorem C21_write_parse (fs : FS) (path : Str) (items : List ConfItem) (flags : KeyFlags) (p : List Str)
    (hopen : fs.openWrite path = some p) (hread : fs.canRead p = true) (hpath : path.length ≤ 86)
    (hitems : ∀ it ∈ items, CleanItem it.key.s it.value.s it.multi ∧ it.Owned ∧
      it.key.s.length + it.value.s.length + 1 ≤ 510 ∧
      ∃ f, flags.find? (fun f => f.1 = it.key.s) = some f ∧ f.2 = decide (it.multi ≠ [])) :
    ∃ fs' calls, write_conf fs ⟨⟨true, path⟩, items⟩ = ok (0, fs') ∧
      parse fs' path flags = ok (0, calls) ∧
      calls.map (fun it => (it.key.s, it.value.s, it.multi)) =
        items.map (fun it => (it.key.s, it.value.s, it.multi)) := by
  obtain ⟨es, htext, hfile, hexp, hel⟩ := confText_file flags items (fun it hit => by
    obtain ⟨h1, _, h2, h3⟩ := hitems it hit
    exact ⟨h1, h2, h3⟩)
  have hfree := freeItems_owned items (fun it hit => (hitems it hit).2.1)
  refine ⟨fs.update p (some (.file (textOf items))), ?_⟩
  obtain ⟨calls, h1, h2⟩ := C20_partial (fs.update p (some (.file (textOf items)))) path _ flags es true
    (FS.openRead_written hopen hread _) hfile hpath hel
  refine ⟨calls, ?_, h1, by rw [h2, hexp]⟩
  unfold write_conf
  simp only
  rw [hopen]
  simp only
  rw [htext]
  simp only [ok_bind, free_serializable, freeStr, if_true]
  rw [hfree]
  simp

/-- Copies made by the loop of `new_serializable` have the contents of the items and blocks of their own. -/
theorem serItems_eq (items : List ConfItem) : ∀ i, i + items.length ≤ CONF_MAX_ITEMS →
    (∀ it ∈ items, it.Owned ∧ it.multi.length ≤ CONF_MAX_MULTI_ELEMENTS) →
    ∃ cs, serItems items i = ok cs ∧ (∀ c ∈ cs, c.Owned) ∧
      cs.map (fun it => (it.key.s, it.value.s, it.multi)) = items.map (fun it => (it.key.s, it.value.s, it.multi)) := by
  induction items with
  | nil => intro i _ _; exact ⟨[], rfl, by simp, rfl⟩
  | cons it r ih =>
    intro i hi h
    simp only [List.length_cons] at hi
    obtain ⟨cs, h1, h2, h3⟩ := ih (i + 1) (by omega) (fun x hx => h x (by simp [hx]))
    obtain ⟨ho, hm⟩ := h it (by simp)
    cases hc : copy_conf_item new_conf_item it with
    | ub f =>
      unfold copy_conf_item at hc
      rw [if_neg (by omega)] at hc
      cases hc
    | ok c =>
      refine ⟨c :: cs, ?_, ?_, ?_⟩
      · simp only [serItems]
        rw [if_neg (by omega), hc, ok_bind, free_owned ho, ok_bind, h1]
        rfl
      · intro x hx
        rcases List.mem_cons.mp hx with rfl | hx
        · exact ConfHeap.owned_copy it x hc
        · exact h2 x hx
      · unfold copy_conf_item at hc
        rw [if_neg (by omega)] at hc
        cases hc
        simp only [List.map_cons, h3, List.cons.injEq, Prod.mk.injEq, true_and, and_true]
        by_cases h0 : it.value.s = [] <;> simp [h0, new_conf_item]

/-- C21 for a serializer as the manual shows it, which hands up to 20 items to `new_serializable`: the items are copied
and released, and what the handler receives are the items given. -/
theorem C21_serializer (fs : FS) (path : Str) (items : List ConfItem) (flags : KeyFlags) (p : List Str)
    (hopen : fs.openWrite path = some p) (hread : fs.canRead p = true) (hpath : path.length ≤ 86) (hn : items.length ≤ 20)
    (hitems : ∀ it ∈ items, CleanItem it.key.s it.value.s it.multi ∧ it.Owned ∧
      it.key.s.length + it.value.s.length + 1 ≤ 510 ∧
      ∃ f, flags.find? (fun f => f.1 = it.key.s) = some f ∧ f.2 = decide (it.multi ≠ [])) :
    ∃ s fs' calls, new_serializable ⟨true, path⟩ items = ok s ∧ write_conf fs s = ok (0, fs') ∧
      parse fs' path flags = ok (0, calls) ∧
      calls.map (fun it => (it.key.s, it.value.s, it.multi)) =
        items.map (fun it => (it.key.s, it.value.s, it.multi)) := by
  obtain ⟨cs, h1, h2, h3⟩ := serItems_eq items 0 (by simpa using hn) fun it hit =>
    ⟨(hitems it hit).2.1, (hitems it hit).1.2.2.2.1⟩
  obtain ⟨fs', calls, a, b, c⟩ := C21_write_parse fs path cs flags p hopen hread hpath (fun x hx => by
    have hm : (x.key.s, x.value.s, x.multi) ∈ items.map (fun it => (it.key.s, it.value.s, it.multi)) := by
      rw [← h3]; exact List.mem_map_of_mem (f := fun it : ConfItem => (it.key.s, it.value.s, it.multi)) hx
    obtain ⟨it, hit, e⟩ := List.mem_map.mp hm
    simp only [Prod.mk.injEq] at e
    obtain ⟨e1, e2, e3⟩ := e
    obtain ⟨q1, -, q2, q3⟩ := hitems it hit
    rw [e1, e2, e3] at q1
    rw [e1, e2] at q2
    rw [e1, e3] at q3
    exact ⟨q1, h2 x hx, q2, q3⟩)
  refine ⟨⟨⟨true, path⟩, cs⟩, fs', calls, ?_, a, b, by rw [c, h3]⟩
  unfold new_serializable
  rw [h1]
  rfl

/-- C21: a 21st item does not fit in the array of `serializable`. -/
theorem C21_over (path : HStr) (items : List ConfItem) (hn : 20 < items.length)
    (h : ∀ it ∈ items, it.Owned ∧ it.multi.length ≤ 20) : new_serializable path items = ub .oob := by
  have key : ∀ (l : List ConfItem) (i : Nat), i ≤ CONF_MAX_ITEMS → CONF_MAX_ITEMS < i + l.length →
      (∀ it ∈ l, it.Owned ∧ it.multi.length ≤ 20) → serItems l i = ub .oob := by
    intro l
    induction l with
    | nil => intro i h1 h2; simp at h2; omega
    | cons it r ih =>
      intro i h1 h2 h3
      simp only [serItems]
      by_cases hi : CONF_MAX_ITEMS ≤ i
      · rw [if_pos hi]
      · obtain ⟨ho, hm⟩ := h3 it (by simp)
        rw [if_neg hi]
        unfold copy_conf_item
        rw [if_neg (by simpa using hm), ok_bind, free_owned ho, ok_bind,
          ih (i + 1) (by omega) (by simp at h2; omega) (fun x hx => h3 x (by simp [hx])), ub_bind]
  unfold new_serializable
  rw [key items 0 (by simp) (by simpa using hn) h, ub_bind]

/-- Two items, one with elements. -/
example : (oneFile []).openWrite b!"/f" = some [b!"f"] ∧ (oneFile []).canRead [b!"f"] = true ∧
    ∀ it ∈ [(⟨⟨true, b!"name"⟩, ⟨true, b!"x"⟩, []⟩ : ConfItem), ⟨⟨true, b!"tags"⟩, ⟨true, b!"a,b"⟩, [b!"a", b!"b"]⟩],
      it.Owned ∧ it.key.s.length + it.value.s.length + 1 ≤ 510 ∧
      ∃ f, [(b!"tags", true), (b!"name", false)].find? (fun f => f.1 = it.key.s) = some f ∧ f.2 = decide (it.multi ≠ []) := by
  refine ⟨by decide, by decide, ?_⟩
  intro it hit
  simp only [List.mem_cons, List.not_mem_nil, or_false] at hit
  rcases hit with rfl | rfl
  · exact ⟨⟨fun _ => rfl, fun _ => rfl⟩, by decide, _, rfl, by decide⟩
  · exact ⟨⟨fun _ => rfl, fun _ => rfl⟩, by decide, _, rfl, by decide⟩


/-! ### C22 -/

/-- C22, a key is registered: the first entry with that key is returned. -/
theorem C22_found (before after : KeyFlags) (f : Str × Bool) (h : ∀ g ∈ before, g.1 ≠ f.1) :
    get_key_flag f.1 (before ++ f :: after) = some f := by
  rw [get_key_flag_eq]
  rw [List.find?_append, List.find?_eq_none.mpr (by simpa using h)]
  simp

example : get_key_flag b!"b" [(b!"a", false), (b!"b", true), (b!"b", false)] = some (b!"b", true) :=
  C22_found [(b!"a", false)] [(b!"b", false)] (b!"b", true) (by decide)

/-- C22, the empty flag is returned iff no entry has the key. -/
theorem C22_absent (key : Str) (flags : KeyFlags) :
    get_key_flag key flags = none ↔ ∀ g ∈ flags, g.1 ≠ key := by
  rw [get_key_flag_eq, List.find?_eq_none]
  simp

example : get_key_flag b!"b" [(b!"a", false), (b!"b", true), (b!"b", false)] = some (b!"b", true) := by decide

/-! ### C23 -/

/-- C23. A client that only uses items it obtained from the parser, the constructors or copies, and
frees each at most once, never frees a literal, a dead block or the same block twice — in any order of
any number of calls. -/
theorem C23_no_bad_free (ops : List ConfHeap.Op) (hops : ∀ o ∈ ops, o.Valid) :
    ConfHeap.run ConfHeap.State.init ops ≠ ub .badFree :=
  (ConfHeap.run_safe ops hops ConfHeap.State.init ⟨by simp [ConfHeap.State.init], by simp [ConfHeap.State.init]⟩).1

/-- A run with parse, copy, serialise and free that completes. -/
example : (ConfHeap.run ConfHeap.State.init
    [.parse b!"a=b,c" true, .copy 0, .parse b!"k=" false, .show_ 1, .free 0, .free 0, .free 0]).bind
      (fun s => ok s.items.length) = ok 0 := by decide

/-- The model does distinguish a double free: freeing the same object again is a fault. -/
example : (do
    let s ← ConfHeap.run ConfHeap.State.init [.parse b!"a=b" false]
    match s.items with
    | p :: _ => do
      let h ← ConfHeap.freeAll s.heap (ConfHeap.freed p)
      let h ← ConfHeap.freeAll h (ConfHeap.freed p)
      ok h.next
    | [] => ok 0) = ub .badFree := by decide

end Wayuu
