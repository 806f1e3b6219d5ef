import Verif.Props.ConfAll
import Verif.Props.Saving
/-
Property C118: what saved values can do to other settings (conf_parser.c).
-/
namespace Wayuu
open C Spec

/-- C118 in full: after settings with proper keys have been saved, whatever their values, reading them hands over the keys that
were saved, in order. -/
def C118_statement : Prop :=
  ∀ (fs : FS) (path : Str) (items : List ConfItem) (flags : KeyFlags) (p : List Str),
    fs.openWrite path = some p → fs.canRead p = true → path.length ≤ 86 →
    (∀ it ∈ items, Clean it.key.s ∧ it.key.s ≠ [] ∧ NulFree it.value.s ∧ it.multi = [] ∧ it.Owned ∧
      (flags.find? (fun f => f.1 = it.key.s)).map (·.2) = some false) →
    ∃ fs' calls, write_conf fs ⟨⟨true, path⟩, items⟩ = ok (0, fs') ∧ parse fs' path flags = ok (0, calls) ∧
      calls.map (·.key.s) = items.map (·.key.s)

theorem single_text (it : ConfItem) (h : it.multi = []) : conf_item_to_string it = ok (itemText it.key.s it.value.s) := by
  unfold conf_item_to_string
  rw [if_pos (by rw [h]; rfl), fmtInto_ok (by simp; omega)]
  simp [itemText]

theorem singles_text (items : List ConfItem) (h : ∀ it ∈ items, it.multi = []) : confText items = ok (textOf items) := by
  induction items with
  | nil => rfl
  | cons it items ih =>
    simp only [confText]
    rw [single_text it (h it (by simp)), ok_bind, ih (fun x hx => h x (by simp [hx]))]
    simp [textOf]

theorem write_singles (fs : FS) (path : Str) (items : List ConfItem) (p : List Str) (hopen : fs.openWrite path = some p)
    (hm : ∀ it ∈ items, it.multi = []) (ho : ∀ it ∈ items, it.Owned) :
    write_conf fs ⟨⟨true, path⟩, items⟩ = ok (0, fs.update p (some (.file (textOf items)))) := by
  unfold write_conf
  simp only
  rw [hopen]
  simp only
  rw [singles_text items hm]
  simp only [ok_bind, free_serializable, freeStr, if_true]
  rw [freeItems_owned items ho]
  simp

/-- C118: a value that contains a newline adds a setting of its own. -/
theorem C118_injects (fs : FS) (path k v k2 v2 : Str) (flags : KeyFlags) (p : List Str)
    (hopen : fs.openWrite path = some p) (hread : fs.canRead p = true) (hpath : path.length ≤ 86)
    (hk : Clean k ∧ k ≠ [] ∧ Clean v ∧ k.length + v.length + 1 ≤ 510) (hk2 : Clean k2 ∧ k2 ≠ [] ∧ Clean v2 ∧ k2.length + v2.length + 1 ≤ 510)
    (hf : ∃ x, flags.find? (fun f => f.1 = k) = some (x, false)) (hf2 : ∃ x, flags.find? (fun f => f.1 = k2) = some (x, false)) :
    ∃ fs' calls, write_conf fs ⟨⟨true, path⟩, [⟨⟨true, k⟩, ⟨true, v ++ b!"\n" ++ k2 ++ b!"=" ++ v2⟩, []⟩]⟩ = ok (0, fs') ∧
      parse fs' path flags = ok (0, calls) ∧
      calls.map (fun it => (it.key.s, it.value.s, it.multi)) = [(k, v, []), (k2, v2, [])] := by
  have e : textOf [⟨⟨true, k⟩, ⟨true, v ++ b!"\n" ++ k2 ++ b!"=" ++ v2⟩, []⟩] =
      textOf [⟨⟨true, k⟩, ⟨true, v⟩, []⟩, ⟨⟨true, k2⟩, ⟨true, v2⟩, []⟩] := by simp [textOf, itemText]
  obtain ⟨es, -, a, b, c⟩ := confText_file flags [⟨⟨true, k⟩, ⟨true, v⟩, []⟩, ⟨⟨true, k2⟩, ⟨true, v2⟩, []⟩] (by
    obtain ⟨x, hx⟩ := hf
    obtain ⟨y, hy⟩ := hf2
    intro it hit
    simp only [List.mem_cons, List.not_mem_nil, or_false] at hit
    rcases hit with rfl | rfl
    · exact ⟨⟨hk.1, hk.2.1, hk.2.2.1, by simp, fun h => absurd rfl h⟩, hk.2.2.2, _, hx, rfl⟩
    · exact ⟨⟨hk2.1, hk2.2.1, hk2.2.2.1, by simp, fun h => absurd rfl h⟩, hk2.2.2.2, _, hy, rfl⟩)
  obtain ⟨calls, d, f⟩ := C20_partial _ path _ flags es true (FS.openRead_written hopen hread _) a hpath c
  refine ⟨_, calls, write_singles fs path _ p hopen (by simp) (by simp [ConfItem.Owned]), ?_, ?_⟩
  · rw [e]; exact d
  · rw [f, b]; rfl

/-- C118 is false: the name of a user makes the user an administrator. -/
theorem C118_refuted : ¬ C118_statement := by
  intro h
  have e : write_conf savedFs ⟨⟨true, b!"/f"⟩, [⟨⟨true, b!"a"⟩, ⟨true, b!"x\nb=1"⟩, []⟩]⟩ =
      ok (0, savedFs.update [b!"f"] (some (.file b!"a=x\nb=1\n"))) := write_singles _ _ _ _ (by decide) (by simp) (by simp [ConfItem.Owned])
  obtain ⟨fs', calls, h1, h2, h3⟩ := h savedFs b!"/f" [⟨⟨true, b!"a"⟩, ⟨true, b!"x\nb=1"⟩, []⟩] savedFlags [b!"f"] (by decide) rfl
    (by decide) (by
      intro it hit
      simp only [List.mem_singleton] at hit
      subst hit
      exact ⟨⟨⟨[], [], by decide, by decide, by decide, by decide, by decide⟩, by decide, by decide, by decide⟩, by decide,
        by unfold NulFree; decide, rfl, ⟨fun _ => rfl, fun _ => rfl⟩, by decide⟩)
  rw [e] at h1
  cases h1
  have e2 : parse (savedFs.update [b!"f"] (some (.file b!"a=x\nb=1\n"))) b!"/f" savedFlags =
    ok (0, [⟨⟨true, b!"a"⟩, ⟨true, b!"x"⟩, []⟩, ⟨⟨true, b!"b"⟩, ⟨true, b!"1"⟩, []⟩]) := by decide
  rw [e2] at h2
  cases h2
  revert h3
  decide

/-- A line `k=v` of which the key is clean has that key, whatever follows. -/
theorem twoParts_clean {k v : Str} (hk : Clean k) (h0 : k ≠ []) : ∃ value, TwoParts (k ++ 61 :: v) k value := by
  obtain ⟨⟨l, r, e, hl, hr, hh, ht⟩, h61, -⟩ := hk
  obtain ⟨w, x, hw, hx, hlast⟩ : ∃ w x, v = w ++ x ∧ (∀ c ∈ x, ws c = true) ∧ ∀ c ∈ w.getLast?, ws c = false := by
    refine ⟨(v.reverse.dropWhile ws).reverse, (v.reverse.takeWhile ws).reverse, ?_, ?_, ?_⟩
    · rw [← List.reverse_append, List.takeWhile_append_dropWhile, List.reverse_reverse]
    · intro c hc
      exact List.mem_takeWhile_imp (List.mem_reverse.mp hc)
    · intro c hc
      rw [List.getLast?_reverse] at hc
      have := List.head?_dropWhile_not ws v.reverse
      cases hd : (v.reverse.dropWhile ws).head? with
      | none => rw [hd] at hc; cases hc
      | some y =>
        rw [hd] at hc this
        cases hc
        simpa using this
  have hs : IsStrip (k ++ 61 :: v) (k ++ 61 :: w) := by
    refine ⟨[], x, by simp [hw], by simp, hx, ?_, ?_⟩
    · intro c hc
      refine hh c ?_
      cases k with
      | nil => exact absurd rfl h0
      | cons y k => simpa using hc
    · intro c hc
      rw [List.getLast?_append] at hc
      rw [show (61 : Byte) :: w = [61] ++ w by rfl, List.getLast?_append] at hc
      cases hl : w.getLast? with
      | none =>
        rw [hl] at hc
        simp at hc
        subst hc
        decide
      | some y =>
        rw [hl] at hc
        simp at hc
        subst hc
        exact hlast _ (by rw [hl]; rfl)
  obtain ⟨ts, hts⟩ := runs_exists [61] w
  have hr : Runs [61] (k ++ 61 :: w) (k :: ts) := by
    have := Runs.cons (delim := [61]) [] k 61 w ts (by simp) h0 (by
      intro c hc e
      simp only [List.mem_singleton] at e
      subst e
      exact h61 hc) (by simp) hts
    simpa using this
  have hkk : IsStrip k k := ⟨[], [], by simp, by simp, by simp, hh, ht⟩
  cases ts with
  | nil => exact ⟨[], _, k, [], hs, hr, hkk, Or.inl ⟨rfl, rfl⟩⟩
  | cons t ts => exact ⟨_, _, k, t :: ts, hs, hr, hkk, Or.inr ⟨t, ts, rfl, isStrip_strip t⟩⟩

theorem singles_read (flags : KeyFlags) (items : List ConfItem)
    (h : ∀ it ∈ items, Clean it.key.s ∧ it.key.s ≠ [] ∧ NulFree it.value.s ∧ (10 : Byte) ∉ it.value.s ∧
      it.key.s.length + it.value.s.length + 1 ≤ 510 ∧ (flags.find? (fun f => f.1 = it.key.s)).map (·.2) = some false) :
    ∃ calls, ConfReads flags (textOf items) calls (some 0) ∧
      List.Forall₂ (fun (it : ConfItem) c => c.1 = it.key.s ∧ TwoParts (itemText it.key.s it.value.s ++ [10]) c.1 c.2.1 ∧ c.2.2 = [])
        items calls := by
  induction items with
  | nil => exact ⟨[], .eof, .nil⟩
  | cons it items ih =>
    obtain ⟨calls, h1, h2⟩ := ih (fun x hx => h x (by simp [hx]))
    obtain ⟨hk, h0, hn, h10, hl, hf⟩ := h it (by simp)
    obtain ⟨value, ht⟩ := twoParts_clean (v := it.value.s ++ [10]) hk h0
    obtain ⟨f, hf, hf2⟩ := Option.map_eq_some_iff.mp hf
    obtain ⟨x, y⟩ := f
    simp only at hf2
    subst hf2
    have e : itemText it.key.s it.value.s ++ [10] = it.key.s ++ 61 :: (it.value.s ++ [10]) := by simp [itemText]
    refine ⟨(it.key.s, value, []) :: calls, ?_, .cons ⟨rfl, by rw [e]; exact ht, rfl⟩ h2⟩
    refine .single _ (itemText it.key.s it.value.s ++ [10]) (textOf items) _ _ _ x _ _ ⟨?_, by simp, ?_, ?_, Or.inl (by simp)⟩
      ⟨?_, Or.inl rfl⟩ ?_ (by rw [e]; exact ht) hf h1
    · simp [textOf]
    · rw [List.dropLast_concat]
      simp [itemText, hk.2.2.2, h10]
    · simp [itemText]; omega
    · rw [e]
      show NulFree _
      simp only [nulFree_append, nulFree_cons]
      exact ⟨clean_nulFree hk, by decide, hn, by decide, by unfold NulFree; simp⟩
    · simp [itemText]

/-- C118, what holds: if no value contains a newline and the lines fit, reading hands over the keys that were saved, in order,
each with the first part of its value (`=` separates parts). Missing: values with newlines (`C118_injects`), longer lines. -/
theorem C118_partial (fs : FS) (path : Str) (items : List ConfItem) (flags : KeyFlags) (p : List Str)
    (hopen : fs.openWrite path = some p) (hread : fs.canRead p = true)
    (h : ∀ it ∈ items, Clean it.key.s ∧ it.key.s ≠ [] ∧ NulFree it.value.s ∧ it.multi = [] ∧ it.Owned ∧
      (flags.find? (fun f => f.1 = it.key.s)).map (·.2) = some false)
    (hn : ∀ it ∈ items, (10 : Byte) ∉ it.value.s ∧ it.key.s.length + it.value.s.length + 1 ≤ 510) :
    ∃ fs' calls, write_conf fs ⟨⟨true, path⟩, items⟩ = ok (0, fs') ∧ parse fs' path flags = ok (0, calls) ∧
      List.Forall₂ (fun (it c : ConfItem) => c.key.s = it.key.s ∧ TwoParts (itemText it.key.s it.value.s ++ [10]) c.key.s c.value.s ∧
        c.multi = []) items calls := by
  obtain ⟨cs, h1, h2⟩ := singles_read flags items (fun it hit => by
    obtain ⟨a, b, c, -, -, d⟩ := h it hit
    exact ⟨a, b, c, (hn it hit).1, (hn it hit).2, d⟩)
  obtain ⟨its, h3, h4⟩ := (C20_exact _ path _ flags cs _ (FS.openRead_written hopen hread _) h1).1 0 rfl (by omega)
  refine ⟨_, its, write_singles fs path items p hopen (fun it hit => (h it hit).2.2.2.1) (fun it hit => (h it hit).2.2.2.2.1), h3, ?_⟩
  rw [← h4, List.forall₂_map_right_iff] at h2
  exact h2

/-- C118, longer lines: a setting of which the line has more than 510 bytes is handed over cut off, and those after it are not
read any more. -/
theorem C118_long (fs : FS) (path : Str) (it : ConfItem) (items : List ConfItem) (flags : KeyFlags) (p : List Str)
    (hopen : fs.openWrite path = some p) (hread : fs.canRead p = true) (hpath : path.length ≤ 86)
    (hm : ∀ x ∈ it :: items, x.multi = [] ∧ x.Owned) (hk : Clean it.key.s ∧ it.key.s ≠ [] ∧ it.key.s.length ≤ 510)
    (hv : Clean it.value.s ∧ 510 < it.key.s.length + it.value.s.length + 1)
    (hf : (flags.find? (fun f => f.1 = it.key.s)).map (·.2) = some false) (v : Str)
    (hs : IsStrip (it.value.s.take (510 - it.key.s.length)) v) :
    ∃ fs' calls, write_conf fs ⟨⟨true, path⟩, it :: items⟩ = ok (0, fs') ∧ parse fs' path flags = ok (-1, calls) ∧
      calls.map (fun it => (it.key.s, it.value.s, it.multi)) = [(it.key.s, v, [])] := by
  obtain ⟨f, hf, hf2⟩ := Option.map_eq_some_iff.mp hf
  obtain ⟨x, y⟩ := f
  simp only at hf2
  subst hf2
  have n0 : (0 : Byte) ∉ it.value.s := hv.1.2.2.1
  have h1 : textOf (it :: items) = (it.key.s ++ 61 :: it.value.s.take (510 - it.key.s.length)) ++
      (it.value.s.drop (510 - it.key.s.length) ++ 10 :: textOf items) := by
    have : textOf (it :: items) = it.key.s ++ 61 :: (it.value.s ++ 10 :: textOf items) := by simp [textOf, itemText]
    rw [this, List.append_assoc, List.cons_append, ← List.append_assoc (List.take _ _), List.take_append_drop]
  have hlen : (it.key.s ++ 61 :: it.value.s.take (510 - it.key.s.length)).length = 511 := by
    simp only [List.length_append, List.length_cons, List.length_take]; omega
  have n10 : (10 : Byte) ∉ it.key.s ++ 61 :: it.value.s.take (510 - it.key.s.length) := by
    simp only [List.mem_append, List.mem_cons, not_or]
    exact ⟨hk.1.2.2.2, by decide, fun h => hv.1.2.2.2 (List.mem_of_mem_take h)⟩
  have nf : NulFree (it.key.s ++ 61 :: it.value.s.take (510 - it.key.s.length)) := by
    simp only [nulFree_append, nulFree_cons]
    exact ⟨clean_nulFree hk.1, by decide, nulFree_of_not_mem (fun h => n0 (List.mem_of_mem_take h))⟩
  have hline : ConfLine (it.key.s ++ 61 :: it.value.s.take (510 - it.key.s.length)) it.key.s v :=
    ⟨_, _, rfl, hk.1.2.1, fun h => hv.1.2.1 (List.mem_of_mem_take h), hk.1.1, hs, hk.2.1⟩
  have htp : TwoParts (it.key.s ++ 61 :: it.value.s.take (510 - it.key.s.length)) it.key.s v := by
    obtain ⟨v', h⟩ := twoParts_clean (v := it.value.s.take (510 - it.key.s.length)) hk.1 hk.2.1
    obtain ⟨o, e, -⟩ := first_pass_parts nf (by simp) h
    rw [first_pass_eq nf hline] at e
    cases e
    exact h
  obtain ⟨pc, rest, hp⟩ := piece_exists (it.value.s.drop (510 - it.key.s.length) ++ 10 :: textOf items) (by simp)
  have h61 : (61 : Byte) ∉ untilNul pc := by
    intro h
    have hpc : (61 : Byte) ∈ pc := (List.takeWhile_sublist _).subset h
    obtain ⟨e, -, d, -⟩ := hp
    -- the piece ends at the newline at the latest
    have hsub : pc <+: it.value.s.drop (510 - it.key.s.length) ++ [10] := by
      rcases Nat.lt_or_ge (it.value.s.drop (510 - it.key.s.length) ++ [10]).length pc.length with hl | hl
      · exfalso
        have hpre : it.value.s.drop (510 - it.key.s.length) ++ [10] <+: pc := by
          refine List.prefix_of_prefix_length_le (l₃ := it.value.s.drop (510 - it.key.s.length) ++ 10 :: textOf items) ?_ ?_ (by omega)
          · exact ⟨textOf items, by simp⟩
          · exact ⟨rest, e.symm⟩
        obtain ⟨z, hz⟩ := hpre
        have hz0 : z ≠ [] := by
          rintro rfl
          rw [List.append_nil] at hz
          rw [hz] at hl
          omega
        apply d
        rw [← hz, List.dropLast_append_of_ne_nil hz0]
        simp
      · exact List.prefix_of_prefix_length_le (l₃ := it.value.s.drop (510 - it.key.s.length) ++ 10 :: textOf items)
          ⟨rest, e.symm⟩ ⟨textOf items, by simp⟩ hl
    rcases List.mem_append.mp (hsub.subset hpc) with h | h
    · exact hv.1.2.1 (List.mem_of_mem_drop h)
    · revert h; decide
  have hread2 : ConfReads flags (textOf (it :: items)) [(it.key.s, v, [])] (some (-1)) := by
    rw [h1]
    exact .single _ _ _ _ _ _ x _ _ ⟨rfl, by simp, fun h => n10 (List.dropLast_subset _ h), by omega, Or.inr (Or.inl hlen)⟩
      ⟨nf, Or.inl rfl⟩ (by simp) htp hf (.bad _ pc rest (untilNul pc) hp (untilNul_before pc) h61)
  obtain ⟨its, h3, h4⟩ := (C20_exact _ path _ flags _ _ (FS.openRead_written hopen hread _) hread2).1 (-1) rfl (fun _ => hpath)
  exact ⟨_, its, write_singles fs path _ p hopen (fun y hy => (hm y hy).1) (fun y hy => (hm y hy).2), h3, h4⟩

example : Clean b!"motd" ∧ NulFree b!"a=b = c" ∧ TwoParts (itemText b!"motd" b!"a=b = c" ++ [10]) b!"motd" b!"a" :=
  ⟨⟨⟨[], [], by decide, by decide, by decide, by decide, by decide⟩, by decide, by decide, by decide⟩, by unfold NulFree; decide,
    b!"motd=a=b = c", b!"motd", [b!"a", b!"b ", b!" c"], ⟨[], b!"\n", by decide, by decide, by decide, by decide, by decide⟩,
    .cons [] b!"motd" 61 _ _ (by decide) (by decide) (by decide) (by decide)
      (.cons [] b!"a" 61 _ _ (by decide) (by decide) (by decide) (by decide)
        (.cons [] b!"b " 61 _ _ (by decide) (by decide) (by decide) (by decide) (.last [] b!" c" (by decide) (by decide) (by decide)))),
    ⟨[], [], by decide, by decide, by decide, by decide, by decide⟩,
    Or.inr ⟨b!"a", _, rfl, ⟨[], [], by decide, by decide, by decide, by decide, by decide⟩⟩⟩

/-- A long value. -/
example (n : Nat) (hn : 509 < n) : ∃ it : ConfItem, it.multi = [] ∧ it.Owned ∧ (Clean it.key.s ∧ it.key.s ≠ [] ∧ it.key.s.length ≤ 510) ∧
    (Clean it.value.s ∧ 510 < it.key.s.length + it.value.s.length + 1) := by
  have hk : Clean b!"k" := ⟨⟨[], [], by decide, by decide, by decide, by decide, by decide⟩, by decide, by decide, by decide⟩
  refine ⟨⟨⟨true, b!"k"⟩, ⟨true, List.replicate n 120⟩, []⟩, rfl, ⟨fun _ => rfl, fun _ => rfl⟩,
    ⟨hk, by simp, by simp⟩,
    ⟨⟨[], [], by simp, by simp, by simp, ?_, ?_⟩, ?_, ?_, ?_⟩, by simp; omega⟩
  · intro c hc
    have := List.mem_of_mem_head? hc
    rw [List.eq_of_mem_replicate this]; decide
  · intro c hc
    have := List.mem_of_mem_getLast? hc
    rw [List.eq_of_mem_replicate this]; decide
  all_goals
    intro h
    have := List.eq_of_mem_replicate h
    revert this
    decide

end Wayuu
