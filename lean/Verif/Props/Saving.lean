import Verif.Props.Conf
import Verif.Lemmas.Http
import Verif.Model.Saving
/-
Properties C116 and C117: settings files that cannot be opened; a stop while settings are saved (conf_parser.c).
-/
namespace Wayuu
open C Spec

/-! ### C116 -/

/-- C116 in full: where there is no settings file that can be read or written, the result is −1, and nothing changes. -/
def C116_statement : Prop :=
  (∀ (fs : FS) (path : Str) (flags : KeyFlags), fs.openRead path = none → parse fs path flags = ok (-1, [])) ∧
  ∀ (fs : FS) (s : Serializable), fs.openWrite s.path.s = none → write_conf fs s = ok (-1, fs)

/-- C116, exactly: for what cannot be opened, reading works for paths of up to 98 bytes and overflows the array for the
message otherwise. -/
theorem C116_read (fs : FS) (path : Str) (flags : KeyFlags) (h : fs.openRead path = none)
    (hd : ∀ p, fs.resolve path = some p → fs.nodeAt p = some .dir → fs.canRead p = false) :
    parse fs path flags = if path.length ≤ 98 then ok (-1, []) else ub .oob := by
  unfold parse
  rw [FS.fopenRead_none h hd]
  simp only
  split
  · rw [fmtInto_ok (by simp; omega)]; simp
  · rw [fmtInto_over (by simp; omega)]; rfl

/-- C116, folders: a directory that may be read counts as a settings file without settings. -/
theorem C116_folder (fs : FS) (path : Str) (flags : KeyFlags) (p : List Str) (h : fs.resolve path = some p)
    (hd : fs.nodeAt p = some .dir) (hc : fs.canRead p = true) : parse fs path flags = ok (0, []) := by
  unfold parse
  rw [FS.fopenRead_dir h hd hc]
  rfl

/-- C116, exactly: writing works for paths of up to 87 bytes and overflows the array for the message otherwise. -/
theorem C116_write (fs : FS) (s : Serializable) (h : fs.openWrite s.path.s = none) :
    write_conf fs s = if s.path.s.length ≤ 87 then ok (-1, fs) else ub .oob := by
  unfold write_conf
  rw [h]
  simp only
  split
  · rw [fmtInto_ok (by simp; omega)]; simp
  · rw [fmtInto_over (by simp; omega)]; rfl

/-- A tree without files. -/
def bareFs : FS := ⟨fun _ => none, fun _ => true, fun _ => false⟩

/-- C116 is false: a file of which the name has 99 letters. -/
theorem C116_refuted : ¬ C116_statement := by
  intro h
  have h1 : bareFs.openRead (List.replicate 99 120) = none := by decide +kernel
  have h2 := h.1 bareFs (List.replicate 99 120) [] h1
  rw [C116_read _ _ _ h1 (by
    intro p hp hn
    rw [show bareFs.resolve (List.replicate 99 120) = some [List.replicate 99 120] by decide +kernel] at hp
    obtain rfl := Option.some.inj hp
    revert hn
    decide)] at h2
  revert h2
  decide

/-- C116, what holds. Missing: longer paths, see `C116_read` and `C116_write`; folders, see `C116_folder`. -/
theorem C116_partial (fs : FS) (path : Str) (flags : KeyFlags) (items : List ConfItem) (h : path.length ≤ 87) :
    (fs.openRead path = none → fs.lookup path ≠ some .dir → parse fs path flags = ok (-1, [])) ∧
    (fs.openWrite path = none → write_conf fs ⟨⟨true, path⟩, items⟩ = ok (-1, fs)) :=
  ⟨fun e hd => by
    rw [C116_read _ _ _ e (fun p hp hn => absurd (by simp [FS.lookup, hp, hn]) hd), if_pos (by omega)], fun e => by rw [C116_write _ _ e, if_pos h]⟩

example : bareFs.openRead b!"/etc/app.conf" = none ∧ bareFs.openWrite b!"/etc/app.conf" = none := by decide
example := C116_partial bareFs b!"/app.conf" [(b!"port", false)] [] (by decide)
example := C116_folder bareFs b!"/" [(b!"port", false)] [] (by decide) (by decide) (by decide)
example : ∃ s : Serializable, bareFs.openWrite s.path.s = none ∧ 87 < s.path.s.length :=
  ⟨⟨⟨true, List.replicate 88 120⟩, []⟩, by decide +kernel, by decide⟩

/-! ### C117 -/

/-- What is read from settings of which the text is cut off somewhere: nothing more, noticed if the cut falls into a key; an
item with a shorter value; or an item and what is read from the others. -/
inductive CutShort : List (Str × Str × List Str) → List (Str × Str × List Str) → Bool → Prop where
  | nothing (items : List (Str × Str × List Str)) : CutShort items [] true
  | key (x : Str × Str × List Str) (r : List (Str × Str × List Str)) : CutShort (x :: r) [] false
  | value (k v : Str) (ms : List Str) (r : List (Str × Str × List Str)) (n : Nat) (v' : Str) (ms' : List Str) :
      IsStrip (v.take n) v' → (ms = [] → ms' = []) → (ms ≠ [] → Elements v' ms') → CutShort ((k, v, ms) :: r) [(k, v', ms')] true
  | item (x : Str × Str × List Str) (r calls : List (Str × Str × List Str)) (good : Bool) : CutShort r calls good →
      CutShort (x :: r) (x :: calls) good

/-- C117 in full: if the server stops while settings are saved, the old or the new ones are read afterwards. -/
def C117_statement : Prop :=
  ∀ (fs fs' : FS) (path : Str) (items : List ConfItem) (flags : KeyFlags) (p : List Str),
    fs.openWrite path = some p → fs.canRead p = true → path.length ≤ 86 →
    (∀ it ∈ items, CleanItem it.key.s it.value.s it.multi ∧ it.Owned ∧ it.key.s.length + it.value.s.length + 1 ≤ 510 ∧
      ∃ f, flags.find? (fun f => f.1 = it.key.s) = some f ∧ f.2 = decide (it.multi ≠ [])) →
    SavingTree fs ⟨⟨true, path⟩, items⟩ fs' →
    parse fs' path flags = parse fs path flags ∨ ∃ calls, parse fs' path flags = ok (0, calls) ∧
      calls.map (fun it => (it.key.s, it.value.s, it.multi)) = items.map (fun it => (it.key.s, it.value.s, it.multi))

theorem runs_count {s : Str} {ts : List Str} (h : Runs [44] s ts) : ts.length ≤ s.count 44 + 1 := by
  induction h with
  | nil d _ => simp
  | last d t _ _ _ => simp
  | cons d t x s ts _ _ _ hx _ ih =>
    simp only [List.mem_singleton] at hx
    subst hx
    simp only [List.length_cons, List.count_append, List.count_cons_self]
    omega

theorem count_sepBy (ms : List Str) (h : ∀ m ∈ ms, (44 : Byte) ∉ m) : (sepBy [44] ms).count 44 = ms.length - 1 := by
  induction ms with
  | nil => rfl
  | cons m ms ih =>
    have h0 : m.count 44 = 0 := List.count_eq_zero.mpr (h m (by simp))
    cases ms with
    | nil => simpa [sepBy] using h0
    | cons m2 ms =>
      have := ih (fun x hx => h x (by simp [hx]))
      simp only [sepBy, List.count_append, h0, this] at this ⊢
      simp; omega

/-- A part of a list of up to 20 elements has no more than 20. -/
theorem elements_cut {v v' : Str} {ms ms' : List Str} (hv : v = sepBy [44] ms) (h : ∀ m ∈ ms, (44 : Byte) ∉ m) (hl : ms.length ≤ 20)
    {n : Nat} (hs : IsStrip (v.take n) v') (he : Elements v' ms') : ms'.length ≤ 20 := by
  obtain ⟨ts, hr, hf⟩ := he
  rw [← hf.length_eq]
  have h1 := runs_count hr
  obtain ⟨a, b, hab, -⟩ := hs
  have h2 : v'.count 44 ≤ (v.take n).count 44 := by rw [hab]; simp [List.count_append]; omega
  have h3 : (v.take n).count 44 ≤ v.count 44 := (List.take_sublist n v).count_le 44
  have h4 : v.count 44 = ms.length - 1 := by rw [hv, count_sepBy ms h]
  omega

theorem cut_file (flags : KeyFlags) (items : List ConfItem)
    (h : ∀ it ∈ items, CleanItem it.key.s it.value.s it.multi ∧ it.key.s.length + it.value.s.length + 1 ≤ 510 ∧
      ∃ f, flags.find? (fun f => f.1 = it.key.s) = some f ∧ f.2 = decide (it.multi ≠ [])) : ∀ k, ∃ es good,
    ConfFile ((textOf items).take k) es good ∧
      CutShort (items.map (fun it => (it.key.s, it.value.s, it.multi))) (expectedCalls flags es) good ∧
      ∀ e ∈ es, ∀ f, flags.find? (fun f => f.1 = e.key) = some f → f.2 = true → e.elems.length ≤ 20 := by
  induction items with
  | nil => intro k; exact ⟨[], true, by simpa [textOf] using ConfFile.eof, .nothing _, by simp⟩
  | cons it items ih =>
    intro k
    obtain ⟨hc, hl, f, hf, hfm⟩ := h it (by simp)
    have ht : textOf (it :: items) = itemText it.key.s it.value.s ++ 10 :: textOf items := by simp [textOf]
    rw [ht]
    have n0 : (0 : Byte) ∉ itemText it.key.s it.value.s := by simp [itemText, hc.1.2.2.1, hc.2.2.1.2.2.1]
    have n10 : (10 : Byte) ∉ itemText it.key.s it.value.s := by simp [itemText, hc.1.2.2.2, hc.2.2.1.2.2.2]
    rcases Nat.lt_or_ge k ((itemText it.key.s it.value.s).length + 1) with hk | hk
    · -- the cut falls into this line
      rw [List.take_append_of_le_length (by omega)]
      rcases Nat.eq_zero_or_pos k with rfl | h0
      · exact ⟨[], true, by simpa using ConfFile.eof, .nothing _, by simp⟩
      rcases Nat.lt_or_ge it.key.s.length k with hv | hv
      · obtain ⟨n, rfl⟩ : ∃ n, k = it.key.s.length + 1 + n := ⟨k - it.key.s.length - 1, by omega⟩
        have e : (itemText it.key.s it.value.s).take (it.key.s.length + 1 + n) = it.key.s ++ 61 :: it.value.s.take n := by
          unfold itemText
          rw [List.take_append, List.take_of_length_le (by omega),
            show it.key.s.length + 1 + n - it.key.s.length = n + 1 by omega]
          rfl
        obtain ⟨v', hv'⟩ : ∃ v', IsStrip (it.value.s.take n) v' := ⟨_, isStrip_strip _⟩
        obtain ⟨ms', hms'⟩ := elements_exists v'
        rw [e]
        have sub : ∀ c, c ∈ it.value.s.take n → c ∈ it.value.s := fun c hc => List.mem_of_mem_take hc
        refine ⟨[⟨it.key.s ++ 61 :: it.value.s.take n, it.key.s, v', ms'⟩], true, .last ⟨_, _, _, _⟩ ⟨⟨_, _, rfl, hc.1.2.1,
          fun hx => hc.2.2.1.2.1 (sub _ hx), hc.1.1, hv', hc.2.1⟩, hms', ?_, ?_, ?_⟩, ?_, ?_⟩
        · intro hx; rw [← e] at hx; exact n0 (List.mem_of_mem_take hx)
        · intro hx; rw [← e] at hx; exact n10 (List.mem_of_mem_take hx)
        · simp; omega
        · unfold expectedCalls
          simp only [List.filterMap_cons, hf, Option.map_some, List.filterMap_nil, List.map_cons, hfm]
          refine .value _ _ _ _ n _ _ hv' ?_ ?_
          · intro e; simp [e]
          · intro e; simpa [e] using hms'
        · intro e he g hg hg2
          simp only [List.mem_singleton] at he
          subst he
          simp only at hg ⊢
          rw [hf] at hg
          simp only [Option.some.injEq] at hg
          subst hg
          rw [hfm] at hg2
          have h0 : it.multi ≠ [] := by simpa using hg2
          obtain ⟨q1, q2⟩ := hc.2.2.2.2 h0
          exact elements_cut q1 (fun m hm => (q2 m hm).2.2) hc.2.2.2.1 hv' hms'
      · have e : (itemText it.key.s it.value.s).take k = it.key.s.take k := by
          unfold itemText
          exact List.take_append_of_le_length hv
        rw [e]
        refine ⟨[], false, .badLast _ ?_ ?_ ?_ ?_, .key _ _, by simp⟩
        · intro e
          have := congrArg List.length e
          simp only [List.length_take, List.length_nil] at this
          omega
        · exact fun hx => hc.1.2.1 (List.mem_of_mem_take hx)
        · exact fun hx => hc.1.2.2.2 (List.mem_of_mem_take hx)
        · simp; omega
    · obtain ⟨n, rfl⟩ : ∃ n, k = (itemText it.key.s it.value.s).length + 1 + n :=
        ⟨k - (itemText it.key.s it.value.s).length - 1, by omega⟩
      rw [List.take_append, List.take_of_length_le (by omega),
        show (itemText it.key.s it.value.s).length + 1 + n - (itemText it.key.s it.value.s).length = n + 1 by omega,
        List.take_succ_cons]
      obtain ⟨es, good, h2, h3, h4⟩ := ih (fun x hx => h x (by simp [hx])) n
      obtain ⟨ms, hms, hms2⟩ : ∃ ms, Elements it.value.s ms ∧ (it.multi ≠ [] → ms = it.multi) := by
        by_cases h0 : it.multi = []
        · obtain ⟨ms, hms⟩ := elements_exists it.value.s
          exact ⟨ms, hms, fun h => absurd h0 h⟩
        · exact ⟨it.multi, elements_of_clean hc h0, fun _ => rfl⟩
      refine ⟨⟨itemText it.key.s it.value.s, it.key.s, it.value.s, ms⟩ :: es, good, .line ⟨_, _, _, _⟩ _ _ _
        ⟨itemText_confLine hc, hms, n0, n10, ?_⟩ h2, ?_, ?_⟩
      · simp only [List.length_append, List.length_cons]; omega
      · have e : expectedCalls flags (⟨itemText it.key.s it.value.s, it.key.s, it.value.s, ms⟩ :: es) =
            (it.key.s, it.value.s, it.multi) :: expectedCalls flags es := by
          unfold expectedCalls
          rw [List.filterMap_cons]
          simp only [hf, Option.map_some, hfm]
          by_cases h0 : it.multi = []
          · simp [h0]
          · simp [h0, hms2 h0]
        rw [e]
        exact .item _ _ _ _ h3
      · intro e he g hg hg2
        rcases List.mem_cons.mp he with rfl | he
        · simp only at hg ⊢
          rw [hf] at hg
          simp only [Option.some.injEq] at hg
          subst hg
          rw [hfm] at hg2
          have h0 : it.multi ≠ [] := by simpa using hg2
          rw [hms2 h0]
          exact hc.2.2.2.1
        · exact h4 e he g hg hg2

/-- C117, what holds: what is read after a stop are the old settings, or a first part of the new ones, of which the last may
have a shorter value; it is noticed (−1) only if the cut falls into a key. Other files are as before.
Missing: that none of the settings is lost. -/
theorem C117_partial (fs fs' : FS) (path : Str) (items : List ConfItem) (flags : KeyFlags) (p : List Str)
    (hopen : fs.openWrite path = some p) (hread : fs.canRead p = true) (hpath : path.length ≤ 86)
    (hitems : ∀ it ∈ items, CleanItem it.key.s it.value.s it.multi ∧ it.key.s.length + it.value.s.length + 1 ≤ 510 ∧
      ∃ f, flags.find? (fun f => f.1 = it.key.s) = some f ∧ f.2 = decide (it.multi ≠ []))
    (h : SavingTree fs ⟨⟨true, path⟩, items⟩ fs') :
    (fs' = fs ∨ ∃ calls good, parse fs' path flags = ok (if good then 0 else -1, calls) ∧
      CutShort (items.map (fun it => (it.key.s, it.value.s, it.multi))) (calls.map (fun it => (it.key.s, it.value.s, it.multi))) good) ∧
    ∀ q, q ≠ p → fs'.node q = fs.node q := by
  cases h with
  | before => exact ⟨Or.inl rfl, fun _ _ => rfl⟩
  | cut p' text k h1 h2 =>
    simp only at h1 h2
    rw [hopen] at h1
    cases h1
    obtain ⟨-, ht, -⟩ := confText_file flags items hitems
    rw [ht] at h2
    cases h2
    obtain ⟨es, good, a, b, c⟩ := cut_file flags items hitems k
    obtain ⟨calls, d, e⟩ := C20_partial _ path _ flags es good (FS.openRead_written hopen hread _) a hpath c
    refine ⟨Or.inr ⟨calls, good, d, by rw [e]; exact b⟩, fun q hq => ?_⟩
    unfold FS.update
    simp [hq]

/-- The tree after `write_conf` is the last of the trees while saving. -/
theorem write_conf_saving {fs fs' : FS} {s : Serializable} {r : Int} (h : write_conf fs s = ok (r, fs')) : SavingTree fs s fs' := by
  unfold write_conf at h
  split at h
  · obtain ⟨_, -, h⟩ := bind_eq_ok.mp h
    cases h
    exact .before
  · rename_i p hp
    obtain ⟨text, ht, h⟩ := bind_eq_ok.mp h
    obtain ⟨_, -, h⟩ := bind_eq_ok.mp h
    cases h
    have := SavingTree.cut (s := s) p text text.length hp ht
    rwa [List.take_length] at this

/-- C117: for every number of settings there is a moment at which a stop leaves just the first ones, and reading reports
success. -/
theorem C117_lost (fs : FS) (path : Str) (items : List ConfItem) (flags : KeyFlags) (p : List Str)
    (hopen : fs.openWrite path = some p) (hread : fs.canRead p = true) (hpath : path.length ≤ 86)
    (hitems : ∀ it ∈ items, CleanItem it.key.s it.value.s it.multi ∧ it.key.s.length + it.value.s.length + 1 ≤ 510 ∧
      ∃ f, flags.find? (fun f => f.1 = it.key.s) = some f ∧ f.2 = decide (it.multi ≠ [])) (j : Nat) :
    ∃ fs' calls, SavingTree fs ⟨⟨true, path⟩, items⟩ fs' ∧ parse fs' path flags = ok (0, calls) ∧
      calls.map (fun it => (it.key.s, it.value.s, it.multi)) =
        (items.take j).map (fun it => (it.key.s, it.value.s, it.multi)) := by
  obtain ⟨-, ht, -⟩ := confText_file flags items hitems
  obtain ⟨es, -, a, b, c⟩ := confText_file flags (items.take j) (fun it hit => hitems it (List.mem_of_mem_take hit))
  obtain ⟨calls, d, e⟩ := C20_partial _ path _ flags es true (FS.openRead_written hopen hread _) a hpath c
  have e2 : (textOf items).take (textOf (items.take j)).length = textOf (items.take j) := by
    have : textOf items = textOf (items.take j) ++ textOf (items.drop j) := by
      unfold textOf
      rw [← List.flatMap_append, List.take_append_drop]
    rw [this, List.take_left]
  refine ⟨_, calls, .cut p _ (textOf (items.take j)).length hopen ht, ?_, by rw [e, b]⟩
  rw [e2]
  exact d

/-- Settings on the disk. -/
def savedFs : FS := oneFile b!"a=1\nb=2\n"
def newItems : List ConfItem := [⟨⟨true, b!"a"⟩, ⟨true, b!"3"⟩, []⟩, ⟨⟨true, b!"b"⟩, ⟨true, b!"4"⟩, []⟩]
def savedFlags : KeyFlags := [(b!"a", false), (b!"b", false)]

theorem newItems_clean : ∀ it ∈ newItems, CleanItem it.key.s it.value.s it.multi ∧ it.key.s.length + it.value.s.length + 1 ≤ 510 ∧
    ∃ f, savedFlags.find? (fun f => f.1 = it.key.s) = some f ∧ f.2 = decide (it.multi ≠ []) := by
  intro it hit
  simp only [newItems, List.mem_cons, List.not_mem_nil, or_false] at hit
  rcases hit with rfl | rfl
  all_goals
    exact ⟨⟨⟨⟨[], [], by decide, by decide, by decide, by decide, by decide⟩, by decide, by decide, by decide⟩, by decide,
      ⟨⟨[], [], by decide, by decide, by decide, by decide, by decide⟩, by decide, by decide, by decide⟩, by decide, fun h => absurd rfl h⟩,
      by decide, ⟨_, rfl, rfl⟩⟩

/-- C117 is false: a stop right after the file was opened loses all settings, and reading reports success. -/
theorem C117_refuted : ¬ C117_statement := by
  intro h
  have := h savedFs _ b!"/f" newItems savedFlags [b!"f"] (by decide) rfl (by decide)
    (fun it hit => ⟨(newItems_clean it hit).1, ?_, (newItems_clean it hit).2⟩) (.cut [b!"f"] _ 0 (by decide) (by rfl))
  · rcases this with h | ⟨calls, h1, h2⟩
    · revert h; decide
    · have e : parse (savedFs.update [b!"f"] (some (.file []))) b!"/f" savedFlags = ok (0, []) := by decide
      rw [List.take_zero, e] at h1
      cases h1
      revert h2
      decide
  · simp only [newItems, List.mem_cons, List.not_mem_nil, or_false] at hit
    rcases hit with rfl | rfl <;> exact ⟨fun _ => rfl, fun _ => rfl⟩

example : savedFs.openWrite b!"/f" = some [b!"f"] ∧ savedFs.canRead [b!"f"] = true := by decide
/-- The value of a setting may be cut short unnoticed. -/
example : parse (oneFile (b!"port=8080\nmode=x\n".take 6)) b!"/f" [(b!"port", false), (b!"mode", false)] =
    ok (0, [⟨⟨true, b!"port"⟩, ⟨true, b!"8"⟩, []⟩]) := by decide

end Wayuu
