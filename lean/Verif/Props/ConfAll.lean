import Verif.Spec.ConfAll
import Verif.Lemmas.Limits
import Verif.Lemmas.ConfHeap
import Verif.Props.Conf
/-
C17 and C20 without any condition on lines and files.
-/
namespace Wayuu
open C Spec

theorem fgets_piece {s l rest : Str} (h : Piece511 s l rest) : fgets MAX_LINE_LEN s = some (l, rest) := by
  obtain ⟨rfl, hne, h10, hlen, hend⟩ := h
  have key : ∀ (n : Nat) (l : Str), (10 : Byte) ∉ l.dropLast → l.length ≤ n → (l ≠ [] → l.getLast? = some 10 ∨ l.length = n ∨ rest = []) →
      (l = [] → n = 0 ∨ rest = []) → fgetsAux n (l ++ rest) = (l, rest) := by
    intro n
    induction n with
    | zero =>
      intro l _ hl _ _
      have : l = [] := by simpa using hl
      subst this
      rfl
    | succ n ih =>
      intro l hd hl he h0
      cases l with
      | nil =>
        have : rest = [] := by simpa using h0 rfl
        subst this; rfl
      | cons c l =>
        rw [List.cons_append, fgetsAux]
        by_cases hc : c = 10
        · have : l = [] := by
            cases l with
            | nil => rfl
            | cons d m => simp [hc] at hd
          subst this
          simp [hc]
        · rw [if_neg hc, ih l ?_ (by simpa using hl) ?_ ?_]
          · cases l with
            | nil => simp
            | cons d m => simp only [List.dropLast_cons_cons, List.mem_cons, not_or] at hd; exact hd.2
          · intro hl'
            rcases he (by simp) with he | he | he
            · left
              rwa [List.getLast?_cons, List.getLast?_eq_some_getLast hl', Option.getD_some, ← List.getLast?_eq_some_getLast hl'] at he
            · right; left; simpa using he
            · exact Or.inr (Or.inr he)
          · rintro rfl
            rcases he (by simp) with he | he | he
            · simp at he; exact absurd he hc
            · left; simpa using he
            · exact Or.inr he
  unfold fgets
  cases hx : l ++ rest with
  | nil => simp at hx; exact absurd hx.1 hne
  | cons x y =>
    simp only
    rw [← hx, show MAX_LINE_LEN - 1 = 511 from rfl, key 511 l h10 hlen (fun _ => hend) (fun e => absurd e hne)]

theorem piece_exists (s : Str) (h : s ≠ []) : ∃ l rest, Piece511 s l rest := by
  by_cases h10 : (10 : Byte) ∈ s.take 511
  · obtain ⟨a, b, e, hn⟩ := List.eq_append_cons_of_mem h10
    refine ⟨a ++ [10], b ++ s.drop 511, ?_, by simp, by simpa using hn, ?_, Or.inl (by simp)⟩
    · conv => { lhs; rw [← List.take_append_drop 511 s, e] }; simp
    · have := congrArg List.length e
      simp at this ⊢; omega
  · refine ⟨s.take 511, s.drop 511, by simp, by simp [h], fun hm => h10 (List.dropLast_subset _ hm), by simp; omega, ?_⟩
    by_cases hl : 511 ≤ s.length
    · right; left; simp; omega
    · right; right; simp; omega

theorem first_pass_parts {t key value : Str} (hn : NulFree t) (h61 : (61 : Byte) ∈ t) (h : TwoParts t key value) :
    ∃ o, conf_parse_first_pass t = ok (some ⟨⟨true, key⟩, ⟨o, value⟩, []⟩) ∧ (value ≠ [] → o = true) := by
  obtain ⟨u, k, more, hu, hr, hk, hv⟩ := h
  unfold conf_parse_first_pass
  cases hst : strstr t b!"=" with
  | none => exact absurd h61 (strstr_one_none.mp hst)
  | some x =>
    simp only
    have hun := isStrip_nulFree hn hu
    rw [trimStr_strip hn hu]
    simp only [ok_bind]
    rcases strtok_of_runs hr with ⟨e, -⟩ | ⟨t', us, rest, e, hs, hr'⟩
    · cases e
    · cases e
      obtain ⟨hkn, hrn⟩ := strtok_nulFree hun hs
      rw [hs]
      simp only
      rw [trimStr_strip hkn hk]
      simp only [ok_bind]
      rcases hv with ⟨rfl, rfl⟩ | ⟨v, more', rfl, hv⟩
      · rcases strtok_of_runs hr' with ⟨-, hs'⟩ | ⟨_, _, _, e, -⟩
        · rw [hs']; exact ⟨false, rfl, by simp⟩
        · cases e
      · rcases strtok_of_runs hr' with ⟨e, -⟩ | ⟨t', us, rest', e, hs', -⟩
        · cases e
        · cases e
          obtain ⟨hvn, -⟩ := strtok_nulFree hrn hs'
          rw [hs']
          simp only
          rw [trimStr_strip hvn hv]
          simp only [ok_bind]
          rw [trimStr_strip (isStrip_nulFree hvn hv) (t := value)]
          · exact ⟨true, rfl, by simp⟩
          · obtain ⟨l, r, -, -, -, h1, h2⟩ := hv
            exact ⟨[], [], by simp, by simp, by simp, h1, h2⟩

theorem first_pass_hollow {t : Str} (hn : NulFree t) (h : Hollow t) : conf_parse_first_pass t = ub .null := by
  obtain ⟨u, hu, hne, hall⟩ := h
  have h61 : (61 : Byte) ∈ t := by
    obtain ⟨c, v, rfl⟩ := List.exists_cons_of_ne_nil hne
    obtain ⟨l, r, rfl, -⟩ := hu
    simp [hall c (by simp)]
  unfold conf_parse_first_pass
  cases hst : strstr t b!"=" with
  | none => exact absurd h61 (strstr_one_none.mp hst)
  | some x =>
    simp only
    rw [trimStr_strip hn hu]
    simp only [ok_bind]
    rw [strtok_delims (delim := b!"=") (by simpa using hall)]

/-- Every text with `=` has two parts or none. -/
theorem parts_exist {t : Str} (h61 : (61 : Byte) ∈ t) : Hollow t ∨ ∃ key value, TwoParts t key value := by
  have hs := isStrip_strip t
  obtain ⟨ts, hr⟩ := runs_exists [61] (strip t)
  cases ts with
  | nil =>
    left
    refine ⟨strip t, hs, ?_, ?_⟩
    · intro e'
      obtain ⟨l, r, e, hl, hr', -⟩ := hs
      rw [e', List.append_nil] at e
      rw [e] at h61
      rcases List.mem_append.mp h61 with h | h
      · exact absurd (hl _ h) (by decide)
      · exact absurd (hr' _ h) (by decide)
    · generalize strip t = u at hr
      cases hr with
      | nil d hd => simpa using hd
  | cons k more =>
    right
    cases more with
    | nil => exact ⟨strip k, [], _, k, [], hs, hr, isStrip_strip k, Or.inl ⟨rfl, rfl⟩⟩
    | cons v more' => exact ⟨strip k, strip v, _, k, _, hs, hr, isStrip_strip k, Or.inr ⟨v, more', rfl, isStrip_strip v⟩⟩

theorem nulFree_before {l t : Str} (h : BeforeNul l t) : untilNul l = t := beforeNul_unique (untilNul_before l) h

/-- The view of an item behind `first_pass_parts`. -/
theorem owned_parts {key value : Str} {o : Bool} (h : value ≠ [] → o = true) (ms : List Str) :
    ConfItem.Owned ⟨⟨true, key⟩, ⟨o, value⟩, ms⟩ := ⟨fun _ => rfl, h⟩

theorem twoParts_nulFree {t key value : Str} (hn : NulFree t) (h : TwoParts t key value) : NulFree value := by
  obtain ⟨u, k, more, hu, hr, hk, hv⟩ := h
  rcases hv with ⟨-, rfl⟩ | ⟨v, more', rfl, hv⟩
  · simp
  · refine isStrip_nulFree ?_ hv
    have hun := isStrip_nulFree hn hu
    rcases strtok_of_runs hr with ⟨e, -⟩ | ⟨t', us, rest, e, hs, hr'⟩
    · cases e
    · cases e
      rcases strtok_of_runs hr' with ⟨e, -⟩ | ⟨t', us, rest', e, hs', -⟩
      · cases e
      · cases e
        exact (strtok_nulFree (strtok_nulFree hun hs).2 hs').1

theorem parseLoop_all (path : Str) (flags : KeyFlags) {s : Str} {calls : List (Str × Str × List Str)} {r : Option Int}
    (h : ConfReads flags s calls r) : ∀ (n : Nat) (acc : List ConfItem), s.length < n →
      (∀ ret, r = some ret → (ret = -1 → path.length ≤ 86) →
        ∃ its, parseLoop path flags n s acc = ok (ret, acc ++ its) ∧ its.map ConfItem.view = calls) ∧
      (r = none ∨ r = some (-1) ∧ 86 < path.length → ∃ f, parseLoop path flags n s acc = ub f) := by
  induction h with
  | eof =>
    intro n acc hn
    obtain ⟨n, rfl⟩ : ∃ m, n = m + 1 := ⟨n - 1, by omega⟩
    refine ⟨fun ret e _ => ?_, fun e => by rcases e with e | e <;> simp at e⟩
    cases e
    exact ⟨[], by simp [parseLoop, fgets], rfl⟩
  | bad text piece rest t h1 h2 h3 =>
    intro n acc hn
    obtain ⟨n, rfl⟩ : ∃ m, n = m + 1 := ⟨n - 1, by omega⟩
    refine ⟨fun ret e hp => ?_, fun e => ?_⟩
    · cases e
      have hp := hp rfl
      refine ⟨[], ?_, rfl⟩
      rw [parseLoop, fgets_piece h1]
      simp only
      rw [nulFree_before h2, first_pass_none h3]
      simp only [ok_bind]
      rw [fmtInto_ok (by simp; omega)]
      simp
    · rcases e with e | ⟨-, e⟩
      · cases e
      · refine ⟨.oob, ?_⟩
        rw [parseLoop, fgets_piece h1]
        simp only
        rw [nulFree_before h2, first_pass_none h3]
        simp only [ok_bind]
        rw [fmtInto_over (by simp; omega)]
        rfl
  | hollow text piece rest t h1 h2 h3 =>
    intro n acc hn
    obtain ⟨n, rfl⟩ : ∃ m, n = m + 1 := ⟨n - 1, by omega⟩
    refine ⟨fun ret e => (nomatch e), fun _ => ⟨.null, ?_⟩⟩
    rw [parseLoop, fgets_piece h1]
    simp only
    rw [nulFree_before h2, first_pass_hollow h2.1 h3]
    rfl
  | many text piece rest t key value key' elems h1 h2 h3 h4 h5 h6 h7 =>
    intro n acc hn
    obtain ⟨n, rfl⟩ : ∃ m, n = m + 1 := ⟨n - 1, by omega⟩
    refine ⟨fun ret e => (nomatch e), fun _ => ⟨.oob, ?_⟩⟩
    rw [parseLoop, fgets_piece h1]
    simp only
    obtain ⟨o, e, ho⟩ := first_pass_parts h2.1 h3 h4
    rw [nulFree_before h2, e]
    simp only [ok_bind]
    rw [get_key_flag_eq, h5]
    simp only [if_true]
    rw [parse_multi_over (ms := elems) (twoParts_nulFree h2.1 h4) h6 h7]
    rfl
  | other text piece rest t key value calls r h1 h2 h3 h4 h5 _ ih =>
    intro n acc hn
    obtain ⟨n, rfl⟩ : ∃ m, n = m + 1 := ⟨n - 1, by omega⟩
    have hl : rest.length < n := by
      obtain ⟨rfl, hne, -⟩ := h1
      have := List.length_pos_iff.mpr hne
      simp at hn; omega
    obtain ⟨o, e, ho⟩ := first_pass_parts h2.1 h3 h4
    have : parseLoop path flags (n + 1) text acc = parseLoop path flags n rest acc := by
      rw [parseLoop, fgets_piece h1]
      simp only
      rw [nulFree_before h2, e]
      simp only [ok_bind]
      rw [get_key_flag_eq, h5]
      simp only
      rw [free_owned (owned_parts ho [])]
      simp
    rw [this]
    exact ih n acc hl
  | single text piece rest t key value key' calls r h1 h2 h3 h4 h5 _ ih =>
    intro n acc hn
    obtain ⟨n, rfl⟩ : ∃ m, n = m + 1 := ⟨n - 1, by omega⟩
    have hl : rest.length < n := by
      obtain ⟨rfl, hne, -⟩ := h1
      have := List.length_pos_iff.mpr hne
      simp at hn; omega
    obtain ⟨o, e, ho⟩ := first_pass_parts h2.1 h3 h4
    have : parseLoop path flags (n + 1) text acc = parseLoop path flags n rest (acc ++ [⟨⟨true, key⟩, ⟨o, value⟩, []⟩]) := by
      rw [parseLoop, fgets_piece h1]
      simp only
      rw [nulFree_before h2, e]
      simp only [ok_bind]
      rw [get_key_flag_eq, h5]
      simp only [Bool.false_eq_true, if_false, ok_bind]
      rw [free_owned (owned_parts ho [])]
      simp
    rw [this]
    have := ih n (acc ++ [⟨⟨true, key⟩, ⟨o, value⟩, []⟩]) hl
    refine ⟨fun ret e hp => ?_, this.2⟩
    · obtain ⟨its, h6, h7⟩ := this.1 ret e hp
      exact ⟨⟨⟨true, key⟩, ⟨o, value⟩, []⟩ :: its, by rw [h6]; simp, by simp [h7, ConfItem.view]⟩
  | multi text piece rest t key value key' elems calls r h1 h2 h3 h4 h5 h6 h7 _ ih =>
    intro n acc hn
    obtain ⟨n, rfl⟩ : ∃ m, n = m + 1 := ⟨n - 1, by omega⟩
    have hl : rest.length < n := by
      obtain ⟨rfl, hne, -⟩ := h1
      have := List.length_pos_iff.mpr hne
      simp at hn; omega
    obtain ⟨o, e, ho⟩ := first_pass_parts h2.1 h3 h4
    have : parseLoop path flags (n + 1) text acc = parseLoop path flags n rest (acc ++ [⟨⟨true, key⟩, ⟨o, value⟩, elems⟩]) := by
      rw [parseLoop, fgets_piece h1]
      simp only
      rw [nulFree_before h2, e]
      simp only [ok_bind]
      rw [get_key_flag_eq, h5]
      simp only [if_true]
      rw [parse_multi_eq (ms := elems) (twoParts_nulFree h2.1 h4) h6 h7]
      simp only [ok_bind]
      rw [free_owned (owned_parts ho elems)]
      simp
    rw [this]
    have := ih n (acc ++ [⟨⟨true, key⟩, ⟨o, value⟩, elems⟩]) hl
    refine ⟨fun ret e hp => ?_, this.2⟩
    · obtain ⟨its, h6, h7⟩ := this.1 ret e hp
      exact ⟨⟨⟨true, key⟩, ⟨o, value⟩, elems⟩ :: its, by rw [h6]; simp, by simp [h7, ConfItem.view]⟩

/-- C17, exactly, for every line: without `=` there is no item; a line that is `=` only (apart from blanks at its ends) is
undefined behaviour; any other has for key and value the first two runs of other bytes, trimmed. -/
theorem C17_exact (line : Str) (hn : NulFree line) :
    ((61 : Byte) ∉ line → conf_parse_line line false = ok none) ∧
    (Hollow line → ∀ multi, conf_parse_line line multi = ub .null) ∧
    (∀ key value, (61 : Byte) ∈ line → TwoParts line key value →
      ∃ it, conf_parse_line line false = ok (some it) ∧ it.key.s = key ∧ it.value.s = value ∧ it.multi = []) ∧
    ((61 : Byte) ∉ line ∨ Hollow line ∨ ∃ key value, TwoParts line key value) := by
  refine ⟨C17_none_partial line, ?_, ?_, ?_⟩
  · intro h multi
    unfold conf_parse_line
    rw [first_pass_hollow hn h]
    rfl
  · intro key value h61 h
    obtain ⟨o, e, -⟩ := first_pass_parts hn h61 h
    refine ⟨⟨⟨true, key⟩, ⟨o, value⟩, []⟩, ?_, rfl, rfl, rfl⟩
    unfold conf_parse_line
    rw [e]
    simp
  · by_cases h61 : (61 : Byte) ∈ line
    · exact Or.inr (parts_exist h61)
    · exact Or.inl h61

example : conf_parse_line b!" ==\n" false = ub .null :=
  (C17_exact b!" ==\n" (by decide)).2.1
    ⟨b!"==", ⟨b!" ", b!"\n", by decide, by decide, by decide, by decide, by decide⟩, by decide, by decide⟩ false

/-- C20, exactly, for every file: the items handed over and the result are the ones `ConfReads` gives, and if it gives none
the behaviour is undefined, as it is if a malformed file is reported whose name has more than 86 bytes. -/
theorem C20_exact (fs : FS) (path content : Str) (flags : KeyFlags) (calls : List (Str × Str × List Str)) (r : Option Int)
    (hopen : fs.openRead path = some content) (h : ConfReads flags content calls r) :
    (∀ ret, r = some ret → (ret = -1 → path.length ≤ 86) →
      ∃ its, parse fs path flags = ok (ret, its) ∧ its.map (fun it => (it.key.s, it.value.s, it.multi)) = calls) ∧
    (r = none ∨ r = some (-1) ∧ 86 < path.length → ∃ f, parse fs path flags = ub f) := by
  have := parseLoop_all path flags h (content.length + 1) [] (by omega)
  unfold parse
  rw [FS.fopenRead_of_openRead hopen]
  exact this

/-- `ConfReads` leaves no file out. -/
theorem C20_total (flags : KeyFlags) : ∀ content : Str, ∃ calls r, ConfReads flags content calls r := by
  intro content
  induction hlen : content.length using Nat.strongRecOn generalizing content with
  | ind n ih =>
    by_cases h0 : content = []
    · subst h0; exact ⟨[], some 0, .eof⟩
    · obtain ⟨piece, rest, hp⟩ := piece_exists content h0
      have hl : rest.length < n := by
        obtain ⟨e, hne, -⟩ := hp
        have := List.length_pos_iff.mpr hne
        rw [← hlen, e]; simp; omega
      have hb := untilNul_before piece
      by_cases h61 : (61 : Byte) ∈ untilNul piece
      · rcases parts_exist h61 with hh | ⟨key, value, ht⟩
        · exact ⟨[], none, .hollow _ _ _ _ hp hb hh⟩
        · obtain ⟨calls, r, hr⟩ := ih _ hl rest rfl
          cases hf : flags.find? (fun f => f.1 = key) with
          | none => exact ⟨calls, r, .other _ _ _ _ _ _ _ _ hp hb h61 ht hf hr⟩
          | some f =>
            obtain ⟨key', m⟩ := f
            cases m with
            | false => exact ⟨_, r, .single _ _ _ _ _ _ _ _ _ hp hb h61 ht hf hr⟩
            | true =>
              obtain ⟨elems, he⟩ := elements_exists value
              by_cases h20 : elems.length ≤ 20
              · exact ⟨_, r, .multi _ _ _ _ _ _ _ _ _ _ hp hb h61 ht hf he h20 hr⟩
              · exact ⟨[], none, .many _ _ _ _ _ _ _ _ hp hb h61 ht hf he (by omega)⟩
      · exact ⟨[], some (-1), .bad _ _ _ _ hp hb h61⟩

/-- An empty line ends the reading. -/
example : ConfReads [(b!"a", false)] b!"a=1=2\n\na=3\n" [(b!"a", b!"1", [])] (some (-1)) :=
  .single _ b!"a=1=2\n" b!"\na=3\n" b!"a=1=2\n" b!"a" b!"1" b!"a" _ _
    ⟨by decide, by decide, by decide, by decide, by decide⟩ ⟨by decide, Or.inl rfl⟩ (by decide)
    ⟨b!"a=1=2", b!"a", [b!"1", b!"2"], ⟨[], b!"\n", by decide, by decide, by decide, by decide, by decide⟩,
      .cons [] b!"a" 61 b!"1=2" _ (by decide) (by decide) (by decide) (by decide)
        (.cons [] b!"1" 61 b!"2" _ (by decide) (by decide) (by decide) (by decide)
          (.last [] b!"2" (by decide) (by decide) (by decide))),
      ⟨[], [], by decide, by decide, by decide, by decide, by decide⟩,
      Or.inr ⟨b!"1", [b!"2"], rfl, ⟨[], [], by decide, by decide, by decide, by decide, by decide⟩⟩⟩
    (by decide)
    (.bad _ b!"\n" b!"a=3\n" b!"\n" ⟨by decide, by decide, by decide, by decide, by decide⟩ ⟨by decide, Or.inl rfl⟩ (by decide))
example : Hollow b!" ==\n" := ⟨b!"==", ⟨b!" ", b!"\n", by decide, by decide, by decide, by decide, by decide⟩, by decide, by decide⟩

end Wayuu
