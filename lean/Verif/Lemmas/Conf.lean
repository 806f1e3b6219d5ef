import Verif.Spec.Conf
import Verif.Lemmas.Strings3
import Verif.Model.ConfParser
import Mathlib.Data.List.Forall2
/-
Lemmas about conf_parser.c.
-/
namespace Wayuu
open C

theorem strstr_one_none {s : Str} {c : Byte} : strstr s [c] = none ↔ c ∉ s := by
  induction s with
  | nil => simp [strstr]
  | cons x s ih =>
    unfold strstr
    by_cases h : c = x
    · simp [h]
    · have : ([c].isPrefixOf (x :: s)) = false := by
        simp only [List.isPrefixOf, Bool.and_true, beq_eq_false_iff_ne, ne_eq]; exact h
      simp [this, ih, h]

theorem trimStr_strip {s t : Str} (hs : NulFree s) (h : Spec.IsStrip s t) : trimStr s = ok t := by
  rw [isStrip_eq h]; exact trimStr_eq hs

theorem first_pass_none {line : Str} (h : (61 : Byte) ∉ line) : conf_parse_first_pass line = ok none := by
  unfold conf_parse_first_pass
  rw [strstr_one_none.mpr h]

theorem first_pass_eq {line key value : Str} (hs : NulFree line) (h : Spec.ConfLine line key value) :
    conf_parse_first_pass line = ok (some ⟨⟨true, key⟩, ⟨decide (value ≠ []), value⟩, []⟩) := by
  obtain ⟨k, v, rfl, hk, hv, ⟨kl, kr, hke, hkl, hkr, hkh, hkt⟩, ⟨vl, vr, hve, hvl, hvr, hvh, hvt⟩, hne⟩ := h
  subst hke hve
  unfold conf_parse_first_pass
  cases hst : strstr (kl ++ key ++ kr ++ 61 :: (vl ++ value ++ vr)) b!"=" with
  | none => exact absurd (strstr_one_none.mp hst) (by simp)
  | some x =>
    simp only
    simp only [nulFree_append, nulFree_cons] at hs
    simp only [List.mem_append, not_or] at hk hv
    have hkey : key.head? ≠ none := by simpa using hne
    by_cases hv0 : value = []
    · subst hv0
      have hst : Spec.IsStrip (kl ++ key ++ kr ++ 61 :: (vl ++ [] ++ vr)) (key ++ kr ++ [61]) := by
        refine ⟨kl, vl ++ vr, by simp, hkl, ?_, ?_, ?_⟩
        · intro c hc
          rcases List.mem_append.mp hc with h | h
          · exact hvl c h
          · exact hvr c h
        · intro c hc
          apply hkh
          cases key with
          | nil => exact absurd rfl hne
          | cons x key => simpa using hc
        · intro c hc
          simp at hc
          subst hc
          decide
      rw [trimStr_strip (by simp [hs]) hst]
      simp only [ok_bind]
      have htok : strtok (key ++ kr ++ [61]) b!"=" = some (key ++ kr, []) := by
        have := strtok_cons (d := []) (t := key ++ kr) (delim := b!"=") (s := []) (x := 61) (by simp)
          (by simp [hne]) (by
            intro c hc e
            simp only [List.mem_singleton] at e
            subst e
            rcases List.mem_append.mp hc with h | h
            · exact hk.1.2 h
            · exact hk.2 h) (by simp)
        simpa using this
      rw [htok]
      simp only
      rw [trimStr_strip (t := key) (by simp [hs]) ⟨[], kr, by simp, by simp, hkr, hkh, hkt⟩]
      simp only [ok_bind]
      rw [strtok_delims (by simp)]
      simp
    · have hst : Spec.IsStrip (kl ++ key ++ kr ++ 61 :: (vl ++ value ++ vr)) (key ++ kr ++ 61 :: (vl ++ value)) := by
        refine ⟨kl, vr, by simp, hkl, hvr, ?_, ?_⟩
        · intro c hc
          apply hkh
          cases key with
          | nil => exact absurd rfl hne
          | cons x key => simpa using hc
        · intro c hc
          apply hvt
          rw [List.getLast?_append] at hc
          rw [show (61 : Byte) :: (vl ++ value) = (61 :: vl) ++ value by simp, List.getLast?_append] at hc
          cases hl : value.getLast? with
          | none => simp at hl; exact absurd hl hv0
          | some y => rw [hl] at hc; simpa using hc
      rw [trimStr_strip (by simp [hs]) hst]
      simp only [ok_bind]
      have htok : strtok (key ++ kr ++ 61 :: (vl ++ value)) b!"=" = some (key ++ kr, vl ++ value) := by
        have := strtok_cons (d := []) (t := key ++ kr) (delim := b!"=") (s := vl ++ value) (x := 61) (by simp)
          (by simp [hne]) (by
            intro c hc e
            simp only [List.mem_singleton] at e
            subst e
            rcases List.mem_append.mp hc with h | h
            · exact hk.1.2 h
            · exact hk.2 h) (by simp)
        simpa using this
      rw [htok]
      simp only
      rw [trimStr_strip (t := key) (by simp [hs]) ⟨[], kr, by simp, by simp, hkr, hkh, hkt⟩]
      simp only [ok_bind]
      have htok2 : strtok (vl ++ value) b!"=" = some (vl ++ value, []) := by
        have := strtok_last (d := []) (t := vl ++ value) (delim := b!"=") (by simp) (by simp [hv0]) (by
            intro c hc e
            simp only [List.mem_singleton] at e
            subst e
            rcases List.mem_append.mp hc with h | h
            · exact hv.1.1 h
            · exact hv.1.2 h)
        simpa using this
      rw [htok2]
      simp only
      rw [trimStr_strip (t := value) (by simp [hs]) ⟨vl, [], by simp, hvl, by simp, hvh, hvt⟩]
      simp only [ok_bind]
      rw [trimStr_strip (t := value) (by simp [hs]) ⟨[], [], by simp, by simp, by simp, hvh, hvt⟩]
      simp [hv0]

/-! ### multi-values -/

theorem multiLoop_eq {rest : Str} {ts : List Str} (h : Spec.Runs [44] rest ts) (hs : NulFree rest)
    (i n : Nat) (acc : List Str) (hi : ts.length + i + 1 ≤ 20) (hn : n + i = 20) :
    multiLoop n i rest acc = ok (acc ++ ts.map strip) := by
  induction h generalizing i n acc with
  | nil d hd =>
    obtain ⟨n, rfl⟩ : ∃ m, n = m + 1 := ⟨n - 1, by simp at hi; omega⟩
    simp [multiLoop, strtok_delims hd]
  | last d t hd ht htd =>
    simp only [List.length_cons, List.length_nil] at hi
    obtain ⟨n, rfl⟩ : ∃ m, n = m + 1 := ⟨n - 1, by omega⟩
    obtain ⟨n, rfl⟩ : ∃ m, n = m + 1 := ⟨n - 1, by omega⟩
    simp only [nulFree_append] at hs
    rw [multiLoop, strtok_last hd ht htd]
    simp only
    rw [if_neg (by show ¬ 20 ≤ i + 1; omega), trimStr_eq hs.2]
    simp only [ok_bind]
    rw [multiLoop, strtok_delims (by simp)]
    simp
  | cons d t x s ts hd ht htd hx _ ih =>
    simp only [List.length_cons] at hi
    obtain ⟨n, rfl⟩ : ∃ m, n = m + 1 := ⟨n - 1, by omega⟩
    simp only [nulFree_append, nulFree_cons] at hs
    rw [multiLoop, strtok_cons hd ht htd hx]
    simp only
    rw [if_neg (by show ¬ 20 ≤ i + 1; omega), trimStr_eq hs.1.2]
    simp only [ok_bind]
    rw [ih hs.2.2 (i + 1) n _ (by omega) (by omega)]
    simp

theorem multiLoop_over {rest : Str} {ts : List Str} (h : Spec.Runs [44] rest ts) (hs : NulFree rest)
    (i n : Nat) (acc : List Str) (hi : 20 < ts.length + i + 1) (hi2 : i < 20) (hn : n + i = 20) :
    multiLoop n i rest acc = ub .oob := by
  induction h generalizing i n acc with
  | nil d hd => simp at hi; omega
  | last d t hd ht htd =>
    simp only [List.length_cons, List.length_nil] at hi
    obtain ⟨n, rfl⟩ : ∃ m, n = m + 1 := ⟨n - 1, by omega⟩
    rw [multiLoop, strtok_last hd ht htd]
    simp only
    rw [if_pos (by show 20 ≤ i + 1; omega)]
  | cons d t x s ts hd ht htd hx _ ih =>
    simp only [List.length_cons] at hi
    obtain ⟨n, rfl⟩ : ∃ m, n = m + 1 := ⟨n - 1, by omega⟩
    simp only [nulFree_append, nulFree_cons] at hs
    rw [multiLoop, strtok_cons hd ht htd hx]
    simp only
    by_cases h19 : 20 ≤ i + 1
    · rw [if_pos h19]
    · rw [if_neg h19, trimStr_eq hs.1.2]
      simp only [ok_bind]
      exact ih hs.2.2 (i + 1) n _ (by omega) (by omega) (by omega)

theorem forall2_strip {ts ms : List Str} (h : List.Forall₂ Spec.IsStrip ts ms) : ms = ts.map strip := by
  induction h with
  | nil => rfl
  | cons h _ ih => rw [ih, isStrip_eq h]; rfl

theorem parse_multi_eq {item : ConfItem} {ms : List Str} (hs : NulFree item.value.s)
    (h : Spec.Elements item.value.s ms) (hl : ms.length ≤ 20) :
    conf_parse_multi item = ok { item with multi := ms } := by
  obtain ⟨ts, hr, hf⟩ := h
  rw [forall2_strip hf] at hl ⊢
  rw [List.length_map] at hl
  unfold conf_parse_multi
  generalize item.value.s = v at hr hs
  cases hr with
  | nil d hd => simp [strtok_delims hd]
  | last d t hd ht htd =>
    simp only [nulFree_append] at hs
    rw [strtok_last hd ht htd]
    simp only
    rw [trimStr_eq hs.2]
    simp only [ok_bind]
    rw [multiLoop, strtok_delims (by simp)]
    simp
  | cons d t x s ts hd ht htd hx hr =>
    simp only [nulFree_append, nulFree_cons] at hs
    rw [strtok_cons hd ht htd hx]
    simp only
    rw [trimStr_eq hs.1.2]
    simp only [ok_bind]
    simp only [List.length_cons] at hl
    rw [multiLoop_eq hr hs.2.2 0 _ _ (by omega) rfl]
    simp

theorem parse_multi_over {item : ConfItem} {ms : List Str} (hs : NulFree item.value.s)
    (h : Spec.Elements item.value.s ms) (hl : 20 < ms.length) :
    conf_parse_multi item = ub .oob := by
  obtain ⟨ts, hr, hf⟩ := h
  rw [forall2_strip hf, List.length_map] at hl
  unfold conf_parse_multi
  generalize item.value.s = v at hr hs
  cases hr with
  | nil d hd => simp at hl
  | last d t hd ht htd => simp at hl
  | cons d t x s ts hd ht htd hx hr =>
    simp only [nulFree_append, nulFree_cons] at hs
    rw [strtok_cons hd ht htd hx]
    simp only
    rw [trimStr_eq hs.1.2]
    simp only [ok_bind]
    simp only [List.length_cons] at hl
    rw [multiLoop_over hr hs.2.2 0 _ _ (by omega) (by omega) rfl]
    simp

theorem elements_exists (v : Str) : ∃ ms, Spec.Elements v ms := by
  obtain ⟨ts, h⟩ := runs_exists [44] v
  refine ⟨ts.map strip, ts, h, ?_⟩
  rw [List.forall₂_map_right_iff]
  exact List.forall₂_same.mpr fun t _ => isStrip_strip t

/-! ### fgets -/

theorem fgetsAux_line (n : Nat) (l s : Str) (h : (10 : Byte) ∉ l) (hn : l.length < n) :
    fgetsAux n (l ++ 10 :: s) = (l ++ [10], s) := by
  induction l generalizing n with
  | nil =>
    obtain ⟨n, rfl⟩ : ∃ m, n = m + 1 := ⟨n - 1, by simp at hn; omega⟩
    simp [fgetsAux]
  | cons c l ih =>
    simp only [List.mem_cons, not_or] at h
    simp only [List.length_cons] at hn
    obtain ⟨n, rfl⟩ : ∃ m, n = m + 1 := ⟨n - 1, by omega⟩
    have hc : c ≠ 10 := fun e => h.1 e.symm
    simp [fgetsAux, hc, ih n h.2 (by omega)]

theorem fgetsAux_end (n : Nat) (l : Str) (h : (10 : Byte) ∉ l) (hn : l.length ≤ n) :
    fgetsAux n l = (l, []) := by
  induction l generalizing n with
  | nil => cases n <;> rfl
  | cons c l ih =>
    simp only [List.mem_cons, not_or] at h
    simp only [List.length_cons] at hn
    obtain ⟨n, rfl⟩ : ∃ m, n = m + 1 := ⟨n - 1, by omega⟩
    have hc : c ≠ 10 := fun e => h.1 e.symm
    simp [fgetsAux, hc, ih n h.2 (by omega)]

theorem fgets_line (l s : Str) (h : (10 : Byte) ∉ l) (hn : l.length ≤ 510) :
    fgets MAX_LINE_LEN (l ++ 10 :: s) = some (l ++ [10], s) := by
  unfold fgets
  cases hx : l ++ 10 :: s with
  | nil => simp at hx
  | cons x y => simp only; rw [← hx, fgetsAux_line _ l s h (by simp; omega)]

theorem fgets_end (l : Str) (hne : l ≠ []) (h : (10 : Byte) ∉ l) (hn : l.length ≤ 510) :
    fgets MAX_LINE_LEN l = some (l, []) := by
  unfold fgets
  cases l with
  | nil => exact absurd rfl hne
  | cons x y => simp only; rw [fgetsAux_end _ _ h (by simp at *; omega)]

theorem confLine_newline {line key value : Str} (h : Spec.ConfLine line key value) :
    Spec.ConfLine (line ++ [10]) key value := by
  obtain ⟨k, v, rfl, hk, hv, hks, ⟨l, r, e, h1, h2, h3, h4⟩, hne⟩ := h
  refine ⟨k, v ++ [10], by simp, hk, by simp [hv], hks, ⟨l, r ++ [10], by simp [e], h1, ?_, h3, h4⟩, hne⟩
  intro c hc
  rcases List.mem_append.mp hc with hc | hc
  · exact h2 c hc
  · simp at hc; subst hc; decide

/-! ### get_key_flag, free_conf_item -/

theorem get_key_flag_eq (key : Str) (flags : KeyFlags) :
    get_key_flag key flags = flags.find? fun f => f.1 = key := by
  induction flags with
  | nil => rfl
  | cons f r ih =>
    simp only [get_key_flag, List.find?_cons]
    by_cases h : f.1 = key
    · simp [strEq, h]
    · simp [strEq, h, ih]

/-- Pointers to literals only when the string is empty: what `free_conf_item` relies on. -/
def ConfItem.Owned (it : ConfItem) : Prop :=
  (it.key.s ≠ [] → it.key.heap = true) ∧ (it.value.s ≠ [] → it.value.heap = true)

theorem free_owned {it : ConfItem} (h : it.Owned) : free_conf_item it = ok () := by
  unfold free_conf_item freeStr
  by_cases h1 : it.key.s = [] <;> by_cases h2 : it.value.s = [] <;>
    simp [h1, h2, h.1, h.2]

/-! ### the line loop -/

theorem untilNul_no61 {b : Str} (h : (61 : Byte) ∉ b) : (61 : Byte) ∉ untilNul b :=
  fun hm => h ((List.takeWhile_sublist _).subset hm)

theorem nulFree_of_not_mem {s : Str} (h : (0 : Byte) ∉ s) : NulFree s := fun _ hc e => h (e ▸ hc)

/-- What the handler sees of an item. -/
def ConfItem.view (it : ConfItem) : Str × Str × List Str := (it.key.s, it.value.s, it.multi)

theorem parseLoop_entry (path : Str) (flags : KeyFlags) (n : Nat) (line key value : Str) (elems : List Str)
    (s rest : Str) (calls : List ConfItem)
    (hf : fgets MAX_LINE_LEN s = some (line, rest)) (hline : Spec.ConfLine line key value)
    (hel : Spec.Elements value elems) (hn : NulFree line) (hnv : NulFree value)
    (hm : ∀ f, flags.find? (fun f => f.1 = key) = some f → f.2 = true → elems.length ≤ 20) :
    ∃ its : List ConfItem, parseLoop path flags (n + 1) s calls = parseLoop path flags n rest (calls ++ its) ∧
      its.map ConfItem.view =
        ((flags.find? fun f => f.1 = key).map fun f => (key, value, if f.2 then elems else [])).toList := by
  have hown : ∀ ms, ConfItem.Owned ⟨⟨true, key⟩, ⟨decide (value ≠ []), value⟩, ms⟩ := fun ms =>
    ⟨fun _ => rfl, fun h => by simpa using h⟩
  rw [parseLoop, hf]
  simp only
  rw [untilNul_of_nulFree hn, first_pass_eq hn hline]
  simp only [ok_bind]
  rw [get_key_flag_eq]
  cases hfl : flags.find? (fun f => f.1 = key) with
  | none =>
    refine ⟨[], ?_, rfl⟩
    simp only
    rw [free_owned (hown [])]
    simp
  | some f =>
    cases h2 : f.2 with
    | true =>
      refine ⟨[⟨⟨true, key⟩, ⟨decide (value ≠ []), value⟩, elems⟩], ?_, by simp [ConfItem.view, h2]⟩
      simp only [h2, if_true]
      rw [parse_multi_eq (ms := elems) hnv hel (hm f hfl h2)]
      simp only [ok_bind]
      rw [free_owned (hown elems)]
      simp
    | false =>
      refine ⟨[⟨⟨true, key⟩, ⟨decide (value ≠ []), value⟩, []⟩], ?_, by simp [ConfItem.view, h2]⟩
      simp only [h2, Bool.false_eq_true, if_false]
      rw [free_owned (hown [])]
      simp

theorem parseLoop_bad (path : Str) (flags : KeyFlags) (n : Nat) (b : Str)
    (s rest : Str) (calls : List ConfItem)
    (hf : fgets MAX_LINE_LEN s = some (b, rest)) (hb : (61 : Byte) ∉ b) (hp : path.length ≤ 86) :
    parseLoop path flags (n + 1) s calls = ok (-1, calls) := by
  rw [parseLoop, hf]
  simp only
  rw [first_pass_none (untilNul_no61 hb)]
  simp only [ok_bind]
  rw [fmtInto_ok (by simp; omega)]
  simp

theorem isStrip_nulFree {s t : Str} (hs : NulFree s) (h : Spec.IsStrip s t) : NulFree t := by
  rw [isStrip_eq h]; exact nulFree_strip hs

theorem confLine_nulFree {line key value : Str} (hs : NulFree line) (h : Spec.ConfLine line key value) :
    NulFree key ∧ NulFree value := by
  obtain ⟨k, v, rfl, _, _, hk, hv, _⟩ := h
  simp only [nulFree_append, nulFree_cons] at hs
  exact ⟨isStrip_nulFree hs.1 hk, isStrip_nulFree hs.2.2 hv⟩

theorem parseLoop_eq (path : Str) (flags : KeyFlags) {content : Str} {es : List Spec.Entry} {good : Bool}
    (h : Spec.ConfFile content es good) (hp : path.length ≤ 86)
    (hm : ∀ e ∈ es, ∀ f, flags.find? (fun f => f.1 = e.key) = some f → f.2 = true → e.elems.length ≤ 20)
    (n : Nat) (hn : content.length < n) (calls : List ConfItem) :
    ∃ its : List ConfItem, parseLoop path flags n content calls = ok (if good then 0 else -1, calls ++ its) ∧
      its.map ConfItem.view = Spec.expectedCalls flags es := by
  induction h generalizing n calls with
  | eof =>
    obtain ⟨n, rfl⟩ : ∃ m, n = m + 1 := ⟨n - 1, by simp at hn; omega⟩
    exact ⟨[], by simp [parseLoop, fgets], rfl⟩
  | last e he =>
    obtain ⟨n, rfl⟩ : ∃ m, n = m + 1 := ⟨n - 1, by omega⟩
    obtain ⟨h1, h2, h3, h4, h5⟩ := he
    have hnf := nulFree_of_not_mem h3
    have hne : e.line ≠ [] := by
      obtain ⟨k, v, hl, _⟩ := h1
      rw [hl]; simp
    obtain ⟨its, ha, hb⟩ := parseLoop_entry path flags n e.line e.key e.value e.elems e.line [] calls
      (fgets_end _ hne h4 h5) h1 h2 hnf (confLine_nulFree hnf h1).2 (hm e (by simp))
    refine ⟨its, ?_, ?_⟩
    · rw [ha]
      have : 0 < n := by
        have := List.length_pos_iff.mpr hne
        omega
      obtain ⟨n, rfl⟩ : ∃ m, n = m + 1 := ⟨n - 1, by omega⟩
      simp [parseLoop, fgets]
    · rw [hb]
      cases hfl : flags.find? (fun f => f.1 = e.key) <;> simp [Spec.expectedCalls, hfl]
  | line e s es r he _ ih =>
    obtain ⟨n, rfl⟩ : ∃ m, n = m + 1 := ⟨n - 1, by omega⟩
    obtain ⟨h1, h2, h3, h4, h5⟩ := he
    have hnf := nulFree_of_not_mem h3
    obtain ⟨its, ha, hb⟩ := parseLoop_entry path flags n (e.line ++ [10]) e.key e.value e.elems _ s calls
      (fgets_line _ s h4 h5) (confLine_newline h1) h2 (by simp [hnf]) (confLine_nulFree hnf h1).2 (hm e (by simp))
    obtain ⟨its2, hc, hd⟩ := ih (fun e' he' => hm e' (by simp [he'])) n (by simp at hn; omega) (calls ++ its)
    refine ⟨its ++ its2, ?_, ?_⟩
    · rw [ha, hc]; simp
    · rw [List.map_append, hb, hd]
      unfold Spec.expectedCalls
      rw [List.filterMap_cons]
      cases hfl : flags.find? (fun f => f.1 = e.key) <;> simp
  | bad b s h1 h2 h3 =>
    obtain ⟨n, rfl⟩ : ∃ m, n = m + 1 := ⟨n - 1, by omega⟩
    refine ⟨[], ?_, rfl⟩
    rw [parseLoop_bad path flags n (b ++ [10]) _ s calls (fgets_line b s h2 h3) (by simp [h1]) hp]
    simp
  | badLast b h0 h1 h2 h3 =>
    obtain ⟨n, rfl⟩ : ∃ m, n = m + 1 := ⟨n - 1, by omega⟩
    refine ⟨[], ?_, rfl⟩
    rw [parseLoop_bad path flags n b _ [] calls (fgets_end b h0 h2 h3) h1 hp]
    simp

/-! ### serialisation -/

theorem runs_sepBy (ms : List Str) (h : ∀ m ∈ ms, m ≠ [] ∧ (44 : Byte) ∉ m) :
    Spec.Runs [44] (Spec.sepBy [44] ms) ms := by
  induction ms with
  | nil => exact .nil [] (by simp)
  | cons m ms ih =>
    have hm := h m (by simp)
    have hmd : ∀ c ∈ m, c ∉ ([44] : List Byte) := by
      intro c hc e
      simp only [List.mem_singleton] at e
      subst e
      exact hm.2 hc
    cases ms with
    | nil => exact .last [] m (by simp) hm.1 hmd
    | cons m2 ms =>
      have := Spec.Runs.cons (delim := [44]) [] m 44 _ _ (by simp) hm.1 hmd (by simp)
        (ih fun x hx => h x (by simp [hx]))
      simpa [Spec.sepBy] using this

theorem elements_sepBy (ms : List Str) (h : ∀ m ∈ ms, Spec.Clean m ∧ m ≠ [] ∧ (44 : Byte) ∉ m) :
    Spec.Elements (Spec.sepBy [44] ms) ms :=
  ⟨ms, runs_sepBy ms fun m hm => (h m hm).2, List.forall₂_same.mpr fun m hm => (h m hm).1.1⟩

/-- The text of a clean item. -/
def itemText (key value : Str) : Str := key ++ 61 :: value

theorem item_to_string_eq (it : ConfItem) (h : Spec.CleanItem it.key.s it.value.s it.multi) :
    conf_item_to_string it = ok (itemText it.key.s it.value.s) := by
  obtain ⟨_, _, _, _, hms⟩ := h
  unfold conf_item_to_string
  by_cases h0 : it.multi.length = 0
  · rw [if_pos h0, fmtInto_ok (by simp; omega)]
    simp [itemText]
  · rw [if_neg h0]
    have hne : it.multi ≠ [] := fun e => h0 (by rw [e]; rfl)
    have hj := join_strings it.multi [] b!","
    rw [List.append_nil] at hj
    rw [hj]
    simp only [ok_bind]
    rw [fmtInto_ok (by simp; omega)]
    simp only [ok_bind, freeStr, hne, ne_eq, not_false_eq_true, decide_true, if_true]
    rw [(hms hne).1]
    simp [itemText]

theorem itemText_confLine {key value : Str} {ms : List Str} (h : Spec.CleanItem key value ms) :
    Spec.ConfLine (itemText key value) key value :=
  ⟨key, value, rfl, h.1.2.1, h.2.2.1.2.1, h.1.1, h.2.2.1.1, h.2.1⟩

theorem clean_nulFree {s : Str} (h : Spec.Clean s) : NulFree s := nulFree_of_not_mem h.2.2.1

/-- The text of a list of clean items. -/
def textOf (items : List ConfItem) : Str := items.flatMap fun it => itemText it.key.s it.value.s ++ [10]

theorem elements_of_clean {key value : Str} {ms : List Str} (h : Spec.CleanItem key value ms) (hne : ms ≠ []) :
    Spec.Elements value ms := by
  obtain ⟨hv, hm⟩ := h.2.2.2.2 hne
  rw [hv]
  exact elements_sepBy ms hm

/-- The text written for clean items is a configuration file whose expected calls are those items. -/
theorem confText_file (flags : KeyFlags) (items : List ConfItem)
    (h : ∀ it ∈ items, Spec.CleanItem it.key.s it.value.s it.multi ∧ it.key.s.length + it.value.s.length + 1 ≤ 510 ∧
      ∃ f, flags.find? (fun f => f.1 = it.key.s) = some f ∧ f.2 = decide (it.multi ≠ [])) :
    ∃ es, confText items = ok (textOf items) ∧ Spec.ConfFile (textOf items) es true ∧
      Spec.expectedCalls flags es = items.map (fun it => (it.key.s, it.value.s, it.multi)) ∧
      ∀ e ∈ es, ∀ f, flags.find? (fun f => f.1 = e.key) = some f → f.2 = true → e.elems.length ≤ 20 := by
  induction items with
  | nil => exact ⟨[], rfl, .eof, rfl, by simp⟩
  | cons it items ih =>
    obtain ⟨es, h1, h2, h3, h4⟩ := ih fun x hx => h x (by simp [hx])
    obtain ⟨hc, hl, f, hf, hfm⟩ := h it (by simp)
    obtain ⟨ms, hms, hms2⟩ : ∃ ms, Spec.Elements it.value.s ms ∧ (it.multi ≠ [] → ms = it.multi) := by
      by_cases h0 : it.multi = []
      · obtain ⟨ms, hms⟩ := elements_exists it.value.s
        exact ⟨ms, hms, fun h => absurd h0 h⟩
      · exact ⟨it.multi, elements_of_clean hc h0, fun _ => rfl⟩
    refine ⟨⟨itemText it.key.s it.value.s, it.key.s, it.value.s, ms⟩ :: es, ?_, ?_, ?_, ?_⟩
    · simp only [confText]
      rw [item_to_string_eq it hc, h1]
      simp [textOf]
    · have : textOf (it :: items) = itemText it.key.s it.value.s ++ 10 :: textOf items := by simp [textOf]
      rw [this]
      refine .line ⟨itemText it.key.s it.value.s, it.key.s, it.value.s, ms⟩ _ _ _
        ⟨itemText_confLine hc, hms, ?_, ?_, ?_⟩ h2
      · simp [itemText, hc.1.2.2.1, hc.2.2.1.2.2.1]
      · simp [itemText, hc.1.2.2.2, hc.2.2.1.2.2.2]
      · simp [itemText]; omega
    · unfold Spec.expectedCalls at h3 ⊢
      rw [List.filterMap_cons, h3]
      simp only [hf, Option.map_some, List.map_cons, hfm]
      by_cases h0 : it.multi = []
      · simp [h0]
      · simp [h0, hms2 h0]
    · intro e he g hg hg2
      rcases List.mem_cons.mp he with rfl | he
      · simp only at hg ⊢
        rw [hf] at hg
        simp only [Option.some.injEq] at hg
        subst hg
        rw [hfm] at hg2
        have h0 : it.multi ≠ [] := by simpa using hg2
        rw [hms2 h0]
        exact hc.2.2.2.1
      · exact h4 e he g hg hg2

theorem freeItems_owned (items : List ConfItem) (h : ∀ it ∈ items, it.Owned) : freeItems items = ok () := by
  induction items with
  | nil => rfl
  | cons it items ih =>
    simp only [freeItems]
    rw [free_owned (h it (by simp)), ih fun x hx => h x (by simp [hx])]
    rfl

end Wayuu
