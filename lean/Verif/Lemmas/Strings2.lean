import Verif.Lemmas.Strings
/-
More lemmas about string_utils.c: rtrim, ltrim, split_once, split, join.
-/
namespace Wayuu
open C

/-! ### rtrim, ltrim -/

theorem rtrimLoop_eq (sep : Byte) (n : Nat) (p s : Str) (hp : NulFree p) (hs : NulFree s)
    (hn : s.length < n) (r : Buf) :
    ∃ q, rtrimLoop sep n ((p ++ s).map some ++ some 0 :: r) p.length =
      ok ((p ++ s.takeWhile (· != sep)).map some ++ some 0 :: q) := by
  induction n generalizing p s with
  | zero => omega
  | succ n ih =>
    unfold rtrimLoop
    rw [cstr_mk (by simp [hp, hs])]
    simp only [ok_bind]
    cases s with
    | nil => exact ⟨r, by simp⟩
    | cons c s =>
      simp only [nulFree_cons] at hs
      rw [if_pos (by simp)]
      rw [load_append_some (by simp)]
      simp only [List.getElem_append_right (Nat.le_refl _), Nat.sub_self, List.getElem_cons_zero, ok_bind]
      by_cases hc : c = sep
      · rw [if_pos hc]
        have e : (p ++ c :: s).map some ++ some 0 :: r
            = p.map some ++ some c :: (s.map some ++ some 0 :: r) := by simp
        rw [e, store_append_cons (by simp)]
        simp only [ok_bind]
        refine ⟨s.map some ++ some 0 :: r, ?_⟩
        cases n with
        | zero => simp at hn
        | succ n =>
          unfold rtrimLoop
          rw [cstr_mk hp]
          simp only [ok_bind]
          rw [if_neg (by omega)]
          simp [hc]
      · rw [if_neg hc]
        have := ih (p ++ [c]) s (by simp [hp, hs.1]) hs.2 (by simp at hn; omega)
        simp only [List.append_assoc, List.singleton_append, List.length_append, List.length_singleton] at this
        obtain ⟨q, hq⟩ := this
        refine ⟨q, ?_⟩
        rw [hq]
        simp [hc]

theorem takeWhile_ne_self {s : Str} (h : NulFree s) : s.takeWhile (· != (0 : Byte)) = s :=
  untilNul_of_nulFree h

theorem rtrim_eq {s : Str} (h : NulFree s) (sep : Byte) :
    rtrim s sep = ok (s.takeWhile (· != sep)) := by
  obtain ⟨q, hq⟩ := rtrimLoop_eq sep (s.length + 1) [] s (by simp) h (by omega) []
  unfold rtrim strdup
  simp only [List.nil_append, List.length_nil] at hq
  rw [hq]
  simp [cstr_mk (h.sublist (List.takeWhile_sublist _))]

theorem ltrimLoop_eq (sep : Byte) (p s : Str) (hp : NulFree p) (hs : NulFree s) :
    ltrimLoop (strdup (p ++ s)) sep s.length p.length =
      ok (if sep ∈ s then (s.dropWhile (· != sep)).drop 1 else p ++ s) := by
  induction s generalizing p with
  | nil => simp [ltrimLoop, cstr_strdup hp]
  | cons c s ih =>
    simp only [nulFree_cons] at hs
    simp only [List.length_cons, ltrimLoop]
    have e : Buf.load (strdup (p ++ c :: s)) p.length = ok c := by
      unfold strdup
      rw [load_append_some (by simp)]
      simp
    rw [e]
    simp only [ok_bind]
    by_cases hc : c = sep
    · subst hc
      rw [if_pos rfl]
      unfold strdup
      rw [strAt_str (by simp) (by simp [hp, hs.1, hs.2])]
      simp
    · rw [if_neg hc]
      have := ih (p ++ [c]) (by simp [hp, hs.1]) hs.2
      simp only [List.append_assoc, List.singleton_append, List.length_append, List.length_singleton] at this
      rw [this]
      have : sep ≠ c := fun h => hc h.symm
      simp [hc, this]

theorem ltrim_eq {s : Str} (h : NulFree s) (sep : Byte) :
    ltrim s sep = ok (if sep ∈ s then (s.dropWhile (· != sep)).drop 1 else s) := by
  have := ltrimLoop_eq sep [] s (by simp) h
  simpa [ltrim] using this

/-- `s` splits at its first `c`. -/
theorem first_split {s : Str} {c : Byte} (h : c ∈ s) :
    s.takeWhile (· != c) ++ c :: (s.dropWhile (· != c)).drop 1 = s := by
  induction s with
  | nil => simp at h
  | cons x s ih =>
    by_cases hx : x = c
    · subst hx; simp
    · have hc : c ∈ s := by
        rcases List.mem_cons.mp h with h | h
        · exact absurd h.symm hx
        · exact h
      have := ih hc
      simpa [hx] using this

/-! ### split_once -/

theorem split_once_colon {line delim : Str} (h : NulFree line) (hl : line.length ≤ 1023) (hc : (58 : Byte) ∈ line) :
    ∃ r0 r1 : Buf, split_once line delim =
      ok [(strip (line.takeWhile (· != 58))).map some ++ some 0 :: r0,
          (strip ((line.dropWhile (· != 58)).drop 1)).map some ++ some 0 :: r1] := by
  have hsp := first_split hc
  have hlen := congrArg List.length hsp
  simp only [List.length_append, List.length_cons] at hlen
  have ha : NulFree (line.takeWhile (· != 58)) := h.sublist (List.takeWhile_sublist _)
  have hb : NulFree ((line.dropWhile (· != 58)).drop 1) :=
    (h.sublist (List.dropWhile_sublist _)).drop 1
  have hla := length_strip_le (line.takeWhile (· != 58))
  have hlb := length_strip_le ((line.dropWhile (· != 58)).drop 1)
  unfold split_once
  rw [rtrim_eq h]
  simp only [ok_bind]
  rw [trimStr_eq ha]
  simp only [ok_bind]
  rw [fresh_strncpy (by simp [MAX_SPLIT_STR_LEN]; omega) (by simp [MAX_SPLIT_STR_LEN])]
  simp only [ok_bind]
  rw [ltrim_eq h]
  simp only [ok_bind, hc, if_true]
  rw [if_pos (by omega)]
  rw [trimStr_eq hb]
  simp only [ok_bind]
  rw [fresh_strncpy (by simp [MAX_SPLIT_STR_LEN] at *; omega) (by simp [MAX_SPLIT_STR_LEN])]
  exact ⟨_, _, rfl⟩

theorem split_once_nocolon {line delim : Str} (h : NulFree line) (hl : line.length ≤ 1023) (hc : (58 : Byte) ∉ line) :
    ∃ b0 : Buf, split_once line delim = ok [b0] ∧
      (line.length < 1023 → cstr b0 = ok (strip line)) := by
  have ht : line.takeWhile (· != 58) = line :=
    List.takeWhile_eq_self_iff.mpr fun c hx => by
      have : c ≠ 58 := fun e => hc (e ▸ hx)
      simpa using this
  unfold split_once
  rw [rtrim_eq h, ht]
  simp only [ok_bind]
  rw [trimStr_eq h]
  simp only [ok_bind]
  have hls := length_strip_le line
  have hw : ∃ b0 : Buf, strncpyAt (malloc MAX_SPLIT_STR_LEN) 0 (strip line) (MAX_SPLIT_STR_LEN - 1) = ok b0 ∧
      (line.length < 1023 → cstr b0 = ok (strip line)) := by
    by_cases hlt : (strip line).length < 1023
    · rw [show MAX_SPLIT_STR_LEN - 1 = 1023 from rfl, fresh_strncpy hlt (by simp [MAX_SPLIT_STR_LEN])]
      exact ⟨_, rfl, fun _ => cstr_mk (nulFree_strip h) _⟩
    · unfold strncpyAt
      rw [writeAt_ok (by simp [MAX_SPLIT_STR_LEN]; omega)]
      exact ⟨_, rfl, fun h => by omega⟩
  obtain ⟨b0, hb0, hb1⟩ := hw
  refine ⟨b0, ?_, hb1⟩
  rw [hb0]
  simp only [ok_bind]
  rw [ltrim_eq h]
  simp [hc]

/-! ### strtok and split -/

theorem contains_iff {d : Str} {c : Byte} : d.contains c = true ↔ c ∈ d := by simp

theorem strtok_some {s delim t rest : Str} (h : strtok s delim = some (t, rest)) :
    ∃ d : Str, (∀ c ∈ d, c ∈ delim) ∧ t ≠ [] ∧ (∀ c ∈ t, c ∉ delim) ∧
      ((s = d ++ t ∧ rest = []) ∨ ∃ x, x ∈ delim ∧ s = d ++ t ++ x :: rest) := by
  unfold strtok at h
  generalize hu : s.dropWhile (delim.contains ·) = u at h
  cases u with
  | nil => simp at h
  | cons a u =>
    simp only [Option.some.injEq, Prod.mk.injEq] at h
    obtain ⟨h1, h2⟩ := h
    have hs : s = s.takeWhile (delim.contains ·) ++ (a :: u) := by
      rw [← hu, List.takeWhile_append_dropWhile]
    have ha : a ∉ delim := by
      have := List.head?_dropWhile_not (delim.contains ·) s
      rw [hu] at this
      simpa using this
    refine ⟨s.takeWhile (delim.contains ·), ?_, ?_, ?_, ?_⟩
    · intro c hc
      have := List.mem_takeWhile_imp hc
      simpa using this
    · rw [← h1]
      simp [ha]
    · intro c hc
      rw [← h1] at hc
      have := List.mem_takeWhile_imp hc
      simpa using this
    · have hau : a :: u = t ++ (a :: u).dropWhile (fun x => !delim.contains x) := by
        rw [← h1, List.takeWhile_append_dropWhile]
      cases hd : (a :: u).dropWhile (fun x => !delim.contains x) with
      | nil =>
        left
        rw [hd] at h2 hau
        simp only [List.append_nil] at hau
        rw [← hau]
        exact ⟨hs, by simpa using h2.symm⟩
      | cons x xs =>
        right
        refine ⟨x, ?_, ?_⟩
        · have := List.head?_dropWhile_not (fun x => !delim.contains x) (a :: u)
          rw [hd] at this
          simpa using this
        · rw [hd] at h2 hau
          simp only [List.drop_succ_cons, List.drop_zero] at h2
          rw [← h2, List.append_assoc, ← hau]
          exact hs

theorem strtok_none {s delim : Str} (h : strtok s delim = none) : ∀ c ∈ s, c ∈ delim := by
  unfold strtok at h
  generalize hu : s.dropWhile (delim.contains ·) = u at h
  cases u with
  | nil =>
    intro c hc
    rw [List.dropWhile_eq_nil_iff] at hu
    have := hu c hc
    simpa using this
  | cons a u => simp at h

theorem strtok_delims {d delim : Str} (hd : ∀ c ∈ d, c ∈ delim) : strtok d delim = none := by
  unfold strtok
  have : d.dropWhile (delim.contains ·) = [] := by
    rw [List.dropWhile_eq_nil_iff]
    intro c hc
    simpa using hd c hc
  simp only [this]

theorem dropWhile_delims {d delim : Str} (hd : ∀ c ∈ d, c ∈ delim) (s : Str) :
    (d ++ s).dropWhile (delim.contains ·) = s.dropWhile (delim.contains ·) := by
  induction d with
  | nil => rfl
  | cons c d ih =>
    have hc : c ∈ delim := hd c (by simp)
    simp only [List.cons_append]
    rw [List.dropWhile_cons_of_pos (by simpa using hc)]
    exact ih fun c h => hd c (by simp [h])

theorem strtok_last {d t delim : Str} (hd : ∀ c ∈ d, c ∈ delim) (ht : t ≠ []) (htd : ∀ c ∈ t, c ∉ delim) :
    strtok (d ++ t) delim = some (t, []) := by
  unfold strtok
  rw [dropWhile_delims hd]
  cases t with
  | nil => exact absurd rfl ht
  | cons a t =>
    have ha : a ∉ delim := htd a (by simp)
    rw [List.dropWhile_cons_of_neg (by simpa using ha)]
    have e1 : (a :: t).takeWhile (fun x => !delim.contains x) = a :: t :=
      List.takeWhile_eq_self_iff.mpr fun c hc => by simpa using htd c hc
    have e2 : (a :: t).dropWhile (fun x => !delim.contains x) = [] := by
      rw [List.dropWhile_eq_nil_iff]; intro c hc; simpa using htd c hc
    simp only [e1, e2]
    rfl

theorem strtok_cons {d t delim s : Str} {x : Byte} (hd : ∀ c ∈ d, c ∈ delim) (ht : t ≠ [])
    (htd : ∀ c ∈ t, c ∉ delim) (hx : x ∈ delim) :
    strtok (d ++ t ++ x :: s) delim = some (t, s) := by
  unfold strtok
  rw [List.append_assoc, dropWhile_delims hd]
  cases t with
  | nil => exact absurd rfl ht
  | cons a t =>
    have ha : a ∉ delim := htd a (by simp)
    have e0 : List.dropWhile (delim.contains ·) (a :: t ++ x :: s) = a :: t ++ x :: s := by
      simp only [List.cons_append]
      rw [List.dropWhile_cons_of_neg (by simpa using ha)]
    rw [e0]
    have e1 : (a :: t ++ x :: s).takeWhile (fun x => !delim.contains x) = a :: t := by
      rw [List.takeWhile_append_of_pos (fun c hc => by simpa using htd c hc)]
      rw [List.takeWhile_cons_of_neg (by simpa using hx)]
      simp
    have e2 : (a :: t ++ x :: s).dropWhile (fun x => !delim.contains x) = x :: s := by
      rw [List.dropWhile_append_of_pos (fun c hc => by simpa using htd c hc)]
      rw [List.dropWhile_cons_of_neg (by simpa using hx)]
    simp only [List.cons_append] at e1 e2 ⊢
    simp only [e1, e2]
    rfl

/-- Every string has its list of runs. -/
theorem runs_exists (delim s : Str) : ∃ ts, Spec.Runs delim s ts := by
  generalize hn : s.length = n
  induction n using Nat.strongRecOn generalizing s with
  | ind n ih =>
    cases h : strtok s delim with
    | none => exact ⟨[], .nil s (strtok_none h)⟩
    | some p =>
      obtain ⟨t, rest⟩ := p
      obtain ⟨d, hd, ht, htd, hcase⟩ := strtok_some h
      rcases hcase with ⟨hs, hr⟩ | ⟨x, hx, hs⟩
      · exact ⟨[t], hs ▸ .last d t hd ht htd⟩
      · have hlt : rest.length < n := by
          rw [← hn, hs]; simp; omega
        obtain ⟨ts, hts⟩ := ih _ hlt rest rfl
        exact ⟨t :: ts, hs ▸ .cons d t x rest ts hd ht htd hx hts⟩

theorem runs_unique {delim s : Str} {ts us : List Str} (h : Spec.Runs delim s ts) :
    Spec.Runs delim s us → ts = us := by
  induction h generalizing us with
  | nil d hd =>
    intro h2
    have e := strtok_delims hd
    cases h2 with
    | nil => rfl
    | last d' t' h1 h2 h3 => rw [strtok_last h1 h2 h3] at e; cases e
    | cons d' t' x s ts h1 h2 h3 h4 h5 => rw [strtok_cons h1 h2 h3 h4] at e; cases e
  | last d t hd ht htd =>
    intro h2
    have e := strtok_last hd ht htd
    generalize hs : d ++ t = s at *
    cases h2 with
    | nil _ h1 => rw [strtok_delims h1] at e; cases e
    | last d' t' h1 h2 h3 => rw [strtok_last h1 h2 h3] at e; cases e; rfl
    | cons d' t' x s' ts h1 h2 h3 h4 h5 =>
      exfalso
      rw [strtok_cons h1 h2 h3 h4] at e
      simp only [Option.some.injEq, Prod.mk.injEq] at e
      obtain ⟨e1, e2⟩ := e
      subst e1 e2
      have hx : x = (d ++ t').getLast (by simp [ht]) := by
        have : (d ++ t').getLast? = some x := by rw [hs]; simp
        rw [List.getLast?_eq_some_getLast (by simp [ht])] at this
        exact (Option.some.inj this).symm
      rw [List.getLast_append_of_ne_nil _ ht] at hx
      exact htd _ (List.getLast_mem ht) (hx ▸ h4)
  | cons d t x s ts hd ht htd hx _ ih =>
    intro h2
    have e := strtok_cons (s := s) hd ht htd hx
    generalize hs : d ++ t ++ x :: s = s0 at *
    cases h2 with
    | nil _ h1 => rw [strtok_delims h1] at e; cases e
    | last d' t' h1 h2 h3 =>
      exfalso
      rw [strtok_last h1 h2 h3] at e
      simp only [Option.some.injEq, Prod.mk.injEq] at e
      obtain ⟨e1, e2⟩ := e
      subst e1 e2
      have hx' : (d' ++ t').getLast? = some x := by rw [← hs]; simp
      rw [List.getLast?_eq_some_getLast (by simp [h2]), List.getLast_append_of_ne_nil _ h2] at hx'
      have := Option.some.inj hx'
      exact h3 _ (List.getLast_mem h2) (this ▸ hx)
    | cons d' t' x' s' ts' h1 h2 h3 h4 h5 =>
      rw [strtok_cons h1 h2 h3 h4] at e
      simp only [Option.some.injEq, Prod.mk.injEq] at e
      obtain ⟨e1, e2⟩ := e
      subst e1 e2
      rw [ih h5]

/-- The block in which `split` stores a token. -/
def splitBuf (t : Str) : Buf :=
  t.map some ++ some 0 :: (List.replicate (1023 - t.length - 1) (some 0) ++ List.replicate 1 none)

theorem splitLoop_eq {delim s : Str} {ts : List Str} (h : Spec.Runs delim s ts) (acc : List Buf) (n : Nat)
    (hn : ts.length < n) (hlen : ∀ t ∈ ts, t.length < 1023) (hcnt : acc.length + ts.length ≤ 50) :
    splitLoop delim n s acc = ok (acc ++ ts.map splitBuf) := by
  induction h generalizing acc n with
  | nil d hd =>
    obtain ⟨n, rfl⟩ : ∃ m, n = m + 1 := ⟨n - 1, by simp at hn; omega⟩
    simp [splitLoop, strtok_delims hd]
  | last d t hd ht htd =>
    obtain ⟨n, rfl⟩ : ∃ m, n = m + 1 := ⟨n - 1, by simp at hn; omega⟩
    unfold splitLoop
    rw [strtok_last hd ht htd]
    simp only [List.length_singleton] at hcnt
    have h2 : t.length < 1023 := hlen t (by simp)
    simp only [MAX_SPLIT_STR]
    rw [if_neg (by omega)]
    rw [show MAX_SPLIT_STR_LEN - 1 = 1023 from rfl, fresh_strncpy h2 (by simp [MAX_SPLIT_STR_LEN])]
    simp only [ok_bind]
    cases n with
    | zero => simp at hn
    | succ n =>
      simp [splitLoop, strtok_delims, splitBuf, MAX_SPLIT_STR_LEN]
  | cons d t x s ts hd ht htd hx _ ih =>
    obtain ⟨n, rfl⟩ : ∃ m, n = m + 1 := ⟨n - 1, by simp at hn; omega⟩
    unfold splitLoop
    rw [strtok_cons hd ht htd hx]
    simp only [List.length_cons] at hcnt hn
    have h2 : t.length < 1023 := hlen t (by simp)
    simp only [MAX_SPLIT_STR]
    rw [if_neg (by omega)]
    rw [show MAX_SPLIT_STR_LEN - 1 = 1023 from rfl, fresh_strncpy h2 (by simp [MAX_SPLIT_STR_LEN])]
    simp only [ok_bind]
    rw [ih _ _ (by omega) (fun t ht => hlen t (by simp [ht])) (by simp; omega)]
    simp [splitBuf, MAX_SPLIT_STR_LEN]

theorem runs_length {delim s : Str} {ts : List Str} (h : Spec.Runs delim s ts) : ts.length ≤ s.length := by
  induction h with
  | nil => simp
  | last d t hd ht htd =>
    have : 0 < t.length := List.length_pos_iff.mpr ht
    simp; omega
  | cons d t x s ts hd ht htd hx _ ih =>
    have : 0 < t.length := List.length_pos_iff.mpr ht
    simp; omega

theorem split_eq {delim s : Str} {ts : List Str} (h : Spec.Runs delim s ts)
    (hlen : ∀ t ∈ ts, t.length < 1023) (hcnt : ts.length ≤ 50) :
    split s delim = ok (ts.map splitBuf) := by
  have := splitLoop_eq h [] (s.length + 1) (by have := runs_length h; omega) hlen (by simpa using hcnt)
  simpa [split] using this

theorem cstr_splitBuf {t : Str} (h : NulFree t) : cstr (splitBuf t) = ok t := cstr_mk h _

theorem runs_mem {delim s : Str} {ts : List Str} (h : Spec.Runs delim s ts) :
    ∀ t ∈ ts, ∀ c ∈ t, c ∈ s := by
  induction h with
  | nil => simp
  | last d t hd ht htd => simp +contextual
  | cons d t x s ts hd ht htd hx _ ih =>
    intro u hu c hc
    simp only [List.mem_cons] at hu
    rcases hu with rfl | hu
    · simp [hc]
    · simp [ih u hu c hc]

/-- More than 50 runs overrun the declared array. -/
theorem splitLoop_over {delim s : Str} {ts : List Str} (h : Spec.Runs delim s ts) (acc : List Buf) (n : Nat)
    (hn : ts.length < n) (hacc : acc.length ≤ 50) (hcnt : 50 < acc.length + ts.length)
    (hlen : ∀ t ∈ ts, t.length < 1023) :
    splitLoop delim n s acc = ub .oob := by
  induction h generalizing acc n with
  | nil d hd => simp at hcnt; omega
  | last d t hd ht htd =>
    obtain ⟨n, rfl⟩ : ∃ m, n = m + 1 := ⟨n - 1, by simp at hn; omega⟩
    unfold splitLoop
    rw [strtok_last hd ht htd]
    simp only [List.length_singleton] at hcnt
    simp only [MAX_SPLIT_STR]
    rw [if_pos (by omega)]
  | cons d t x s ts hd ht htd hx _ ih =>
    obtain ⟨n, rfl⟩ : ∃ m, n = m + 1 := ⟨n - 1, by simp at hn; omega⟩
    unfold splitLoop
    rw [strtok_cons hd ht htd hx]
    simp only [List.length_cons] at hcnt hn
    simp only [MAX_SPLIT_STR]
    have h2 : t.length < 1023 := hlen t (by simp)
    by_cases h50 : 50 ≤ acc.length
    · rw [if_pos h50]
    · rw [if_neg h50]
      rw [show MAX_SPLIT_STR_LEN - 1 = 1023 from rfl, fresh_strncpy h2 (by simp [MAX_SPLIT_STR_LEN])]
      simp only [ok_bind]
      exact ih _ _ (by omega) (by simp; omega) (by simp; omega) (fun t ht => hlen t (by simp [ht]))

end Wayuu
