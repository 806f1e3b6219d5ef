import Verif.Spec.LimitLines
import Verif.Props.Limits
import Verif.Props.Admission
import Verif.Props.Requests
/-
Property C110 (ws.c:813-893): blanks in the lines of etc/limits.
-/
namespace Wayuu
open C Spec

/-- C110 as a user expects it: every file of documented lines, with blanks around the fields, gives its rules. -/
def C110_statement : Prop :=
  ∀ (fs : FS) (wsRoot : Str) (lines : List (List Byte)) (rules : List PathLimit), wsRoot.length < 256 →
    fs.openRead (wsRoot ++ b!"/etc/limits") = some lines.flatten → List.Forall₂ DocLine lines rules → rules.length ≤ 64 →
    load_limits fs wsRoot = ok rules

theorem Padded.of_blank {f t : List Byte} (h : Padded f t) : ∃ l r, t = l ++ f ++ r ∧ (∀ c ∈ l, ws c = true) ∧ (∀ c ∈ r, ws c = true) ∧
    (∀ c ∈ l, c ≠ 44 ∧ c ≠ 0 ∧ c ≠ 10) ∧ (∀ c ∈ r, c ≠ 44 ∧ c ≠ 0 ∧ c ≠ 10) := by
  obtain ⟨l, r, e, hl, hr⟩ := h
  refine ⟨l, r, e, ?_, ?_, ?_, ?_⟩ <;> intro c hc
  · rcases hl c hc with rfl | rfl <;> decide
  · rcases hr c hc with rfl | rfl <;> decide
  · rcases hl c hc with rfl | rfl <;> decide
  · rcases hr c hc with rfl | rfl <;> decide

/-- A padded number: what `atoi` makes of it, also in front of the newline, and which bytes it does not have. -/
theorem padded_number {v : Nat} {t : List Byte} (h : PaddedNumber v t) :
    atoi t = v ∧ atoi (t ++ [10]) = v ∧ t ≠ [] ∧ ∀ c ∈ t, c ≠ 44 ∧ c ≠ 0 ∧ c ≠ 10 := by
  obtain ⟨n, hp, hne, hd, hlt, rfl⟩ := h
  obtain ⟨l, r, rfl, hl, hr, hl', hr'⟩ := Padded.of_blank hp
  have hdig : ∀ c : Byte, digit c → ws c = false ∧ c ≠ 44 ∧ c ≠ 0 ∧ c ≠ 10 := by
    intro c
    have key : ∀ n : Fin 256, 48 ≤ (UInt8.ofNat n.val).toNat ∧ (UInt8.ofNat n.val).toNat ≤ 57 →
      ws (UInt8.ofNat n.val) = false ∧ UInt8.ofNat n.val ≠ 44 ∧ UInt8.ofNat n.val ≠ 0 ∧ UInt8.ofNat n.val ≠ 10 := by decide +kernel
    have := key ⟨c.toNat, c.toNat_lt⟩
    simpa [digit] using this
  have hh : (∀ c, n.head? = some c → ws c = false) ∧ ∀ c, n.getLast? = some c → ws c = false :=
    ⟨fun c hc => (hdig c (hd c (List.mem_of_mem_head? hc))).1, fun c hc => (hdig c (hd c (List.mem_of_getLast? hc))).1⟩
  refine ⟨atoi_digits ⟨l, r, rfl, hl, hr, hh⟩ hne hd hlt, atoi_digits ⟨l, r ++ [10], by simp, hl, ?_, hh⟩ hne hd hlt, ?_, ?_⟩
  · intro c hc
    rcases List.mem_append.mp hc with hc | hc
    · exact hr c hc
    · rw [List.mem_singleton.mp hc]; decide
  · simp [hne]
  · intro c hc
    simp only [List.mem_append] at hc
    rcases hc with (hc | hc) | hc
    · exact hl' c hc
    · exact (hdig c (hd c hc)).2
    · exact hr' c hc

theorem docLine_runs {p a b s : List Byte} {x y z : Nat} (hp : p ≠ [] ∧ ∀ c ∈ p, c ≠ 44 ∧ c ≠ 0 ∧ c ≠ 10)
    (hx : PaddedNumber x a) (hy : PaddedNumber y b) (hz : PaddedNumber z s) :
    Runs b!"," (p ++ 44 :: a ++ 44 :: b ++ 44 :: s ++ [10]) [p, a, b, s ++ [10]] := by
  obtain ⟨-, -, ha, ha'⟩ := padded_number hx
  obtain ⟨-, -, hb, hb'⟩ := padded_number hy
  obtain ⟨-, -, hs, hs'⟩ := padded_number hz
  have key : ∀ t : List Byte, (∀ c ∈ t, c ≠ 44 ∧ c ≠ 0 ∧ c ≠ 10) → ∀ c ∈ t, c ∉ (b!"," : List Byte) := by
    intro t ht c hc e
    exact (ht c hc).1 (by simpa using e)
  have h1 : Runs b!"," (s ++ [10]) [s ++ [10]] := by
    have := Runs.last (delim := b!",") [] (s ++ [10]) (by simp) (by simp) (by
      intro c hc
      rcases List.mem_append.mp hc with hc | hc
      · exact key s hs' c hc
      · rw [List.mem_singleton.mp hc]; decide)
    simpa using this
  have h2 := Runs.cons (delim := b!",") [] b 44 _ _ (by simp) hb (key b hb') (by decide) h1
  have h3 := Runs.cons (delim := b!",") [] a 44 _ _ (by simp) ha (key a ha') (by decide) h2
  have h4 := Runs.cons (delim := b!",") [] p 44 _ _ (by simp) hp.1 (key p hp.2) (by decide) h3
  simpa using h4

/-- A documented line whose path stands at the start of the line and in front of the comma gives its rule. -/
theorem tightLine_rule {line : List Byte} {rule : PathLimit} (h : TightLine line rule) :
    LineRule line (some rule) ∧ (line ≠ [] ∧ (10 : Byte) ∉ line.dropLast) ∧ line.getLast? = some 10 ∧ PathsFit [line] := by
  obtain ⟨a, b, s, x, y, z, rfl, ⟨hh, hl, hc⟩, hx, hy, hz, h1, h2, h3⟩ := h
  have hp : rule.path ≠ [] ∧ ∀ c ∈ rule.path, c ≠ 44 ∧ c ≠ 0 ∧ c ≠ 10 := by
    refine ⟨by intro e; rw [e] at hh; simp at hh, fun c hc' => ⟨(hc c hc').1, (hc c hc').2.1, ?_⟩⟩
    rintro rfl
    exact absurd (hc 10 hc').2.2 (by decide)
  have hr := docLine_runs hp hx hy hz
  obtain ⟨ax, -, ha, ha'⟩ := padded_number hx
  obtain ⟨bx, -, hb, hb'⟩ := padded_number hy
  obtain ⟨-, sx, hs, hs'⟩ := padded_number hz
  have hbn : BeforeNul (rule.path ++ 44 :: a ++ 44 :: b ++ 44 :: s ++ [10]) (rule.path ++ 44 :: a ++ 44 :: b ++ 44 :: s ++ [10]) := by
    refine ⟨?_, Or.inl rfl⟩
    intro c hc'
    simp only [List.mem_append, List.mem_cons, List.not_mem_nil, or_false] at hc'
    rcases hc' with (((hc' | rfl | hc') | rfl | hc') | rfl | hc') | rfl
    · exact (hp.2 c hc').2.1
    · decide
    · exact (ha' c hc').2.1
    · decide
    · exact (hb' c hc').2.1
    · decide
    · exact (hs' c hc').2.1
    · decide
  have hhead : (rule.path ++ 44 :: a ++ 44 :: b ++ 44 :: s ++ [10]).head? = some 47 := by
    obtain ⟨q, e⟩ : ∃ q, rule.path = 47 :: q := by
      cases hq : rule.path with
      | nil => rw [hq] at hh; simp at hh
      | cons d q => rw [hq] at hh; simp at hh; exact ⟨q, by rw [hh]⟩
    rw [e]; simp
  refine ⟨⟨_, _, hbn, hr, Or.inl ⟨hhead, _, _, _, _, rfl, ?_⟩⟩, ⟨by simp, ?_⟩, List.getLast?_concat, ?_⟩
  · cases rule with
    | mk path m1 m2 m3 =>
      simp only at h1 h2 h3
      rw [ax, bx, h1, h2, h3]
      simp [sx]
  · rw [List.dropLast_concat]
    simp only [List.mem_append, List.mem_cons, not_or]
    refine ⟨⟨⟨?_, by decide, ?_⟩, by decide, ?_⟩, by decide, ?_⟩ <;> intro hm
    · exact (hp.2 _ hm).2.2 rfl
    · exact (ha' _ hm).2.2 rfl
    · exact (hb' _ hm).2.2 rfl
    · exact (hs' _ hm).2.2 rfl
  · intro l hl' text q fields h1 h2 h3
    rw [List.mem_singleton.mp hl'] at h1
    have e := beforeNul_unique h1 hbn
    rw [e] at h3
    have := runs_unique h3 hr
    simp only [List.cons.injEq] at this
    rw [this.1]
    exact hl

/-- C110: blanks after the commas and after the numbers do not matter, as in the example of the comment in the code,
provided the path begins the line and the comma follows it. -/
theorem C110_partial (fs : FS) (wsRoot : Str) (lines : List (List Byte)) (rules : List PathLimit) (hroot : wsRoot.length < 256)
    (hopen : fs.openRead (wsRoot ++ b!"/etc/limits") = some lines.flatten) (h : List.Forall₂ TightLine lines rules)
    (hn : rules.length ≤ 64) : load_limits fs wsRoot = ok rules := by
  have hall : ∀ l ∈ lines, (l ≠ [] ∧ (10 : Byte) ∉ l.dropLast) ∧ l.getLast? = some 10 ∧ PathsFit [l] := by
    intro l hl
    clear hopen hn
    induction h with
    | nil => simp at hl
    | cons h1 _ ih =>
      rcases List.mem_cons.mp hl with rfl | hl
      · exact (tightLine_rule h1).2
      · exact ih hl
  have hfl : FileLines lines.flatten lines :=
    ⟨rfl, fun l hl => (hall l hl).1, fun l hl => (hall l (List.dropLast_subset _ hl)).2.1⟩
  have := (C48_rules fs wsRoot hroot).2.1 _ lines (rules.map some) hopen hfl
    (fun l hl => (hall l hl).2.2 l (by simp)) (by
      clear hopen hfl hall hn
      induction h with
      | nil => exact .nil
      | cons h1 _ ih => exact .cons (tightLine_rule h1).1 ih)
  rw [this]
  simp [List.filterMap_map, List.take_of_length_le hn]

theorem padded_self (t : List Byte) : Padded t t := ⟨[], [], by simp, by simp, by simp⟩

/-- C110 fails: `/api ,1,1,0` limits the path "/api ", with the blank. -/
theorem C110_refuted : ¬ C110_statement := by
  intro h
  have := h (limitsFile b!"/api ,1,1,0\n") [] [b!"/api ,1,1,0\n"] [⟨b!"/api", 1, 1, 0⟩] (by decide) (by decide +kernel)
    (.cons ⟨b!"/api ", b!"1", b!"1", b!"0", 1, 1, 0, by decide, ⟨by decide, by decide, by decide⟩,
      ⟨[], b!" ", by decide, by simp, by decide⟩,
      ⟨b!"1", padded_self _, by decide, by simp [digit], by decide, by decide⟩,
      ⟨b!"1", padded_self _, by decide, by simp [digit], by decide, by decide⟩,
      ⟨b!"0", padded_self _, by decide, by simp [digit], by decide, by decide⟩, rfl, rfl, rfl⟩ .nil) (by decide)
  revert this
  decide +kernel

/-- The example of the comment in the code. -/
example : TightLine b!"/api, 20, 2, 10\n" ⟨b!"/api", 20, 2, 10⟩ :=
  ⟨b!" 20", b!" 2", b!" 10", 20, 2, 10, by decide, ⟨by decide, by decide, by decide⟩,
    ⟨b!"20", ⟨b!" ", [], by decide, by decide, by simp⟩, by decide, by simp [digit], by decide, by decide⟩,
    ⟨b!"2", ⟨b!" ", [], by decide, by decide, by simp⟩, by decide, by simp [digit], by decide, by decide⟩,
    ⟨b!"10", ⟨b!" ", [], by decide, by decide, by simp⟩, by decide, by simp [digit], by decide, by decide⟩, rfl, rfl, rfl⟩
example : load_limits (limitsFile b!"/api, 20, 2, 10\n/x,\t1 ,1, 5\n") [] = ok [⟨b!"/api", 20, 2, 10⟩, ⟨b!"/x", 1, 1, 5⟩] := by
  decide +kernel

/-! ### A path with a blank in it -/

theorem scanWord_ws (buf : Buf) : ∀ (n j : Nat) (w : List Byte) (k : Nat), scanWord buf n j = ok (w, k) → ∀ c ∈ w, ws c = false := by
  intro n
  induction n with
  | zero =>
    intro j w k h
    simp only [scanWord] at h
    obtain ⟨c, -, h⟩ := bind_eq_ok.mp h
    simp only [ok.injEq, Prod.mk.injEq] at h
    rw [← h.1]; simp
  | succ n ih =>
    intro j w k h
    simp only [scanWord] at h
    obtain ⟨c, -, h⟩ := bind_eq_ok.mp h
    by_cases hc : isSpace c = true
    · rw [if_pos hc] at h
      simp only [ok.injEq, Prod.mk.injEq] at h
      rw [← h.1]; simp
    · rw [if_neg hc] at h
      obtain ⟨⟨r, j'⟩, h1, h⟩ := bind_eq_ok.mp h
      simp only [ok.injEq, Prod.mk.injEq] at h
      rw [← h.1]
      intro d hd
      rcases List.mem_cons.mp hd with rfl | hd
      · rw [← isSpace_eq_ws]; simpa using hc
      · exact ih _ _ _ h1 d hd

theorem readUrl_ws {buf : Buf} {j : Nat} {url : Str} (h : readUrl buf j = ok url) : ∀ c ∈ url, ws c = false := by
  unfold readUrl at h
  obtain ⟨k, -, h⟩ := bind_eq_ok.mp h
  obtain ⟨⟨u, m⟩, h1, h⟩ := bind_eq_ok.mp h
  simp only [ok.injEq] at h
  intro c hc
  rw [← h] at hc
  refine scanWord_ws _ _ _ _ _ h1 c ?_
  obtain ⟨-, e | ⟨r, e⟩⟩ := untilNul_before u
  · rw [e]; exact hc
  · rw [e]; simp [hc]

theorem ws_lower (c : Byte) : ws (lower c) = ws c := by
  have key : ∀ n : Fin 256, ws (lower (UInt8.ofNat n.val)) = ws (UInt8.ofNat n.val) := by decide +kernel
  simpa using key ⟨c.toNat, c.toNat_lt⟩

theorem startswith_spaceless {url : Str} {l : PathLimit} (hu : ∀ c ∈ url, ws c = false) (h : startswith url l.path = true) :
    spaceless l = true := by
  obtain ⟨m, r, e, he⟩ := (startswith_iff _ _).mp h
  have hm : ∀ c ∈ m, ws c = false := fun c hc => hu c (by rw [e]; simp [hc])
  have hw : ∀ c d : Byte, lower c = lower d → ws c = ws d := by
    intro c d hcd
    rw [← ws_lower c, ← ws_lower d, hcd]
  unfold spaceless
  rw [List.all_eq_true]
  intro c hc
  have : lower c ∈ m.map lower := by rw [he]; exact List.mem_map_of_mem hc
  obtain ⟨d, hd, hdc⟩ := List.mem_map.mp this
  rw [← hw d c hdc, hm d hd]
  rfl

theorem validateLoop_spaceless {live : List Conn} {ip url : Str} (hu : ∀ c ∈ url, ws c = false) :
    ∀ (limits : List PathLimit) (n k : Nat), limits.length ≤ n → limits.length ≤ k →
      validateLoop live ip url n (limits.filter spaceless) = validateLoop live ip url k limits := by
  intro limits
  induction limits with
  | nil => intro n k _ _; cases n <;> cases k <;> rfl
  | cons l r ih =>
    intro n k hn hk
    obtain ⟨n, rfl⟩ : ∃ m, n = m + 1 := ⟨n - 1, by simp at hn; omega⟩
    obtain ⟨k, rfl⟩ : ∃ m, k = m + 1 := ⟨k - 1, by simp at hk; omega⟩
    simp only [List.length_cons, Nat.add_le_add_iff_right] at hn hk
    by_cases hs : spaceless l = true
    · rw [List.filter_cons_of_pos hs]
      simp only [validateLoop, ih n k hn hk]
    · rw [List.filter_cons_of_neg hs, ih (n + 1) k (by omega) hk]
      have h0 : l.path ≠ [] := by intro e; apply hs; simp [spaceless, e]
      have h1 : ¬ startswith url l.path = true := fun e => hs (startswith_spaceless hu e)
      rw [validateLoop, if_neg h0, if_neg h1]

/-- C110, what becomes of a path with a blank in it: a rule whose path has white space in it never has any effect. Whatever is
sent, and whatever the table of connections, the outcome is that without such rules. -/
theorem C110_dead (env : Env) (limits : List PathLimit) (st : St) (socket : Nat) (peer : Str) (hlim : limits.length ≤ 64) :
    accept_request { env with limits := limits } st socket peer =
      accept_request { env with limits := limits.filter spaceless } st socket peer := by
  unfold accept_request too_many_connections
  rw [dispatch_limits env limits (limits.filter spaceless), bad_request_limits env limits (limits.filter spaceless),
    send_http_status_limits env limits (limits.filter spaceless)]
  cases hip : fmtInto 24 peer with
  | ub f => rfl
  | ok ip =>
    simp only [ok_bind]
    cases hrl : readRequestLine st.input with
    | ub f => rfl
    | ok x =>
      obtain ⟨buf, inp, rl, method, j⟩ := x
      simp only [ok_bind]
      cases hm : startswithany method ALLOWED_HTTP_METHODS with
      | ub f => rfl
      | ok allowed =>
        simp only [ok_bind]
        cases hu : readUrl buf j with
        | ub f => rfl
        | ok url =>
          simp only [ok_bind]
          have hadd : ∀ live ip, connection_add limits live socket ip url = connection_add (limits.filter spaceless) live socket ip url := by
            intro live ip
            unfold connection_add connection_validate
            rw [show MAX_LIMIT_RULES = 64 from rfl, validateLoop_spaceless (readUrl_ws hu) limits 64 64 hlim hlim]
          rw [hadd]

example : spaceless ⟨b!"/api ", 1, 1, 0⟩ = false ∧ spaceless ⟨b!"/api", 1, 1, 0⟩ = true := by decide

end Wayuu
