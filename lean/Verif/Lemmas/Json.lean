import Verif.Spec.Json
import Verif.Lemmas.Strings3
import Verif.Model.JsonUtils
/-
Lemmas about decimal formatting and about JSON texts.
-/
namespace Wayuu
open C

/-! ### decimal formatting -/

/-- Value of `ds` appended to a number. -/
def decFrom (n : Nat) (ds : List Byte) : Nat := ds.foldl (fun n c => 10 * n + (c.toNat - 48)) n

theorem decFrom_append (n : Nat) (a b : List Byte) : decFrom n (a ++ b) = decFrom (decFrom n a) b := by
  simp [decFrom]

theorem digitByte (k : Nat) (h : k < 10) :
    (48 + UInt8.ofNat k).toNat = 48 + k := by
  have : ∀ k : Fin 10, (48 + UInt8.ofNat k.val).toNat = 48 + k.val := by decide
  exact this ⟨k, h⟩

/-- The digits of `n`, as a list without accumulator. -/
theorem decAux_spec (fuel n : Nat) (h : n < fuel) :
    ∃ ds, (∀ acc, decAux fuel n acc = ds ++ acc) ∧ ds ≠ [] ∧ (∀ c ∈ ds, Spec.digit c) ∧ decFrom 0 ds = n ∧
      (1 < ds.length → ds.head? ≠ some 48) ∧ (0 < n → ds.head? ≠ some 48) ∧ ∀ k, n < 10 ^ (k + 1) → ds.length ≤ k + 1 := by
  induction fuel generalizing n with
  | zero => omega
  | succ fuel ih =>
    have hd : (48 + UInt8.ofNat (n % 10)).toNat = 48 + n % 10 := digitByte _ (by omega)
    unfold decAux
    by_cases h0 : n / 10 = 0
    · have hn : n < 10 := by omega
      refine ⟨[48 + UInt8.ofNat (n % 10)], by simp [h0], by simp, ?_, ?_, by simp, ?_, ?_⟩
      · intro c hc
        simp only [List.mem_singleton] at hc
        subst hc
        unfold Spec.digit
        omega
      · simp only [decFrom, List.foldl_cons, List.foldl_nil, hd]; omega
      · intro hpos he
        simp only [List.head?_cons, Option.some.injEq] at he
        have := congrArg UInt8.toNat he
        rw [hd] at this
        simp at this
        omega
      · intro k _; simp
    · obtain ⟨ds, e, hne, hdig, hval, hz, hz2, hlen⟩ := ih (n / 10) (by omega)
      refine ⟨ds ++ [48 + UInt8.ofNat (n % 10)], ?_, by simp, ?_, ?_, ?_, ?_, ?_⟩
      · intro acc; simp [h0, e]
      · intro c hc
        rcases List.mem_append.mp hc with hc | hc
        · exact hdig c hc
        · simp only [List.mem_singleton] at hc
          subst hc
          unfold Spec.digit
          omega
      · rw [decFrom_append, hval]
        simp only [decFrom, List.foldl_cons, List.foldl_nil, hd]
        omega
      · intro _ he
        have hh : (ds ++ [48 + UInt8.ofNat (n % 10)]).head? = ds.head? := by
          cases ds with
          | nil => exact absurd rfl hne
          | cons => rfl
        rw [hh] at he
        exact hz2 (by omega) he
      · intro _ he
        have hh : (ds ++ [48 + UInt8.ofNat (n % 10)]).head? = ds.head? := by
          cases ds with
          | nil => exact absurd rfl hne
          | cons => rfl
        rw [hh] at he
        exact hz2 (by omega) he
      · intro k hk
        cases k with
        | zero => simp at hk; omega
        | succ k =>
          have := hlen k (by rw [Nat.pow_succ] at hk; omega)
          simp; omega

theorem fmtNat_text (n : Nat) : Spec.NatText (fmtNat n) n := by
  obtain ⟨ds, e, hne, hdig, hval, hz, _, _⟩ := decAux_spec (n + 1) n (by omega)
  have : fmtNat n = ds := by unfold fmtNat; rw [e]; simp
  rw [this]
  exact ⟨hne, hdig, hz, hval⟩

theorem fmtNat_length (n k : Nat) (h : n < 10 ^ (k + 1)) : (fmtNat n).length ≤ k + 1 := by
  obtain ⟨ds, e, _, _, _, _, _, hlen⟩ := decAux_spec (n + 1) n (by omega)
  have : fmtNat n = ds := by unfold fmtNat; rw [e]; simp
  rw [this]
  exact hlen k h

theorem fmtInt_text (n : Int) : Spec.IntText (fmtInt n) n := by
  unfold fmtInt
  by_cases h : n < 0
  · rw [if_pos h]
    exact Or.inr ⟨fmtNat n.natAbs, n.natAbs, rfl, fmtNat_text _, by omega⟩
  · rw [if_neg h]
    exact Or.inl ⟨n.natAbs, fmtNat_text _, by omega⟩

theorem fmtInt_length (n : Int) (h1 : -(2 ^ 31) ≤ n) (h2 : n < 2 ^ 31) : (fmtInt n).length ≤ 11 := by
  have := fmtNat_length n.natAbs 9 (by omega)
  unfold fmtInt
  split
  · simp; omega
  · omega

theorem natText_nulFree {s : Str} {n : Nat} (h : Spec.NatText s n) : NulFree s := by
  intro c hc e
  have := h.2.1 c hc
  subst e
  simp [Spec.digit] at this

theorem fmtNat_nulFree (n : Nat) : NulFree (fmtNat n) := natText_nulFree (fmtNat_text n)
theorem fmtInt_nulFree (n : Int) : NulFree (fmtInt n) := by
  unfold fmtInt
  split
  · simp [fmtNat_nulFree]
  · exact fmtNat_nulFree _

/-! ### loops of json_utils.c -/

theorem serializeAll_eq {α : Type} (ser : α → C (Option Str)) (xs : List α) (out : α → Str)
    (h : ∀ x ∈ xs, ser x = ok (some (out x))) : serializeAll ser xs = ok (xs.map fun x => some (out x)) := by
  induction xs with
  | nil => rfl
  | cons x xs ih =>
    simp only [serializeAll]
    rw [h x (by simp), ih fun y hy => h y (by simp [hy])]
    rfl

theorem totalLen_ints (ns : List Int) (h : ∀ n ∈ ns, -(2 ^ 31) ≤ n ∧ n < 2 ^ 31) :
    totalLen (ns.map fmtInt) ≤ 11 * ns.length := by
  induction ns with
  | nil => simp
  | cons n ns ih =>
    have h1 := ih fun m hm => h m (by simp [hm])
    have h2 := fmtInt_length n (h n (by simp)).1 (h n (by simp)).2
    simp
    omega

theorem intsLoop_eq (pre ns more : List Int) (cap : Nat) (json : Str) (h0 : ns ≠ [])
    (h : ∀ n ∈ ns, -(2 ^ 31) ≤ n ∧ n < 2 ^ 31) (hcap : json.length + 12 * ns.length + 1 ≤ cap) :
    intsLoop (pre ++ ns ++ more) (pre.length + ns.length) cap ns.length pre.length json =
      ok (json ++ Spec.sepBy [44] (ns.map fmtInt)) := by
  induction ns generalizing pre json with
  | nil => exact absurd rfl h0
  | cons n ns ih =>
    have hl := fmtInt_length n (h n (by simp)).1 (h n (by simp)).2
    simp only [List.length_cons] at hcap
    simp only [List.length_cons, intsLoop]
    have hget : (pre ++ n :: ns ++ more)[pre.length]? = some n := by simp
    rw [hget]
    simp only
    rw [fmtInto_ok (by simp [MAX_INT_STRING_LEN]; omega)]
    simp only [ok_bind]
    rw [fmtInto_ok (by simp; omega)]
    simp only [ok_bind]
    cases ns with
    | nil =>
      simp [intsLoop, Spec.sepBy]
    | cons m ns =>
      rw [if_pos (by simp)]
      rw [fmtInto_ok (by simp; omega)]
      simp only [ok_bind]
      have := ih (pre ++ [n]) (json ++ fmtInt n ++ b!",") (by simp) (fun x hx => h x (by simp [hx]))
        (by simp at hcap ⊢; omega)
      simp only [List.append_assoc, List.length_append, List.length_cons, List.length_nil, Nat.zero_add,
        List.cons_append, List.nil_append] at this ⊢
      rw [show pre.length + (ns.length + 1 + 1) = pre.length + 1 + (ns.length + 1) by omega, this]
      simp [Spec.sepBy]

/-! ### JSON -/

theorem jchars_plain {s : Str} (h : Spec.Plain s) : Spec.JChars s s := by
  induction s with
  | nil => exact .nil
  | cons c s ih =>
    obtain ⟨h1, h2, h3⟩ := h c (by simp)
    exact .plain c s s h1 h2 h3 (ih fun d hd => h d (by simp [hd]))

theorem strLit_plain {s : Str} (h : Spec.Plain s) : Spec.StrLit (34 :: s ++ [34]) s := ⟨s, rfl, jchars_plain h⟩

theorem sepBy_quoted (es : List Str) (h : es ≠ []) :
    34 :: Spec.sepBy [34, 44, 34] es ++ [34] = Spec.sepBy [44] (es.map fun e => 34 :: e ++ [34]) := by
  induction es with
  | nil => exact absurd rfl h
  | cons e es ih =>
    cases es with
    | nil => simp [Spec.sepBy]
    | cons e2 es =>
      have := ih (by simp)
      simp only [List.map_cons] at this ⊢
      simp only [Spec.sepBy] at this ⊢
      rw [← this]
      simp

theorem length_sepBy (d : Str) (es : List Str) :
    (Spec.sepBy d es).length = totalLen es + (es.length - 1) * d.length := by
  rcases List.eq_nil_or_concat es with rfl | ⟨xs, x, rfl⟩
  · simp [Spec.sepBy]
  · rw [List.concat_eq_append, sepBy_concat]
    simp [length_withDelim]; omega

/-- Number of quote characters. -/
abbrev quotes (s : Str) : Nat := s.count 34

theorem jchars_quotes {s v : Str} (h : Spec.JChars s v) : (92 : Byte) ∉ s → quotes s = 0 := by
  induction h with
  | nil => simp
  | plain c s v _ h2 _ _ ih =>
    intro hb
    simp only [List.mem_cons, not_or] at hb
    rw [quotes, List.count_cons_of_ne h2]
    exact ih hb.2
  | esc => intro h; simp at h
  | uni => intro h; simp at h
  | pair => intro h; simp at h

theorem strLit_quotes {s v : Str} (h : Spec.StrLit s v) (hb : (92 : Byte) ∉ s) : quotes s = 2 := by
  obtain ⟨body, rfl, hc⟩ := h
  have := jchars_quotes hc (by simp at hb; exact hb)
  simp [quotes, List.count_append] at this ⊢
  simp [this]

theorem quotes_of_none {s : Str} (h : ∀ c ∈ s, c ≠ 34) : quotes s = 0 :=
  List.count_eq_zero.mpr fun hm => h _ hm rfl

theorem natText_quotes {s : Str} {n : Nat} (h : Spec.NatText s n) : quotes s = 0 :=
  quotes_of_none fun c hc e => by have := h.2.1 c hc; subst e; simp [Spec.digit] at this

theorem intText_quotes {s : Str} {n : Int} (h : Spec.IntText s n) : quotes s = 0 := by
  rcases h with ⟨m, h, -⟩ | ⟨t, m, rfl, h, -⟩
  · exact natText_quotes h
  · rw [quotes, List.count_cons_of_ne (by decide)]; exact natText_quotes h

theorem jws_quotes {s : Str} (h : Spec.JWs s) : quotes s = 0 :=
  quotes_of_none fun c hc e => by
    have := h c hc
    subst e
    revert this; decide

theorem digits_quotes {s : Str} (h : ∀ c ∈ s, Spec.digit c) : quotes s = 0 :=
  quotes_of_none fun c hc e => by have := h c hc; subst e; simp [Spec.digit] at this

theorem fracPart_quotes {s : Str} (h : Spec.FracPart s) : quotes s = 0 := by
  obtain ⟨d, rfl, -, hd⟩ := h
  rw [quotes, List.count_cons_of_ne (by decide)]; exact digits_quotes hd

theorem expPart_quotes {s : Str} (h : Spec.ExpPart s) : quotes s = 0 := by
  obtain ⟨e, sg, d, rfl, he, hs, -, hd⟩ := h
  have h1 := digits_quotes hd
  have h2 : quotes sg = 0 := by
    rcases hs with rfl | rfl | rfl <;> decide
  have h3 : e ≠ 34 := by rcases he with rfl | rfl <;> decide
  rw [quotes, List.count_cons_of_ne h3, List.count_append]
  simp only [quotes] at h1 h2
  omega

theorem fracText_quotes {s : Str} (h : Spec.FracText s) : quotes s = 0 := by
  obtain ⟨i, n, r, hi, rfl, hr⟩ := h
  have h1 := intText_quotes hi
  have h2 : quotes r = 0 := by
    rcases hr with h | h | ⟨a, b, rfl, ha, hb⟩
    · exact fracPart_quotes h
    · exact expPart_quotes h
    · have := fracPart_quotes ha
      have := expPart_quotes hb
      simp only [quotes, List.count_append] at *
      omega
  simp only [quotes, List.count_append] at *
  omega

theorem sepBy_quotes_even (es : List Str) (h : ∀ e ∈ es, quotes e % 2 = 0) : quotes (Spec.sepBy [44] es) % 2 = 0 := by
  induction es with
  | nil => rfl
  | cons e es ih =>
    cases es with
    | nil => exact h e (by simp)
    | cons e2 es =>
      have h1 := ih (fun x hx => h x (by simp [hx]))
      have h2 := h e (by simp)
      simp only [Spec.sepBy, quotes, List.count_append] at h1 h2 ⊢
      have : List.count (34 : Byte) [44] = 0 := by decide
      omega

theorem mem_sepBy {d e : Str} {es : List Str} (he : e ∈ es) {c : Byte} (hc : c ∈ e) : c ∈ Spec.sepBy d es := by
  induction es with
  | nil => simp at he
  | cons x es ih =>
    cases es with
    | nil => simp at he; subst he; simpa [Spec.sepBy]
    | cons y es =>
      simp only [Spec.sepBy, List.mem_append]
      rcases List.mem_cons.mp he with rfl | he
      · exact Or.inl (Or.inl hc)
      · exact Or.inr (ih he)

/-- Quotes of a JSON text are balanced when nothing is escaped. -/
theorem json_quotes {s : Str} {v : Spec.Value} (h : Spec.Json s v) : (92 : Byte) ∉ s → quotes s % 2 = 0 := by
  induction h with
  | ws l s r v hl hr _ ih =>
    intro hb
    simp only [List.mem_append, not_or] at hb
    have h1 := jws_quotes hl
    have h2 := jws_quotes hr
    have h3 := ih hb.1.2
    simp only [quotes, List.count_append] at *
    omega
  | null => intro _; decide
  | tru => intro _; decide
  | fls => intro _; decide
  | int s n h => intro _; rw [intText_quotes h]
  | frac s h => intro _; rw [fracText_quotes h]
  | str s v h => intro hb; rw [strLit_quotes h hb]
  | arr0 w h =>
    intro _
    have := jws_quotes h
    simp [quotes, List.count_append] at *
    simp [this]
  | arr l hl _ ih =>
    intro hb
    have : ∀ e ∈ l.map (·.1), quotes e % 2 = 0 := by
      intro e he
      obtain ⟨p, hp, rfl⟩ := List.mem_map.mp he
      refine ih p hp fun hm => hb ?_
      have := mem_sepBy (d := [44]) (List.mem_map_of_mem (f := (·.1)) hp) hm
      simp [this]
    have hq := sepBy_quotes_even _ this
    clear this ih
    simp [quotes, List.count_append] at hq ⊢
    exact hq
  | obj0 w h =>
    intro _
    have := jws_quotes h
    simp [quotes, List.count_append] at *
    simp [this]
  | obj l hl hk _ ih =>
    intro hb
    have : ∀ e ∈ l.map Spec.Memb.text, quotes e % 2 = 0 := by
      intro e he
      obtain ⟨m, hm, rfl⟩ := List.mem_map.mp he
      have hb' : (92 : Byte) ∉ m.text := fun hx => hb (by
        have := mem_sepBy (d := [44]) (List.mem_map_of_mem (f := Spec.Memb.text) hm) hx
        simp [this])
      obtain ⟨k1, k2, k3⟩ := hk m hm
      simp only [Spec.Memb.text, List.mem_append, not_or] at hb'
      have q1 := jws_quotes k1
      have q2 := jws_quotes k2
      have q3 := strLit_quotes k3 hb'.1.1.1.2
      have q4 := ih m hm hb'.2
      simp only [Spec.Memb.text, quotes, List.count_append] at *
      have : List.count (34 : Byte) [58] = 0 := by decide
      omega
    have hq := sepBy_quotes_even _ this
    clear this ih
    simp [quotes, List.count_append] at hq ⊢
    exact hq

end Wayuu
