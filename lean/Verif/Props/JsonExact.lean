import Verif.Props.Json
import Verif.Props.Http2
import Verif.Props.Address
/-
C13, C15 and C39, exactly: the text written is the JSON text of what was meant if and only if nothing in it needed
escaping; and what else it can be taken for.
-/
namespace Wayuu
open C Spec

theorem utf8_length (n : Nat) : (utf8 n).length ≤ 4 := by
  unfold utf8
  split
  · simp
  · split
    · simp
    · split <;> simp

/-- A string literal is at least as long as what it stands for, and longer unless no byte needs escaping. -/
theorem jchars_length {s v : Str} (h : JChars s v) : v.length ≤ s.length ∧ (v.length = s.length → Plain v) := by
  induction h with
  | nil => simp [Plain]
  | plain c s v h1 h2 h3 _ ih =>
    refine ⟨by simpa using ih.1, fun e => ?_⟩
    have := ih.2 (by simpa using e)
    intro d hd
    rcases List.mem_cons.mp hd with rfl | hd
    · exact ⟨h1, h2, h3⟩
    · exact this d hd
  | esc e b s v _ _ ih =>
    refine ⟨by simp; omega, fun h => ?_⟩
    simp at h; omega
  | uni a b c d n s v _ _ _ ih =>
    have := utf8_length n
    refine ⟨by simp; omega, fun h => ?_⟩
    simp at h; omega
  | pair a b c d a' b' c' d' n m s v _ _ _ _ _ _ _ ih =>
    have := utf8_length (0x10000 + (n - 0xD800) * 0x400 + (m - 0xDC00))
    refine ⟨by simp; omega, fun h => ?_⟩
    simp only [List.length_append, List.length_cons] at h; omega

theorem strLit_length {s v : Str} (h : StrLit s v) : v.length + 2 ≤ s.length ∧ (v.length + 2 = s.length → Plain v) := by
  obtain ⟨body, rfl, hc⟩ := h
  have := jchars_length hc
  refine ⟨by simp; exact this.1, fun e => this.2 (by simpa using e)⟩

theorem json_str_length {s : Str} {w : Value} (h : Json s w) : ∀ v, w = .str v →
    v.length + 2 ≤ s.length ∧ (v.length + 2 = s.length → Plain v) := by
  induction h with
  | ws l s r w _ _ _ ih =>
    intro v e
    have := ih v e
    refine ⟨by simp; omega, fun h => this.2 ?_⟩
    simp at h; omega
  | str s v' h => intro v e; cases e; exact strLit_length h
  | _ => intro v e; cases e

theorem json_int_length {s : Str} {w : Value} (h : Json s w) : ∀ n, w = .int n → (fmtInt n).length ≤ s.length := by
  induction h with
  | ws l s r w _ _ _ ih =>
    intro n e
    have := ih n e
    simp; omega
  | int s n' h =>
    intro n e
    cases e
    rcases h with ⟨m, h, rfl⟩ | ⟨t, m, rfl, h, rfl⟩
    · unfold fmtInt
      rw [if_neg (by omega), show ((m : Int)).natAbs = m by omega, natText_inj (fmtNat_text _) h]
    · unfold fmtInt
      split
      · rw [show (-(m : Int)).natAbs = m by omega, natText_inj (fmtNat_text _) h]
      · have : m = 0 := by omega
        subst this
        rw [show (-((0 : Nat) : Int)).natAbs = 0 by rfl, natText_inj (fmtNat_text _) h]
        simp
  | _ => intro v e; cases e

theorem json_bool_length {s : Str} {w : Value} (h : Json s w) : ∀ b, w = .bool b →
    (if b then b!"true" else b!"false").length ≤ s.length := by
  induction h with
  | ws l s r w _ _ _ ih =>
    intro n e
    have := ih n e
    simp only [List.length_append]; omega
  | tru => intro b e; cases e; decide
  | fls => intro b e; cases e; decide
  | _ => intro v e; cases e

/-- The length of an array of strings written without escapes and blanks. -/
def tightLen (es : List Str) : Nat := (es.map (fun e => e.length + 2)).sum + (es.length - 1) + 2

theorem pairs_length (l : List (List Byte × Value)) : ∀ (es : List Str), l.map (·.2) = es.map .str → (∀ p ∈ l, Json p.1 p.2) →
    (es.map (fun e => e.length + 2)).sum ≤ totalLen (l.map (·.1)) ∧
    ((es.map (fun e => e.length + 2)).sum = totalLen (l.map (·.1)) → ∀ e ∈ es, Plain e) := by
  induction l with
  | nil =>
    intro es he _
    cases es with
    | nil => simp
    | cons e es => simp at he
  | cons p l ih =>
    intro es he hj
    cases es with
    | nil => simp at he
    | cons e es =>
      simp only [List.map_cons, List.cons.injEq] at he
      obtain ⟨h1, h2⟩ := ih es he.2 (fun q hq => hj q (by simp [hq]))
      obtain ⟨h3, h4⟩ := json_str_length (hj p (by simp)) e he.1
      have ht : totalLen ((p :: l).map (·.1)) = p.1.length + totalLen (l.map (·.1)) := by simp [totalLen]
      simp only [List.map_cons, List.sum_cons] at ht ⊢
      refine ⟨by omega, fun hh x hx => ?_⟩
      rcases List.mem_cons.mp hx with rfl | hx
      · exact h4 (by omega)
      · exact h2 (by omega) x hx

theorem json_arr_length {s : Str} {w : Value} (h : Json s w) : ∀ es : List Str, w = .arr (es.map .str) →
    tightLen es ≤ s.length ∧ (tightLen es = s.length → ∀ e ∈ es, Plain e) := by
  induction h with
  | ws l s r w _ _ _ ih =>
    intro v e
    have := ih v e
    refine ⟨by simp; omega, fun h => this.2 ?_⟩
    simp at h; omega
  | arr0 w hw =>
    intro es e
    have : es = [] := by simpa using e
    subst this
    simp [tightLen]
  | arr l hne hj _ =>
    intro es e
    simp only [Value.arr.injEq] at e
    obtain ⟨h1, h2⟩ := pairs_length l es e hj
    have hl : l.length = es.length := by simpa using congrArg List.length e
    have hsep : ((91 : Byte) :: sepBy [44] (l.map (fun p : List Byte × Value => p.1)) ++ [93]).length = totalLen (l.map (fun p : List Byte × Value => p.1)) + (es.length - 1) + 2 := by
      simp only [List.length_cons, List.length_append, length_sepBy, List.length_map, List.length_nil, hl]; omega
    rw [hsep]
    unfold tightLen
    exact ⟨by omega, fun h => h2 (by omega)⟩
  | _ => intro v e; cases e

/-- What is written for every array of strings. -/
theorem json_array_text (es : List Str) (h0 : es ≠ []) (more : List (Option Str)) :
    json_array_of_strings (some (es.map some ++ more)) es.length = ok (91 :: (34 :: sepBy [34, 44, 34] es ++ [34]) ++ [93]) := by
  have hpos : 0 < es.length := List.length_pos_iff.mpr h0
  have hlen := joinLen_eq [] (es.map some) more
  simp only [List.nil_append, List.length_map, List.length_nil, present_map_some] at hlen
  have hjoin := join_strings es more JSON_ARRAY_STR_SEP
  unfold json_array_of_strings
  simp only
  rw [if_neg (by omega)]
  simp only [Int.toNat_natCast]
  rw [hlen]
  simp only [ok_bind]
  rw [hjoin]
  have hls := length_sepBy JSON_ARRAY_STR_SEP es
  have h3 : JSON_ARRAY_STR_SEP.length = 3 := by decide
  have h2 : JSON_ARRAY_STR_BEGIN.length = 2 := by decide
  have h2' : JSON_ARRAY_STR_END.length = 2 := by decide
  rw [h3] at hls
  rw [h2, h2', h3]
  rw [fmtInto_ok (by rw [h2]; omega)]
  simp only [ok_bind]
  rw [fmtInto_ok (by rw [List.length_append, hls, h2]; omega)]
  simp only [ok_bind]
  rw [fmtInto_ok (by rw [List.length_append, List.length_append, hls, h2, h2']; omega)]
  simp only [ok_bind, freeStr, h0, ne_eq, not_false_eq_true, decide_true, if_true]
  simp [JSON_ARRAY_STR_BEGIN, JSON_ARRAY_STR_END, JSON_ARRAY_STR_SEP]

theorem sum_add_two (es : List Str) : (es.map (fun e => e.length + 2)).sum = totalLen es + 2 * es.length := by
  induction es with
  | nil => rfl
  | cons e es ih =>
    have : totalLen (e :: es) = e.length + totalLen es := by simp [totalLen]
    simp only [List.map_cons, List.sum_cons, ih, this, List.length_cons]; omega

/-- C13, exactly: the result is the JSON text of the array if and only if no element needs escaping. -/
theorem C13_exact (es : List Str) (more : List (Option Str)) :
    (∃ out, json_array_of_strings (some (es.map some ++ more)) es.length = ok out ∧ Json out (.arr (es.map .str))) ↔
      ∀ e ∈ es, Plain e := by
  refine ⟨?_, fun h => C13_partial es h more⟩
  rintro ⟨out, h1, h2⟩
  by_cases h0 : es = []
  · subst h0; simp
  · rw [json_array_text es h0 more] at h1
    obtain rfl := C.ok.inj h1
    refine (json_arr_length h2 es rfl).2 ?_
    have hpos : 0 < es.length := List.length_pos_iff.mpr h0
    unfold tightLen
    rw [sum_add_two]
    simp only [List.length_append, List.length_cons, List.length_nil, length_sepBy]
    omega

example : ¬ ∃ out, json_array_of_strings (some [some b!"a", some b!"x\""]) 2 = ok out ∧ Json out (.arr [.str b!"a", .str b!"x\""]) := by
  intro h
  have := (C13_exact [b!"a", b!"x\""] []).mp h b!"x\"" (by simp)
  revert this
  unfold Plain
  decide

/-- C13, what a single string can be taken for: any array of strings that need no escaping. -/
theorem C13_forged (es : List Str) (h0 : es ≠ []) (h : ∀ e ∈ es, Plain e) :
    ∃ text out, json_array_of_strings (some [some text]) 1 = ok out ∧ Json out (.arr (es.map .str)) := by
  obtain ⟨out, h1, h2⟩ := C13_partial es h []
  refine ⟨sepBy [34, 44, 34] es, out, ?_, h2⟩
  rw [json_array_text es h0 []] at h1
  rw [← h1]
  exact json_array_text [sepBy [34, 44, 34] es] (by simp) []

example := C13_forged [b!"a", b!"b"] (by simp) (by unfold Plain; decide)

theorem member_length {s key : Str} {v : Value} {n : Nat} (h : JsonMember s key v) (hn : ∀ t, Json t v → n ≤ t.length)
    (hs : s.length = key.length + 3 + n) : Plain key ∧ ∃ t, Json t v ∧ t.length = n := by
  obtain ⟨m, rfl, rfl, rfl, -, -, h3, h4⟩ := h
  have h5 := strLit_length h3
  have h6 := hn _ h4
  simp only [Memb.text, List.length_append, List.length_cons, List.length_nil] at hs
  exact ⟨h5.2 (by omega), m.valText, h4, by omega⟩

/-- C15, exactly: the result is the member that was meant if and only if neither key nor value needs escaping. -/
theorem C15_exact (key v : Str) :
    (∃ out, json_key_value key (some v) = ok out ∧ JsonMember out key (.str v)) ↔ Plain key ∧ Plain v := by
  refine ⟨?_, fun h => ?_⟩
  · rintro ⟨out, h1, h2⟩
    unfold json_key_value at h1
    simp only at h1
    rw [fmtInto_ok (by simp; omega)] at h1
    obtain rfl := C.ok.inj h1
    obtain ⟨h3, t, h4, h5⟩ := member_length (n := v.length + 2) h2 (fun t ht => (json_str_length ht v rfl).1) (by simp; omega)
    exact ⟨h3, (json_str_length h4 v rfl).2 h5.symm⟩
  · exact C15_partial key v h.1 h.2

example : ∃ out, json_key_value b!"name" (some b!"x") = ok out ∧ JsonMember out b!"name" (.str b!"x") :=
  (C15_exact b!"name" b!"x").mpr (by unfold Plain; decide)

/-- C15, exactly, for the other kinds of values. -/
theorem C15_key_exact (key : Str) (n : Int) (h1 : -(2 ^ 31) ≤ n) (h2 : n < 2 ^ 31) (b : Bool) (u : UInt32) :
    ((∃ out, json_key_value_int key n = ok out ∧ JsonMember out key (.int n)) ↔ Plain key) ∧
    ((∃ out, json_key_value_bool key b = ok out ∧ JsonMember out key (.bool b)) ↔ Plain key) ∧
    ((∃ out, json_key_value_uint32_t key u = ok out ∧ JsonMember out key (.int u.toNat)) ↔ Plain key) := by
  refine ⟨⟨?_, fun h => C15_int_partial key n h h1 h2⟩, ⟨?_, fun h => C15_bool_partial key b h⟩,
    ⟨?_, fun h => C15_uint32_partial key u h⟩⟩
  · rintro ⟨out, h3, h4⟩
    unfold json_key_value_int at h3
    rw [fmtInto_eq_ok] at h3
    rw [h3.2] at h4
    exact (member_length h4 (fun t ht => json_int_length ht n rfl) (by simp; omega)).1
  · rintro ⟨out, h3, h4⟩
    unfold json_key_value_bool at h3
    rw [fmtInto_eq_ok] at h3
    rw [h3.2] at h4
    exact (member_length h4 (fun t ht => json_bool_length ht b rfl) (by simp only [List.length_append, List.length_cons, List.length_nil]; omega)).1
  · rintro ⟨out, h3, h4⟩
    unfold json_key_value_uint32_t at h3
    rw [fmtInto_eq_ok] at h3
    rw [h3.2] at h4
    refine (member_length (n := (fmtNat u.toNat).length) h4 (fun t ht => ?_) (by simp; omega)).1
    have := json_int_length ht _ rfl
    unfold fmtInt at this
    rw [if_neg (by omega)] at this
    exact this

example : ∃ out, json_key_value_int b!"n" (-5) = ok out ∧ JsonMember out b!"n" (.int (-5)) :=
  (C15_key_exact b!"n" (-5) (by decide) (by decide) true 7).1.mpr (by unfold Plain; decide)

/-- C15, what a value can be taken for: the end of its own member and any further member. -/
theorem C15_forged (key v key' v' : Str) (h1 : Plain key) (h2 : Plain v) (h3 : Plain key') (h4 : Plain v') :
    ∃ text out, json_key_value key (some text) = ok out ∧
      Json (123 :: out ++ [125]) (.obj [(key, .str v), (key', .str v')]) := by
  refine ⟨v ++ [34, 44, 34] ++ key' ++ [34, 58, 34] ++ v', _, fmtInto_ok (by simp; omega), ?_⟩
  have := Json.obj [⟨[], 34 :: key ++ [34], key, [], 34 :: v ++ [34], .str v⟩,
      ⟨[], 34 :: key' ++ [34], key', [], 34 :: v' ++ [34], .str v'⟩] (by simp) (by
        simp only [List.mem_cons, List.not_mem_nil, or_false]
        rintro m (rfl | rfl)
        · exact ⟨by simp [JWs], by simp [JWs], strLit_plain h1⟩
        · exact ⟨by simp [JWs], by simp [JWs], strLit_plain h3⟩) (by
        simp only [List.mem_cons, List.not_mem_nil, or_false]
        rintro m (rfl | rfl)
        · exact .str _ _ (strLit_plain h2)
        · exact .str _ _ (strLit_plain h4))
  simpa [Memb.text, sepBy] using this

example := C15_forged b!"name" b!"x" b!"role" b!"admin" (by unfold Plain; decide) (by unfold Plain; decide)
  (by unfold Plain; decide) (by unfold Plain; decide)

theorem json_obj_length {s : Str} {w : Value} (h : Json s w) : ∀ k₁ v₁ k₂ v₂ : Str, w = .obj [(k₁, .str v₁), (k₂, .str v₂)] →
    k₁.length + v₁.length + k₂.length + v₂.length + 13 ≤ s.length ∧
    (k₁.length + v₁.length + k₂.length + v₂.length + 13 = s.length → Plain v₁ ∧ Plain v₂) := by
  induction h with
  | ws l s r w _ _ _ ih =>
    intro a b c d e
    have := ih a b c d e
    refine ⟨by simp; omega, fun h => this.2 ?_⟩
    simp at h; omega
  | obj l hne hk hj _ =>
    intro a b c d e
    simp only [Value.obj.injEq] at e
    have hl : l.length = 2 := by simpa using congrArg List.length e
    obtain ⟨m, m', rfl⟩ := List.length_eq_two.mp hl
    · simp only [List.map_cons, List.map_nil, List.cons.injEq, Prod.mk.injEq, and_true] at e
      obtain ⟨⟨rfl, e1⟩, rfl, e2⟩ := e
      have k1 := strLit_length (hk m (by simp)).2.2
      have k2 := strLit_length (hk m' (by simp)).2.2
      have j1 := json_str_length (hj m (by simp)) _ e1
      have j2 := json_str_length (hj m' (by simp)) _ e2
      simp only [sepBy, Memb.text, List.map_cons, List.map_nil, List.length_append, List.length_cons, List.length_nil]
      exact ⟨by omega, fun h => ⟨j1.2 (by omega), j2.2 (by omega)⟩⟩
  | _ => intro a b c d e; cases e

/-- C39, exactly: the error object carries the code and the message if and only if neither needs escaping. -/
theorem C39_exact (code message : Str) (h1 : NulFree code) (h2 : NulFree message) (l1 : code.length < 64)
    (l2 : message.length < 1024) :
    (∃ e out e', new_error_with_values code message = ok e ∧ wayuu_error_t_json_serializer e = ok (out, e') ∧
      Json out (.obj [(b!"code", .str (if code = [] then b!"UNKNOWN" else code)), (b!"message", .str message)])) ↔
      Plain code ∧ Plain message := by
  refine ⟨?_, fun h => C39_partial code message h.1 h.2 l1 l2⟩
  rintro ⟨e, out, e', g1, g2, g3⟩
  obtain ⟨e₀, k1, k2, k3, k4, -⟩ := C39_stored code message h1 h2 l1 l2
  rw [g1] at k1
  obtain rfl := C.ok.inj k1
  obtain ⟨e₁, k5⟩ := C39_text e code message k2 k3 k4
  rw [g2] at k5
  have k6 := C.ok.inj k5
  simp only [Prod.mk.injEq] at k6
  obtain ⟨rfl, -⟩ := k6
  have := (json_obj_length g3 _ _ _ _ rfl).2 (by simp only [List.length_append, List.length_cons, List.length_nil]; omega)
  refine ⟨?_, this.2⟩
  by_cases hc : code = []
  · subst hc; unfold Plain; simp
  · simpa [hc] using this.1

example : ∃ e out e', new_error_with_values [] b!"no" = ok e ∧ wayuu_error_t_json_serializer e = ok (out, e') ∧
    Json out (.obj [(b!"code", .str b!"UNKNOWN"), (b!"message", .str b!"no")]) :=
  (C39_exact [] b!"no" (by decide) (by decide) (by decide) (by decide)).mpr (by unfold Plain; decide)

/-- C39, what a message can be taken for: the end of the message and any further member. -/
theorem C39_forged (code message key v : Str) (h0 : code ≠ []) (h1 : Plain code) (h2 : Plain message) (h3 : Plain key) (h4 : Plain v)
    (l1 : code.length < 64) (l2 : message.length + key.length + v.length + 6 < 1024) :
    ∃ text e out e', new_error_with_values code text = ok e ∧ wayuu_error_t_json_serializer e = ok (out, e') ∧
      Json out (.obj [(b!"code", .str code), (b!"message", .str message), (key, .str v)]) := by
  have hn : NulFree (message ++ [34, 44, 34] ++ key ++ [34, 58, 34] ++ v) := by
    have a := plain_nulFree h2; have b := plain_nulFree h3; have c := plain_nulFree h4
    unfold NulFree at *
    simp only [List.mem_append, List.mem_cons, List.not_mem_nil, or_false]
    intro x hx
    rcases hx with ((((h | h) | h) | h) | h)
    · exact a x h
    · rcases h with rfl | rfl | rfl <;> decide
    · exact b x h
    · rcases h with rfl | rfl | rfl <;> decide
    · exact c x h
  obtain ⟨e, k1, k2, k3, k4, -⟩ := C39_stored code _ (plain_nulFree h1) hn l1 (by simp; omega)
  obtain ⟨e', k5⟩ := C39_text e code _ k2 k3 k4
  refine ⟨_, e, _, e', k1, k5, ?_⟩
  rw [if_neg h0]
  have := Json.obj [⟨[], 34 :: b!"code" ++ [34], b!"code", [], 34 :: code ++ [34], .str code⟩,
      ⟨[], 34 :: b!"message" ++ [34], b!"message", [], 34 :: message ++ [34], .str message⟩,
      ⟨[], 34 :: key ++ [34], key, [], 34 :: v ++ [34], .str v⟩] (by simp) (by
        simp only [List.mem_cons, List.not_mem_nil, or_false]
        rintro m (rfl | rfl | rfl)
        · exact ⟨by simp [JWs], by simp [JWs], strLit_plain (by unfold Plain; decide)⟩
        · exact ⟨by simp [JWs], by simp [JWs], strLit_plain (by unfold Plain; decide)⟩
        · exact ⟨by simp [JWs], by simp [JWs], strLit_plain h3⟩) (by
        simp only [List.mem_cons, List.not_mem_nil, or_false]
        rintro m (rfl | rfl | rfl)
        · exact .str _ _ (strLit_plain h1)
        · exact .str _ _ (strLit_plain h2)
        · exact .str _ _ (strLit_plain h4))
  simpa [Memb.text, sepBy] using this

/-- A member that is an administrator's. -/
example : ∃ out, json_key_value b!"name" (some b!"x\",\"role\":\"admin") = ok out ∧
    out = b!"\"name\":\"x\",\"role\":\"admin\"" := ⟨_, by decide, rfl⟩
example : Plain b!"name" ∧ Plain b!"x" ∧ Plain b!"role" ∧ Plain b!"admin" ∧ ¬ Plain b!"x\"" := by unfold Plain; decide

/-- C38, what a text can be taken for: the end of the text and any further member, a second status included. -/
theorem C38_forged (status : Int) (name text description key val : Str) (data : Option Str) (v : Value)
    (hn : statusName status = some name) (h1 : Plain text) (h2 : Plain description) (h3 : Plain key) (h4 : Plain val)
    (n2 : description ≠ []) (hd : DataIs data v) :
    ∃ forged out, return_response ⟨status, strdup forged, strdup description, data⟩ = ok out ∧
      Json out (.obj [(b!"RSP", .str name), (b!"info", .str text), (key, .str val), (b!"description", .str description),
        (b!"data", v)]) := by
  have hz : NulFree (text ++ [34, 44, 34] ++ key ++ [34, 58, 34] ++ val) := by
    have a := plain_nulFree h1; have b := plain_nulFree h3; have c := plain_nulFree h4
    unfold NulFree at *
    simp only [List.mem_append, List.mem_cons, List.not_mem_nil, or_false]
    intro x hx
    rcases hx with ((((h | h) | h) | h) | h)
    · exact a x h
    · rcases h with rfl | rfl | rfl <;> decide
    · exact b x h
    · rcases h with rfl | rfl | rfl <;> decide
    · exact c x h
  have z2 : NulFree description := plain_nulFree h2
  have l2 : description.length ≠ 0 := by simpa using n2
  have l1 : (text ++ [34, 44, 34] ++ key ++ [34, 58, 34] ++ val).length ≠ 0 := by simp
  have hs : (if status = -1 then some b!"\"RSP\":\"FAIL\""
      else if status = 0 then some b!"\"RSP\":\"OK\""
      else if status = 1 then some b!"\"RSP\":\"ERROR\""
      else if status = 2 then some b!"\"RSP\":\"WARNING\""
      else none) = some (b!"\"RSP\":" ++ (34 :: name ++ [34])) ∧ Plain name := by
    unfold statusName at hn
    unfold Plain
    split at hn
    · rename_i e; obtain rfl := Option.some.inj hn; rw [if_pos e]; exact ⟨rfl, by decide⟩
    · rename_i e; rw [if_neg e]
      split at hn
      · rename_i e; obtain rfl := Option.some.inj hn; rw [if_pos e]; exact ⟨rfl, by decide⟩
      · rename_i e; rw [if_neg e]
        split at hn
        · rename_i e; obtain rfl := Option.some.inj hn; rw [if_pos e]; exact ⟨rfl, by decide⟩
        · rename_i e; rw [if_neg e]
          split at hn
          · rename_i e; obtain rfl := Option.some.inj hn; rw [if_pos e]; exact ⟨rfl, by decide⟩
          · simp at hn
  refine ⟨text ++ [34, 44, 34] ++ key ++ [34, 58, 34] ++ val, ?_⟩
  obtain ⟨dt, hdt, hdj⟩ : ∃ dt, return_response ⟨status, strdup (text ++ [34, 44, 34] ++ key ++ [34, 58, 34] ++ val), strdup description, data⟩ =
      ok (b!"{" ++ (b!"\"RSP\":" ++ (34 :: name ++ [34])) ++ (b!", \"info\":\"" ++ (text ++ [34, 44, 34] ++ key ++ [34, 58, 34] ++ val) ++ b!"\"") ++
        (b!", \"description\":\"" ++ description ++ b!"\"") ++ (b!",\"data\":" ++ dt) ++ b!"}") ∧ Json dt v := by
    unfold return_response
    simp only [cstr_strdup hz, cstr_strdup z2, ok_bind, hs.1, assigned, l1, l2, ne_eq, not_false_eq_true, if_true]
    rcases hd with ⟨rfl, rfl⟩ | ⟨d, rfl, hd⟩
    · exact ⟨b!"\"\"", rfl, Json.str _ _ ⟨[], rfl, .nil⟩⟩
    · exact ⟨d, rfl, hd⟩
  refine ⟨_, hdt, ?_⟩
  have lit : ∀ s, Plain s → Json (34 :: s ++ [34]) (.str s) := fun s h => .str _ _ (strLit_plain h)
  have pl : ∀ s : Str, Plain s → StrLit (34 :: s ++ [34]) s := fun s h => strLit_plain h
  have := Json.obj [⟨[], 34 :: b!"RSP" ++ [34], b!"RSP", [], 34 :: name ++ [34], .str name⟩,
    ⟨[32], 34 :: b!"info" ++ [34], b!"info", [], 34 :: text ++ [34], .str text⟩,
    ⟨[], 34 :: key ++ [34], key, [], 34 :: val ++ [34], .str val⟩,
    ⟨[32], 34 :: b!"description" ++ [34], b!"description", [], 34 :: description ++ [34], .str description⟩,
    ⟨[], 34 :: b!"data" ++ [34], b!"data", [], dt, v⟩] (by simp) (by
      simp only [List.mem_cons, List.not_mem_nil, or_false]
      rintro m (rfl | rfl | rfl | rfl | rfl)
      · exact ⟨by simp [JWs], by simp [JWs], pl _ (by unfold Plain; decide)⟩
      · exact ⟨by simp [JWs], by simp [JWs], pl _ (by unfold Plain; decide)⟩
      · exact ⟨by simp [JWs], by simp [JWs], pl _ h3⟩
      · exact ⟨by simp [JWs], by simp [JWs], pl _ (by unfold Plain; decide)⟩
      · exact ⟨by simp [JWs], by simp [JWs], pl _ (by unfold Plain; decide)⟩) (by
      simp only [List.mem_cons, List.not_mem_nil, or_false]
      rintro m (rfl | rfl | rfl | rfl | rfl)
      · exact lit _ hs.2
      · exact lit _ h1
      · exact lit _ h4
      · exact lit _ h2
      · exact hdj)
  simpa [Memb.text, sepBy] using this

/-- A failure that also says it went well. -/
example : return_response ⟨-1, strdup b!"no\",\"RSP\":\"OK", strdup b!"d", none⟩ =
    ok b!"{\"RSP\":\"FAIL\", \"info\":\"no\",\"RSP\":\"OK\", \"description\":\"d\",\"data\":\"\"}" := by decide +kernel

end Wayuu
