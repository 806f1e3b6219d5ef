import Verif.Lemmas.Json
/-
Properties C13–C16: JSON construction (json_utils.c), against the JSON grammar of Spec/Json.lean.
-/
namespace Wayuu
open C Spec

/-! ### C13 -/

/-- C13 in full. -/
def C13_statement : Prop :=
  ∀ es : List Str, (∀ e ∈ es, NulFree e) →
    ∃ out, json_array_of_strings (some (es.map some)) es.length = ok out ∧ Json out (.arr (es.map .str))

/-- C13 is false: an element that is a single quote gives `["""]`, which is not JSON. -/
theorem C13_refuted : ¬ C13_statement := by
  intro h
  obtain ⟨out, h1, h2⟩ := h [b!"\""] (by decide)
  have e : json_array_of_strings (some [some b!"\""]) 1 = ok b!"[\"\"\"]" := by decide
  have h1 : json_array_of_strings (some [some b!"\""]) 1 = ok out := h1
  rw [e] at h1
  obtain rfl := C.ok.inj h1
  have := json_quotes h2 (by decide)
  revert this
  decide

/-- C13, what holds: strings that need no escaping (no quote, backslash or control byte), any number
of them, any lengths; nothing is written outside the block. Missing: strings that need escaping. -/
theorem C13_partial (es : List Str) (hes : ∀ e ∈ es, Plain e) (more : List (Option Str)) :
    ∃ out, json_array_of_strings (some (es.map some ++ more)) es.length = ok out ∧
      Json out (.arr (es.map .str)) := by
  by_cases h0 : es = []
  · subst h0
    exact ⟨b!"[]", rfl, Json.arr0 [] (by simp [JWs])⟩
  · have hpos : 0 < es.length := List.length_pos_iff.mpr h0
    have hlen := joinLen_eq [] (es.map some) more
    simp only [List.nil_append, List.length_map, List.length_nil, present_map_some] at hlen
    have hjoin := join_strings es more JSON_ARRAY_STR_SEP
    refine ⟨91 :: (34 :: sepBy [34, 44, 34] es ++ [34]) ++ [93], ?_, ?_⟩
    · unfold json_array_of_strings
      simp only
      rw [if_neg (by omega)]
      simp only [Int.toNat_natCast]
      rw [hlen]
      simp only [ok_bind]
      rw [hjoin]
      have hls := length_sepBy JSON_ARRAY_STR_SEP es
      have h3 : JSON_ARRAY_STR_SEP.length = 3 := by decide
      have h2 : JSON_ARRAY_STR_BEGIN.length = 2 := by decide
      have h2' : JSON_ARRAY_STR_END.length = 2 := by decide
      rw [h3] at hls
      rw [h2, h2', h3]
      rw [fmtInto_ok (by rw [h2]; omega)]
      simp only [ok_bind]
      rw [fmtInto_ok (by rw [List.length_append, hls, h2]; omega)]
      simp only [ok_bind]
      rw [fmtInto_ok (by rw [List.length_append, List.length_append, hls, h2, h2']; omega)]
      simp only [ok_bind, freeStr, h0, ne_eq, not_false_eq_true, decide_true, if_true]
      simp [JSON_ARRAY_STR_BEGIN, JSON_ARRAY_STR_END, JSON_ARRAY_STR_SEP]
    · rw [sepBy_quoted es h0]
      have := Json.arr (es.map fun e => (34 :: e ++ [34], Value.str e)) (by simpa using h0) (by
        intro p hp
        obtain ⟨e, he, rfl⟩ := List.mem_map.mp hp
        exact .str _ _ (strLit_plain (hes e he)))
      simpa [List.map_map, Function.comp_def] using this

example := C13_partial [b!"a b", b!"", b!"{x}"] (by unfold Plain; decide) [none]

/-- C13, no array or a non-positive size is the empty JSON array. -/
theorem C13_empty (array : Option (List (Option Str))) (size : Int) (h : array = none ∨ size < 1) :
    json_array_of_strings array size = ok b!"[]" ∧ Json b!"[]" (.arr []) := by
  refine ⟨?_, Json.arr0 [] (by simp [JWs])⟩
  unfold json_array_of_strings
  cases array with
  | none => rfl
  | some a =>
    rcases h with h | h
    · simp at h
    · simp [h]

example : ∀ e ∈ [b!"a b", b!"", b!"{x}"], Plain e := by unfold Plain; decide
example : json_array_of_strings (some [some b!"a b", some b!""]) 2 = ok b!"[\"a b\",\"\"]" := by decide

/-! ### C14 -/

/-- C14. Every array of 32-bit ints of every size: the text is the JSON array of the first `size`
elements and nothing is written outside the blocks. -/
theorem C14_ints (ns : List Int) (hns : ∀ n ∈ ns, -(2 ^ 31) ≤ n ∧ n < 2 ^ 31) (more : List Int) :
    ∃ out, json_array_of_ints (some (ns ++ more)) ns.length = ok out ∧ Json out (.arr (ns.map .int)) := by
  by_cases h0 : ns = []
  · subst h0
    exact ⟨b!"[]", rfl, Json.arr0 [] (by simp [JWs])⟩
  · have hpos : 0 < ns.length := List.length_pos_iff.mpr h0
    refine ⟨91 :: sepBy [44] (ns.map fmtInt) ++ [93], ?_, ?_⟩
    · unfold json_array_of_ints
      simp only
      rw [if_neg (by omega)]
      simp only [Int.toNat_natCast]
      rw [fmtInto_ok (by simp [JSON_ARRAY_BEGIN, MAX_INT_STRING_LEN]; omega)]
      simp only [ok_bind]
      have hl := intsLoop_eq [] ns more (ns.length * (MAX_INT_STRING_LEN + 2)) JSON_ARRAY_BEGIN h0 hns
        (by simp [JSON_ARRAY_BEGIN, MAX_INT_STRING_LEN]; omega)
      simp only [List.nil_append, List.length_nil, Nat.zero_add] at hl
      rw [hl]
      simp only [ok_bind]
      rw [fmtInto_ok]
      · simp [JSON_ARRAY_BEGIN, JSON_ARRAY_END]
      · have h1 := length_sepBy [44] (ns.map fmtInt)
        have h2 := totalLen_ints ns hns
        simp [JSON_ARRAY_BEGIN, JSON_ARRAY_END, MAX_INT_STRING_LEN, h1]
        omega
    · have := Json.arr (ns.map fun n => (fmtInt n, Value.int n)) (by simpa using h0) (by
        intro p hp
        obtain ⟨n, _, rfl⟩ := List.mem_map.mp hp
        exact .int _ _ (fmtInt_text n))
      simpa [List.map_map, Function.comp_def] using this

example := C14_ints [-2147483648, 0, 2147483647] (by decide) [5]

/-- C14, no array or a non-positive size. -/
theorem C14_empty (array : Option (List Int)) (size : Int) (h : array = none ∨ size < 1) :
    json_array_of_ints array size = ok b!"[]" := by
  unfold json_array_of_ints
  cases array with
  | none => rfl
  | some a =>
    rcases h with h | h
    · simp at h
    · simp [h]

example : json_array_of_ints (some [-2147483648, 0, 2147483647]) 3 = ok b!"[-2147483648,0,2147483647]" := by
  decide +kernel
example : ∀ n ∈ [(-2147483648 : Int), 0, 2147483647], -(2 ^ 31) ≤ n ∧ n < 2 ^ 31 := by decide

/-! ### C15 -/

/-- C15 in full, for string values. -/
def C15_statement : Prop :=
  ∀ (key : Str) (value : Option Str), NulFree key → (∀ v, value = some v → NulFree v) →
    ∃ out, json_key_value key value = ok out ∧ JsonMember out key (.str (value.getD []))

/-- C15 is false: a NULL value is passed to `strlen` before it is replaced. -/
theorem C15_refuted : ¬ C15_statement := by
  intro h
  obtain ⟨out, h1, -⟩ := h b!"k" none (by decide) (by simp)
  simp [json_key_value] at h1

/-- C15 is also false for values that need escaping. -/
theorem C15_refuted_escape :
    ∃ out, json_key_value b!"k" (some b!"\"") = ok out ∧ ¬ JsonMember out b!"k" (.str b!"\"") := by
  refine ⟨b!"\"k\":\"\"\"", by decide, ?_⟩
  rintro ⟨m, ht, -, -, h1, h2, h3, h4⟩
  have hb : (92 : Byte) ∉ m.text := by rw [← ht]; decide
  have hq : quotes m.text = 5 := by rw [← ht]; decide
  simp only [Memb.text, List.mem_append, not_or] at hb
  have q1 := jws_quotes h1
  have q2 := jws_quotes h2
  have q3 := strLit_quotes h3 hb.1.1.1.2
  have q4 := json_quotes h4 hb.2
  simp only [Memb.text, quotes, List.count_append] at *
  have : List.count (34 : Byte) [58] = 0 := by decide
  omega

/-- C15, what holds for strings: keys and values that need no escaping. Missing: NULL values, keys and
values with quotes, backslashes or control bytes. -/
theorem C15_partial (key v : Str) (hk : Plain key) (hv : Plain v) :
    ∃ out, json_key_value key (some v) = ok out ∧ JsonMember out key (.str v) := by
  refine ⟨_, fmtInto_ok (by simp; omega), ⟨[], 34 :: key ++ [34], key, [], 34 :: v ++ [34], .str v⟩, ?_, rfl, rfl,
    by simp [JWs], by simp [JWs], strLit_plain hk, .str _ _ (strLit_plain hv)⟩
  simp [Memb.text]

example := C15_partial b!"a b" b!"c:d" (by unfold Plain; decide) (by unfold Plain; decide)

/-- C15 for ints (keys that need no escaping). -/
theorem C15_int_partial (key : Str) (n : Int) (hk : Plain key) (h1 : -(2 ^ 31) ≤ n) (h2 : n < 2 ^ 31) :
    ∃ out, json_key_value_int key n = ok out ∧ JsonMember out key (.int n) := by
  have := fmtInt_length n h1 h2
  refine ⟨_, fmtInto_ok (by simp [MAX_INT_STR]; omega), ⟨[], 34 :: key ++ [34], key, [], fmtInt n, .int n⟩, ?_, rfl, rfl,
    by simp [JWs], by simp [JWs], strLit_plain hk, .int _ _ (fmtInt_text n)⟩
  simp [Memb.text]

example := C15_int_partial b!"n" (-7) (by unfold Plain; decide) (by decide) (by decide)

/-- C15 for bools (keys that need no escaping). -/
theorem C15_bool_partial (key : Str) (b : Bool) (hk : Plain key) :
    ∃ out, json_key_value_bool key b = ok out ∧ JsonMember out key (.bool b) := by
  refine ⟨_, fmtInto_ok (by cases b <;> simp [MAX_INT_STR]), ⟨[], 34 :: key ++ [34], key, [],
    if b then b!"true" else b!"false", .bool b⟩, ?_, rfl, rfl,
    by simp [JWs], by simp [JWs], strLit_plain hk, ?_⟩
  · cases b <;> simp [Memb.text]
  · cases b
    · exact Json.fls
    · exact Json.tru

example := C15_bool_partial b!"on" false (by unfold Plain; decide)

/-- C15 for unsigned ints (keys that need no escaping). -/
theorem C15_uint32_partial (key : Str) (n : UInt32) (hk : Plain key) :
    ∃ out, json_key_value_uint32_t key n = ok out ∧ JsonMember out key (.int n.toNat) := by
  have hn := n.toNat_lt
  have := fmtNat_length n.toNat 9 (by omega)
  refine ⟨_, fmtInto_ok (by simp [MAX_INT_STR]; omega), ⟨[], 34 :: key ++ [34], key, [], fmtNat n.toNat, .int n.toNat⟩,
    ?_, rfl, rfl, by simp [JWs], by simp [JWs], strLit_plain hk, .int _ _ (Or.inl ⟨n.toNat, fmtNat_text _, rfl⟩)⟩
  simp [Memb.text]

example : json_key_value b!"a b" (some b!"c:d") = ok b!"\"a b\":\"c:d\"" ∧
    json_key_value_int b!"n" (-7) = ok b!"\"n\":-7" := by decide
example : Plain b!"a b" ∧ Plain b!"c:d" := by unfold Plain; decide

/-! ### C16 -/

/-- C16. For every number of elements and every serialiser that returns strings, the result is the
bracketed, comma-separated list of its outputs in order, and it fits its block. -/
theorem C16_entities {α : Type} (ser : α → C (Option Str)) (xs : List α) (out : α → Str)
    (hser : ∀ x ∈ xs, ser x = ok (some (out x))) :
    json_array_of_entities ser xs = ok (91 :: sepBy [44] (xs.map out) ++ [93]) := by
  unfold json_array_of_entities
  by_cases h0 : xs = []
  · subst h0
    rfl
  · have hpos : 0 < xs.length := List.length_pos_iff.mpr h0
    rw [if_neg (by omega), serializeAll_eq ser xs out hser]
    simp only [ok_bind]
    have hj := join_strings (xs.map out) [] b!","
    simp only [List.append_nil, List.map_map, List.length_map] at hj
    rw [show (xs.map fun x => some (out x)) = xs.map (some ∘ out) from rfl, hj]
    simp only [ok_bind]
    have h1 : JSON_ARRAY_BEGIN.length = 1 := by decide
    have h2 : JSON_ARRAY_END.length = 1 := by decide
    rw [h1, h2]
    rw [fmtInto_ok (by rw [h1]; omega)]
    simp only [ok_bind]
    rw [fmtInto_ok (by rw [List.length_append, h1]; omega)]
    simp only [ok_bind]
    rw [fmtInto_ok (by rw [List.length_append, List.length_append, h1, h2]; omega)]
    simp only [ok_bind, freeStr]
    simp [h0, JSON_ARRAY_BEGIN, JSON_ARRAY_END]

example : json_array_of_entities (fun n => ok (some (fmtInt n))) [1, -22] = ok b!"[1,-22]" :=
  C16_entities (fun n => ok (some (fmtInt n))) [1, -22] fmtInt (fun _ _ => rfl)

/-- C16, serialisers that return NULL: for the first element the result is the empty array, whatever follows, and
nothing that is not a heap block is freed; in between the element is left out; for the last one NULL is dereferenced. -/
theorem C16_nulls {α : Type} (ser : α → C (Option Str)) (x y : α) (mid : List α) (a b : Str) (out : α → Option Str)
    (hmid : ∀ z ∈ mid, ser z = ok (out z)) :
    (ser x = ok none → (∃ r, ser y = ok r) → json_array_of_entities ser (x :: mid ++ [y]) = ok b!"[]") ∧
    (ser x = ok none → json_array_of_entities ser [x] = ok b!"[]") ∧
    (ser x = ok (some a) → ser y = ok (some b) →
      json_array_of_entities ser (x :: mid ++ [y]) = ok (91 :: sepBy [44] (a :: mid.filterMap out ++ [b]) ++ [93])) ∧
    (ser x = ok (some a) → ser y = ok none → json_array_of_entities ser (x :: mid ++ [y]) = ub .null) := by
  have all : ∀ (r : Option Str), ser y = ok r → serializeAll ser (mid ++ [y]) = ok (mid.map out ++ [r]) := by
    intro r hr
    induction mid with
    | nil => simp [serializeAll, hr]
    | cons z mid ih =>
      simp only [List.cons_append, serializeAll]
      rw [hmid z (by simp), ih (fun w hw => hmid w (by simp [hw]))]
      rfl
  have first : ∀ r rest delim n, 0 < n → (r = none) → join (some (r :: rest)) n delim = ok ⟨false, []⟩ := by
    intro r rest delim n hn hr
    subst hr
    unfold join
    simp only
    rw [if_neg (by omega)]
    rfl
  refine ⟨?_, ?_, ?_, ?_⟩
  · rintro hx ⟨r, hr⟩
    unfold json_array_of_entities
    rw [if_neg (by simp)]
    simp only [List.cons_append, serializeAll]
    rw [hx, ok_bind, all r hr, ok_bind, ok_bind, first _ _ _ _ (by simp; omega) rfl, ok_bind]
    rw [fmtInto_ok, ok_bind, fmtInto_ok, ok_bind, fmtInto_ok, ok_bind]
    · rfl
    all_goals simp [JSON_ARRAY_BEGIN, JSON_ARRAY_END]
  · intro hx
    unfold json_array_of_entities
    rw [if_neg (by simp)]
    simp only [serializeAll]
    rw [hx]
    rfl
  · intro hx hy
    unfold json_array_of_entities
    rw [if_neg (by simp)]
    simp only [List.cons_append, serializeAll]
    rw [hx, ok_bind, all _ hy, ok_bind, ok_bind]
    have hj := join_many a (mid.map out) b [] b!","
    simp only [List.length_map, List.cons_append] at hj
    rw [show ((x :: (mid ++ [y])).length : Int) = ((mid.length + 2 : Nat) : Int) by simp; omega, hj, ok_bind]
    rw [fmtInto_ok, ok_bind, fmtInto_ok, ok_bind, fmtInto_ok, ok_bind]
    · simp [freeStr, JSON_ARRAY_BEGIN, JSON_ARRAY_END, present, List.filterMap_map]
    all_goals simp [JSON_ARRAY_BEGIN, JSON_ARRAY_END] <;> omega
  · intro hx hy
    unfold json_array_of_entities
    rw [if_neg (by simp)]
    simp only [List.cons_append, serializeAll]
    rw [hx, ok_bind, all _ hy, ok_bind, ok_bind]
    have hj := join_last_null a (mid.map out) [] b!","
    simp only [List.length_map, List.cons_append] at hj
    rw [show ((x :: (mid ++ [y])).length : Int) = ((mid.length + 2 : Nat) : Int) by simp; omega, hj]
    rfl

example : (∀ z ∈ [(1 : Nat), 2], (fun n : Nat => ok (if n = 1 then none else some b!"2")) z = ok (if z = 1 then none else some b!"2")) ∧
    json_array_of_entities (fun n : Nat => ok (if n = 1 then none else some b!"2")) [2, 1, 2] = ok b!"[2,2]" := by decide

/-- C16, validity: if every element is JSON, the result is the JSON array of those values. -/
theorem C16_valid {α : Type} (ser : α → C (Option Str)) (xs : List α) (out : α → Str) (val : α → Value)
    (hser : ∀ x ∈ xs, ser x = ok (some (out x)) ∧ Json (out x) (val x)) :
    ∃ text, json_array_of_entities ser xs = ok text ∧ Json text (.arr (xs.map val)) := by
  refine ⟨_, C16_entities ser xs out fun x hx => (hser x hx).1, ?_⟩
  by_cases h0 : xs = []
  · subst h0
    exact Json.arr0 [] (by simp [JWs])
  · have := Json.arr (xs.map fun x => (out x, val x)) (by simpa using h0) (by
        intro p hp
        obtain ⟨x, hx, rfl⟩ := List.mem_map.mp hp
        exact (hser x hx).2)
    simpa [List.map_map, Function.comp_def] using this

example : ∀ x ∈ [(1 : Int), 22], (fun n => ok (some (fmtInt n))) x = ok (some (fmtInt x)) ∧ Json (fmtInt x) (.int x) :=
  fun x _ => ⟨rfl, .int _ _ (fmtInt_text x)⟩

end Wayuu
