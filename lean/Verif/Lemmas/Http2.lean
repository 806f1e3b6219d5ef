import Verif.Lemmas.Http
import Verif.Lemmas.Strings3
import Verif.Model.Ws
/-
Lemmas for C35–C40.
-/
namespace Wayuu
open C Spec

theorem plain_nulFree {s : Str} (h : Plain s) : NulFree s := by
  intro c hc e
  have := (h c hc).1
  subst e
  simp at this

/-- All content type lines. -/
def contentTypes : List Str :=
  [CONTENT_TYPE_TEXT_HTML, CONTENT_TYPE_IMAGE_PNG, CONTENT_TYPE_IMAGE_JPEG, CONTENT_TYPE_ZIP, CONTENT_TYPE_CSS,
   CONTENT_TYPE_SVG, CONTENT_TYPE_ICON, CONTENT_TYPE_TEXT_PLAIN, CONTENT_TYPE_TEXT_CSV, CONTENT_TYPE_YAML,
   CONTENT_TYPE_OCTET_STREAM]

theorem content_type_mem (f : Str) : get_content_type f ∈ contentTypes := by
  unfold get_content_type
  split
  · decide
  · split
    · decide
    · simp only
      repeat' split
      all_goals decide +kernel

theorem types_field {w : Str} (hm : w ∈ contentTypes) : ∃ t, w = b!"Content-Type: " ++ t ++ [13, 10] ∧
    Field (b!"Content-Type: " ++ t) b!"Content-Type" t := by
  have key : ∀ t : Str, (∀ c ∈ t, c ≠ 13 ∧ c ≠ 10) → (∀ c, t.head? = some c → c ≠ 32 ∧ c ≠ 9) →
      Field (b!"Content-Type: " ++ t) b!"Content-Type" t := fun t h1 h2 =>
    field_mk b!"Content-Type" b!" " t (by decide) (by unfold nameByte; decide) (by decide) h1 h2
  have k : ∀ w t : Str, w = b!"Content-Type: " ++ t ++ [13, 10] → (∀ c ∈ t, c ≠ 13 ∧ c ≠ 10) →
      (∀ c, t.head? = some c → c ≠ 32 ∧ c ≠ 9) →
      ∃ t, w = b!"Content-Type: " ++ t ++ [13, 10] ∧ Field (b!"Content-Type: " ++ t) b!"Content-Type" t :=
    fun w t e h1 h2 => ⟨t, e, key t h1 h2⟩
  unfold contentTypes at hm
  simp only [List.mem_cons, List.not_mem_nil, or_false] at hm
  rcases hm with rfl | rfl | rfl | rfl | rfl | rfl | rfl | rfl | rfl | rfl | rfl
  · exact k _ b!"text/html" rfl (by decide) (by decide)
  · exact k _ b!"image/png" rfl (by decide) (by decide)
  · exact k _ b!"image/jpeg" rfl (by decide) (by decide)
  · exact k _ b!"application/zip" rfl (by decide) (by decide)
  · exact k _ b!"text/css" rfl (by decide) (by decide)
  · exact k _ b!"image/svg+xml" rfl (by decide) (by decide)
  · exact k _ b!"image/vnd.microsoft.icon" rfl (by decide) (by decide)
  · exact k _ b!"text/plain" rfl (by decide) (by decide)
  · exact k _ b!"text/csv" rfl (by decide) (by decide)
  · exact k _ b!"text/yaml" rfl (by decide) (by decide)
  · exact k _ b!"application/octet-stream" rfl (by decide) (by decide)

theorem content_type_field (f : Str) : ∃ t, get_content_type f = b!"Content-Type: " ++ t ++ [13, 10] ∧
    Field (b!"Content-Type: " ++ t) b!"Content-Type" t := types_field (content_type_mem f)

theorem calloc_strncpy {n : Nat} {s : Str} (h : s.length < n) :
    strncpyAt (calloc n) 0 s n = ok (s.map some ++ some 0 :: List.replicate (n - s.length - 1) (some 0)) := by
  unfold strncpyAt
  rw [writeAt_ok (by simp [calloc, Nat.min_eq_right (Nat.le_of_lt h)]; omega)]
  obtain ⟨k, hk⟩ : ∃ k, n - s.length = k + 1 := ⟨n - s.length - 1, by omega⟩
  simp only [List.take_of_length_le (Nat.le_of_lt h), hk, List.replicate_succ]
  simp [calloc]
  omega

theorem strcpyAt_over {b : Buf} {off : Nat} {s : Str} (h : b.length < off + s.length + 1) :
    strcpyAt b off s = ub .oob := by
  unfold strcpyAt writeAt
  rw [if_neg (by simp; omega)]

theorem strcpyAt_zero {b : Buf} {s : Str} (hs : NulFree s) (h : s.length + 1 ≤ b.length) :
    ∃ b', strcpyAt b 0 s = ok b' ∧ cstr b' = ok s ∧ b'.length = b.length := by
  refine ⟨_, strcpyAt_ok (by omega), ?_, ?_⟩
  · rw [List.take_zero, List.nil_append]
    exact cstr_mk hs _
  · simp; omega

theorem new_error_eq {code message : Str} (h1 : NulFree code) (h2 : NulFree message) (l1 : code.length < 64)
    (l2 : message.length < 1024) :
    ∃ e, new_error_with_values code message = ok e ∧ cstr e.code = ok code ∧ cstr e.message = ok message ∧
      e.code.length = 64 ∧ e.message.length = 1024 := by
  have m1 : (malloc HTTP_MAX_ERROR_CODE_LEN).length = 64 := List.length_replicate
  have m2 : (malloc HTTP_MAX_ERROR_MSG_LEN).length = 1024 := List.length_replicate
  unfold new_error_with_values
  obtain ⟨b1, e1, c1, k1⟩ := strcpyAt_zero (b := malloc HTTP_MAX_ERROR_CODE_LEN) h1 (by omega)
  obtain ⟨b2, e2, c2, k2⟩ := strcpyAt_zero (b := malloc HTTP_MAX_ERROR_MSG_LEN) h2 (by omega)
  rw [e1]
  simp only [ok_bind]
  rw [e2]
  exact ⟨⟨b1, b2⟩, rfl, c1, c2, k1.trans m1, k2.trans m2⟩

theorem serializer_eq {e : WayuuError} {code message : Str} (h1 : cstr e.code = ok code) (h2 : cstr e.message = ok message)
    (hl : e.code.length = 64) :
    ∃ e', wayuu_error_t_json_serializer e = ok (b!"{\"code\":\"" ++ (if code = [] then b!"UNKNOWN" else code) ++
      b!"\",\"message\":\"" ++ message ++ b!"\"}", e') := by
  have key : ∀ (e' : WayuuError) (c : Str), cstr e'.code = ok c → cstr e'.message = ok message →
      (do let c ← cstr e'.code
          let code_json ← json_key_value b!"code" (some c)
          let m ← cstr e'.message
          let message_json ← json_key_value b!"message" (some m)
          let json ← fmtInto (code_json.length + message_json.length + 25)
            (b!"{" ++ code_json ++ b!"," ++ message_json ++ b!"}")
          ok (json, e')) = (ok (b!"{\"code\":\"" ++ c ++ b!"\",\"message\":\"" ++ message ++ b!"\"}", e') : C (Str × WayuuError)) := by
    intro e' c hc hm
    simp only [hc, hm, ok_bind, json_key_value]
    rw [fmtInto_ok (by simp; omega), ok_bind, fmtInto_ok (by simp; omega), ok_bind, fmtInto_ok (by simp; omega), ok_bind]
    simp
  unfold wayuu_error_t_json_serializer
  rw [h1]
  by_cases e0 : code = []
  · subst e0
    rw [ok_bind]
    simp only [List.length_nil, if_true]
    obtain ⟨b1, e1, c1, k1⟩ := strcpyAt_zero (b := e.code) (s := b!"UNKNOWN") (by decide) (by rw [hl]; decide)
    rw [e1]
    simp only [ok_bind]
    exact ⟨_, key ⟨b1, e.message⟩ b!"UNKNOWN" c1 h2⟩
  · have : code.length ≠ 0 := by simpa using e0
    rw [ok_bind]
    simp only [this, if_false, ok_bind]
    refine ⟨e, ?_⟩
    rw [if_neg e0]
    exact key e code h1 h2

/-! ### get_line -/

theorem getLineLoop_eq (n : Nat) (inp : List Byte) (pre : Str) (r : Buf) (hr : n ≤ r.length) :
    ∃ line rest, LineOf inp n line rest ∧
      getLineLoop n inp (pre.map some ++ r) pre.length =
        ok ((pre ++ line).length, (pre ++ line).map some ++ r.drop line.length, rest) := by
  induction n generalizing inp pre r with
  | zero => exact ⟨[], inp, by simp [LineOf], by simp [getLineLoop]⟩
  | succ n ih =>
    cases inp with
    | nil => exact ⟨[], [], by simp [LineOf], by simp [getLineLoop]⟩
    | cons c inp =>
      cases r with
      | nil => simp at hr
      | cons x r =>
        simp only [getLineLoop]
        rw [store_append_cons (by simp)]
        simp only [ok_bind]
        by_cases e : c = 10
        · subst e
          refine ⟨[10], inp, by simp [LineOf], ?_⟩
          simp
        · simp only [e, if_false]
          obtain ⟨line, rest, ⟨h1, h2, h3, h4⟩, h5⟩ := ih inp (pre ++ [c]) r (by simpa using hr)
          refine ⟨c :: line, rest, ⟨by simp [h1], by simpa using h2, ?_, ?_⟩, ?_⟩
          · cases line with
            | nil => simp
            | cons d line =>
              simp only [List.dropLast_cons_cons, List.mem_cons, not_or]
              exact ⟨Ne.symm e, by simpa using h3⟩
          · rcases h4 with h4 | h4 | h4
            · exact Or.inl (by simp [h4])
            · refine Or.inr (Or.inl ?_)
              cases line with
              | nil => simp at h4
              | cons d line => simpa [List.getLast?_cons_cons] using h4
            · exact Or.inr (Or.inr h4)
          · simpa using h5

theorem get_line_eq (inp : List Byte) (buf : Buf) {size : Nat} (h1 : 1 ≤ size) (h2 : size ≤ buf.length) :
    ∃ line rest, LineOf inp (size - 1) line rest ∧ line.length < size ∧
      get_line inp buf size = ok (line.length, line.map some ++ some 0 :: buf.drop (line.length + 1), rest) := by
  obtain ⟨line, rest, h, e⟩ := getLineLoop_eq (size - 1) inp [] buf (by omega)
  have hl := h.2.1
  refine ⟨line, rest, h, by omega, ?_⟩
  unfold get_line
  simp only [List.map_nil, List.nil_append, List.length_nil] at e
  rw [e]
  simp only [ok_bind]
  have hd : buf.drop line.length = buf[line.length]'(by omega) :: buf.drop (line.length + 1) :=
    List.drop_eq_getElem_cons (by omega)
  rw [hd, store_append_cons (by simp)]
  simp

theorem lineOf_unique {inp : List Byte} {max : Nat} {line rest line' rest' : List Byte}
    (h : LineOf inp max line rest) (h' : LineOf inp max line' rest') : line = line' ∧ rest = rest' := by
  obtain ⟨rfl, h2, h3, h4⟩ := h
  obtain ⟨e, h2', h3', h4'⟩ := h'
  have key : ∀ (a b x y : List Byte) (m : Nat), a ++ x = b ++ y → a.length ≤ m → b.length ≤ m → (10 : Byte) ∉ a.dropLast →
      (b.length = m ∨ b.getLast? = some 10 ∨ y = []) → a.length ≤ b.length := by
    intro a b x y m e ha hb hna hb'
    by_contra hlt
    have hlt : b.length < a.length := by omega
    have hbt : b = a.take b.length := by
      have := congrArg (List.take b.length) e
      rw [List.take_left, List.take_append_of_le_length (by omega)] at this
      exact this.symm
    rcases hb' with h | h | h
    · omega
    · apply hna
      rw [List.dropLast_eq_take]
      have : (10 : Byte) ∈ b := List.mem_of_getLast? h
      rw [hbt] at this
      exact List.take_subset_take_left a (by omega) this
    · subst h
      have := congrArg List.length e
      simp at this
      omega
  have l1 := key line line' rest rest' max e h2 h2' h3 h4'
  have l2 := key line' line rest' rest max e.symm h2' h2 h3' h4
  exact List.append_inj e (by omega)

end Wayuu
