import Verif.Lemmas.Strings3
import Verif.Model.JsonUtils
/-
Property C68 (string_utils.c:136-169): who owns the result of `join`.
-/
namespace Wayuu
open C

/-- C68 in full: "a dynamically allocated string" (string_utils.h:56), so the caller may free it. -/
def C68_statement : Prop :=
  ∀ (array : Option (List (Option Str))) (size : Int) (delim : Str) (r : HStr), join array size delim = ok r →
    freeStr r = ok ()

/-- C68 is false: with nothing to join the result is a string literal. -/
theorem C68_refuted : ¬ C68_statement := by
  intro h
  exact absurd (h none 0 [] ⟨false, []⟩ rfl) (by decide)

/-- C68, exactly when it holds: the result may be freed iff there is an array, a positive size and a first element.
Missing: the other calls, whose result must not be freed. -/
theorem C68_partial (array : Option (List (Option Str))) (size : Int) (delim : Str) (r : HStr)
    (h : join array size delim = ok r) :
    (freeStr r = ok () ↔ 0 < size ∧ ∃ s rest, array = some (some s :: rest)) ∧
    (freeStr r = ub .badFree ↔ ¬ (0 < size ∧ ∃ s rest, array = some (some s :: rest))) := by
  have key : r.heap = true ↔ 0 < size ∧ ∃ s rest, array = some (some s :: rest) := by
    unfold join at h
    cases array with
    | none => cases h; simp
    | some a =>
      simp only at h
      split at h
      · cases h; simp; omega
      · rename_i hs
        obtain ⟨p0, h1, h2⟩ := bind_eq_ok.mp h
        clear h
        rename' h2 => h
        cases a with
        | nil => cases h1
        | cons x rest =>
          have h1 : x = p0 := by simpa [elemAt] using h1
          subst h1
          cases x with
          | none => cases h; simp
          | some s =>
            simp only at h
            have : r.heap = true := by
              split at h
              · cases h; rfl
              · obtain ⟨_, -, h⟩ := bind_eq_ok.mp h
                obtain ⟨_, -, h⟩ := bind_eq_ok.mp h
                obtain ⟨last, -, h⟩ := bind_eq_ok.mp h
                cases last with
                | none => cases h
                | some s => obtain ⟨_, -, h⟩ := bind_eq_ok.mp h; cases h; rfl
            rw [this]
            simp
            omega
  rw [← key]
  unfold freeStr
  cases r.heap <;> simp

example : join (some [some b!"a", some b!"b"]) 2 b!"," = ok ⟨true, b!"a,b"⟩ := by decide
example : join (some [none, some b!"b"]) 2 b!"," = ok ⟨false, []⟩ := by decide

end Wayuu
