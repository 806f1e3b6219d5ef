import Verif.Props.Conf
import Verif.Lemmas.Http
import Verif.Props.Address
/-
Property C119: what serializable_to_string shows (conf_parser.c).
-/
namespace Wayuu
open C Spec

/-- What is to be shown of a settings object: its path, the number of its items, and every item as `key=value` or as
`key=element,element,...`. -/
def Spec.Shown (path : List Byte) (items : List (List Byte × List Byte × List (List Byte))) (text : List Byte) : Prop :=
  ∃ n, NatText n items.length ∧
    text = b!"[path=" ++ path ++ b!",n_items=" ++ n ++
      (items.flatMap fun i => b!"," ++ i.1 ++ b!"=" ++ if i.2.2 = [] then i.2.1 else sepBy b!"," i.2.2) ++ b!"]"

/-- The contents of the items. -/
def contents (items : List ConfItem) : List (Str × Str × List Str) := items.map fun it => (it.key.s, it.value.s, it.multi)

/-- C119 in full: every settings object is shown. -/
def C119_statement : Prop :=
  ∀ (s : Serializable) (text : Str), Shown s.path.s (contents s.items) text → serializable_to_string s = ok text

theorem item_view (it : ConfItem) :
    conf_item_to_string it = ok (it.key.s ++ b!"=" ++ if it.multi = [] then it.value.s else sepBy b!"," it.multi) := by
  unfold conf_item_to_string
  by_cases h0 : it.multi = []
  · simp [h0, fmtInto]
    omega
  · have : it.multi.length ≠ 0 := by simpa using h0
    rw [if_neg this, if_neg h0]
    have hj := join_strings it.multi [] b!","
    rw [List.append_nil] at hj
    rw [hj, ok_bind, fmtInto_ok (by simp; omega), ok_bind]
    simp [freeStr, h0]

theorem serStrLoop_eq (items : List ConfItem) (acc : Str) (h : acc.length < 1024) :
    serStrLoop items acc = fmtInto 1024 (acc ++
      (contents items).flatMap fun i => b!"," ++ i.1 ++ b!"=" ++ if i.2.2 = [] then i.2.1 else sepBy b!"," i.2.2) := by
  induction items generalizing acc with
  | nil => simp [serStrLoop, contents, fmtInto_ok (show acc.length < 1024 from h)]
  | cons it items ih =>
    unfold serStrLoop
    simp only [contents, List.map_cons, List.flatMap_cons] at ih ⊢
    generalize hm : (List.map (fun it : ConfItem => (it.key.s, it.value.s, it.multi)) items).flatMap
      (fun i => b!"," ++ i.1 ++ b!"=" ++ if i.2.2 = [] then i.2.1 else sepBy b!"," i.2.2) = more at ih ⊢
    generalize hv : (if it.multi = [] then it.value.s else sepBy b!"," it.multi) = v
    by_cases h1 : acc.length + 1 < 1024
    · rw [fmtInto_ok (by simp; omega), ok_bind, item_view, hv, ok_bind]
      by_cases h2 : (acc ++ b!"," ++ (it.key.s ++ b!"=" ++ v)).length < 1024
      · rw [fmtInto_ok h2, ok_bind, ih _ h2]
        simp
      · rw [fmtInto_over (by omega), fmtInto_over (by simp at h2 ⊢; omega)]
        rfl
    · rw [fmtInto_over (by simp; omega), fmtInto_over (by simp; omega)]
      rfl

/-- C119, exactly: the text is returned if it has less than 1024 bytes; otherwise it is written beyond the block it is
to be put into. -/
theorem C119_exact (s : Serializable) (text : Str) (h : Shown s.path.s (contents s.items) text) :
    serializable_to_string s = if text.length < 1024 then ok text else ub .oob := by
  obtain ⟨n, hn, rfl⟩ := h
  have hn : n = fmtNat s.items.length := by
    rw [show (contents s.items).length = s.items.length by simp [contents]] at hn
    exact natText_inj hn (fmtNat_text _)
  subst hn
  unfold serializable_to_string
  generalize hm : (contents s.items).flatMap
    (fun i => b!"," ++ i.1 ++ b!"=" ++ if i.2.2 = [] then i.2.1 else sepBy b!"," i.2.2) = more
  generalize hp : b!"[path=" ++ s.path.s ++ b!",n_items=" ++ fmtNat s.items.length = pre
  by_cases h1 : pre.length < 1024
  · rw [fmtInto_ok h1, ok_bind, serStrLoop_eq _ _ h1, hm]
    by_cases h2 : (pre ++ more).length < 1024
    · rw [fmtInto_ok h2, ok_bind]
      by_cases h3 : (pre ++ more ++ b!"]").length < 1024
      · rw [if_pos h3, fmtInto_ok h3]
      · rw [if_neg h3, fmtInto_over (by omega)]
    · rw [fmtInto_over (by omega), if_neg (by simp at h2 ⊢; omega)]; rfl
  · rw [fmtInto_over (by omega), if_neg (by simp; omega)]; rfl

/-- C119, for settings whose text has less than 1024 bytes. -/
theorem C119_partial (s : Serializable) (text : Str) (h : Shown s.path.s (contents s.items) text) (hl : text.length < 1024) :
    serializable_to_string s = ok text := by rw [C119_exact s text h, if_pos hl]

/-- One setting with a value of `n` bytes. -/
def wideSettings (n : Nat) : Serializable :=
  ⟨⟨true, b!"/etc/a.conf"⟩, [⟨⟨true, b!"key"⟩, ⟨true, List.replicate n 97⟩, []⟩]⟩

theorem wide_shown (n : Nat) : Shown (wideSettings n).path.s (contents (wideSettings n).items)
    (b!"[path=/etc/a.conf,n_items=1,key=" ++ List.replicate n 97 ++ b!"]") :=
  ⟨b!"1", fmtNat_text 1, by simp [wideSettings, contents]⟩

/-- C119 is false of the code: a value of 1000 bytes. -/
theorem C119_refuted : ¬ C119_statement := by
  intro h
  have key : ∀ n, 1000 ≤ n → False := by
    intro n hn
    have := h _ _ (wide_shown n)
    rw [C119_exact _ _ (wide_shown n), if_neg (by simp; omega)] at this
    cases this
  exact key 1000 (Nat.le_refl _)

/-! ### Examples -/

example : Shown b!"/etc/a.conf" [(b!"k", b!"v", []), (b!"m", [], [b!"x", b!"y"])]
    b!"[path=/etc/a.conf,n_items=2,k=v,m=x,y]" := ⟨b!"2", fmtNat_text 2, by decide⟩
example : serializable_to_string (wideSettings 3) = ok b!"[path=/etc/a.conf,n_items=1,key=aaa]" := by decide

end Wayuu
