import Verif.Model.ConfHeap
import Verif.Lemmas.Conf
import Mathlib.Data.List.Nodup
/-
Lemmas about block ownership in conf_parser.c.
-/
namespace Wayuu
open C

/-! ### faults of the string-level functions -/

theorem item_to_string_ok (it : ConfItem) : ∃ r, conf_item_to_string it = ok r := by
  unfold conf_item_to_string
  by_cases h0 : it.multi.length = 0
  · rw [if_pos h0, fmtInto_ok (by simp; omega)]
    exact ⟨_, rfl⟩
  · rw [if_neg h0]
    have hne : it.multi ≠ [] := fun e => h0 (by rw [e]; rfl)
    have hj := join_strings it.multi [] b!","
    rw [List.append_nil] at hj
    rw [hj]
    simp only [ok_bind]
    rw [fmtInto_ok (by simp; omega)]
    simp only [ok_bind, freeStr, hne, ne_eq, not_false_eq_true, decide_true, if_true]
    exact ⟨_, rfl⟩

theorem strtok_nulFree {s delim t rest : Str} (hs : NulFree s) (h : strtok s delim = some (t, rest)) :
    NulFree t ∧ NulFree rest := by
  obtain ⟨d, _, _, _, ⟨rfl, rfl⟩ | ⟨x, _, rfl⟩⟩ := strtok_some h
  · simp only [nulFree_append] at hs; exact ⟨hs.2, by simp⟩
  · simp only [nulFree_append, nulFree_cons] at hs; exact ⟨hs.1.2, hs.2.2⟩

/-- `conf_parse_first_pass` on any line: nothing, an owned item without multi-values, or the NULL
dereference of a line made only of `=` signs. -/
theorem first_pass_cases {line : Str} (hs : NulFree line) :
    conf_parse_first_pass line = ok none ∨ conf_parse_first_pass line = ub .null ∨
    ∃ it, conf_parse_first_pass line = ok (some it) ∧ it.Owned ∧ it.multi = [] ∧ NulFree it.value.s := by
  unfold conf_parse_first_pass
  cases strstr line b!"=" with
  | none => exact Or.inl rfl
  | some x =>
    right
    simp only
    rw [trimStr_eq hs]
    simp only [ok_bind]
    have h1 := nulFree_strip hs
    cases ht : strtok (strip line) b!"=" with
    | none => exact Or.inl rfl
    | some p =>
      obtain ⟨key, rest⟩ := p
      right
      obtain ⟨hk, hr⟩ := strtok_nulFree h1 ht
      simp only
      rw [trimStr_eq hk]
      simp only [ok_bind]
      cases ht2 : strtok rest b!"=" with
      | none => exact ⟨_, rfl, ⟨by simp, by simp⟩, rfl, by simp⟩
      | some q =>
        obtain ⟨value, rest2⟩ := q
        obtain ⟨hv, _⟩ := strtok_nulFree hr ht2
        simp only
        rw [trimStr_eq hv]
        simp only [ok_bind]
        rw [trimStr_eq (nulFree_strip hv)]
        simp only [ok_bind]
        exact ⟨_, rfl, ⟨by simp, by simp⟩, rfl, nulFree_strip (nulFree_strip hv)⟩

theorem parse_multi_cases (item : ConfItem) (hs : NulFree item.value.s) :
    conf_parse_multi item = ub .oob ∨ ∃ ms, conf_parse_multi item = ok { item with multi := ms } := by
  obtain ⟨ms, h⟩ := elements_exists item.value.s
  by_cases hl : ms.length ≤ 20
  · exact Or.inr ⟨ms, parse_multi_eq hs h hl⟩
  · exact Or.inl (parse_multi_over hs h (by omega))

theorem parse_line_cases {line : Str} (hs : NulFree line) (multi : Bool) :
    conf_parse_line line multi = ok none ∨ conf_parse_line line multi = ub .null ∨
    conf_parse_line line multi = ub .oob ∨
    ∃ it, conf_parse_line line multi = ok (some it) ∧ it.Owned := by
  unfold conf_parse_line
  rcases first_pass_cases hs with h | h | ⟨it, h, ho, -, hv⟩
  · rw [h]; cases multi <;> simp
  · rw [h]; simp
  · rw [h]
    cases multi with
    | false => right; right; right; exact ⟨it, by simp, ho⟩
    | true =>
      rcases parse_multi_cases it hv with h2 | ⟨ms, h2⟩
      · right; right; left; simp [h2]
      · right; right; right; exact ⟨{ it with multi := ms }, by simp [h2], ho⟩

namespace ConfHeap

/-- The identities lie in the given range. -/
def Fresh (h h' : Heap) (ps : List Ptr) : Prop :=
  ps.Nodup ∧ (∀ p ∈ ps, ∃ i, p = .blk i ∧ h.next ≤ i ∧ i < h'.next ∧ h'.live i = true) ∧
    h.next ≤ h'.next ∧ (∀ i, h.live i = true → h'.live i = true)

theorem fresh_nil (h : Heap) : Fresh h h [] := ⟨by simp, by simp, Nat.le_refl _, fun _ hi => hi⟩

theorem fresh_alloc (h : Heap) : Fresh h h.alloc.2 [h.alloc.1] :=
  ⟨by simp, by simp [Heap.alloc], by simp [Heap.alloc], fun i hi => by simp [Heap.alloc, hi]⟩

theorem fresh_append {h1 h2 h3 : Heap} {ps qs : List Ptr} (ha : Fresh h1 h2 ps) (hb : Fresh h2 h3 qs) :
    Fresh h1 h3 (ps ++ qs) := by
  obtain ⟨a1, a2, a3, a4⟩ := ha
  obtain ⟨b1, b2, b3, b4⟩ := hb
  refine ⟨?_, ?_, by omega, fun i hi => b4 i (a4 i hi)⟩
  · rw [List.nodup_append]
    refine ⟨a1, b1, ?_⟩
    rintro x hx y hy rfl
    obtain ⟨i, rfl, hi1, hi2, -⟩ := a2 x hx
    obtain ⟨j, hj, hj1, hj2, -⟩ := b2 _ hy
    have := Ptr.blk.inj hj
    omega
  · intro p hp
    rcases List.mem_append.mp hp with hp | hp
    · obtain ⟨i, rfl, hi1, hi2, hl⟩ := a2 p hp
      exact ⟨i, rfl, hi1, by omega, b4 i hl⟩
    · obtain ⟨i, rfl, hi1, hi2, hl⟩ := b2 p hp
      exact ⟨i, rfl, by omega, hi2, hl⟩

theorem fresh_sub {h h' : Heap} {ps qs : List Ptr} (ha : Fresh h h' ps) (hs : qs.Sublist ps) : Fresh h h' qs :=
  ⟨ha.1.sublist hs, fun p hp => ha.2.1 p (hs.subset hp), ha.2.2.1, ha.2.2.2⟩

theorem fresh_strPtrs (h : Heap) (ms : List Str) : Fresh h (strPtrs h ms).2 (strPtrs h ms).1 := by
  induction ms generalizing h with
  | nil => exact fresh_nil h
  | cons m ms ih => exact fresh_append (fresh_alloc h) (ih h.alloc.2)

theorem fresh_strPtr (h : Heap) (s : HStr) :
    Fresh h (strPtr h s).2 (if s.heap then [(strPtr h s).1] else []) := by
  unfold strPtr
  cases s.heap
  · exact fresh_nil h
  · exact fresh_alloc h

theorem fresh_perm {h h' : Heap} {ps qs : List Ptr} (ha : Fresh h h' ps) (hp : ps.Perm qs) : Fresh h h' qs :=
  ⟨hp.nodup_iff.mp ha.1, fun p h2 => ha.2.1 p (hp.mem_iff.mpr h2), ha.2.2.1, ha.2.2.2⟩

theorem fresh_build (h : Heap) (it : ConfItem) (ho : it.Owned) :
    Fresh h (build h it).2 (freed (build h it).1) := by
  have h1 := fresh_alloc h
  have h2 := fresh_strPtr h.alloc.2 it.key
  have h3 := fresh_strPtr (strPtr h.alloc.2 it.key).2 it.value
  have h4 := fresh_strPtrs (strPtr (strPtr h.alloc.2 it.key).2 it.value).2 it.multi
  have := fresh_append (fresh_append (fresh_append h1 h2) h3) h4
  refine fresh_sub (fresh_perm this ?_) ?_ (ps :=
    (if it.key.heap then [(build h it).1.key] else []) ++ (if it.value.heap then [(build h it).1.value] else []) ++
      (build h it).1.multi ++ [(build h it).1.base])
  · simp only [build]
    rw [List.append_assoc, List.append_assoc]
    refine (List.perm_append_comm).trans ?_
    simp
  · unfold freed
    simp only [build]
    refine List.Sublist.append (List.Sublist.append (List.Sublist.append ?_ ?_) (List.Sublist.refl _)) (List.Sublist.refl _)
    · by_cases hk : it.key.s = []
      · simp [hk]
      · simp [hk, ho.1 hk]
    · by_cases hk : it.value.s = []
      · simp [hk]
      · simp [hk, ho.2 hk]

/-- Everything the client's items would free is live, and nothing is freed twice. -/
def Inv (s : State) : Prop :=
  (s.items.flatMap freed).Nodup ∧
    ∀ p ∈ s.items.flatMap freed, ∃ i, p = .blk i ∧ i < s.heap.next ∧ s.heap.live i = true

def ItemsOwned (s : State) : Prop := ∀ p ∈ s.items, p.item.Owned

theorem inv_add {s : State} {it : ConfItem} (ho : it.Owned) (h : Inv s) : Inv (s.add it) := by
  obtain ⟨f1, f2, f3, f4⟩ := fresh_build s.heap it ho
  obtain ⟨h1, h2⟩ := h
  unfold State.add
  refine ⟨?_, ?_⟩
  · simp only [List.flatMap_append, List.flatMap_cons, List.flatMap_nil, List.append_nil]
    rw [List.nodup_append]
    refine ⟨h1, f1, ?_⟩
    rintro x hx y hy rfl
    obtain ⟨i, rfl, hi, -⟩ := h2 x hx
    obtain ⟨j, hj, hj1, -⟩ := f2 _ hy
    have := Ptr.blk.inj hj
    omega
  · intro p hp
    simp only [List.flatMap_append, List.flatMap_cons, List.flatMap_nil, List.append_nil] at hp
    rcases List.mem_append.mp hp with hp | hp
    · obtain ⟨i, rfl, hi, hl⟩ := h2 p hp
      exact ⟨i, rfl, by simp only; omega, f4 i hl⟩
    · obtain ⟨i, rfl, -, hi, hl⟩ := f2 p hp
      exact ⟨i, rfl, hi, hl⟩

theorem freeAll_ok (ps : List Ptr) (h : Heap) (hn : ps.Nodup)
    (hl : ∀ p ∈ ps, ∃ i, p = .blk i ∧ h.live i = true) :
    ∃ h', freeAll h ps = ok h' ∧ h'.next = h.next ∧
      ∀ i, Ptr.blk i ∉ ps → h'.live i = h.live i := by
  induction ps generalizing h with
  | nil => exact ⟨h, rfl, rfl, fun _ _ => rfl⟩
  | cons p ps ih =>
    obtain ⟨i, rfl, hi⟩ := hl p (by simp)
    simp only [List.nodup_cons] at hn
    simp only [freeAll, Heap.free, hi, if_true, ok_bind]
    obtain ⟨h', e1, e2, e3⟩ := ih ⟨h.next, fun j => j != i && h.live j⟩ hn.2 (by
      intro q hq
      obtain ⟨j, rfl, hj⟩ := hl q (by simp [hq])
      refine ⟨j, rfl, ?_⟩
      have : j ≠ i := fun e => hn.1 (e ▸ hq)
      simp [hj, this])
    refine ⟨h', e1, e2, fun j hj => ?_⟩
    simp only [List.mem_cons, not_or] at hj
    rw [e3 j hj.2]
    have : j ≠ i := fun e => hj.1 (by rw [e])
    simp [this]

theorem flatMap_eraseIdx_perm {α β : Type} (f : α → List β) (l : List α) (i : Nat) (x : α) (h : l[i]? = some x) :
    (l.flatMap f).Perm (f x ++ (l.eraseIdx i).flatMap f) := by
  induction l generalizing i with
  | nil => simp at h
  | cons y l ih =>
    cases i with
    | zero => simp at h; subst h; simp
    | succ i =>
      simp only [List.getElem?_cons_succ] at h
      simp only [List.flatMap_cons, List.eraseIdx_cons_succ]
      refine ((ih i h).append_left (f y)).trans ?_
      rw [← List.append_assoc, ← List.append_assoc]
      exact List.Perm.append_right _ List.perm_append_comm

theorem inv_free {s : State} {i : Nat} {p : PItem} (hi : s.items[i]? = some p) (h : Inv s) :
    ∃ h', freeAll s.heap (freed p) = ok h' ∧ Inv ⟨h', s.items.eraseIdx i⟩ := by
  obtain ⟨h1, h2⟩ := h
  have hperm := flatMap_eraseIdx_perm freed s.items i p hi
  have hn := hperm.nodup_iff.mp h1
  rw [List.nodup_append] at hn
  obtain ⟨n1, n2, n3⟩ := hn
  obtain ⟨h', e1, e2, e3⟩ := freeAll_ok (freed p) s.heap n1 (fun q hq => by
    obtain ⟨j, rfl, _, hl⟩ := h2 q (hperm.mem_iff.mpr (by simp [hq]))
    exact ⟨j, rfl, hl⟩)
  refine ⟨h', e1, n2, fun q hq => ?_⟩
  obtain ⟨j, rfl, hj, hl⟩ := h2 q (hperm.mem_iff.mpr (List.mem_append_right _ hq))
  refine ⟨j, rfl, by simp only; omega, ?_⟩
  simp only
  rw [e3 j fun hm => n3 _ hm _ hq rfl]
  exact hl

/-- Lines handed to the parser are C strings. -/
def Op.Valid : Op → Prop
  | .parse line _ => NulFree line
  | _ => True

theorem owned_values (k v : Str) (ms : List Str) (it : ConfItem) (h : new_conf_item_with_values k v ms = ok it) :
    it.Owned := by
  unfold new_conf_item_with_values at h
  split at h
  · simp at h
  · simp only [ok.injEq] at h
    subst h
    refine ⟨fun _ => rfl, fun hv => ?_⟩
    by_cases h0 : v = [] <;> simp [h0] at hv ⊢

theorem owned_copy (src it : ConfItem) (h : copy_conf_item new_conf_item src = ok it) : it.Owned := by
  unfold copy_conf_item at h
  split at h
  · simp at h
  · simp only [ok.injEq] at h
    subst h
    refine ⟨fun _ => rfl, fun hv => ?_⟩
    by_cases h0 : src.value.s = [] <;> simp [h0, new_conf_item] at hv ⊢

theorem step_safe (s : State) (o : Op) (hv : o.Valid) (h : Inv s) :
    step s o ≠ ub .badFree ∧ ∀ s', step s o = ok s' → Inv s' := by
  cases o with
  | parse line multi =>
    simp only [step]
    rcases parse_line_cases hv multi with e | e | e | ⟨it, e, ho⟩
    · rw [e]; simp; exact h
    · rw [e]; simp
    · rw [e]; simp
    · rw [e]; simp; exact inv_add ho h
  | new =>
    simp only [step]
    refine ⟨by simp, ?_⟩
    rintro s' hs
    simp only [ok.injEq] at hs
    subst hs
    exact inv_add ⟨by simp [new_conf_item], by simp [new_conf_item]⟩ h
  | values k v ms =>
    simp only [step]
    cases e : new_conf_item_with_values k v ms with
    | ok it => simp; exact inv_add (owned_values k v ms it e) h
    | ub f =>
      simp
      unfold new_conf_item_with_values at e
      split at e
      · simp at e; rw [← e]; decide
      · simp at e
  | copy i =>
    simp only [step]
    cases s.items[i]? with
    | none => simp; exact h
    | some p =>
      simp only
      cases e : copy_conf_item new_conf_item p.item with
      | ok it => simp; exact inv_add (owned_copy p.item it e) h
      | ub f =>
        simp
        unfold copy_conf_item at e
        split at e
        · simp at e; rw [← e]; decide
        · simp at e
  | show_ i =>
    simp only [step]
    cases s.items[i]? with
    | none => simp; exact h
    | some p =>
      simp only
      obtain ⟨r, e⟩ := item_to_string_ok p.item
      rw [e]; simp; exact h
  | free i =>
    simp only [step]
    cases hi : s.items[i]? with
    | none => simp; exact h
    | some p =>
      simp only
      obtain ⟨h', e, hinv⟩ := inv_free hi h
      rw [e]; simp; exact hinv

theorem run_safe (ops : List Op) (hv : ∀ o ∈ ops, o.Valid) (s : State) (h : Inv s) :
    run s ops ≠ ub .badFree ∧ ∀ s', run s ops = ok s' → Inv s' := by
  induction ops generalizing s with
  | nil => simp [run, h]
  | cons o ops ih =>
    obtain ⟨h1, h2⟩ := step_safe s o (hv o (by simp)) h
    simp only [run]
    cases e : step s o with
    | ok s1 => simp only [ok_bind]; exact ih (fun x hx => hv x (by simp [hx])) s1 (h2 s1 e)
    | ub f => simp only [ub_bind]; rw [e] at h1; exact ⟨h1, by simp⟩

end ConfHeap
end Wayuu
