import Verif.Model.Appends
/-
Lines written in one piece, or without other threads in between, stay whole.
-/
namespace Wayuu
namespace Spec

/-- `order` takes elements from the fronts of the lists; `rest` is what is left of them. -/
inductive Taken {α : Type} (ls : List (List α)) : List α → List (List α) → Prop
  | start : Taken ls [] ls
  | take {order rest i x xs} : Taken ls order rest → rest[i]? = some (x :: xs) → Taken ls (order ++ [x]) (rest.set i xs)

end Spec

namespace Appends
open C Spec

/-- In the middle of a call: some of its text is written and some is not. -/
def Mid (w : Writer) : Prop := 0 < w.pos ∧ w.pos < w.call.length

instance (w : Writer) : Decidable (Mid w) := by unfold Mid; infer_instance

/-- What is still to be written by a thread, one text per call. -/
def left (w : Writer) : List Str :=
  if w.pos < w.call.length then w.call.flatten :: w.todo.map List.flatten else w.todo.map List.flatten

/-- The others are between calls. -/
def Clear (s : ASt) (i : Nat) : Prop := ∀ j w, j ≠ i → s.writers[j]? = some w → ¬ Mid w

/-- A schedule in which no thread writes while another is in the middle of a call. -/
def Apart : ASt → List Nat → Prop
  | _, [] => True
  | s, i :: is => Clear s i ∧ ∀ s', step s i = some s' → Apart s' is

/-- The log consists of whole lines, then what was written of the one call in progress. -/
def Inv (lines : List (List Str)) (s : ASt) : Prop :=
  ∃ order, Taken lines order (s.writers.map left) ∧
    ((s.out = order.flatten ∧ ∀ w ∈ s.writers, ¬ Mid w) ∨
     ∃ i w, s.writers[i]? = some w ∧ Mid w ∧ Clear s i ∧ s.out = order.flatten ++ (w.call.take w.pos).flatten)

theorem inv_start (calls : List (List (List Str))) : Inv (calls.map (·.map List.flatten)) (start calls) := by
  refine ⟨[], ?_, Or.inl ⟨rfl, ?_⟩⟩
  · have : ((start calls).writers.map left) = calls.map (·.map List.flatten) := by
      simp [start, left, Function.comp_def]
    rw [this]
    exact .start
  · intro w hw
    simp only [start, List.mem_map] at hw
    obtain ⟨c, -, rfl⟩ := hw
    simp [Mid]

theorem set_same {α β : Type} (f : α → β) {l : List α} {i : Nat} {a b : α} (h : l[i]? = some a) (he : f b = f a) :
    (l.set i b).map f = l.map f := by
  rw [List.map_set, he]
  apply List.ext_getElem?
  intro j
  rw [List.getElem?_set]
  split
  · rename_i e; subst e
    split
    · simp [h]
    · rename_i hl
      simp at hl
      simp [hl]
  · rfl

/-- The whole step, given that the others are between calls. -/
theorem inv_step {lines : List (List Str)} {s s' : ASt} {i : Nat} (hc : Clear s i) (h : Inv lines s) (hs : step s i = some s') :
    Inv lines s' := by
  obtain ⟨order, ht, hm⟩ := h
  unfold step at hs
  cases hw : s.writers[i]? with
  | none => rw [hw] at hs; cases hs
  | some w =>
    rw [hw] at hs
    dsimp only at hs
    have hlt : i < s.writers.length := (List.getElem?_eq_some_iff.mp hw).1
    have hnone : ∀ x ∈ s.writers, Mid x → x = w := by
      intro x hx hmx
      obtain ⟨j, hj⟩ := List.mem_iff_getElem?.mp hx
      by_cases hji : j = i
      · subst hji; rw [hj] at hw; cases hw; rfl
      · exact absurd hmx (hc j x hji hj)
    have hout : s.out = order.flatten ++ (if Mid w then (w.call.take w.pos).flatten else []) := by
      rcases hm with ⟨h1, h2⟩ | ⟨k, v, hk, hv, hck, h1⟩
      · rw [if_neg (h2 w (List.mem_of_getElem? hw)), h1]; simp
      · have : v = w := hnone v (List.mem_of_getElem? hk) hv
        subst this
        rw [if_pos hv, h1]
    have others : ∀ (w' : Writer) (x : Writer), x ∈ s.writers.set i w' → Mid x → x = w' := by
      intro w' x hx hmx
      obtain ⟨j, hj⟩ := List.mem_iff_getElem?.mp hx
      by_cases hji : j = i
      · subst hji
        rw [List.getElem?_set_self hlt] at hj
        cases hj; rfl
      · rw [List.getElem?_set_ne (Ne.symm hji)] at hj
        exact absurd hmx (hc j x hji hj)
    have clear' : ∀ w' : Writer, ∀ o, Clear ⟨o, s.writers.set i w'⟩ i := by
      intro w' o j x hji hj
      simp only at hj
      rw [List.getElem?_set_ne (Ne.symm hji)] at hj
      exact hc j x hji hj
    cases hp : w.call[w.pos]? with
    | some p =>
      rw [hp] at hs
      cases hs
      obtain ⟨hpl, hpe⟩ := List.getElem?_eq_some_iff.mp hp
      have htake : (w.call.take (w.pos + 1)).flatten = (w.call.take w.pos).flatten ++ p := by
        rw [List.take_add_one, hp]; simp
      have hpre : s.out ++ p = order.flatten ++ (w.call.take (w.pos + 1)).flatten := by
        rw [hout, htake]
        by_cases hmw : Mid w
        · rw [if_pos hmw]; simp
        · rw [if_neg hmw]
          have : w.pos = 0 := by unfold Mid at hmw; omega
          simp [this]
      by_cases hlast : w.pos + 1 < w.call.length
      · refine ⟨order, ?_, Or.inr ⟨i, { w with pos := w.pos + 1 }, ?_, ⟨Nat.succ_pos _, hlast⟩, clear' _ _, hpre⟩⟩
        · have : (s.writers.set i { w with pos := w.pos + 1 }).map left = s.writers.map left :=
            set_same left hw (by simp only [left]; rw [if_pos hlast, if_pos hpl])
          simp only [this]
          exact ht
        · simp [List.getElem?_set_self hlt]
      · refine ⟨order ++ [w.call.flatten], ?_, Or.inl ⟨?_, ?_⟩⟩
        · simp only [List.map_set]
          have hl : left { w with pos := w.pos + 1 } = w.todo.map List.flatten := by
            simp only [left]; rw [if_neg hlast]
          rw [hl]
          refine .take ht ?_
          rw [List.getElem?_map, hw]
          simp only [Option.map_some, left]
          rw [if_pos hpl]
        · have : w.call.take (w.pos + 1) = w.call := List.take_of_length_le (by omega)
          rw [this] at hpre
          simp [hpre]
        · intro x hx hmx
          have := others _ x hx hmx
          subst this
          exact hlast hmx.2
    | none =>
      rw [hp] at hs
      dsimp only at hs
      have hge : w.call.length ≤ w.pos := List.getElem?_eq_none_iff.mp hp
      have hnm : ¬ Mid w := by unfold Mid; omega
      rw [if_neg hnm, List.append_nil] at hout
      cases htd : w.todo with
      | nil => rw [htd] at hs; cases hs
      | cons c cs =>
        rw [htd] at hs
        cases hs
        have hlw : left w = c.flatten :: cs.map List.flatten := by
          simp only [left]; rw [if_neg (by omega), htd]; rfl
        have hno : ∀ x ∈ s.writers.set i ⟨c, 0, cs⟩, ¬ Mid x := by
          intro x hx hmx
          have := others _ x hx hmx
          subst this
          exact Nat.lt_irrefl _ hmx.1
        by_cases hce : c = []
        · refine ⟨order ++ [c.flatten], ?_, Or.inl ⟨by simp [hout, hce], hno⟩⟩
          simp only [List.map_set]
          have hl : left ⟨c, 0, cs⟩ = cs.map List.flatten := by
            simp only [left]; rw [if_neg (by simp [hce])]
          rw [hl]
          refine .take ht ?_
          rw [List.getElem?_map, hw]
          simp [hlw]
        · refine ⟨order, ?_, Or.inl ⟨hout, hno⟩⟩
          have : (s.writers.set i ⟨c, 0, cs⟩).map left = s.writers.map left :=
            set_same left hw (by
              rw [hlw]
              simp only [left]
              rw [if_pos (List.length_pos_iff.mpr hce)])
          simp only [this]
          exact ht

theorem inv_run {lines : List (List Str)} (sched : List Nat) : ∀ {s s' : ASt}, Apart s sched → Inv lines s → run s sched = some s' →
    Inv lines s' := by
  induction sched with
  | nil => intro s s' _ h hr; cases hr; exact h
  | cons i is ih =>
    intro s s' ha h hr
    unfold run at hr
    cases hs : step s i with
    | none => rw [hs] at hr; cases hr
    | some s1 =>
      rw [hs] at hr
      exact ih (ha.2 s1 hs) (inv_step ha.1 h hs) hr

theorem Taken.perm {α : Type} {ls : List (List α)} {order : List α} {rest : List (List α)} (h : Taken ls order rest) :
    (order ++ rest.flatten).Perm ls.flatten := by
  induction h with
  | start => simp
  | take h hi ih =>
    rename_i order rest i x xs
    refine List.Perm.trans ?_ ih
    rw [List.append_assoc]
    apply List.Perm.append_left
    have hlt := (List.getElem?_eq_some_iff.mp hi).1
    have e1 : rest = rest.take i ++ (x :: xs) :: rest.drop (i + 1) := by
      have := (List.getElem?_eq_some_iff.mp hi).2
      rw [← this, List.getElem_cons_drop, List.take_append_drop]
    have e2 : rest.set i xs = rest.take i ++ xs :: rest.drop (i + 1) := by
      rw [List.set_eq_take_append_cons_drop, if_pos hlt]
    rw [e2]
    have e3 : rest.flatten = (rest.take i).flatten ++ ((x :: xs) ++ (rest.drop (i + 1)).flatten) := by
      rw [← List.flatten_cons, ← List.flatten_append, ← e1]
    rw [e3]
    simp only [List.flatten_append, List.flatten_cons]
    refine List.Perm.trans ?_ (List.perm_append_comm_assoc _ _ _ |>.symm)
    simp only [List.cons_append, List.nil_append]
    apply List.Perm.cons
    exact List.perm_append_comm_assoc _ _ _

/-- Every call consists of at most one piece. -/
def Single (s : ASt) : Prop := ∀ w ∈ s.writers, w.call.length ≤ 1 ∧ ∀ c ∈ w.todo, c.length ≤ 1

theorem single_step {s s' : ASt} {i : Nat} (h : Single s) (hs : step s i = some s') : Single s' := by
  unfold step at hs
  cases hw : s.writers[i]? with
  | none => rw [hw] at hs; cases hs
  | some w =>
    rw [hw] at hs
    dsimp only at hs
    have hm : w ∈ s.writers := List.mem_of_getElem? hw
    split at hs
    · cases hs
      intro x hx
      rcases List.mem_or_eq_of_mem_set hx with hx | rfl
      · exact h x hx
      · exact h w hm
    · split at hs
      · cases hs
      · rename_i c cs e
        cases hs
        intro x hx
        rcases List.mem_or_eq_of_mem_set hx with hx | rfl
        · exact h x hx
        · have := (h w hm).2
          rw [e] at this
          exact ⟨this c (by simp), fun d hd => this d (by simp [hd])⟩

theorem single_apart (sched : List Nat) : ∀ {s : ASt}, Single s → Apart s sched := by
  induction sched with
  | nil => intro s _; trivial
  | cons i is ih =>
    intro s h
    refine ⟨?_, fun s' hs => ih (single_step h hs)⟩
    intro j w _ hw hm
    have := (h w (List.mem_of_getElem? hw)).1
    unfold Mid at hm
    omega

theorem single_run (sched : List Nat) : ∀ {s s' : ASt}, Single s → run s sched = some s' → Single s' := by
  induction sched with
  | nil => intro s s' h hr; cases hr; exact h
  | cons i is ih =>
    intro s s' h hr
    simp only [run] at hr
    cases hs : step s i with
    | none => rw [hs] at hr; cases hr
    | some s1 => rw [hs] at hr; exact ih (single_step h hs) hr

/-- `Apart`, computed. -/
def apartB : ASt → List Nat → Bool
  | _, [] => true
  | s, i :: is =>
    ((List.range s.writers.length).all fun j => j == i || (s.writers[j]?).all fun w => !decide (Mid w)) &&
    (step s i).all fun s' => apartB s' is

theorem apart_of_check (sched : List Nat) : ∀ {s : ASt}, apartB s sched = true → Apart s sched := by
  induction sched with
  | nil => intro s _; trivial
  | cons i is ih =>
    intro s h
    simp only [apartB, Bool.and_eq_true, List.all_eq_true, List.mem_range, Bool.or_eq_true, beq_iff_eq] at h
    refine ⟨fun j w hj hw hm => ?_, fun s' hs => ih (by simpa [hs] using h.2)⟩
    rcases h.1 j (List.getElem?_eq_some_iff.mp hw).1 with e | e
    · exact hj e
    · rw [hw] at e
      simp [hm] at e

/-- The pieces a thread has yet to write. -/
def leftPieces (w : Writer) : List Str := w.call.drop w.pos ++ w.todo.flatten

/-- Whatever the schedule, the log consists of whole pieces, those of each thread in order. -/
theorem pieces_run {ls : List (List Str)} (sched : List Nat) : ∀ {s s' : ASt} {order : List Str},
    Taken ls order (s.writers.map leftPieces) → s.out = order.flatten → run s sched = some s' →
    ∃ order', Taken ls order' (s'.writers.map leftPieces) ∧ s'.out = order'.flatten := by
  induction sched with
  | nil => intro s s' order ht ho h; cases h; exact ⟨order, ht, ho⟩
  | cons i is ih =>
    intro s s' order ht ho h
    simp only [run] at h
    cases hs : step s i with
    | none => rw [hs] at h; cases h
    | some s1 =>
      rw [hs] at h
      simp only [Option.bind_some] at h
      unfold step at hs
      cases hw : s.writers[i]? with
      | none => rw [hw] at hs; cases hs
      | some w =>
        rw [hw] at hs
        dsimp only at hs
        split at hs
        · rename_i p hp
          cases hs
          have hl : (s.writers.map leftPieces)[i]? = some (p :: (w.call.drop (w.pos + 1) ++ w.todo.flatten)) := by
            rw [List.getElem?_map, hw]
            obtain ⟨hlt, hpp⟩ := List.getElem?_eq_some_iff.mp hp
            simp only [Option.map_some, leftPieces, List.drop_eq_getElem_cons hlt, hpp, List.cons_append]
          have := ht.take hl
          refine ih (s := ⟨_, _⟩) ?_ ?_ h (order := order ++ [p])
          · simp only [List.map_set]; exact this
          · simp [ho]
        · rename_i hp
          split at hs
          · cases hs
          · rename_i c cs e
            cases hs
            refine ih (s := ⟨s.out, s.writers.set i ⟨c, 0, cs⟩⟩) (order := order) ?_ ho h
            simp only
            rw [set_same leftPieces (b := ⟨c, 0, cs⟩) hw (by
              have : w.call.length ≤ w.pos := by simpa using hp
              simp [leftPieces, e, List.drop_eq_nil_of_le this])]
            exact ht

end Appends
end Wayuu
