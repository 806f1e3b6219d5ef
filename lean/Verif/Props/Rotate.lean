import Verif.Model.Rotate
import Verif.Spec.Log
import Verif.Props.LogLines
/-
C163, C164: the access log when it is renamed and when the disk is full (wayuu_log.c:46-50).
-/
namespace Wayuu.Rotate
open C Spec

/-- A line in a file: who wrote it, and what the disk took of it. -/
structure Entry where
  thread : Nat
  line : List Byte
  room : Option Nat

/-- The text of a file made of these entries. -/
def text (es : List Entry) : List Byte := es.flatMap fun e => match e.room with | none => e.line | some n => e.line.take n

/-- The lines of one thread in files. -/
def linesOf (i : Nat) (files : List (List Entry)) : List (List Byte) :=
  (files.flatten.filter fun e => e.thread == i).map (·.line)

/-- The lines a thread has still to write. -/
def pending (t : Thread) : List (List Byte) :=
  (match t.held with | some (_, ps) => ps | none => []) ++ t.todo

/-- Equal, or (if some may be missing) a part in the same order. -/
def Rel (all : Bool) (a b : List (List Byte)) : Prop := if all then a = b else a.Sublist b

theorem linesOf_append (i : Nat) (a b : List (List Entry)) : linesOf i (a ++ b) = linesOf i a ++ linesOf i b := by
  simp [linesOf]

/-- What holds at any time. -/
structure Inv (all : Bool) (lines : List (List Str)) (s : RSt) (os : List (List Entry)) : Prop where
  files : s.files = os.map text
  len : s.threads.length = lines.length
  cur : ∀ c, s.cur = some c → c + 1 = os.length
  who : ∀ e ∈ os.flatten, e.thread < lines.length
  each : ∀ i t ls, s.threads[i]? = some t → lines[i]? = some ls → Rel all (linesOf i os ++ pending t) ls ∧
    (∀ l ∈ t.todo, Appends.accessWrites l = [l]) ∧
    ∀ f ps, t.held = some (f, ps) → f < os.length ∧ linesOf i (os.drop (f + 1)) = []

theorem inv_start (all : Bool) {lines : List (List Str)} (h : ∀ ls ∈ lines, ∀ l ∈ ls, Appends.accessWrites l = [l]) :
    Inv all lines (start lines) [] := by
  refine ⟨rfl, by simp [start], by simp [start], by simp, fun i t ls ht hl => ?_⟩
  simp only [start, List.getElem?_map, hl, Option.map_some, Option.some.injEq] at ht
  subst ht
  refine ⟨?_, h ls (List.mem_of_getElem? hl), by simp⟩
  cases all <;> simp [Rel, linesOf, pending]

theorem getElem?_set_cases {α : Type} {l : List α} {i j : Nat} {a b : α} (h : (l.set i a)[j]? = some b) :
    (i = j ∧ b = a) ∨ (i ≠ j ∧ l[j]? = some b) := by
  rw [List.getElem?_set] at h
  by_cases e : i = j
  · subst e
    simp only [if_true] at h
    split at h
    · left; exact ⟨rfl, by simpa using h.symm⟩
    · simp at h
  · rw [if_neg e] at h
    exact Or.inr ⟨e, h⟩

/-- A thread whose own lines are as before. -/
theorem Inv.idle {all : Bool} {lines : List (List Str)} {s : RSt} {os : List (List Entry)} (h : Inv all lines s os) {i : Nat} {t t' : Thread}
    (ht : s.threads[i]? = some t)
    (h1 : ∀ ls, Rel all (linesOf i os ++ pending t) ls → Rel all (linesOf i os ++ pending t') ls)
    (h2 : ∀ l ∈ t'.todo, l ∈ t.todo)
    (h3 : ∀ f ps, t'.held = some (f, ps) → f < os.length ∧ linesOf i (os.drop (f + 1)) = []) :
    Inv all lines { s with threads := s.threads.set i t' } os := by
  refine ⟨h.files, by simp [h.len], h.cur, h.who, fun j u ls hu hl => ?_⟩
  rcases getElem?_set_cases hu with ⟨rfl, rfl⟩ | ⟨-, hu⟩
  · obtain ⟨e1, e2, -⟩ := h.each i t ls ht hl
    exact ⟨h1 ls e1, fun l hl => e2 l (h2 l hl), h3⟩
  · exact h.each j u ls hu hl

theorem modify_mid {α : Type} (A B : List α) (x : α) (g : α → α) : (A ++ x :: B).modify A.length g = A ++ g x :: B := by
  induction A with
  | nil => simp
  | cons a A ih => simp [ih]

theorem linesOf_eq (i : Nat) (os : List (List Entry)) :
    linesOf i os = ((os.map fun o => o.filter fun e => e.thread == i).flatten).map (·.line) := by
  simp [linesOf, List.filter_flatten]

/-- Lines of others do not matter. -/
theorem linesOf_other {i j : Nat} (h : i ≠ j) (A B : List (List Entry)) (o : List Entry) (p : Str) (room : Option Nat) (k : Nat) :
    linesOf j ((A ++ (o ++ [⟨i, p, room⟩]) :: B).drop k) = linesOf j ((A ++ o :: B).drop k) := by
  rw [linesOf_eq, linesOf_eq, List.map_drop, List.map_drop]
  simp [h]

theorem Inv.step {all : Bool} {lines : List (List Str)} {s s' : RSt} {os : List (List Entry)} (h : Inv all lines s os) {a : Act}
    (ha : ∀ i room, a = .thread i false room → all = false) (hs : step s a = some s') :
    ∃ os', Inv all lines s' os' ∧ ∀ e ∈ os'.flatten, e ∈ os.flatten ∨ ∃ i o, a = .thread i o e.room := by
  cases a with
  | rename =>
    simp only [Rotate.step, Option.some.injEq] at hs
    subst hs
    exact ⟨os, ⟨h.files, h.len, by simp, h.who, h.each⟩, fun e he => Or.inl he⟩
  | thread i opens room =>
    simp only [Rotate.step] at hs
    split at hs
    · simp at hs
    · rename_i t ht
      have hi : i < lines.length := by rw [← h.len]; exact (List.getElem?_eq_some_iff.mp ht).1
      split at hs
      · -- a write
        rename_i f p ps hheld
        simp only [Option.some.injEq] at hs
        subst hs
        obtain ⟨-, -, e3⟩ := h.each i t lines[i] ht (List.getElem?_eq_getElem hi)
        obtain ⟨hf, hlater⟩ := e3 f _ hheld
        have hsplit : os = os.take f ++ os[f] :: os.drop (f + 1) := by simp
        have hAl : (os.take f).length = f := by simp; omega
        generalize os.take f = A at hsplit hAl
        generalize os[f] = o at hsplit
        generalize os.drop (f + 1) = B at hsplit hlater
        subst hsplit
        subst hAl
        refine ⟨A ++ (o ++ [⟨i, p, room⟩]) :: B, ⟨?_, by simp [h.len], ?_, ?_, ?_⟩, ?_⟩
        · show s.files.modify _ _ = _
          have := h.files
          simp only [List.map_append, List.map_cons] at this
          rw [this]
          have hm := modify_mid (A.map text) (B.map text) (text o) (· ++ taken room p)
          rw [List.length_map] at hm
          rw [hm]
          cases room <;> simp [text, taken]
        · intro c hc
          have := h.cur c hc
          simpa using this
        · intro e he
          simp only [List.flatten_append, List.flatten_cons, List.mem_append, List.mem_singleton] at he
          rcases he with he | (he | rfl) | he
          · exact h.who e (by simp only [List.flatten_append, List.flatten_cons, List.mem_append]; tauto)
          · exact h.who e (by simp only [List.flatten_append, List.flatten_cons, List.mem_append]; tauto)
          · exact hi
          · exact h.who e (by simp only [List.flatten_append, List.flatten_cons, List.mem_append]; tauto)
        · intro j u ls hu hl
          rcases getElem?_set_cases hu with ⟨rfl, rfl⟩ | ⟨hne, hu⟩
          · obtain ⟨e1, e2, -⟩ := h.each i t ls ht hl
            refine ⟨?_, e2, ?_⟩
            · have : linesOf i (A ++ (o ++ [⟨i, p, room⟩]) :: B) ++ pending { t with held := some (A.length, ps) } =
                  linesOf i (A ++ o :: B) ++ pending t := by
                have key : ∀ x : List Entry, linesOf i (A ++ x :: B) = linesOf i A ++ linesOf i [x] := by
                  intro x
                  rw [show A ++ x :: B = A ++ [x] ++ B by simp, linesOf_append, linesOf_append, hlater, List.append_nil]
                rw [key, key]
                simp [linesOf, pending, hheld]
              rw [this]
              exact e1
            · intro f' ps' hh
              simp only [Option.some.injEq, Prod.mk.injEq] at hh
              obtain ⟨rfl, rfl⟩ := hh
              refine ⟨by simp, ?_⟩
              rw [show (A ++ (o ++ [(⟨i, p, room⟩ : Entry)]) :: B).drop (A.length + 1) = B by simp [List.drop_append]]
              exact hlater
          · obtain ⟨e1, e2, e3⟩ := h.each j u ls hu hl
            have h0 := linesOf_other hne A B o p room 0
            simp only [List.drop_zero] at h0
            refine ⟨by rw [h0]; exact e1, e2, fun f' ps' hh => ?_⟩
            obtain ⟨g1, g2⟩ := e3 f' ps' hh
            exact ⟨by simpa using g1, by rw [linesOf_other hne]; exact g2⟩
        · intro e he
          simp only [List.flatten_append, List.flatten_cons, List.mem_append, List.mem_singleton] at he ⊢
          rcases he with he | (he | rfl) | he
          · tauto
          · tauto
          · exact Or.inr ⟨i, opens, rfl⟩
          · tauto
      · rename_i f hheld
        simp only [Option.some.injEq] at hs
        subst hs
        refine ⟨os, h.idle ht (fun ls hr => ?_) (fun l hl => hl) (by simp), fun e he => Or.inl he⟩
        simpa [pending, hheld] using hr
      · rename_i hheld
        split at hs
        · simp at hs
        · rename_i l ls htodo
          obtain ⟨e1, e2, -⟩ := h.each i t lines[i] ht (List.getElem?_eq_getElem hi)
          have hl : Appends.accessWrites l = [l] := e2 l (by rw [htodo]; simp)
          have hp : pending t = l :: ls := by simp [pending, hheld, htodo]
          have hsub : ∀ x ∈ ls, x ∈ t.todo := fun x hx => by rw [htodo]; simp [hx]
          split at hs
          · rename_i ho
            simp only [Option.some.injEq] at hs
            subst hs
            have hall := ha i room (by simp at ho; rw [ho])
            subst hall
            refine ⟨os, h.idle ht (fun w hr => ?_) hsub (by simp), fun e he => Or.inl he⟩
            rw [hp] at hr
            simp only [Rel, Bool.false_eq_true, if_false, pending, List.nil_append] at hr ⊢
            exact (List.Sublist.append_left (List.sublist_cons_self l ls) _).trans hr
          · split at hs
            · rename_i f hc
              simp only [Option.some.injEq] at hs
              subst hs
              refine ⟨os, h.idle ht (fun w hr => ?_) hsub ?_, fun e he => Or.inl he⟩
              · rw [hp] at hr
                simpa [pending, hl] using hr
              · intro f' ps' hh
                simp only [Option.some.injEq, Prod.mk.injEq] at hh
                obtain ⟨rfl, -⟩ := hh
                have := h.cur f hc
                exact ⟨by omega, by rw [this, List.drop_length]; rfl⟩
            · rename_i hc
              simp only [Option.some.injEq] at hs
              subst hs
              have hfl : s.files.length = os.length := by rw [h.files]; simp
              have hnew : ∀ j os, linesOf j (os ++ [[]]) = linesOf j os := fun j os => by simp [linesOf]
              refine ⟨os ++ [[]], ⟨by simp [h.files, text], by simp [h.len], ?_, by simpa using h.who, fun j u w hu hw => ?_⟩,
                fun e he => Or.inl (by simpa using he)⟩
              · intro c hc
                simp only [Option.some.injEq] at hc
                subst hc
                simp [hfl]
              · rw [hnew]
                rcases getElem?_set_cases hu with ⟨rfl, rfl⟩ | ⟨-, hu⟩
                · obtain ⟨g1, g2, -⟩ := h.each i t w ht hw
                  rw [hp] at g1
                  refine ⟨by simpa [pending, hl] using g1, fun x hx => g2 x (hsub x hx), fun f' ps' hh => ?_⟩
                  simp only [Option.some.injEq, Prod.mk.injEq] at hh
                  obtain ⟨rfl, -⟩ := hh
                  refine ⟨by simp [hfl], ?_⟩
                  rw [List.drop_eq_nil_of_le (by simp [hfl])]
                  rfl
                · obtain ⟨g1, g2, g3⟩ := h.each j u w hu hw
                  refine ⟨g1, g2, fun f' ps' hh => ?_⟩
                  obtain ⟨k1, k2⟩ := g3 f' ps' hh
                  refine ⟨by simp; omega, ?_⟩
                  rw [List.drop_append_of_le_length (by omega), hnew]
                  exact k2

theorem inv_run {all : Bool} {lines : List (List Str)} (acts : List Act) {s s' : RSt} {os : List (List Entry)} (h : Inv all lines s os)
    (ha : ∀ i room, .thread i false room ∈ acts → all = false) (hr : run s acts = some s') :
    ∃ os', Inv all lines s' os' ∧ ∀ e ∈ os'.flatten, e ∈ os.flatten ∨ ∃ i o, .thread i o e.room ∈ acts := by
  induction acts generalizing s os with
  | nil =>
    simp only [run, Option.some.injEq] at hr
    subst hr
    exact ⟨os, h, fun e he => Or.inl he⟩
  | cons a as ih =>
    simp only [run, Option.bind_eq_some_iff] at hr
    obtain ⟨s1, h1, h2⟩ := hr
    obtain ⟨os1, i1, j1⟩ := h.step (fun i room e => ha i room (by simp [e])) h1
    obtain ⟨os2, i2, j2⟩ := ih i1 (fun i room e => ha i room (by simp [e])) h2
    refine ⟨os2, i2, fun e he => ?_⟩
    rcases j2 e he with he | ⟨i, o, hm⟩
    · rcases j1 e he with he | ⟨i, o, hm⟩
      · exact Or.inl he
      · exact Or.inr ⟨i, o, by simp [hm]⟩
    · exact Or.inr ⟨i, o, by simp [hm]⟩

/-! ### C163 -/

/-- C163: threads serve any requests, the access log is renamed any number of times at any moments, and nothing else is in the way: each
file consists of whole lines, and read in the order in which the files were created they hold, for each thread, all lines it wrote,
in order, each once; what is missing it has yet to write. -/
theorem C163_rotated {env : Env} (hc : Clock env) {k : Nat} (hu : UserLogs env k) {lines : List (List Str)}
    (hl : ∀ ls ∈ lines, AccessLines env ls) {acts : List Act} {s : RSt} (hopen : ∀ i room, .thread i false room ∉ acts)
    (hroom : ∀ i o n, .thread i o (some n) ∉ acts) (h : run (start lines) acts = some s) :
    ∃ files : List (List (Nat × List Byte)), s.files = files.map (fun es => (es.map (·.2)).flatten) ∧
      (∀ i t ls, s.threads[i]? = some t → lines[i]? = some ls →
        ((files.flatten.filter fun e => e.1 == i).map (·.2)) ++ pending t = ls) ∧
      ∀ e ∈ files.flatten, e.1 < lines.length := by
  have hw : ∀ ls ∈ lines, ∀ l ∈ ls, Appends.accessWrites l = [l] := fun ls hm l hml =>
    accessWrites_short ((hl ls hm).short hc hu l hml).1 ((hl ls hm).short hc hu l hml).2
  obtain ⟨os, hi, hj⟩ := inv_run acts (inv_start true hw) (fun i room hm => absurd hm (hopen i room)) h
  have hnone : ∀ e ∈ os.flatten, e.room = none := by
    intro e he
    rcases hj e he with he | ⟨i, o, hm⟩
    · simp at he
    · cases hr : e.room with
      | none => rfl
      | some n => rw [hr] at hm; exact absurd hm (hroom i o n)
  refine ⟨os.map fun es => es.map fun e => (e.thread, e.line), ?_, fun i t ls ht hls => ?_, fun e he => ?_⟩
  · rw [hi.files, List.map_map]
    refine List.map_congr_left fun es hes => ?_
    simp only [text, Function.comp_apply, List.map_map, List.flatMap]
    congr 1
    refine List.map_congr_left fun e he => ?_
    rw [hnone e (List.mem_flatten.mpr ⟨es, hes, he⟩)]
    rfl
  · obtain ⟨e1, -⟩ := hi.each i t ls ht hls
    simp only [Rel, if_true] at e1
    rw [← e1]
    congr 1
    rw [← List.map_flatten, List.filter_map, List.map_map]
    rfl
  · rw [← List.map_flatten] at he
    obtain ⟨x, hx, rfl⟩ := List.mem_map.mp he
    exact hi.who x hx

/-- C163, old files: a file that no longer has the name, and that no thread has open, never changes again, whatever happens. -/
theorem C163_settled {s s' : RSt} {acts : List Act} (f : Nat) (hf : f < s.files.length) (hcur : s.cur ≠ some f)
    (hheld : ∀ t ∈ s.threads, ∀ ps, t.held ≠ some (f, ps)) (h : run s acts = some s') : s'.files[f]? = s.files[f]? := by
  induction acts generalizing s with
  | nil => simp only [run, Option.some.injEq] at h; rw [h]
  | cons a as ih =>
    simp only [run, Option.bind_eq_some_iff] at h
    obtain ⟨s1, h1, h2⟩ := h
    replace ih := fun a b c => @ih s1 a b c h2
    have hset : ∀ (i : Nat) (t' : Thread), (∀ ps, t'.held ≠ some (f, ps)) → ∀ t ∈ s.threads.set i t', ∀ ps, t.held ≠ some (f, ps) := by
      intro i t' ht' t ht
      rcases List.mem_or_eq_of_mem_set ht with ht | rfl
      · exact hheld t ht
      · exact ht'
    cases a with
    | rename =>
      simp only [step, Option.some.injEq] at h1
      subst h1
      exact ih hf (by simp) hheld
    | thread i opens room =>
      simp only [step] at h1
      split at h1
      · simp at h1
      · rename_i t ht
        have htm := List.mem_of_getElem? ht
        split at h1
        · rename_i g p ps hg
          simp only [Option.some.injEq] at h1
          subst h1
          have hne : g ≠ f := by
            rintro rfl
            exact hheld t htm _ hg
          rw [ih (by simpa using hf) hcur (hset i _ (by simp [hne]))]
          simp [hne]
        · simp only [Option.some.injEq] at h1
          subst h1
          exact ih hf hcur (hset i _ (by simp))
        · split at h1
          · simp at h1
          · split at h1
            · simp only [Option.some.injEq] at h1
              subst h1
              exact ih hf hcur (hset i _ (by simp))
            · split at h1
              · rename_i c hc
                simp only [Option.some.injEq] at h1
                subst h1
                have : c ≠ f := by rintro rfl; exact hcur hc
                exact ih hf hcur (hset i _ (by simp [this]))
              · simp only [Option.some.injEq] at h1
                subst h1
                rw [ih (by simp; omega) (by simp; omega) (hset i _ (by simp; omega))]
                simp [List.getElem?_append, hf]

/-! ### C164 -/

/-- C164 in full: a line that the disk takes whole stands on a line of its own, whatever became of lines before. -/
def C164_statement : Prop :=
  ∀ (env : Env) (k : Nat) (lines : List (List Str)) (acts : List Act) (s s' : RSt) (i f : Nat) (l : Str) (todo : List Str),
    Clock env → UserLogs env k → (∀ ls ∈ lines, AccessLines env ls) → (∀ ls ∈ lines, ∀ l ∈ ls, SingleLine l) →
    run (start lines) acts = some s → s.threads[i]? = some ⟨some (f, [l]), todo⟩ → step s (.thread i true none) = some s' →
    ∃ pre, s'.files[f]? = some (pre ++ l) ∧ (pre = [] ∨ pre.getLast? = some 10)

/-- C164, exactly: a file holds what the disk took of each line, one after the other and nothing between them; lines of each thread in order, and all
of them (whole or in part) unless the file could not be opened. -/
theorem C164_exact {env : Env} (hc : Clock env) {k : Nat} (hu : UserLogs env k) {lines : List (List Str)}
    (hl : ∀ ls ∈ lines, AccessLines env ls) {acts : List Act} {s : RSt} (h : run (start lines) acts = some s)
    (all : Bool) (hall : all = true → ∀ i room, .thread i false room ∉ acts) :
    ∃ files : List (List Entry), s.files = files.map text ∧
      (∀ i t ls, s.threads[i]? = some t → lines[i]? = some ls →
        if all then linesOf i files ++ pending t = ls else (linesOf i files ++ pending t).Sublist ls) ∧
      (∀ e ∈ files.flatten, e.thread < lines.length) ∧
      ∀ e ∈ files.flatten, ∃ i o, .thread i o e.room ∈ acts := by
  have hw : ∀ ls ∈ lines, ∀ l ∈ ls, Appends.accessWrites l = [l] := fun ls hm l hml =>
    accessWrites_short ((hl ls hm).short hc hu l hml).1 ((hl ls hm).short hc hu l hml).2
  obtain ⟨os, hi, hj⟩ := inv_run acts (inv_start all hw)
    (fun i room hm => by cases all with | false => rfl | true => exact absurd hm (hall rfl i room)) h
  refine ⟨os, hi.files, fun i t ls ht hls => (hi.each i t ls ht hls).1, hi.who, fun e he => ?_⟩
  rcases hj e he with he | hm
  · simp at he
  · exact hm

/-- The lines among these entries that the disk took. -/
def whole (es : List Entry) : List (List Byte) := (es.filter fun e => e.room == none).map (·.line)

theorem text_whole {es : List Entry} (h : ∀ e ∈ es, e.room = none ∨ e.room = some 0) : text es = (whole es).flatten := by
  induction es with
  | nil => rfl
  | cons e es ih =>
    have ih := ih fun x hx => h x (by simp [hx])
    simp only [text, whole, List.flatMap_cons] at ih ⊢
    rw [ih]
    rcases h e (by simp) with he | he <;> simp [he]

/-- C164, what holds: as long as the disk takes each line whole or not at all, every file is a sequence of whole lines; those of each thread are
in order. Missing: lines of which a part is taken. -/
theorem C164_partial {env : Env} (hc : Clock env) {k : Nat} (hu : UserLogs env k) {lines : List (List Str)}
    (hl : ∀ ls ∈ lines, AccessLines env ls) {acts : List Act} {s : RSt} (h : run (start lines) acts = some s)
    (hroom : ∀ i o n, .thread i o (some n) ∈ acts → n = 0) :
    ∃ files : List (List Entry), s.files = files.map (fun es => (whole es).flatten) ∧
      ∀ i t ls, s.threads[i]? = some t → lines[i]? = some ls → (linesOf i files ++ pending t).Sublist ls := by
  obtain ⟨files, e1, e2, -, e4⟩ := C164_exact hc hu hl h false (by simp)
  refine ⟨files, ?_, fun i t ls ht hls => by simpa using e2 i t ls ht hls⟩
  rw [e1]
  refine List.map_congr_left fun es hes => text_whole fun e he => ?_
  obtain ⟨i, o, hm⟩ := e4 e (List.mem_flatten.mpr ⟨es, hes, he⟩)
  cases hr : e.room with
  | none => exact Or.inl rfl
  | some n => rw [hr] at hm; exact Or.inr (by rw [hroom i o n hm])

/-- The line of a request. -/
def lineA : Str := b!"10.0.0.1 - - [now] \"GET /a.txt HTTP/1.1\" 200 109 \"\" \"\" 1\n"

theorem lineA_twice : AccessLines sampleEnv [lineA, lineA] := by
  have e1 : (accept_request sampleEnv (docsSt b!"/a.txt") 7 b!"10.0.0.1").bind (fun x => ok x.1.log) = ok [lineA] := by
    decide +kernel
  cases h1 : accept_request sampleEnv (docsSt b!"/a.txt") 7 b!"10.0.0.1" with
  | ub f => rw [h1] at e1; cases e1
  | ok x =>
    rw [h1] at e1
    have e1 : x.1.log = [lineA] := by simpa [C.bind] using e1
    exact .request (ls := [lineA]) (.request (ls := []) .nil h1 (by rw [e1]; rfl)) h1 (by rw [e1]; rfl)

theorem lineA_single : SingleLine lineA := ⟨lineA.dropLast, by decide +kernel, by decide +kernel⟩

/-- A thread writes two lines; of the first the disk takes one byte. -/
def cutActs : List Act := [.thread 0 true none, .thread 0 true (some 1), .thread 0 true none, .thread 0 true none]

/-- C164 is false: the first byte of a line of which no more was taken, and the next line, make one line. -/
theorem C164_refuted : ¬ C164_statement := by
  intro h
  obtain ⟨pre, e1, e2⟩ := h sampleEnv 0 [[lineA, lineA]] cutActs ⟨[[49]], some 0, [⟨some (0, [lineA]), []⟩]⟩
    ⟨[49 :: lineA], some 0, [⟨some (0, []), []⟩]⟩ 0 0 lineA [] ⟨by decide, by decide⟩ sampleEnv_logs
    (by simpa using lineA_twice) (by simpa using lineA_single) (by decide +kernel) (by decide +kernel) (by decide +kernel)
  have e1 : 49 :: lineA = pre ++ lineA := by simpa using e1
  have : pre = [49] := (List.append_cancel_right (show [49] ++ lineA = pre ++ lineA from e1)).symm
  subst this
  revert e2
  decide

/-- Two threads, a line each; the log is renamed while the first has it open: its line gets to the old file. -/
example : run (start [[lineA], [lineA]]) [.thread 0 true none, .rename, .thread 1 true none, .thread 1 true none, .thread 0 true none] =
    some ⟨[lineA, lineA], some 1, [⟨some (0, []), []⟩, ⟨some (1, []), []⟩]⟩ := by
  decide +kernel

example (s : RSt) (acts : List Act) (hopen : ∀ i room, .thread i false room ∉ acts) (hroom : ∀ i o n, .thread i o (some n) ∉ acts)
    (h : run (start [[lineA, lineA], [lineA, lineA]]) acts = some s) :
    ∃ files : List (List (Nat × List Byte)), s.files = files.map (fun es => (es.map (·.2)).flatten) := by
  obtain ⟨files, e, -⟩ := C163_rotated (env := sampleEnv) ⟨by decide, by decide⟩ sampleEnv_logs (by simpa using lineA_twice) hopen hroom h
  exact ⟨files, e⟩

/-- A file that was renamed and closed. -/
example (s : RSt) (acts : List Act) (h : run ⟨[lineA], none, [⟨none, [lineA]⟩]⟩ acts = some s) : s.files[0]? = some lineA :=
  C163_settled 0 (by decide) (by decide) (by simp) h

example : run (start [[lineA, lineA]]) cutActs = some ⟨[[49]], some 0, [⟨some (0, [lineA]), []⟩]⟩ := by decide +kernel

end Wayuu.Rotate
