import Verif.Model.Shared
import Mathlib.Tactic.Common
/- Lemmas about happens-before and the threads of `Model/Shared.lean`. -/
namespace Wayuu.Spec

theorem HB.lt {Loc : Type} {tr : Trace Loc} {i j : Nat} (h : HB tr i j) : i < j := by
  induction h with
  | order h _ _ => exact h
  | mutex h _ _ => exact h
  | create h _ _ => exact h
  | trans _ _ h1 h2 => omega

theorem get_append {α : Type} {xs : List α} {i : Nat} {x : α} (ys : List α) (h : xs[i]? = some x) : (xs ++ ys)[i]? = some x := by
  have : i < xs.length := by
    by_contra hc
    rw [List.getElem?_eq_none (by omega)] at h
    cases h
  rw [List.getElem?_append_left this]; exact h

theorem HB.append {Loc : Type} {tr : Trace Loc} {i j : Nat} (h : HB tr i j) (ys : Trace Loc) : HB (tr ++ ys) i j := by
  induction h with
  | order h a b => exact .order h (get_append ys a) (get_append ys b)
  | mutex h a b => exact .mutex h (get_append ys a) (get_append ys b)
  | create h a b => exact .create h (get_append ys a) (get_append ys b)
  | trans _ _ h1 h2 => exact .trans h1 h2

/-- What happens before something another thread does has been passed on: by a release of the mutex or the creation of a thread. -/
theorem HB.passed {Loc : Type} {tr : Trace Loc} {i j : Nat} (h : HB tr i j) :
    ∀ t a u b, tr[i]? = some (t, a) → tr[j]? = some (u, b) → t ≠ u →
      ∃ k e, i ≤ k ∧ k < j ∧ tr[k]? = some (t, e) ∧ (e = .rel ∨ ∃ w, e = .spawn w) := by
  induction h with
  | order h ha hb =>
    intro t a u b h1 h2 hne
    rw [ha] at h1; rw [hb] at h2
    cases h1; cases h2; exact absurd rfl hne
  | mutex h ha hb =>
    intro t a u b h1 h2 hne
    rw [ha] at h1; cases h1
    exact ⟨_, _, Nat.le_refl _, h, ha, .inl rfl⟩
  | create h ha hb =>
    intro t a u b h1 h2 hne
    rw [ha] at h1; cases h1
    exact ⟨_, _, Nat.le_refl _, h, ha, .inr ⟨_, rfl⟩⟩
  | @trans i m j hx hy h1 h2 =>
    intro t a u b hi hj hne
    have hm : m < tr.length := by
      by_contra hc
      have := hy.lt
      rw [List.getElem?_eq_none (by omega)] at hj
      cases hj
    obtain ⟨v, c, hv⟩ : ∃ v c, tr[m] = (v, c) := ⟨_, _, rfl⟩
    have hmv : tr[m]? = some (v, c) := by rw [List.getElem?_eq_getElem hm, hv]
    by_cases hvt : t = v
    · subst hvt
      obtain ⟨k, e, hk1, hk2, hk3, hk4⟩ := h2 t c u b hmv hj hne
      have := hx.lt
      exact ⟨k, e, by omega, hk2, hk3, hk4⟩
    · obtain ⟨k, e, hk1, hk2, hk3, hk4⟩ := h1 t a v c hi hmv hvt
      have := hy.lt
      exact ⟨k, e, hk1, by omega, hk3, hk4⟩

end Wayuu.Spec

namespace Wayuu.Shared
open Spec

/-- The fields of the queue. -/
def Loc.queue : Loc → Prop
  | .size | .front | .rear | .capacity | .elements => True
  | _ => False

/-- Set before the workers are there. -/
def Loc.frozen : Loc → Prop
  | .limits | .settings | .level | .routes => True
  | _ => False

/-- What a thread may do once there are workers: `main` is the thread that accepts connections, `held` says whether it has the mutex, `loose`
whether `LOG_FILE` may not be set yet. -/
def Ok (loose main : Prop) : Bool → List Instr → Bool → Prop
  | h, [], h' => h = h'
  | h, .rd l :: r, h' => (l.queue → h = true) ∧ (l = .lists → main) ∧ Ok loose main h r h'
  | h, .wr l :: r, h' => (l.queue → h = true) ∧ (l = .lists → main) ∧ ¬ l.frozen ∧ l ≠ .logFile ∧ Ok loose main h r h'
  | h, .lock :: r, h' => h = false ∧ Ok loose main true r h'
  | h, .unlock :: r, h' => h = true ∧ Ok loose main false r h'
  | h, .spawn _ :: r, h' => main ∧ Ok loose main h r h'
  | h, .openLog :: r, h' => Ok loose main h r h'
  | h, .setLog :: r, h' => loose ∧ Ok loose main h r h'

theorem Ok.append {loose main : Prop} : ∀ {p q : List Instr} {h h' h'' : Bool}, Ok loose main h p h' → Ok loose main h' q h'' →
    Ok loose main h (p ++ q) h''
  | [], q, h, h', h'', h1, h2 => by cases h1; exact h2
  | .rd l :: r, q, h, h', h'', h1, h2 => ⟨h1.1, h1.2.1, Ok.append h1.2.2 h2⟩
  | .wr l :: r, q, h, h', h'', h1, h2 => ⟨h1.1, h1.2.1, h1.2.2.1, h1.2.2.2.1, Ok.append h1.2.2.2.2 h2⟩
  | .lock :: r, q, h, h', h'', h1, h2 => ⟨h1.1, Ok.append h1.2 h2⟩
  | .unlock :: r, q, h, h', h'', h1, h2 => ⟨h1.1, Ok.append h1.2 h2⟩
  | .spawn _ :: r, q, h, h', h'', h1, h2 => ⟨h1.1, Ok.append h1.2 h2⟩
  | .openLog :: r, q, h, h', h'', h1, h2 => Ok.append (p := r) h1 h2
  | .setLog :: r, q, h, h', h'', h1, h2 => ⟨h1.1, Ok.append h1.2 h2⟩

theorem Ok.flatMap {loose main : Prop} {α : Type} (f : α → List Instr) {h : Bool} :
    ∀ (xs : List α), (∀ x ∈ xs, Ok loose main h (f x) h) → Ok loose main h (xs.flatMap f) h
  | [], _ => rfl
  | x :: xs, hx => by
    rw [List.flatMap_cons]
    exact (hx x (by simp)).append (Ok.flatMap f xs (fun y hy => hx y (by simp [hy])))

theorem Ok.replicate {loose main : Prop} {h : Bool} {p : List Instr} (n : Nat) (hp : Ok loose main h p h) :
    Ok loose main h (List.replicate n p).flatten h := by
  induction n with
  | zero => exact rfl
  | succ n ih => rw [List.replicate_succ, List.flatten_cons]; exact hp.append ih

/-- Start-up: nothing but accesses. -/
def Instr.plain : Instr → Prop
  | .rd _ | .wr _ | .openLog | .setLog => True
  | _ => False

/-- The state before the workers are there. -/
structure Early (loose : Prop) (prog : Nat → List Instr) (r : List Instr) (s : Sys) : Prop where
  alone : s.running = [0]
  free : s.owner = none
  others : ∀ t, t ≠ 0 → s.left t = prog t
  left : ∃ p, s.left 0 = p ++ r ∧ (∀ i ∈ p, i.plain) ∧ (¬ loose → s.logSet = true ∨ Instr.openLog ∈ p ∨ Instr.setLog ∈ p)
  mine : ∀ (i t : Nat) (a : Ev Loc), s.trace[i]? = some (t, a) → t = 0

/-- The state when start-up is over; `n` events belong to it. -/
structure Late (loose : Prop) (n : Nat) (s : Sys) : Prop where
  pre : ∀ (i t : Nat) (a : Ev Loc), i < n → s.trace[i]? = some (t, a) → t = 0
  long : n ≤ s.trace.length
  fine : ∀ (i t : Nat) (a : Ev Loc) (l : Loc), n ≤ i → s.trace[i]? = some (t, a) → a.touches l → (l.frozen → a ≠ .wr l) ∧ (l = .lists → t = 0) ∧
    (¬ loose → l = .logFile → a ≠ .wr l)
  born : ∀ (j t : Nat) (a : Ev Loc), s.trace[j]? = some (t, a) → t ≠ 0 → ∃ k : Nat, n ≤ k ∧ k < j ∧ s.trace[k]? = some (0, .spawn t)
  alive : ∀ t, t ∈ s.running → t ≠ 0 → ∃ k : Nat, n ≤ k ∧ s.trace[k]? = some (0, .spawn t)
  queue : ∀ (i t : Nat) (a : Ev Loc) (l : Loc), n ≤ i → s.trace[i]? = some (t, a) → a.touches l → l.queue →
    s.owner = some t ∨ ∃ k : Nat, i < k ∧ s.trace[k]? = some (t, .rel)
  own : ∀ u, s.owner = some u → ∃ m : Nat, s.trace[m]? = some (u, .acq) ∧ ∀ k t : Nat, s.trace[k]? = some (t, .rel) → k < m
  order : ∀ (i j t u : Nat) (a b : Ev Loc) (l : Loc), n ≤ i → i < j → s.trace[i]? = some (t, a) → s.trace[j]? = some (u, b) → a.touches l → b.touches l → l.queue →
    t ≠ u → HB s.trace i j
  progs : ∀ t, Ok loose (t = 0) (decide (s.owner = some t)) (s.left t) false
  log : ¬ loose → s.logSet = true

theorem get_snoc {α : Type} {xs : List α} {x y : α} {i : Nat} (h : (xs ++ [x])[i]? = some y) :
    xs[i]? = some y ∨ (i = xs.length ∧ y = x) := by
  rcases Nat.lt_trichotomy i xs.length with hi | hi | hi
  · rw [List.getElem?_append_left hi] at h; exact .inl h
  · subst hi; simp at h; exact .inr ⟨rfl, h.symm⟩
  · rw [List.getElem?_eq_none (by simp; omega)] at h; cases h

theorem get_lt {α : Type} {xs : List α} {y : α} {i : Nat} (h : xs[i]? = some y) : i < xs.length := by
  by_contra hc
  rw [List.getElem?_eq_none (by omega)] at h
  cases h

/-- No race when start-up is over, except on what is accessed without care. -/
theorem Late.race {loose : Prop} {n : Nat} {s : Sys} (h : Late loose n s) {l : Loc} (hr : Race s.trace l) :
    ¬ l.queue ∧ ¬ l.frozen ∧ l ≠ .lists ∧ (l = .logFile → loose) := by
  obtain ⟨i, j, t, u, a, b, hij, hi, hj, hne, hta, htb, hw, hhb⟩ := hr
  have hni : n ≤ i := by
    by_contra hc
    have ht := h.pre i t a (by omega) hi
    subst ht
    obtain ⟨k, hk1, hk2, hk3⟩ := h.born j u b hj (Ne.symm hne)
    exact hhb (.trans (.order (by omega) hi hk3) (.create hk2 hk3 hj))
  have fi := h.fine i t a l hni hi hta
  have fj := h.fine j u b l (by omega) hj htb
  refine ⟨?_, ?_, ?_, ?_⟩
  · intro hq; exact hhb (h.order i j t u a b l hni hij hi hj hta htb hq hne)
  · intro hf; rcases hw with hw | hw
    · exact fi.1 hf hw
    · exact fj.1 hf hw
  · intro hl; exact hne ((fi.2.1 hl).trans (fj.2.1 hl).symm)
  · intro hl
    by_contra hc
    rcases hw with hw | hw
    · exact fi.2.2 hc hl hw
    · exact fj.2.2 hc hl hw

/-- No race at all before. -/
theorem Early.race {loose : Prop} {prog : Nat → List Instr} {r : List Instr} {s : Sys} (h : Early loose prog r s) {l : Loc} : ¬ Race s.trace l := by
  rintro ⟨i, j, t, u, a, b, hij, hi, hj, hne, _⟩
  exact hne ((h.mine i t a hi).trans (h.mine j u b hj).symm)

/-- Start-up is over. -/
theorem Early.late {loose : Prop} {prog : Nat → List Instr} {r : List Instr} {s : Sys} (h : Early loose prog r s) (hl : s.left 0 = r)
    (hlog : ¬ loose → s.logSet = true) (h0 : Ok loose True false r false) (ht : ∀ t, t ≠ 0 → Ok loose False false (prog t) false) :
    Late loose s.trace.length s := by
  have hge : ∀ (i t : Nat) (a : Ev Loc), s.trace.length ≤ i → s.trace[i]? = some (t, a) → False := fun i t a hi h => by
    have := get_lt h; omega
  refine ⟨fun i t a _ => h.mine i t a, Nat.le_refl _, fun i t a l hi hg => (hge i t a hi hg).elim, ?_, ?_, fun i t a l hi hg => (hge i t a hi hg).elim,
    ?_, fun i j t u a b l hi _ hg => (hge i t a hi hg).elim, ?_, hlog⟩
  · intro j t a hj hne; exact absurd (h.mine j t a hj) hne
  · intro t hm hne; rw [h.alone] at hm; simp at hm; exact absurd hm hne
  · intro u hu; rw [h.free] at hu; cases hu
  · intro t
    rw [h.free]
    by_cases h00 : t = 0
    · subst h00; rw [hl]; simpa using h0
    · rw [h.others t h00]; simpa [h00] using ht t h00

/-- One event more. -/
theorem Late.extend {loose : Prop} {n : Nat} {s s' : Sys} (h : Late loose n s) {t : Nat} {e : Ev Loc} (hrunning : t ∈ s.running)
    (htr : s'.trace = s.trace ++ [(t, e)])
    (hfine : ∀ l, e.touches l → (l.frozen → e ≠ .wr l) ∧ (l = .lists → t = 0) ∧ (¬ loose → l = .logFile → e ≠ .wr l))
    (hq : ∀ l, e.touches l → l.queue → s.owner = some t ∧ s'.owner = some t)
    (how : (s'.owner = s.owner ∧ e ≠ .rel) ∨ (e = .acq ∧ s.owner = none ∧ s'.owner = some t) ∨ (e = .rel ∧ s.owner = some t ∧ s'.owner = none))
    (hrun : ∀ u, u ∈ s'.running → u ∈ s.running ∨ (t = 0 ∧ e = .spawn u))
    (hprogs : ∀ t, Ok loose (t = 0) (decide (s'.owner = some t)) (s'.left t) false)
    (hlog : ¬ loose → s'.logSet = true) : Late loose n s' := by
  have old : ∀ {i : Nat} {x : Nat × Ev Loc}, s.trace[i]? = some x → s'.trace[i]? = some x := fun hx => by
    rw [htr]; exact get_append _ hx
  have new : s'.trace[s.trace.length]? = some (t, e) := by rw [htr]; simp
  have cases : ∀ {i : Nat} {x : Nat × Ev Loc}, s'.trace[i]? = some x → s.trace[i]? = some x ∨ (i = s.trace.length ∧ x = (t, e)) := fun hx => by
    rw [htr] at hx; exact get_snoc hx
  refine ⟨?_, ?_, ?_, ?_, ?_, ?_, ?_, ?_, hprogs, hlog⟩
  · intro i u a hi hg
    rcases cases hg with hg | ⟨rfl, _⟩
    · exact h.pre i u a hi hg
    · have := h.long; omega
  · rw [htr]; have := h.long; simp; omega
  · intro i u a l hi hg ha
    rcases cases hg with hg | ⟨_, hx⟩
    · exact h.fine i u a l hi hg ha
    · cases hx; exact hfine l ha
  · intro j u a hg hne
    rcases cases hg with hg | ⟨rfl, hx⟩
    · obtain ⟨k, h1, h2, h3⟩ := h.born j u a hg hne
      exact ⟨k, h1, h2, old h3⟩
    · cases hx
      obtain ⟨k, h1, h3⟩ := h.alive _ hrunning hne
      exact ⟨k, h1, get_lt h3, old h3⟩
  · intro u hu hne
    rcases hrun u hu with hu | ⟨rfl, rfl⟩
    · obtain ⟨k, h1, h3⟩ := h.alive u hu hne
      exact ⟨k, h1, old h3⟩
    · exact ⟨_, h.long, new⟩
  · intro i u a l hi hg ha hl
    rcases cases hg with hg | ⟨_, hx⟩
    · rcases h.queue i u a l hi hg ha hl with ho | ⟨k, hk, hkr⟩
      · rcases how with ⟨h1, _⟩ | ⟨_, h1, _⟩ | ⟨rfl, h1, _⟩
        · exact .inl (h1.trans ho)
        · rw [ho] at h1; cases h1
        · rw [ho] at h1; cases h1
          exact .inr ⟨_, get_lt hg, new⟩
      · exact .inr ⟨k, hk, old hkr⟩
    · cases hx; exact .inl (hq l ha hl).2
  · intro u hu
    rcases how with ⟨h1, h2⟩ | ⟨rfl, _, h1⟩ | ⟨_, _, h1⟩
    · obtain ⟨m, hm, hr⟩ := h.own u (h1 ▸ hu)
      refine ⟨m, old hm, fun k w hk => ?_⟩
      rcases cases hk with hk | ⟨_, hx⟩
      · exact hr k w hk
      · cases hx; exact absurd rfl h2
    · rw [h1] at hu; cases hu
      refine ⟨_, new, fun k w hk => ?_⟩
      rcases cases hk with hk | ⟨_, hx⟩
      · exact get_lt hk
      · cases hx
    · rw [h1] at hu; cases hu
  · intro i j v u a b l hi hij hgi hgj ha hb hl hne
    rcases cases hgj with hgj | ⟨hj, hx⟩
    · rcases cases hgi with hgi | ⟨hii, _⟩
      · rw [htr]; exact (h.order i j v u a b l hi hij hgi hgj ha hb hl hne).append _
      · have := get_lt hgj; omega
    · rcases cases hgi with hgi | ⟨hii, _⟩
      · cases hx
        have ho := (hq l hb hl).1
        obtain ⟨m, hm, hr⟩ := h.own _ ho
        rcases h.queue i v a l hi hgi ha hl with ho' | ⟨k, hk, hkr⟩
        · rw [ho] at ho'; cases ho'; exact absurd rfl hne
        · have hkm := hr k v hkr
          have hmj := get_lt hm
          exact .trans (.order hk (old hgi) (old hkr)) (.trans (.mutex hkm (old hkr) (old hm)) (.order (by omega) (old hm) hgj))
      · omega

theorem advance_left (s : Sys) (t : Nat) (e : Ev Loc) (r : List Instr) (u : Nat) :
    (s.advance t e r).left u = if u = t then r else s.left u := rfl

/-- What a thread does is in order if it was and the rest of its own program is. -/
theorem Late.progs_of {loose : Prop} {n : Nat} {s : Sys} (h : Late loose n s) (t : Nat) (r : List Instr) (o : Option Nat)
    (hr : Ok loose (t = 0) (decide (o = some t)) r false) (ho : ∀ u, u ≠ t → (o = some u ↔ s.owner = some u)) (u : Nat) :
    Ok loose (u = 0) (decide (o = some u)) (if u = t then r else s.left u) false := by
  by_cases hu : u = t
  · subst hu; rw [if_pos rfl]; exact hr
  · rw [if_neg hu]
    have := h.progs u
    simp only [ho u hu]; exact this

theorem Late.step {loose : Prop} {n : Nat} {s s' : Sys} (h : Late loose n s) {t : Nat} (hs : Shared.step s t = some s') : Late loose n s' := by
  unfold Shared.step at hs
  split at hs
  · rename_i hrun
    have hp := h.progs t
    split at hs
    · cases hs
    · rename_i l r hl
      cases hs
      rw [hl] at hp
      refine h.extend (e := .rd l) hrun rfl ?_ ?_ (.inl ⟨rfl, by simp⟩) (fun u hu => .inl hu) ?_ h.log
      · rintro l' (hx | hx) <;> cases hx
        exact ⟨fun _ => by simp, hp.2.1, fun _ _ => by simp⟩
      · rintro l' (hx | hx) hq <;> cases hx
        have := hp.1 hq
        simp at this; exact ⟨this, this⟩
      · exact h.progs_of t r s.owner hp.2.2 (fun _ _ => Iff.rfl)
    · rename_i l r hl
      cases hs
      rw [hl] at hp
      refine h.extend (e := .wr l) hrun rfl ?_ ?_ (.inl ⟨rfl, by simp⟩) (fun u hu => .inl hu) ?_ h.log
      · rintro l' (hx | hx) <;> cases hx
        exact ⟨fun hf => absurd hf hp.2.2.1, hp.2.1, fun _ hx => absurd hx hp.2.2.2.1⟩
      · rintro l' (hx | hx) hq <;> cases hx
        have := hp.1 hq
        simp at this; exact ⟨this, this⟩
      · exact h.progs_of t r s.owner hp.2.2.2.2 (fun _ _ => Iff.rfl)
    · rename_i r hl
      split at hs
      · rename_i ho
        cases hs
        rw [hl] at hp
        refine h.extend (e := .acq) hrun rfl ?_ ?_ (.inr (.inl ⟨rfl, ho, rfl⟩)) (fun u hu => .inl hu) ?_ h.log
        · rintro l' (hx | hx) <;> cases hx
        · rintro l' (hx | hx) <;> cases hx
        · refine h.progs_of t r (some t) (by simpa using hp.2) (fun u hu => ?_)
          rw [ho]; simp; exact fun hx => hu hx.symm
      · cases hs
    · rename_i r hl
      split at hs
      · rename_i ho
        cases hs
        rw [hl] at hp
        refine h.extend (e := .rel) hrun rfl ?_ ?_ (.inr (.inr ⟨rfl, ho, rfl⟩)) (fun u hu => .inl hu) ?_ h.log
        · rintro l' (hx | hx) <;> cases hx
        · rintro l' (hx | hx) <;> cases hx
        · refine h.progs_of t r none (by simpa using hp.2) (fun u hu => ?_)
          rw [ho]; simp; exact fun hx => hu hx.symm
      · cases hs
    · rename_i u r hl
      cases hs
      rw [hl] at hp
      refine h.extend (e := .spawn u) hrun rfl ?_ ?_ (.inl ⟨rfl, by simp⟩) (fun w hw => ?_) ?_ h.log
      · rintro l' (hx | hx) <;> cases hx
      · rintro l' (hx | hx) <;> cases hx
      · simp at hw
        rcases hw with rfl | hw
        · exact .inr ⟨hp.1, rfl⟩
        · exact .inl hw
      · exact h.progs_of t r s.owner hp.2 (fun _ _ => Iff.rfl)
    · rename_i r hl
      cases hs
      rw [hl] at hp
      refine h.extend (e := .rd .logFile) hrun rfl ?_ ?_ (.inl ⟨rfl, by simp⟩) (fun u hu => .inl hu) ?_ h.log
      · rintro l' (hx | hx) <;> cases hx
        exact ⟨fun _ => by simp, by simp, fun _ _ => by simp⟩
      · rintro l' (hx | hx) hq <;> cases hx
        exact hq.elim
      · refine h.progs_of t _ s.owner ?_ (fun _ _ => Iff.rfl)
        split
        · exact hp
        · rename_i hlog
          exact ⟨by_contra fun hc => hlog (h.log hc), hp⟩
    · rename_i r hl
      cases hs
      rw [hl] at hp
      refine h.extend (e := .wr .logFile) hrun rfl ?_ ?_ (.inl ⟨rfl, by simp⟩) (fun u hu => .inl hu) ?_ (fun _ => rfl)
      · rintro l' (hx | hx) <;> cases hx
        exact ⟨fun hf => hf.elim, by simp, fun hn => absurd hp.1 hn⟩
      · rintro l' (hx | hx) hq <;> cases hx
        exact hq.elim
      · exact h.progs_of t r s.owner hp.2 (fun _ _ => Iff.rfl)
  · cases hs

/-- A step before the workers are there. -/
theorem Early.step {loose : Prop} {prog : Nat → List Instr} {r : List Instr} {s s' : Sys} (h : Early loose prog r s) {t : Nat}
    (hs : Shared.step s t = some s') (h0 : Ok loose True false r false) (ht : ∀ t, t ≠ 0 → Ok loose False false (prog t) false) :
    Early loose prog r s' ∨ ∃ n, Late loose n s' := by
  obtain ⟨p, hp, hplain, hlog⟩ := h.left
  cases p with
  | nil =>
    refine .inr ⟨_, (h.late (by simpa using hp) (fun hn => ?_) h0 ht).step hs⟩
    simpa using hlog hn
  | cons x p =>
    left
    have ht0 : t = 0 := by
      unfold Shared.step at hs
      split at hs
      · rename_i hm; rw [h.alone] at hm; simpa using hm
      · cases hs
    subst ht0
    have mine : ∀ (e : Ev Loc) (i t : Nat) (a : Ev Loc), (s.trace ++ [(0, e)])[i]? = some (t, a) → t = 0 := fun e i t a hg => by
      rcases get_snoc hg with hg | ⟨_, hx⟩
      · exact h.mine i t a hg
      · cases hx; rfl
    have hx := hplain x (by simp)
    have hr := fun i hi => hplain i (List.mem_cons_of_mem x hi)
    rw [List.cons_append] at hp
    unfold Shared.step at hs
    rw [h.alone, hp, if_pos (by simp)] at hs
    cases x with
    | rd l =>
      cases hs
      refine ⟨h.alone, h.free, fun t ht => ?_, ⟨p, ?_, hr, fun hn => ?_⟩, mine _⟩
      · simp [Sys.advance, ht, h.others t ht]
      · simp [Sys.advance]
      · simpa [Sys.advance] using hlog hn
    | wr l =>
      cases hs
      refine ⟨h.alone, h.free, fun t ht => ?_, ⟨p, ?_, hr, fun hn => ?_⟩, mine _⟩
      · simp [Sys.advance, ht, h.others t ht]
      · simp [Sys.advance]
      · simpa [Sys.advance] using hlog hn
    | lock => exact hx.elim
    | unlock => exact hx.elim
    | spawn u => exact hx.elim
    | openLog =>
      cases hs
      refine ⟨h.alone, h.free, fun t ht => ?_, ⟨if s.logSet then p else .setLog :: p, ?_, ?_, fun hn => ?_⟩, mine _⟩
      · simp [Sys.advance, ht, h.others t ht]
      · cases hl : s.logSet <;> simp [Sys.advance]
      · cases hl : s.logSet
        · intro i hi
          simp at hi
          rcases hi with rfl | hi
          · exact trivial
          · exact hr i hi
        · simpa using hr
      · cases hl : s.logSet
        · simp
        · exact .inl hl
    | setLog =>
      cases hs
      refine ⟨h.alone, h.free, fun t ht => ?_, ⟨p, ?_, hr, fun hn => ?_⟩, mine _⟩
      · simp [Sys.advance, ht, h.others t ht]
      · simp [Sys.advance]
      · exact .inl rfl

theorem run_inv {loose : Prop} {prog : Nat → List Instr} {r : List Instr} (h0 : Ok loose True false r false)
    (ht : ∀ t, t ≠ 0 → Ok loose False false (prog t) false) : ∀ (sched : List Nat) (s s' : Sys),
    (Early loose prog r s ∨ ∃ n, Late loose n s) → run s sched = some s' → (Early loose prog r s' ∨ ∃ n, Late loose n s')
  | [], s, s', h, hr => by cases hr; exact h
  | t :: ts, s, s', h, hr => by
    unfold run at hr
    cases hs : Shared.step s t with
    | none => rw [hs] at hr; cases hr
    | some s1 =>
      rw [hs] at hr
      refine run_inv h0 ht ts s1 s' ?_ hr
      rcases h with h | ⟨n, h⟩
      · exact h.step hs h0 ht
      · exact .inr ⟨n, h.step hs⟩

/-- Programs that are in order race only on what is accessed without care. -/
theorem run_race {loose : Prop} {prog : Nat → List Instr} {p r : List Instr} (hp : prog 0 = p ++ r) (hplain : ∀ i ∈ p, i.plain)
    (hlog : ¬ loose → Instr.openLog ∈ p ∨ Instr.setLog ∈ p) (h0 : Ok loose True false r false)
    (ht : ∀ t, t ≠ 0 → Ok loose False false (prog t) false) {sched : List Nat} {s : Sys} (hr : run (start prog) sched = some s) {l : Loc}
    (hrace : Race s.trace l) : ¬ l.queue ∧ ¬ l.frozen ∧ l ≠ .lists ∧ (l = .logFile → loose) := by
  have h : Early loose prog r (start prog) :=
    ⟨rfl, rfl, fun _ _ => rfl, ⟨p, hp, hplain, fun hn => .inr (hlog hn)⟩, fun i t a hg => by simp [start] at hg⟩
  rcases run_inv h0 ht sched _ s (.inl h) hr with h | ⟨n, h⟩
  · exact absurd hrace h.race
  · exact h.race hrace

/-! What the server does is in order. -/

theorem ok_message {loose main : Prop} (h : Bool) (lvl lv : Nat) : Ok loose main h (message lvl lv) h := by
  unfold message timestamp
  split <;> simp [Ok, Loc.queue, Loc.frozen]

theorem ok_respond {loose main : Prop} (h : Bool) : Ok loose main h respond h := by
  simp [respond, timestamp, Ok, Loc.queue, Loc.frozen]

theorem ok_split {loose main : Prop} (h : Bool) (n : Nat) : Ok loose main h (split n) h := by
  refine Ok.append (p := [.wr .tok]) (h' := h) (by simp [Ok, Loc.queue, Loc.frozen]) (Ok.replicate n ?_)
  simp [Ok, Loc.queue, Loc.frozen]

theorem ok_stats {loose main : Prop} (h : Bool) (d : List Nat) : Ok loose main h (stats d) h := by
  refine Ok.flatMap _ _ (fun x _ => ?_)
  split <;> split <;> simp [Ok, Loc.queue]

theorem ok_validate {loose main : Prop} (h : Bool) (rules : List (Option (List Nat))) : Ok loose main h (validate rules) h := by
  refine Ok.flatMap _ _ (fun x _ => ?_)
  refine Ok.append (p := [.rd .limits]) (h' := h) (by simp [Ok, Loc.queue]) ?_
  cases x with
  | none => exact rfl
  | some d => exact ok_stats h d

theorem ok_scan {loose main : Prop} (h : Bool) (k : Nat) : Ok loose main h (scan k) h := by
  unfold scan
  rw [List.map_eq_flatMap]
  exact Ok.flatMap _ _ (fun x _ => by simp [Ok, Loc.queue])

theorem ok_setEntry {loose main : Prop} (h : Bool) (k : Nat) : Ok loose main h (setEntry k) h := by
  simp [setEntry, Ok, Loc.queue, Loc.frozen]

theorem ok_del {loose main : Prop} (h : Bool) (k : Option Nat) : Ok loose main h (del k) h := by
  cases k with
  | none => generalize hk : WS_MAX_CONNECTIONS - 1 = k; simp only [del, hk]; exact ok_scan h k
  | some k => exact (ok_scan h k).append (ok_setEntry h k)

theorem ok_call {loose main : Prop} (h : Bool) (lvl : Nat) (c : Call) : Ok loose main h (c.instrs lvl) h := by
  cases c with
  | message lv => exact ok_message h lvl lv
  | respond => exact ok_respond h
  | split n => exact ok_split h n

theorem ok_one {loose main : Prop} (h : Bool) (l : Loc) (hq : ¬ l.queue) (hl : l ≠ .lists) : Ok loose main h [.rd l] h :=
  ⟨fun x => absurd x hq, fun x => absurd x hl, rfl⟩

theorem ok_settings {loose main : Prop} (h : Bool) : Ok loose main h [.rd .settings] h := ok_one h _ id (by simp)

theorem ok_rest {loose main : Prop} (h : Bool) (lvl : Nat) (c : Rest) : Ok loose main h (c.instrs lvl) h := by
  cases c with
  | file missing =>
    refine ((((ok_message h lvl 1).append (ok_settings h)).append (ok_message h lvl 1)).append ?_).append (ok_respond h)
    cases missing
    · exact rfl
    · exact (ok_message h lvl 3).append (ok_settings h)
  | notGet => exact ok_respond h
  | api ms user =>
    refine Ok.append (h' := h) (Ok.append (h' := h) (Ok.append (h' := h) (p := .rd .level :: ms.flatMap (message lvl)) ?_ (ok_message h lvl 1)) (ok_one h _ id (by simp))) ?_
    · exact (ok_one h .level id (by simp)).append (Ok.flatMap _ _ (fun x _ => ok_message h lvl x))
    · cases user with
      | none => exact ((ok_message h lvl 1).append (ok_message h lvl 1)).append (ok_respond h)
      | some cs => exact (ok_message h lvl 1).append (Ok.flatMap _ _ (fun x _ => ok_call h lvl x))

theorem ok_outcome {loose main : Prop} (h : Bool) (lvl : Nat) (c : Outcome) : Ok loose main h (c.instrs lvl) h := by
  cases c with
  | unsupported => exact ok_respond h
  | denied rules => exact ((ok_validate h rules).append (ok_message h lvl 1)).append (ok_respond h)
  | full rules => exact (((ok_validate h rules).append (ok_scan h _)).append (ok_message h lvl 1)).append (ok_respond h)
  | served rules slot headers tokens rest =>
    refine (((((ok_validate h rules).append (ok_scan h slot)).append (ok_setEntry h slot)).append (Ok.replicate headers ?_)).append
      (ok_split h tokens)).append (ok_rest h lvl rest)
    exact (ok_settings h).append (ok_message h lvl 0)

theorem ok_course {loose main : Prop} (h : Bool) (lvl : Nat) (c : Course) : Ok loose main h (c.instrs lvl) h := by
  refine Ok.append (h' := h) (Ok.append (h' := h) (Ok.append (h' := h) (Ok.append (h' := h) (Ok.append (h' := h)
    (p := .rd .settings :: (if c.noTls then message lvl 3 else [])) ?_ (ok_settings h)) (ok_message h lvl 0)) (ok_outcome h lvl c.outcome)) (ok_settings h)) (ok_del h c.entry)
  have h3 : Ok loose main h (if c.noTls then message lvl 3 else []) h := by
    split
    · exact ok_message h lvl 3
    · exact rfl
  exact (ok_settings h).append h3

theorem ok_dequeue {loose main : Prop} (waits : Nat) (wrap : Bool) : Ok loose main false (dequeue waits wrap) false := by
  refine Ok.append (h' := true) (Ok.append (h' := true) (Ok.append (h' := true) (Ok.append (h' := true) ?_ (Ok.replicate waits ?_)) ?_) ?_) ?_
  · simp [Ok, Loc.queue]
  · simp [Ok]
  · simp [Ok, Loc.frozen]
  · cases wrap <;> simp [Ok, Loc.frozen]
  · simp [Ok]

theorem ok_job {loose main : Prop} (lvl : Nat) (j : Job) : Ok loose main false (j.instrs lvl) false :=
  ((ok_dequeue j.waits j.wrap).append (ok_settings false)).append (ok_course false lvl j.course)

theorem ok_allowed {loose : Prop} (lvl : Nat) (first gone : Bool) : Ok loose True false (allowed lvl first gone) false := by
  refine Ok.append (h' := false) (Ok.append (h' := false) (Ok.append (h' := false) (p := .rd .lists :: (if first then [.rd .settings, .wr .lists] else [])) ?_ ?_) ?_) ?_
  · cases first <;> simp [Ok, Loc.queue, Loc.frozen]
  · simp [Ok, Loc.queue]
  · cases gone
    · exact rfl
    · exact ok_message false lvl 4
  · simp [Ok, Loc.queue]

theorem ok_turn {loose : Prop} (lvl : Nat) (c : Turn) : Ok loose True false (c.instrs lvl) false := by
  cases c with
  | denied first gone => exact (ok_allowed lvl first gone).append (ok_message false lvl 1)
  | queued first gone wrap =>
    refine Ok.append (h' := true) (Ok.append (h' := true) ((ok_allowed lvl first gone).append ?_) ?_) ?_
    · simp [Ok, Loc.queue, Loc.frozen]
    · cases wrap <;> simp [Ok, Loc.frozen]
    · simp [Ok, Loc.frozen]
  | dropped first gone =>
    refine Ok.append (h' := true) (Ok.append (h' := true) ((ok_allowed lvl first gone).append ?_) (ok_message true lvl 3)) ?_
    · simp [Ok, Loc.queue]
    · simp [Ok]

theorem plain_message (lvl lv : Nat) : ∀ i ∈ message lvl lv, i.plain := by
  unfold message timestamp
  split <;> simp [Instr.plain]

theorem plain_replicate {p : List Instr} (n : Nat) (h : ∀ i ∈ p, i.plain) : ∀ i ∈ (List.replicate n p).flatten, i.plain := by
  intro i hi
  rw [List.mem_flatten] at hi
  obtain ⟨q, hq, hi⟩ := hi
  rw [List.eq_of_mem_replicate hq] at hi
  exact h i hi

theorem plain_append {p q : List Instr} (h : ∀ i ∈ p, i.plain) (h' : ∀ i ∈ q, i.plain) : ∀ i ∈ p ++ q, i.plain := by
  intro i hi
  rcases List.mem_append.1 hi with hi | hi
  · exact h i hi
  · exact h' i hi

theorem plain_split (n : Nat) : ∀ i ∈ split n, i.plain := by
  unfold split
  refine plain_append (p := [_]) ?_ (plain_replicate n ?_) <;> simp [Instr.plain]

theorem plain_setup (lvl : Nat) (c : Setup) : ∀ i ∈ c.instrs lvl, i.plain := by
  unfold Setup.instrs
  refine plain_append (plain_append (plain_append (plain_append (plain_append (plain_append (plain_append (plain_append (plain_append (plain_append
    (plain_append ?_ ?_) ?_) ?_) ?_) ?_) ?_) ?_) ?_) (plain_message lvl 2)) (plain_message lvl 2)) ?_
  · simp [Instr.plain]
  · refine plain_replicate _ (plain_append (p := [_]) ?_ (plain_message 2 2))
    simp [Instr.plain]
  · simp [Instr.plain]
  · split <;> simp [Instr.plain]
  · refine plain_replicate _ (plain_append (plain_message lvl 1) ?_)
    simp [Instr.plain]
  · simp [Instr.plain]
  · intro i hi
    rw [List.mem_flatMap] at hi
    obtain ⟨k, _, hi⟩ := hi
    simp [setEntry] at hi
    rcases hi with rfl | rfl | rfl <;> trivial
  · refine plain_replicate _ (plain_append (plain_append (plain_split 3) ?_) (plain_message lvl 1))
    simp [Instr.plain]
  · simp [Instr.plain]
  · split
    · exact plain_message lvl 4
    · simp

end Wayuu.Shared
