import Verif.Spec.Tls
/-
C144: whatever the server does for a client, it does to that client's connection, and to nothing else.
-/
namespace Wayuu.Tls
open C Spec

/-- C144 as claimed. At every time, in both modes: nothing undefined can happen to a TLS object (no use after `SSL_free`, no second
`SSL_free`); everything that was done for a client reached that client; what was done for a client is the beginning of a visit. When
nobody is being looked after no TLS object is left, and every client's visit is over, or nothing was done for the client (who found the
queue full, see C66) and the connection is still open. -/
def C144_statement : Prop :=
  ∀ (secure : Bool) (evs : List Ev) (s : S), Runs secure evs s →
    (∀ e f, step secure s e ≠ some (ub f)) ∧
    (∀ t ∈ s.touched, t.reached = some t.meant) ∧
    (∀ k, ∃ rest, Visit secure (opsOf s.touched k ++ rest)) ∧
    (Resting s → (∀ o, s.obj o = none) ∧ ∀ k < s.next,
      (opsOf s.touched k = [] ∧ ∃ fd, s.conn fd = some k) ∨ (Visit secure (opsOf s.touched k) ∧ ∀ fd, s.conn fd ≠ some k))

/-! ### What holds at every time -/

/-- The descriptor and the client of a worker. -/
def Phase.has : Phase → Option (Nat × Nat)
  | .taken fd k => some (fd, k)
  | .made fd k _ => some (fd, k)
  | .bound fd k _ => some (fd, k)
  | .serving fd k _ => some (fd, k)
  | .ended fd k _ => some (fd, k)
  | .freed fd k => some (fd, k)
  | _ => none

/-- The TLS object of a worker, and the descriptor it was given. -/
def Phase.hasObj : Phase → Option (Nat × Option Nat)
  | .made _ _ o => some (o, none)
  | .bound fd _ o => some (o, some fd)
  | .serving fd _ (some o) => some (o, some fd)
  | .ended fd _ o => some (o, some fd)
  | _ => none

/-- What was done for the client of a worker. -/
def Progress (secure : Bool) : Phase → List Op → Prop
  | .taken _ _, l => l = []
  | .made _ _ _, l => secure = true ∧ l = []
  | .bound _ _ _, l => secure = true ∧ l = []
  | .serving _ _ none, l => secure = false ∧ ∃ n, l = List.replicate n .io
  | .serving _ _ (some _), l => secure = true ∧ ∃ n, l = .handshake :: List.replicate n .io
  | .ended _ _ _, l => secure = true ∧ ∃ n, l = .handshake :: List.replicate n .io ++ [.shutdown]
  | .freed _ _, l => secure = true ∧ ∃ n, l = .handshake :: List.replicate n .io ++ [.shutdown]
  | _, _ => True

structure InvC (secure : Bool) (s : S) : Prop where
  lt : ∀ fd k, s.conn fd = some k → k < s.next
  inj : ∀ fd fd' k, s.conn fd = some k → s.conn fd' = some k → fd = fd'
  queue : ∀ p ∈ s.queue, s.conn p.1 = some p.2
  acc : ∀ p, s.accepted = some p → s.conn p.1 = some p.2
  wk : ∀ i p, (s.worker i).has = some p → s.conn p.1 = some p.2
  nodup : (s.queue.map Prod.snd).Nodup
  acc_q : ∀ p, s.accepted = some p → p.2 ∉ s.queue.map Prod.snd
  wk_q : ∀ i p, (s.worker i).has = some p → p.2 ∉ s.queue.map Prod.snd
  wk_acc : ∀ i p q, (s.worker i).has = some p → s.accepted = some q → p.2 ≠ q.2
  wk_wk : ∀ i j p q, (s.worker i).has = some p → (s.worker j).has = some q → p.2 = q.2 → i = j
  right : ∀ t ∈ s.touched, t.reached = some t.meant
  known : ∀ t ∈ s.touched, t.meant < s.next
  prog : ∀ i p, (s.worker i).has = some p → Progress secure (s.worker i) (opsOf s.touched p.2)
  wait_q : ∀ k ∈ s.queue.map Prod.snd, opsOf s.touched k = []
  wait_acc : ∀ p, s.accepted = some p → opsOf s.touched p.2 = []
  rest : ∀ k < s.next, k ∉ s.queue.map Prod.snd → (∀ p, s.accepted = some p → p.2 ≠ k) → (∀ i p, (s.worker i).has = some p → p.2 ≠ k) →
    (opsOf s.touched k = [] ∧ ∃ fd, s.conn fd = some k) ∨ (Visit secure (opsOf s.touched k) ∧ ∀ fd, s.conn fd ≠ some k)

structure InvO (s : S) : Prop where
  obj : ∀ i p, (s.worker i).hasObj = some p → s.obj p.1 = some p.2
  own : ∀ o b, s.obj o = some b → ∃ i, (s.worker i).hasObj = some (o, b)
  one : ∀ i j p q, (s.worker i).hasObj = some p → (s.worker j).hasObj = some q → p.1 = q.1 → i = j

theorem opsOf_append (ts us : List Touch) (k : Nat) : opsOf (ts ++ us) k = opsOf ts k ++ opsOf us k := by
  simp [opsOf]

theorem opsOf_one_same (op : Op) (k : Nat) (r : Option Nat) : opsOf [⟨op, k, r⟩] k = [op] := by simp [opsOf]

theorem opsOf_one_other {op : Op} {k k' : Nat} {r : Option Nat} (h : k' ≠ k) : opsOf [⟨op, k', r⟩] k = [] := by
  simp [opsOf, h]

theorem opsOf_new {ts : List Touch} {n : Nat} (h : ∀ t ∈ ts, t.meant < n) {k : Nat} (hk : n ≤ k) : opsOf ts k = [] := by
  unfold opsOf
  rw [List.filter_eq_nil_iff.mpr]
  · rfl
  · intro t ht
    have := h t ht
    simp
    omega

@[simp] theorem set_same {α : Type} (f : Nat → α) (i : Nat) (a : α) : set f i a i = a := by simp [set]

theorem set_other {α : Type} (f : Nat → α) {i j : Nat} (a : α) (h : j ≠ i) : set f i a j = f j := by simp [set, h]

theorem set_cases {α : Type} (f : Nat → α) (i : Nat) (a : α) (j : Nat) (b : α) (h : set f i a j = b) :
    (j = i ∧ a = b) ∨ (j ≠ i ∧ f j = b) := by
  by_cases e : j = i
  · subst e; left; exact ⟨rfl, by simpa using h⟩
  · right; exact ⟨e, by rwa [set_other f a e] at h⟩

theorem InvC.start (secure : Bool) : InvC secure start := by
  constructor <;> simp [Tls.start, Phase.has, opsOf]

theorem InvO.start : InvO start := by
  constructor <;> simp [Tls.start, Phase.hasObj]

/-- A worker goes on with the connection it has and does `ts` to it. -/
theorem InvC.goes {secure : Bool} {s s' : S} (h : InvC secure s) {i : Nat} {ph : Phase} {p : Nat × Nat} {ops : List Op}
    (hp : (s.worker i).has = some p) (hph : ph.has = some p) (hprog : Progress secure ph (opsOf s.touched p.2 ++ ops))
    (e1 : s'.conn = s.conn) (e2 : s'.next = s.next) (e3 : s'.accepted = s.accepted) (e4 : s'.queue = s.queue)
    (e5 : s'.worker = set s.worker i ph) (e6 : s'.touched = s.touched ++ ops.map (fun op => ⟨op, p.2, some p.2⟩)) :
    InvC secure s' := by
  have hhas : ∀ j, (s'.worker j).has = (s.worker j).has := by
    intro j
    rw [e5]
    by_cases e : j = i
    · subst e; rw [set_same, hph, hp]
    · rw [set_other _ _ e]
  have hsame : opsOf s'.touched p.2 = opsOf s.touched p.2 ++ ops := by
    rw [e6, opsOf_append]
    congr 1
    simp [opsOf, List.filter_map, Function.comp_def]
  have hother : ∀ k, k ≠ p.2 → opsOf s'.touched k = opsOf s.touched k := by
    intro k hk
    rw [e6, opsOf_append]
    have : opsOf (ops.map (fun op => (⟨op, p.2, some p.2⟩ : Touch))) k = [] := by
      unfold opsOf
      rw [List.filter_eq_nil_iff.mpr]
      · rfl
      · intro t ht
        obtain ⟨op, -, rfl⟩ := List.mem_map.mp ht
        simpa using fun e => hk e.symm
    rw [this, List.append_nil]
  have hnq := h.wk_q i p hp
  constructor
  · rw [e1, e2]; exact h.lt
  · rw [e1]; exact h.inj
  · rw [e1, e4]; exact h.queue
  · rw [e1, e3]; exact h.acc
  · intro j q hq; rw [e1]; rw [hhas] at hq; exact h.wk j q hq
  · rw [e4]; exact h.nodup
  · rw [e3, e4]; exact h.acc_q
  · intro j q hq; rw [hhas] at hq; rw [e4]; exact h.wk_q j q hq
  · intro j q r hq; rw [hhas] at hq; rw [e3]; exact h.wk_acc j q r hq
  · intro j j' q r hq hr; rw [hhas] at hq hr; exact h.wk_wk j j' q r hq hr
  · intro t ht
    rw [e6] at ht
    rcases List.mem_append.mp ht with ht | ht
    · exact h.right t ht
    · obtain ⟨op, -, rfl⟩ := List.mem_map.mp ht; rfl
  · intro t ht
    rw [e6] at ht
    rw [e2]
    rcases List.mem_append.mp ht with ht | ht
    · exact h.known t ht
    · obtain ⟨op, -, rfl⟩ := List.mem_map.mp ht
      exact h.lt _ _ (h.wk i p hp)
  · intro j q hq
    rw [hhas] at hq
    rw [e5]
    by_cases e : j = i
    · subst e
      rw [hp] at hq
      cases hq
      rw [set_same, hsame]
      exact hprog
    · rw [set_other _ _ e, hother]
      · exact h.prog j q hq
      · exact fun e' => e (h.wk_wk j i q p hq hp e')
  · intro k hk
    rw [e4] at hk
    rw [hother k (fun e => hnq (e ▸ hk))]
    exact h.wait_q k hk
  · intro q hq
    rw [e3] at hq
    rw [hother q.2 (fun e => h.wk_acc i p q hp hq e.symm)]
    exact h.wait_acc q hq
  · intro k hk h1 h2 h3
    rw [e2] at hk
    rw [e4] at h1
    rw [e3] at h2
    have h3' : ∀ j q, (s.worker j).has = some q → q.2 ≠ k := fun j q hq => h3 j q (by rw [hhas]; exact hq)
    rw [hother k (fun e => h3' i p hp e.symm), e1]
    exact h.rest k hk h1 h2 h3'

/-- A connection is closed, by the worker who has it or by the accepting thread. -/
theorem InvC.close {secure : Bool} {s s' : S} (h : InvC secure s) {p : Nat × Nat} (hc : s.conn p.1 = some p.2)
    (hq : p.2 ∉ s.queue.map Prod.snd) (hacc : ∀ q, s'.accepted = some q → s.accepted = some q ∧ q.2 ≠ p.2)
    (hacc' : ∀ q, s.accepted = some q → q.2 ≠ p.2 → s'.accepted = some q)
    (hwk : ∀ j q, (s'.worker j).has = some q → s'.worker j = s.worker j ∧ q.2 ≠ p.2)
    (hwk' : ∀ j q, (s.worker j).has = some q → q.2 ≠ p.2 → (s'.worker j).has = some q)
    (hv : Visit secure (opsOf s.touched p.2 ++ [.close]))
    (e1 : s'.conn = set s.conn p.1 none) (e2 : s'.next = s.next) (e4 : s'.queue = s.queue)
    (e6 : s'.touched = s.touched ++ [⟨.close, p.2, some p.2⟩]) : InvC secure s' := by
  have hconn : ∀ fd k, s'.conn fd = some k ↔ s.conn fd = some k ∧ k ≠ p.2 := by
    intro fd k
    rw [e1]
    by_cases e : fd = p.1
    · subst e
      rw [set_same, hc]
      constructor
      · intro h; cases h
      · rintro ⟨h1, h2⟩; cases h1; exact absurd rfl h2
    · rw [set_other _ _ e]
      refine ⟨fun h1 => ⟨h1, ?_⟩, fun h1 => h1.1⟩
      rintro rfl
      exact e (h.inj _ _ _ h1 hc)
  have hsame : opsOf s'.touched p.2 = opsOf s.touched p.2 ++ [.close] := by
    rw [e6, opsOf_append, opsOf_one_same]
  have hother : ∀ k, k ≠ p.2 → opsOf s'.touched k = opsOf s.touched k := by
    intro k hk
    rw [e6, opsOf_append, opsOf_one_other (Ne.symm hk), List.append_nil]
  constructor
  · intro fd k hk; rw [e2]; exact h.lt fd k ((hconn fd k).mp hk).1
  · intro fd fd' k h1 h2; exact h.inj fd fd' k ((hconn _ _).mp h1).1 ((hconn _ _).mp h2).1
  · intro q hq'
    rw [e4] at hq'
    exact (hconn _ _).mpr ⟨h.queue q hq', fun e => hq (e ▸ List.mem_map_of_mem hq')⟩
  · intro q hq'
    exact (hconn _ _).mpr ⟨h.acc q (hacc q hq').1, (hacc q hq').2⟩
  · intro j q hq'
    obtain ⟨e, hne⟩ := hwk j q hq'
    exact (hconn _ _).mpr ⟨h.wk j q (e ▸ hq'), hne⟩
  · rw [e4]; exact h.nodup
  · intro q hq'; rw [e4]; exact h.acc_q q (hacc q hq').1
  · intro j q hq'; rw [e4]; exact h.wk_q j q ((hwk j q hq').1 ▸ hq')
  · intro j q r hq' hr; exact h.wk_acc j q r ((hwk j q hq').1 ▸ hq') (hacc r hr).1
  · intro j j' q r hq' hr e; exact h.wk_wk j j' q r ((hwk j q hq').1 ▸ hq') ((hwk j' r hr).1 ▸ hr) e
  · intro t ht
    rw [e6] at ht
    rcases List.mem_append.mp ht with ht | ht
    · exact h.right t ht
    · rw [List.mem_singleton.mp ht]
  · intro t ht
    rw [e6] at ht
    rw [e2]
    rcases List.mem_append.mp ht with ht | ht
    · exact h.known t ht
    · rw [List.mem_singleton.mp ht]; exact h.lt _ _ hc
  · intro j q hq'
    obtain ⟨e, hne⟩ := hwk j q hq'
    rw [hother _ hne]
    rw [e] at hq' ⊢
    exact h.prog j q hq'
  · intro k hk
    rw [e4] at hk
    rw [hother k (fun e => hq (e ▸ hk))]
    exact h.wait_q k hk
  · intro q hq'
    rw [hother _ (hacc q hq').2]
    exact h.wait_acc q (hacc q hq').1
  · intro k hk h1 h2 h3
    rw [e2] at hk
    rw [e4] at h1
    by_cases e : k = p.2
    · subst e
      right
      rw [hsame]
      exact ⟨hv, fun fd hf => ((hconn fd _).mp hf).2 rfl⟩
    · rw [hother k e]
      rcases h.rest k hk h1
        (fun q hq' e' => h2 q (hacc' q hq' (e' ▸ e)) e')
        (fun j q hq' e' => h3 j q (hwk' j q hq' (e' ▸ e)) e') with ⟨h4, fd, h5⟩ | ⟨h4, h5⟩
      · exact Or.inl ⟨h4, fd, (hconn fd k).mpr ⟨h5, e⟩⟩
      · exact Or.inr ⟨h4, fun fd hf => h5 fd ((hconn fd k).mp hf).1⟩

/-- Whom a worker reaches. -/
theorem reach_own {secure : Bool} {s : S} (h : InvC secure s) (ho : InvO s) {i fd k : Nat} {o : Option Nat}
    (hp : (s.worker i).has = some (fd, k)) (hobj : ∀ x, o = some x → (s.worker i).hasObj = some (x, some fd)) :
    reach s fd o = ok (some k) := by
  cases o with
  | none => show ok (s.conn fd) = _; rw [h.wk i _ hp]
  | some x =>
    have e : s.obj x = some (some fd) := ho.obj i _ (hobj x rfl)
    simp only [reach, e]
    rw [h.wk i _ hp]

/-- Objects: a worker changes its phase but not its object. -/
theorem InvO.keeps {s s' : S} (h : InvO s) (e1 : s'.obj = s.obj) (e2 : ∀ j, (s'.worker j).hasObj = (s.worker j).hasObj) : InvO s' := by
  constructor
  · intro i p hp; rw [e2] at hp; rw [e1]; exact h.obj i p hp
  · intro o b hb; rw [e1] at hb; obtain ⟨i, hi⟩ := h.own o b hb; exact ⟨i, by rw [e2]; exact hi⟩
  · intro i j p q hp hq; rw [e2] at hp hq; exact h.one i j p q hp hq

theorem hasObj_set {s : S} {i : Nat} {ph : Phase} (h : ph.hasObj = (s.worker i).hasObj) (j : Nat) :
    (set s.worker i ph j).hasObj = (s.worker j).hasObj := by
  by_cases e : j = i
  · subst e; rw [set_same, h]
  · rw [set_other _ _ e]

/-- Objects: the change of one worker's object. -/
theorem InvO.change {s s' : S} (h : InvO s) {i o : Nat} {b : Option (Option Nat)} {ph : Phase}
    (hi : ∀ p, (s.worker i).hasObj = some p → p.1 = o) (hfree : s.obj o = none ∨ ∃ p, (s.worker i).hasObj = some p)
    (hph : ph.hasObj = b.map (fun x => (o, x))) (e1 : s'.obj = set s.obj o b) (e2 : s'.worker = set s.worker i ph) : InvO s' := by
  have hno : ∀ j p, j ≠ i → (s.worker j).hasObj = some p → p.1 ≠ o := by
    intro j p hj hp e
    rcases hfree with hf | ⟨q, hq⟩
    · rw [← e, h.obj j p hp] at hf; cases hf
    · exact hj (h.one j i p q hp hq (e.trans (hi q hq).symm))
  constructor
  · intro j p hp
    rw [e2] at hp
    rw [e1]
    by_cases e : j = i
    · subst e
      rw [set_same, hph] at hp
      obtain ⟨x, rfl, rfl⟩ := Option.map_eq_some_iff.mp hp
      rw [set_same]
    · rw [set_other _ _ e] at hp
      rw [set_other _ _ (hno j p e hp)]
      exact h.obj j p hp
  · intro o' b' hb
    rw [e1] at hb
    rw [e2]
    by_cases e : o' = o
    · subst e
      rw [set_same] at hb
      subst hb
      exact ⟨i, by rw [set_same, hph]; rfl⟩
    · rw [set_other _ _ e] at hb
      obtain ⟨j, hj⟩ := h.own o' b' hb
      refine ⟨j, ?_⟩
      by_cases e' : j = i
      · subst e'; exact absurd (hi _ hj) e
      · rw [set_other _ _ e']; exact hj
  · intro j j' p q hp hq epq
    rw [e2] at hp hq
    by_cases e : j = i <;> by_cases e' : j' = i
    · rw [e, e']
    · subst e
      rw [set_same, hph] at hp
      rw [set_other _ _ e'] at hq
      obtain ⟨x, -, rfl⟩ := Option.map_eq_some_iff.mp hp
      exact absurd epq.symm (hno j' q e' hq)
    · subst e'
      rw [set_same, hph] at hq
      rw [set_other _ _ e] at hp
      obtain ⟨x, -, rfl⟩ := Option.map_eq_some_iff.mp hq
      exact absurd epq (hno j p e hp)
    · rw [set_other _ _ e] at hp
      rw [set_other _ _ e'] at hq
      exact h.one j j' p q hp hq epq

/-- The worker's connection is gone from the workers. -/
theorem has_closed {s : S} {i : Nat} {ph : Phase} (hph : ph.has = none) (j : Nat) (q : Nat × Nat)
    (h : (set s.worker i ph j).has = some q) : set s.worker i ph j = s.worker j ∧ j ≠ i := by
  by_cases e : j = i
  · subst e; rw [set_same, hph] at h; cases h
  · exact ⟨set_other _ _ e, e⟩

theorem InvC.close_worker {secure : Bool} {s : S} (h : InvC secure s) {i fd k : Nat} {ph : Phase} (hp : (s.worker i).has = some (fd, k))
    (hph : ph.has = none) (hv : Visit secure (opsOf s.touched k ++ [.close])) :
    InvC secure { s with
      conn := set s.conn fd none
      worker := set s.worker i ph
      touched := s.touched ++ [⟨.close, k, s.conn fd⟩] } := by
  have hc := h.wk i _ hp
  simp only at hc
  refine h.close (p := (fd, k)) hc (h.wk_q i _ hp) ?_ ?_ ?_ ?_ hv rfl rfl rfl (by rw [hc])
  · intro q hq
    exact ⟨hq, (h.wk_acc i _ q hp hq).symm⟩
  · intro q hq _
    exact hq
  · intro j q hq
    obtain ⟨e, hj⟩ := has_closed hph j q hq
    refine ⟨e, fun e' => hj (h.wk_wk j i q (fd, k) ?_ hp e')⟩
    rw [← e]; exact hq
  · intro j q hq hne
    show (set s.worker i ph j).has = some q
    rw [set_other]
    · exact hq
    · rintro rfl
      rw [hp] at hq
      cases hq
      exact hne rfl

theorem step_inv {secure : Bool} {s s' : S} {e : Ev} (h : InvC secure s) (ho : InvO s) (hs : step secure s e = some (ok s')) :
    InvC secure s' ∧ InvO s' := by
  cases e with
  | accept fd =>
    simp only [step] at hs
    split at hs
    · rename_i h1 h2
      cases hs
      refine ⟨?_, ho.keeps rfl (fun _ => rfl)⟩
      have hconn : ∀ fd' k, set s.conn fd (some s.next) fd' = some k ↔ (fd' = fd ∧ k = s.next) ∨ (s.conn fd' = some k) := by
        intro fd' k
        by_cases e : fd' = fd
        · subst e; rw [set_same, h2]; simp [eq_comm]
        · rw [set_other _ _ e]; simp [e]
      constructor
      · intro fd' k hk
        show k < s.next + 1
        rcases (hconn fd' k).mp hk with ⟨-, rfl⟩ | h3
        · omega
        · have := h.lt _ _ h3; omega
      · intro f f' k hk hk'
        rcases (hconn f k).mp hk with ⟨rfl, rfl⟩ | h3 <;> rcases (hconn f' _).mp hk' with ⟨rfl, h5⟩ | h4
        · rfl
        · exact absurd (h.lt _ _ h4) (Nat.lt_irrefl _)
        · subst h5; exact absurd (h.lt _ _ h3) (Nat.lt_irrefl _)
        · exact h.inj _ _ _ h3 h4
      · exact fun p hp => (hconn _ _).mpr (Or.inr (h.queue p hp))
      · intro p hp
        cases hp
        exact (hconn _ _).mpr (Or.inl ⟨rfl, rfl⟩)
      · exact fun i p hp => (hconn _ _).mpr (Or.inr (h.wk i p hp))
      · exact h.nodup
      · intro p hp hm
        cases hp
        obtain ⟨q, hq, e⟩ := List.mem_map.mp hm
        have := h.lt _ _ (h.queue q hq)
        rw [e] at this
        exact Nat.lt_irrefl _ this
      · exact h.wk_q
      · intro i p q hp hq e
        cases hq
        have := h.lt _ _ (h.wk i p hp)
        rw [e] at this
        exact Nat.lt_irrefl _ this
      · exact h.wk_wk
      · exact h.right
      · exact fun t ht => Nat.lt_succ_of_lt (h.known t ht)
      · exact h.prog
      · exact h.wait_q
      · intro p hp
        cases hp
        exact opsOf_new h.known (Nat.le_refl _)
      · intro k hk h3 h4 h5
        have hne : k ≠ s.next := fun e => h4 (fd, s.next) rfl e.symm
        have hk' : k < s.next := by
          have : k < s.next + 1 := hk
          omega
        rcases h.rest k hk' h3 (fun p hp => by rw [h1] at hp; cases hp) h5 with ⟨h6, f, h7⟩ | ⟨h6, h7⟩
        · exact Or.inl ⟨h6, f, (hconn _ _).mpr (Or.inr h7)⟩
        · refine Or.inr ⟨h6, fun f hf => ?_⟩
          rcases (hconn _ _).mp hf with ⟨-, h8⟩ | h8
          · exact hne h8
          · exact h7 f h8
    · cases hs
  | deny =>
    simp only [step] at hs
    split at hs
    · rename_i fd k h1
      cases hs
      refine ⟨?_, ho.keeps rfl (fun _ => rfl)⟩
      have hc := h.acc _ h1
      simp only at hc
      refine h.close (p := (fd, k)) hc (h.acc_q _ h1) ?_ ?_ ?_ ?_ ?_ rfl rfl rfl (by rw [hc])
      · intro q hq; cases hq
      · intro q hq hne; rw [h1] at hq; cases hq; exact absurd rfl hne
      · exact fun j q hq => ⟨rfl, h.wk_acc j q _ hq h1⟩
      · exact fun j q hq _ => hq
      · have : opsOf s.touched k = [] := h.wait_acc _ h1
        rw [this]
        exact .denied secure
    · cases hs
  | put =>
    simp only [step] at hs
    split at hs
    · rename_i p h1
      cases hs
      refine ⟨?_, ho.keeps rfl (fun _ => rfl)⟩
      have hmem : ∀ k, k ∈ (s.queue ++ [p]).map Prod.snd ↔ k ∈ s.queue.map Prod.snd ∨ k = p.2 := by
        intro k; simp
      constructor
      · exact h.lt
      · exact h.inj
      · intro q hq
        rcases List.mem_append.mp hq with hq | hq
        · exact h.queue q hq
        · rw [List.mem_singleton.mp hq]; exact h.acc p h1
      · intro q hq; cases hq
      · exact h.wk
      · show ((s.queue ++ [p]).map Prod.snd).Nodup
        rw [List.map_append, List.nodup_append]
        refine ⟨h.nodup, by simp, ?_⟩
        intro a ha b hb e
        simp at hb
        exact h.acc_q p h1 (hb ▸ e ▸ ha)
      · intro q hq; cases hq
      · intro i q hq hm
        rcases (hmem _).mp hm with hm | hm
        · exact h.wk_q i q hq hm
        · exact h.wk_acc i q p hq h1 hm
      · intro i q r _ hr; cases hr
      · exact h.wk_wk
      · exact h.right
      · exact h.known
      · exact h.prog
      · intro k hk
        rcases (hmem _).mp hk with hk | rfl
        · exact h.wait_q k hk
        · exact h.wait_acc p h1
      · intro q hq; cases hq
      · intro k hk h3 _ h5
        refine h.rest k hk (fun hm => h3 ((hmem _).mpr (Or.inl hm))) ?_ h5
        intro q hq e
        rw [h1] at hq
        cases hq
        exact h3 ((hmem _).mpr (Or.inr e.symm))
    · cases hs
  | drop =>
    simp only [step] at hs
    split at hs
    · rename_i p h1
      cases hs
      refine ⟨?_, ho.keeps rfl (fun _ => rfl)⟩
      constructor
      · exact h.lt
      · exact h.inj
      · exact h.queue
      · intro q hq; cases hq
      · exact h.wk
      · exact h.nodup
      · intro q hq; cases hq
      · exact h.wk_q
      · intro i q r _ hr; cases hr
      · exact h.wk_wk
      · exact h.right
      · exact h.known
      · exact h.prog
      · exact h.wait_q
      · intro q hq; cases hq
      · intro k hk h3 _ h5
        by_cases e : p.2 = k
        · subst e
          exact Or.inl ⟨h.wait_acc p h1, p.1, h.acc p h1⟩
        · exact h.rest k hk h3 (fun q hq e' => by rw [h1] at hq; cases hq; exact e e') h5
    · cases hs
  | take i =>
    simp only [step] at hs
    split at hs
    · rename_i p q h1 h2
      cases hs
      refine ⟨?_, ho.keeps rfl (hasObj_set (by rw [h1]; rfl))⟩
      have hhas : ∀ j r, (set s.worker i (.taken p.1 p.2) j).has = some r → (j = i ∧ r = p) ∨ (j ≠ i ∧ (s.worker j).has = some r) := by
        intro j r hr
        by_cases e : j = i
        · subst e; rw [set_same] at hr; left; exact ⟨rfl, by cases hr; rfl⟩
        · rw [set_other _ _ e] at hr; exact Or.inr ⟨e, hr⟩
      have hp : p ∈ s.queue := by rw [h2]; simp
      have hpm : p.2 ∈ s.queue.map Prod.snd := List.mem_map_of_mem hp
      have hsub : ∀ k, k ∈ q.map Prod.snd → k ∈ s.queue.map Prod.snd := by intro k hk; rw [h2]; exact List.mem_cons_of_mem _ hk
      have hnd := h.nodup
      rw [h2, List.map_cons, List.nodup_cons] at hnd
      constructor
      · exact h.lt
      · exact h.inj
      · intro r hr; exact h.queue r (by rw [h2]; exact List.mem_cons_of_mem _ hr)
      · exact h.acc
      · intro j r hr
        rcases hhas j r hr with ⟨-, rfl⟩ | ⟨-, hr⟩
        · exact h.queue _ hp
        · exact h.wk j r hr
      · exact hnd.2
      · exact fun r hr hm => h.acc_q r hr (hsub _ hm)
      · intro j r hr hm
        rcases hhas j r hr with ⟨-, rfl⟩ | ⟨-, hr⟩
        · exact hnd.1 hm
        · exact h.wk_q j r hr (hsub _ hm)
      · intro j r t hr ht e
        rcases hhas j r hr with ⟨-, rfl⟩ | ⟨-, hr⟩
        · exact h.acc_q t ht (e ▸ hpm)
        · exact h.wk_acc j r t hr ht e
      · intro j j' r t hr ht e
        rcases hhas j r hr with ⟨rfl, rfl⟩ | ⟨-, hr'⟩ <;> rcases hhas j' t ht with ⟨rfl, rfl⟩ | ⟨-, ht'⟩
        · rfl
        · exact absurd (e ▸ hpm) (h.wk_q j' t ht')
        · exact absurd (e ▸ hpm) (h.wk_q j r hr')
        · exact h.wk_wk j j' r t hr' ht' e
      · exact h.right
      · exact h.known
      · intro j r hr
        rcases hhas j r hr with ⟨rfl, rfl⟩ | ⟨hj, hr⟩
        · show Progress secure (set s.worker j _ j) _
          rw [set_same]
          exact h.wait_q _ hpm
        · show Progress secure (set s.worker i _ j) _
          rw [set_other _ _ hj]
          exact h.prog j r hr
      · exact fun k hk => h.wait_q k (hsub k hk)
      · exact h.wait_acc
      · intro k hk h3 h4 h5
        have hk' : k ≠ p.2 := by
          rintro rfl
          exact h5 i p (by show (set s.worker i _ i).has = _; rw [set_same]; rfl) rfl
        refine h.rest k hk ?_ h4 ?_
        · intro hm
          rw [h2, List.map_cons] at hm
          rcases List.mem_cons.mp hm with hm | hm
          · exact hk' hm
          · exact h3 hm
        · intro j r hr
          refine h5 j r ?_
          show (set s.worker i _ j).has = some r
          rw [set_other]
          · exact hr
          · rintro rfl
            rw [h1] at hr
            cases hr
    · cases hs
  | plain i =>
    simp only [step] at hs
    split at hs
    · rename_i fd k h1
      split at hs
      · cases hs
      · rename_i hsec
        cases hs
        have hpr := h.prog i (fd, k) (by rw [h1]; rfl)
        rw [h1] at hpr
        refine ⟨h.goes (p := (fd, k)) (ops := []) (by rw [h1]; rfl) rfl ?_ rfl rfl rfl rfl rfl (by simp), ho.keeps rfl (hasObj_set (by rw [h1]; rfl))⟩
        refine ⟨by simpa using hsec, 0, ?_⟩
        rw [List.append_nil]
        exact hpr
    · cases hs
  | new i o =>
    simp only [step] at hs
    split at hs
    · rename_i fd k h1 h2
      split at hs
      · rename_i hsec
        cases hs
        have hpr := h.prog i (fd, k) (by rw [h1]; rfl)
        rw [h1] at hpr
        refine ⟨h.goes (p := (fd, k)) (ops := []) (by rw [h1]; rfl) rfl ?_ rfl rfl rfl rfl rfl (by simp), ?_⟩
        · refine ⟨hsec, ?_⟩
          rw [List.append_nil]
          exact hpr
        · exact ho.change (i := i) (o := o) (b := some none) (by rw [h1]; intro p hp; cases hp) (Or.inl h2) rfl rfl rfl
      · cases hs
    · cases hs
  | setFd i =>
    simp only [step] at hs
    split at hs
    · rename_i fd k o h1
      split at hs
      · cases hs
      · cases hs
        have hpr := h.prog i (fd, k) (by rw [h1]; rfl)
        rw [h1] at hpr
        refine ⟨h.goes (p := (fd, k)) (ops := []) (by rw [h1]; rfl) rfl ?_ rfl rfl rfl rfl rfl (by simp), ?_⟩
        · rw [List.append_nil]
          exact hpr
        · exact ho.change (i := i) (o := o) (b := some (some fd)) (by rw [h1]; intro p hp; cases hp; rfl)
            (Or.inr ⟨_, by rw [h1]; rfl⟩) rfl rfl rfl
    · cases hs
  | handshake i =>
    simp only [step] at hs
    split at hs
    · rename_i fd k o h1
      rw [reach_own h ho (i := i) (k := k) (by rw [h1]; rfl) (by rw [h1]; intro x hx; cases hx; rfl)] at hs
      cases hs
      have hpr := h.prog i (fd, k) (by rw [h1]; rfl)
      rw [h1] at hpr
      refine ⟨h.goes (p := (fd, k)) (ops := [.handshake]) (by rw [h1]; rfl) rfl ?_ rfl rfl rfl rfl rfl rfl, ho.keeps rfl (hasObj_set (by rw [h1]; rfl))⟩
      refine ⟨hpr.1, 0, ?_⟩
      rw [hpr.2]
      rfl
    · cases hs
  | io i =>
    simp only [step] at hs
    split at hs
    · rename_i fd k o h1
      rw [reach_own h ho (i := i) (k := k) (by rw [h1]; rfl) (by rw [h1]; intro x hx; cases hx; rfl)] at hs
      cases hs
      have hpr := h.prog i (fd, k) (by rw [h1]; rfl)
      rw [h1] at hpr
      refine ⟨h.goes (i := i) (p := (fd, k)) (ops := [.io]) (by rw [h1]; rfl) (ph := .serving fd k o) rfl ?_ rfl rfl rfl rfl ?_ rfl, ho.keeps rfl (fun _ => rfl)⟩
      · cases o with
        | none =>
          obtain ⟨hsec, n, hn⟩ := hpr
          exact ⟨hsec, n + 1, by rw [hn, List.replicate_succ']⟩
        | some o =>
          obtain ⟨hsec, n, hn⟩ := hpr
          exact ⟨hsec, n + 1, by rw [hn, List.replicate_succ']; rfl⟩
      · funext j
        by_cases e : j = i
        · subst e; rw [set_same, h1]
        · rw [set_other _ _ e]
    · cases hs
  | shutdown i =>
    simp only [step] at hs
    split at hs
    · rename_i fd k o h1
      rw [reach_own h ho (i := i) (k := k) (by rw [h1]; rfl) (by rw [h1]; intro x hx; cases hx; rfl)] at hs
      cases hs
      have hpr := h.prog i (fd, k) (by rw [h1]; rfl)
      rw [h1] at hpr
      refine ⟨h.goes (p := (fd, k)) (ops := [.shutdown]) (by rw [h1]; rfl) rfl ?_ rfl rfl rfl rfl rfl rfl, ho.keeps rfl (hasObj_set (by rw [h1]; rfl))⟩
      obtain ⟨hsec, n, hn⟩ := hpr
      exact ⟨hsec, n, by rw [hn]⟩
    · cases hs
  | free i =>
    simp only [step] at hs
    split at hs
    · rename_i fd k o h1
      split at hs
      · cases hs
      · cases hs
        have hpr := h.prog i (fd, k) (by rw [h1]; rfl)
        rw [h1] at hpr
        refine ⟨h.goes (p := (fd, k)) (ops := []) (by rw [h1]; rfl) rfl ?_ rfl rfl rfl rfl rfl (by simp), ?_⟩
        · rw [List.append_nil]
          exact hpr
        · exact ho.change (i := i) (o := o) (b := none) (by rw [h1]; intro p hp; cases hp; rfl)
            (Or.inr ⟨_, by rw [h1]; rfl⟩) rfl rfl rfl
    · cases hs
  | close i =>
    simp only [step] at hs
    split at hs
    · rename_i fd k h1
      cases hs
      have hpr := h.prog i (fd, k) (by rw [h1]; rfl)
      rw [h1] at hpr
      obtain ⟨hsec, n, hn⟩ := hpr
      refine ⟨h.close_worker (by rw [h1]; rfl) rfl ?_, ho.keeps rfl (hasObj_set (by rw [h1]; rfl))⟩
      simp only at hn
      rw [hn, hsec]
      exact .plain n
    · rename_i fd k h1
      cases hs
      have hpr := h.prog i (fd, k) (by rw [h1]; rfl)
      rw [h1] at hpr
      obtain ⟨hsec, n, hn⟩ := hpr
      refine ⟨h.close_worker (by rw [h1]; rfl) rfl ?_, ho.keeps rfl (hasObj_set (by rw [h1]; rfl))⟩
      simp only at hn
      rw [hn, hsec]
      have := Visit.secure n
      simpa using this
    · cases hs
  | del i =>
    simp only [step] at hs
    split at hs
    · rename_i fd h1
      cases hs
      refine ⟨?_, ho.keeps rfl (hasObj_set (by rw [h1]; rfl))⟩
      have hhas : ∀ j, (set s.worker i .idle j).has = (s.worker j).has := by
        intro j
        by_cases e : j = i
        · subst e; rw [set_same, h1]; rfl
        · rw [set_other _ _ e]
      constructor
      · exact h.lt
      · exact h.inj
      · exact h.queue
      · exact h.acc
      · intro j p hp; exact h.wk j p (by rw [← hhas]; exact hp)
      · exact h.nodup
      · exact h.acc_q
      · intro j p hp; exact h.wk_q j p (by rw [← hhas]; exact hp)
      · intro j p q hp; exact h.wk_acc j p q (by rw [← hhas]; exact hp)
      · intro j j' p q hp hq; exact h.wk_wk j j' p q (by rw [← hhas]; exact hp) (by rw [← hhas]; exact hq)
      · exact h.right
      · exact h.known
      · intro j p hp
        have hp' : (s.worker j).has = some p := by rw [← hhas]; exact hp
        show Progress secure (set s.worker i .idle j) _
        rw [set_other]
        · exact h.prog j p hp'
        · rintro rfl; rw [h1] at hp'; cases hp'
      · exact h.wait_q
      · exact h.wait_acc
      · intro k hk h3 h4 h5
        exact h.rest k hk h3 h4 (fun j p hp => h5 j p (by show (set s.worker i .idle j).has = _; rw [hhas]; exact hp))
    · cases hs

theorem inv_of_runs {secure : Bool} {evs : List Ev} {s : S} (h : Runs secure evs s) : InvC secure s ∧ InvO s := by
  induction h with
  | nil => exact ⟨.start secure, .start⟩
  | snoc _ hs ih => exact step_inv ih.1 ih.2 hs

/-! ### C144 -/

theorem C144_defined {secure : Bool} {evs : List Ev} {s : S} (h : Runs secure evs s) (e : Ev) (f : Fault) :
    step secure s e ≠ some (ub f) := by
  obtain ⟨hc, ho⟩ := inv_of_runs h
  intro hs
  cases e <;> simp only [step] at hs <;> (repeat' split at hs) <;> (try cases hs; done)
  · rename_i fd k o h1 _ h2
    have := ho.obj _ (o, none) (by rw [h1]; rfl)
    rw [h2] at this
    cases this
  · rename_i fd k o h1
    rw [reach_own hc ho (k := k) (by rw [h1]; rfl) (by rw [h1]; intro x hx; cases hx; rfl)] at hs
    cases hs
  · rename_i fd k o h1
    rw [reach_own hc ho (k := k) (by rw [h1]; rfl) (by rw [h1]; intro x hx; cases hx; rfl)] at hs
    cases hs
  · rename_i fd k o h1
    rw [reach_own hc ho (k := k) (by rw [h1]; rfl) (by rw [h1]; intro x hx; cases hx; rfl)] at hs
    cases hs
  · rename_i fd k o h1 _ h2
    have := ho.obj _ (o, some fd) (by rw [h1]; rfl)
    rw [h2] at this
    cases this

theorem C144_own {secure : Bool} {evs : List Ev} {s : S} (h : Runs secure evs s) : ∀ t ∈ s.touched, t.reached = some t.meant :=
  (inv_of_runs h).1.right

theorem C144_order {secure : Bool} {evs : List Ev} {s : S} (h : Runs secure evs s) (k : Nat) :
    ∃ rest, Visit secure (opsOf s.touched k ++ rest) := by
  obtain ⟨hc, -⟩ := inv_of_runs h
  have hnil : opsOf s.touched k = [] → ∃ rest, Visit secure (opsOf s.touched k ++ rest) := by
    intro e; rw [e]; exact ⟨_, .denied secure⟩
  rcases Nat.lt_or_ge k s.next with hk | hk
  case inr => exact hnil (opsOf_new hc.known hk)
  by_cases hq : k ∈ s.queue.map Prod.snd
  · exact hnil (hc.wait_q k hq)
  by_cases ha : ∃ p, s.accepted = some p ∧ p.2 = k
  · obtain ⟨p, hp, rfl⟩ := ha
    exact hnil (hc.wait_acc p hp)
  by_cases hw : ∃ i p, (s.worker i).has = some p ∧ p.2 = k
  · obtain ⟨i, p, hp, rfl⟩ := hw
    have hpr := hc.prog i p hp
    revert hp hpr
    cases s.worker i with
    | idle => intro hp; cases hp
    | closed fd => intro hp; cases hp
    | taken fd k => exact fun _ h => hnil h
    | made fd k o => exact fun _ h => hnil h.2
    | bound fd k o => exact fun _ h => hnil h.2
    | serving fd k o =>
      cases o with
      | none =>
        rintro - ⟨rfl, n, hn⟩
        rw [hn]
        exact ⟨_, .plain n⟩
      | some o =>
        rintro - ⟨rfl, n, hn⟩
        rw [hn]
        exact ⟨_, .secure n⟩
    | ended fd k o =>
      rintro - ⟨rfl, n, hn⟩
      rw [hn]
      exact ⟨[.close], by simpa using Visit.secure n⟩
    | freed fd k =>
      rintro - ⟨rfl, n, hn⟩
      rw [hn]
      exact ⟨[.close], by simpa using Visit.secure n⟩
  · rcases hc.rest k hk hq (fun p hp e => ha ⟨p, hp, e⟩) (fun i p hp e => hw ⟨i, p, hp, e⟩) with ⟨h1, -⟩ | ⟨h1, -⟩
    · exact hnil h1
    · exact ⟨[], by simpa using h1⟩

theorem C144_rest {secure : Bool} {evs : List Ev} {s : S} (h : Runs secure evs s) (hr : Resting s) :
    (∀ o, s.obj o = none) ∧ ∀ k < s.next,
      (opsOf s.touched k = [] ∧ ∃ fd, s.conn fd = some k) ∨ (Visit secure (opsOf s.touched k) ∧ ∀ fd, s.conn fd ≠ some k) := by
  obtain ⟨hc, ho⟩ := inv_of_runs h
  obtain ⟨h1, h2, h3⟩ := hr
  constructor
  · intro o
    cases hb : s.obj o with
    | none => rfl
    | some b =>
      obtain ⟨i, hi⟩ := ho.own o b hb
      rw [h3] at hi
      cases hi
  · intro k hk
    refine hc.rest k hk (by rw [h2]; simp) (fun p hp => by rw [h1] at hp; cases hp) ?_
    intro i p hp
    rw [h3] at hp
    cases hp

theorem C144 : C144_statement := fun _ _ _ h => ⟨C144_defined h, C144_own h, C144_order h, C144_rest h⟩

/-! ### Examples -/

/-- What was done and what is left after some events. -/
def go (secure : Bool) : List Ev → S → Option S
  | [], s => some s
  | e :: es, s => match step secure s e with
    | some (ok s') => go secure es s'
    | _ => none

theorem runs_go {secure : Bool} {es evs : List Ev} {s s' : S} (h : Runs secure evs s) (hg : go secure es s = some s') :
    Runs secure (evs ++ es) s' := by
  induction es generalizing evs s with
  | nil => cases hg; rw [List.append_nil]; exact h
  | cons e es ih =>
    unfold go at hg
    split at hg
    · rename_i s1 hs
      have := ih (Runs.snoc h hs) hg
      rwa [List.append_assoc] at this
    · cases hg

/-- Client 0 is served over descriptor 7 with the object at 100. While its connection is being closed, client 1 waits in the queue.
Client 2 gets descriptor 7 again, and the other worker's object is at 100 again. Client 3 is turned away. -/
def busy : List Ev :=
  [.accept 7, .put, .take 0, .accept 8, .put, .new 0 100, .setFd 0, .handshake 0, .take 1, .io 0, .io 0, .shutdown 0, .free 0, .new 1 100,
   .close 0, .accept 7, .put, .setFd 1, .handshake 1, .del 0, .take 0, .new 0 101, .io 1, .setFd 0, .handshake 0, .shutdown 1, .io 0,
   .accept 9, .deny, .free 1, .shutdown 0, .close 1, .free 0, .del 1, .close 0, .accept 9, .drop, .del 0]

/-- The state the events of `busy` lead to. -/
def busyEnd : S := (go true busy start).getD start

theorem busy_go : go true busy start = some busyEnd := by
  have h : (go true busy start).isSome = true := by decide +kernel
  obtain ⟨s, hs⟩ := Option.isSome_iff_exists.mp h
  rw [hs, busyEnd, hs]
  rfl

theorem busy_runs : Runs true busy busyEnd := runs_go .nil busy_go

-- nobody's handshake, reads, writes or close went to somebody else, though descriptor 7 and address 100 were used twice
example : ∀ t ∈ busyEnd.touched, t.reached = some t.meant := C144_own busy_runs
example : busyEnd.touched.length = 14 := by decide +kernel
example (e : Ev) (f : Fault) : step true busyEnd e ≠ some (ub f) := C144_defined busy_runs e f

-- the visits
example : opsOf busyEnd.touched 0 = [.handshake, .io, .io, .shutdown, .close] := by decide +kernel
example : opsOf busyEnd.touched 1 = [.handshake, .io, .shutdown, .close] := by decide +kernel
example : opsOf busyEnd.touched 2 = [.handshake, .io, .shutdown, .close] := by decide +kernel
example : opsOf busyEnd.touched 3 = [.close] := by decide +kernel
-- the client who found the queue full
example : opsOf busyEnd.touched 4 = [] ∧ busyEnd.conn 9 = some 4 := by decide +kernel
example (k : Nat) : ∃ rest, Visit true (opsOf busyEnd.touched k ++ rest) := C144_order busy_runs k

-- a shorter run, after which nobody is being looked after
def short : List Ev :=
  [.accept 7, .put, .take 0, .new 0 100, .setFd 0, .handshake 0, .io 0, .shutdown 0, .free 0, .close 0, .accept 7, .drop, .del 0]

/-- The state the events of `short` lead to. -/
def shortEnd : S := (go true short start).getD start

theorem short_go : go true short start = some shortEnd := by
  have h : (go true short start).isSome = true := by decide +kernel
  obtain ⟨s, hs⟩ := Option.isSome_iff_exists.mp h
  rw [hs, shortEnd, hs]
  rfl

theorem short_resting : Resting shortEnd := by
  refine ⟨by decide +kernel, by decide +kernel, fun i => ?_⟩
  rcases i with _ | i <;> rfl

example : (∀ o, shortEnd.obj o = none) ∧ ∀ k < 2, (opsOf shortEnd.touched k = [] ∧ ∃ fd, shortEnd.conn fd = some k) ∨
    (Visit true (opsOf shortEnd.touched k) ∧ ∀ fd, shortEnd.conn fd ≠ some k) :=
  C144_rest (runs_go .nil short_go) short_resting
example : Visit true (opsOf shortEnd.touched 0) := by
  rw [show opsOf shortEnd.touched 0 = [.handshake, .io, .shutdown, .close] by decide +kernel]
  exact .secure 1

-- a visit is not just any list of operations: nothing is read before the handshake or after the close, nothing is closed twice
example : ¬ ∃ rest, Visit true ([.io] ++ rest) := by rintro ⟨rest, h⟩; cases h
example : ¬ ∃ rest, Visit true ([.close, .close] ++ rest) := by rintro ⟨rest, h⟩; cases h

end Wayuu.Tls
