import Verif.Model.Arrivals
import Verif.Props.Memory
/-
C105: the memory clients leave behind.
-/
namespace Wayuu
namespace Mem
open C Spec

/-- C105 in full: when the clients that came are gone, exactly the blocks that were allocated before are allocated. -/
def C105_statement : Prop :=
  ∀ (l : Lists) (as : List Arrival) (h h' : Heap), arrivalsMem l as h = ok h' → h'.live.Perm h.live

/-- What one connection leaves behind: the block for its address, and what its request leaves (C73). -/
inductive Costs : Arrival → Nat → Prop where
  | denied : Costs .denied 1
  | unlisted : Costs .unlisted 1
  | dropped : Costs .dropped 1
  | handled (req : Req) (c : Course) (hs : List (Str × Str)) (e k : Nat) : req.Stored hs →
      FitsLog hs → (∀ p ∈ hs, NulFree p.1 ∧ NulFree p.2) → EmptyQuoted hs e →
      Leaves e c k → Costs (.handled req c) (1 + k)

/-- What a list of connections leaves behind. -/
inductive CostAll : List Arrival → Nat → Prop where
  | nil : CostAll [] 0
  | cons (a : Arrival) (as : List Arrival) (k n : Nat) : Costs a k → CostAll as n → CostAll (a :: as) (k + n)

theorem findMem_eq (isFile opened : Bool) (n : Nat) (l : List Nat) : ∃ m, findMem isFile opened ⟨n, l⟩ = ok ⟨m, l⟩ := by
  cases isFile
  · exact ⟨n, rfl⟩
  · cases opened
    · exact ⟨n + 1, by simp [findMem, readFileMem, alloc_eq, free_head]⟩
    · exact ⟨n + 1 + 1, by simp [findMem, readFileMem, alloc_eq, free_head]⟩

theorem allowedMem_eq (ls : Lists) (denied : Bool) (n : Nat) (l : List Nat) : ∃ m, allowedMem ls denied ⟨n, l⟩ = ok ⟨m, l⟩ := by
  obtain ⟨m, h⟩ := findMem_eq ls.deny.1 ls.deny.2 n l
  cases denied
  · obtain ⟨m', h'⟩ := findMem_eq ls.allow.1 ls.allow.2 m l
    exact ⟨m', by simp [allowedMem, h, h']⟩
  · exact ⟨m, by simp [allowedMem, h]⟩

theorem arrivalMem_eq (ls : Lists) {a : Arrival} {k : Nat} (hc : Costs a k) (n : Nat) (l : List Nat) :
    ∃ m A, arrivalMem ls ⟨n, l⟩ a = ok ⟨m, A ++ l⟩ ∧ A.length = k := by
  cases hc with
  | denied =>
    obtain ⟨m, h⟩ := allowedMem_eq ls true (n + 1) (n :: l)
    exact ⟨m, [n], by simp [arrivalMem, alloc_eq, h], rfl⟩
  | unlisted =>
    obtain ⟨m, h⟩ := allowedMem_eq ls false (n + 1) (n :: l)
    exact ⟨m, [n], by simp [arrivalMem, alloc_eq, h], rfl⟩
  | dropped =>
    obtain ⟨m, h⟩ := allowedMem_eq ls false (n + 1) (n :: l)
    exact ⟨m, [n], by simp [arrivalMem, alloc_eq, h], rfl⟩
  | handled req c hs e k hst hlen hz he hl =>
    obtain ⟨m, h⟩ := allowedMem_eq ls false (n + 1) (n :: l)
    obtain ⟨⟨m', _⟩, A, h1, h2, h3⟩ := C73_partial req hs c ⟨m, n :: l⟩ e k hst hlen hz he hl
    simp only at h2
    subst h2
    exact ⟨m', A ++ [n], by simp [arrivalMem, alloc_eq, h, h1], by simp [h3]; omega⟩

/-- C105, what happens: no block is released that is not to be, whatever was allocated before stays allocated, and exactly so
many blocks are left behind. Missing: that there are none. -/
theorem C105_partial (l : Lists) (as : List Arrival) (n : Nat) (hc : CostAll as n) (h : Heap) :
    ∃ h' A, arrivalsMem l as h = ok h' ∧ h'.live = A ++ h.live ∧ A.length = n := by
  induction hc generalizing h with
  | nil => exact ⟨h, [], rfl, rfl, rfl⟩
  | cons a as k n hk _ ih =>
    obtain ⟨m, A, h1, h2⟩ := arrivalMem_eq l hk h.next h.live
    obtain ⟨h', B, h3, h4, h5⟩ := ih ⟨m, A ++ h.live⟩
    refine ⟨h', B ++ A, ?_, by rw [h4]; simp, by simp [h5, h2]; omega⟩
    show (arrivalMem l h a).bind _ = _
    rw [show arrivalMem l h a = ok ⟨m, A ++ h.live⟩ from h1]
    exact h3

example := C105_partial ⟨(true, true), (true, false)⟩ [.denied, .dropped] _
  (.cons _ _ _ _ .denied (.cons _ _ _ _ .dropped .nil)) ⟨3, [2, 0]⟩

theorem cost_grows {as : List Arrival} {n : Nat} (hc : CostAll as n) :
    as.length + 2 * as.countP (fun a => match a with | .handled _ _ => true | _ => false) ≤ n := by
  induction hc with
  | nil => simp
  | cons a as k n hk _ ih =>
    cases hk with
    | denied => simp; omega
    | unlisted => simp; omega
    | dropped => simp; omega
    | handled req c hs e k _ _ _ _ hl =>
      have := (leaves_le hl).1
      simp; omega

/-- C105, the consequence: memory grows with every client, one that is turned away (or dropped) included – by at least one
block each, three for each request that is looked at. -/
theorem C105_growth (l : Lists) (as : List Arrival) (n : Nat) (hc : CostAll as n) (h : Heap) :
    ∃ h' A, arrivalsMem l as h = ok h' ∧ h'.live = A ++ h.live ∧
      as.length + 2 * as.countP (fun a => match a with | .handled _ _ => true | _ => false) ≤ A.length := by
  obtain ⟨h', A, h1, h2, rfl⟩ := C105_partial l as n hc h
  exact ⟨h', A, h1, h2, cost_grows hc⟩

example := C105_growth ⟨(true, true), (true, false)⟩ [.denied, .dropped] _ (.cons _ _ _ _ .denied (.cons _ _ _ _ .dropped .nil)) ⟨0, []⟩

/-- C105, clients the address filter turns away: each costs one block, whatever the lists. -/
theorem C105_denied (l : Lists) (n : Nat) (h : Heap) :
    ∃ h' A, arrivalsMem l (List.replicate n .denied) h = ok h' ∧ h'.live = A ++ h.live ∧ A.length = n := by
  refine C105_partial l _ n ?_ h
  induction n with
  | zero => exact .nil
  | succ n ih =>
    have := CostAll.cons .denied (List.replicate n .denied) 1 n .denied ih
    rwa [Nat.add_comm] at this

example : (arrivalsMem ⟨(true, true), (true, false)⟩ (List.replicate 3 .denied) ⟨0, []⟩).bind (fun h => ok h.live.length) = ok 3 := by
  decide +kernel

theorem C105_refuted : ¬ C105_statement := by
  intro h
  have := (h ⟨(true, true), (false, false)⟩ [.denied] ⟨0, []⟩ ⟨3, [0]⟩ (by decide)).length_eq
  revert this
  decide

/-- A denied client, a dropped one, and one that asks with an unsupported method. -/
example : CostAll [.denied, .dropped, .handled (api_request_new 5 b!"10.0.0.1") .badMethod] (1 + (1 + (1 + 2 + 0))) :=
  .cons _ _ _ _ .denied (.cons _ _ _ _ .dropped (.cons _ _ _ _
    (.handled _ _ [] 0 2 ⟨rfl, .nil⟩ (fitsLog_of_short (by simp)) (by simp) ⟨none, none, by simp [FirstHeader], by simp [FirstHeader], rfl⟩ .badMethod) .nil))
example : arrivalsMem ⟨(true, true), (true, false)⟩ [.denied, .dropped, .handled (api_request_new 5 b!"10.0.0.1") .badMethod] ⟨0, []⟩ =
    ok ⟨15, [13, 12, 7, 3, 0]⟩ := by decide +kernel

end Mem
end Wayuu
