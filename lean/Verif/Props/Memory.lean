import Verif.Model.Memory
import Verif.Lemmas.Strings3
import Verif.Props.Http2
import Verif.Props.Strings
/-
Property C73 (ws.c:463-656 and the functions it calls): the memory a request leaves behind.
-/
namespace Wayuu
namespace Spec

/-- How many of the header lines announce a content type. -/
inductive TypeLines : List Str → Nat → Prop where
  | nil : TypeLines [] 0
  | yes (line : Str) (lines : List Str) (k : Nat) : CasePrefix b!"Content-Type:" line → TypeLines lines k →
      TypeLines (line :: lines) (k + 1)
  | no (line : Str) (lines : List Str) (k : Nat) : ¬ CasePrefix b!"Content-Type:" line → TypeLines lines k →
      TypeLines (line :: lines) k

/-- The headers quoted in the access log that are present but empty. -/
def EmptyQuoted (hs : List (Str × Str)) (e : Nat) : Prop :=
  ∃ v w, FirstHeader hs b!"Referer" v ∧ FirstHeader hs b!"User-Agent" w ∧
    e = (if v = some [] then 1 else 0) + (if w = some [] then 1 else 0)

end Spec

namespace Mem
open C Spec

/-- Blocks that stay allocated: one access log line leaves `e`. -/
def leftRouted (e : Nat) : Routed → Nat
  | .rejected => e
  | .constant => 0
  | .param formEmpty => if formEmpty then 1 else 0

def leftUse (e : Nat) : Use → Nat
  | .notGet => 1 + e
  | .static _ isFile _ indexIs _ => 1 + (if isFile || indexIs then e else 0)
  | .api body _ r => 1 + (if body then 1 else 0) + leftRouted e r

theorem alloc_eq (n : Nat) (l : List Nat) : Heap.alloc ⟨n, l⟩ = (.blk n, ⟨n + 1, n :: l⟩) := rfl

theorem free_in {n i : Nat} {L base : List Nat} (h : i ∈ L) :
    Heap.free ⟨n, L ++ base⟩ (.blk i) = ok ⟨n, L.erase i ++ base⟩ := by
  simp [Heap.free, h, List.erase_append_left]

theorem free_head (n i : Nat) (l : List Nat) : Heap.free ⟨n, i :: l⟩ (.blk i) = ok ⟨n, l⟩ := by
  simp [Heap.free]

theorem free_skip {n i a : Nat} {l l' : List Nat} (hne : a ≠ i) (h : Heap.free ⟨n, l⟩ (.blk i) = ok ⟨n, l'⟩) :
    Heap.free ⟨n, a :: l⟩ (.blk i) = ok ⟨n, a :: l'⟩ := by
  have hm : i ∈ l := by
    by_contra hc
    simp [Heap.free, hc] at h
  simp only [Heap.free, hm, if_true, ok.injEq, Heap.mk.injEq, true_and] at h
  simp [Heap.free, hm, h, List.erase_cons_tail, hne]

theorem free_mid (n i : Nat) (Z base : List Nat) :
    ∃ L, Heap.free ⟨n, Z ++ i :: base⟩ (.blk i) = ok ⟨n, L ++ base⟩ ∧ L.length = Z.length := by
  by_cases h : i ∈ Z
  · refine ⟨Z.erase i ++ [i], ?_, ?_⟩
    · rw [free_in h]; simp
    · have := List.length_pos_of_mem h
      simp [List.length_erase_of_mem h]
      omega
  · exact ⟨Z, by simp [Heap.free, List.erase_append_right _ h], rfl⟩

theorem tokensMem_eq (k n : Nat) (l : List Nat) :
    tokensMem k ⟨n, l⟩ = ((List.range' n k).map Ptr.blk, ⟨n + k, (List.range' n k).reverse ++ l⟩) := by
  induction k generalizing n l with
  | zero => rfl
  | succ k ih =>
    simp only [tokensMem, alloc_eq, ih]
    simp [List.range'_succ]
    omega

theorem freeAll_tokens (k n m : Nat) (X base : List Nat) (hX : ∀ x ∈ X, x < n ∨ n + k ≤ x) :
    freeAll ⟨m, X ++ ((List.range' n k).reverse ++ base)⟩ ((List.range' n k).map Ptr.blk) = ok ⟨m, X ++ base⟩ := by
  induction k generalizing n with
  | zero => simp [freeAll]
  | succ k ih =>
    have h1 : n ∉ X := by
      intro h
      have := hX n h
      omega
    have h2 : n ∉ (List.range' (n + 1) k).reverse := by simp [List.mem_range'_1]; omega
    have h3 : Heap.free ⟨m, X ++ ((List.range' n (k + 1)).reverse ++ base)⟩ (.blk n) =
        ok ⟨m, X ++ ((List.range' (n + 1) k).reverse ++ base)⟩ := by
      simp only [Heap.free]
      rw [if_pos (by simp [List.range'_succ])]
      congr 2
      rw [List.erase_append_right _ h1, List.range'_succ, List.reverse_cons, List.append_assoc,
        List.erase_append_right _ h2]
      simp
    rw [show (List.range' n (k + 1)).map Ptr.blk = .blk n :: (List.range' (n + 1) k).map Ptr.blk from by
      simp [List.range'_succ]]
    simp only [freeAll, h3, ok_bind]
    exact ih _ (fun x hx => by have := hX x hx; omega)

theorem splitOnce_free (two : Bool) (n : Nat) (l : List Nat) :
    ∃ m, (splitOnceMem two ⟨n, l⟩ >>= fun r => freeStrList r.1 r.2.1 r.2.2) = ok ⟨m, l⟩ ∧ n ≤ m := by
  cases two
  · refine ⟨n + 4, ?_, by omega⟩
    simp [splitOnceMem, alloc_eq, freeAll, freeStrList, Heap.free]
  · refine ⟨n + 5, ?_, by omega⟩
    simp [splitOnceMem, alloc_eq, freeAll, freeStrList, Heap.free]

/-- One access log line. -/
theorem logMem_eq {req : Req} {hs : List (Str × Str)} {e : Nat} (h : req.Stored hs)
    (hlen : FitsLog hs) (hz : ∀ p ∈ hs, NulFree p.1 ∧ NulFree p.2)
    (he : EmptyQuoted hs e) (n : Nat) (l : List Nat) :
    ∃ m A, logMem req ⟨n, l⟩ = ok ⟨m, A ++ l⟩ ∧ A.length = e := by
  obtain ⟨v, w, hv, hw, rfl⟩ := he
  have look : ∀ name, name = b!"Referer" ∨ name = b!"User-Agent" →
      ∃ v, FirstHeader hs name v ∧ http_get_header req name = ok ⟨v.isSome, v.getD []⟩ := by
    intro name hname
    refine ⟨headerValue hs name, headerValue_first hs name, ?_⟩
    rw [get_header_eq ⟨h, hz, hlen⟩ hname]
    cases headerValue hs name <;> rfl
  obtain ⟨v', hv', h1⟩ := look b!"Referer" (Or.inl rfl)
  obtain ⟨w', hw', h2⟩ := look b!"User-Agent" (Or.inr rfl)
  have ev := firstHeader_unique hv hv'
  have ew := firstHeader_unique hw hw'
  subst ev ew
  simp only [logMem, alloc_eq, h1, h2, ok_bind]
  have x1 : ¬ n + 1 = n := by omega
  have x2 : ¬ n + 1 + 1 = n := by omega
  have x3 : ¬ n + 1 + 1 = n + 1 := by omega
  rcases v with _ | _ | ⟨a, v⟩ <;> rcases w with _ | _ | ⟨b, w⟩ <;>
    simp only [headerPtr, freeText, alloc_eq, Heap.free, Option.isSome, Option.getD, if_true, List.length_nil,
      List.length_cons, Nat.lt_irrefl, if_false, List.mem_cons, true_or, or_true, List.erase_cons, beq_iff_eq,
      x1, x2, x3, beq_self_eq_true, ok_bind, Nat.zero_lt_succ, Bool.false_eq_true, reduceCtorEq,
      Option.some.injEq, Nat.add_zero, Nat.zero_add]
  · exact ⟨_, [], rfl, rfl⟩
  · exact ⟨_, [n + 1], rfl, rfl⟩
  · exact ⟨_, [], rfl, rfl⟩
  · exact ⟨_, [n + 1], rfl, rfl⟩
  · exact ⟨_, [n + 1 + 1, n + 1], rfl, rfl⟩
  · exact ⟨_, [n + 1], rfl, rfl⟩
  · exact ⟨_, [], rfl, rfl⟩
  · exact ⟨_, [n + 1 + 1], rfl, rfl⟩
  · exact ⟨_, [], rfl, rfl⟩

theorem startswith_type {line : Str} : startswith line b!"Content-Type:" = true ↔ CasePrefix b!"Content-Type:" line :=
  startswith_iff _ _

theorem headerMem_eq {line : Str} (hz : NulFree line) (hl : line.length ≤ 1023) (stored n i : Nat) (K base : List Nat)
    (hi : i ∈ K) :
    ∃ s' m i' K', headerMem stored line (.blk i) ⟨n, K ++ base⟩ = ok (s', .blk i', ⟨m, K' ++ base⟩) ∧ i' ∈ K' ∧
      K'.length = K.length + (if startswith line b!"Content-Type:" then 1 else 0) := by
  obtain ⟨nv, hnv⟩ : ∃ nv, split_once line b!":" = ok nv := by
    obtain ⟨nv, h, -⟩ := C03_split_once line hz hl
    exact ⟨nv, h⟩
  have h1 : ∃ m, storeMem stored (nv.length == 2) ⟨n, K ++ base⟩ = ok ⟨m, K ++ base⟩ := by
    unfold storeMem
    split
    · obtain ⟨m, h, -⟩ := splitOnce_free (nv.length == 2) n (K ++ base)
      exact ⟨m, h⟩
    · exact ⟨n, rfl⟩
  obtain ⟨m, h1⟩ := h1
  simp only [headerMem, hnv, ok_bind, h1]
  have h2 : ∃ m' K', (if startswith line b!"Content-Type:" then (Heap.mk m (K ++ base)).alloc.2 else Heap.mk m (K ++ base)) =
      ⟨m', K' ++ base⟩ ∧ i ∈ K' ∧ K'.length = K.length + (if startswith line b!"Content-Type:" then 1 else 0) := by
    split
    · exact ⟨m + 1, m :: K, rfl, by simp [hi], by simp⟩
    · exact ⟨m, K, rfl, hi, by simp⟩
  obtain ⟨m', K', h2, hi', hK'⟩ := h2
  rw [h2]
  by_cases hx : startswith line b!"X-Real-IP:" = true
  · simp only [hx, if_true]
    rw [free_in hi']
    simp only [ok_bind, alloc_eq]
    refine ⟨_, _, m', m' :: K'.erase i, rfl, by simp, ?_⟩
    have := List.length_pos_of_mem hi'
    simp only [List.length_cons, List.length_erase_of_mem hi']
    omega
  · simp only [hx]
    exact ⟨_, _, i, K', rfl, hi', hK'⟩

/-- The header lines: `ip` stays valid, every content type adds a block. -/
theorem headersMem_eq {lines : List Str} {k : Nat} (hk : TypeLines lines k)
    (hl : ∀ l ∈ lines, NulFree l ∧ l.length ≤ 1023) (stored n i : Nat) (K base : List Nat) (hi : i ∈ K) :
    ∃ m i' K', headersMem stored lines (.blk i) ⟨n, K ++ base⟩ = ok (.blk i', ⟨m, K' ++ base⟩) ∧
      K'.length = K.length + k := by
  induction hk generalizing stored n i K with
  | nil => exact ⟨n, i, K, rfl, rfl⟩
  | yes line lines k ht _ ih =>
    obtain ⟨s', m, i', K', h1, h2, h3⟩ := headerMem_eq (hl line (by simp)).1 (hl line (by simp)).2 stored n i K base hi
    rw [if_pos ((startswith_iff _ _).mpr ht)] at h3
    obtain ⟨m2, i2, K2, h4, h5⟩ := ih (fun l hl' => hl l (by simp [hl'])) s' m i' K' h2
    refine ⟨m2, i2, K2, ?_, by omega⟩
    simp only [headersMem, h1, ok_bind, h4]
  | no line lines k ht _ ih =>
    obtain ⟨s', m, i', K', h1, h2, h3⟩ := headerMem_eq (hl line (by simp)).1 (hl line (by simp)).2 stored n i K base hi
    rw [if_neg (fun hc => ht ((startswith_iff _ _).mp hc))] at h3
    obtain ⟨m2, i2, K2, h4, h5⟩ := ih (fun l hl' => hl l (by simp [hl'])) s' m i' K' h2
    refine ⟨m2, i2, K2, ?_, by omega⟩
    simp only [headersMem, h1, ok_bind, h4]

/-- The URL: three blocks remain until `free_path_and_query_t`, two if there is no query. -/
theorem pathQueryMem_eq (k n : Nat) (l : List Nat) (hk : k ≠ 0) :
    ∃ m, pathQueryMem k ⟨n, l⟩ = ok (.blk n, .blk (n + 3 + k), if 1 < k then .blk (n + 3 + k + 1) else .lit,
      ⟨m, (if 1 < k then [n + 3 + k + 1] else []) ++ (n + 3 + k) :: n :: l⟩) := by
  have h1 : Heap.free ⟨n + 3 + k, (List.range' (n + 3) k).reverse ++ (n + 2) :: (n + 1) :: n :: l⟩ (.blk (n + 1)) =
      ok ⟨n + 3 + k, (List.range' (n + 3) k).reverse ++ (n + 2) :: n :: l⟩ := by
    have hm : n + 1 ∉ (List.range' (n + 3) k).reverse := by simp [List.mem_range'_1]
    simp [Heap.free, List.erase_append_right _ hm]
  unfold pathQueryMem splitMem
  simp only [alloc_eq, tokensMem_eq]
  rw [show n + 1 + 1 + 1 = n + 3 from rfl, show n + 1 + 1 = n + 2 from rfl, h1]
  simp only [ok_bind, hk, if_false, alloc_eq]
  by_cases h : 1 < k
  · refine ⟨n + 3 + k + 2, ?_⟩
    simp only [h, if_true, freeStrList]
    have := freeAll_tokens k (n + 3) (n + 3 + k + 1 + 1) [n + 3 + k + 1, n + 3 + k] ((n + 2) :: n :: l)
      (by simp)
    simp only [List.cons_append, List.nil_append] at this
    rw [this]
    simp only [ok_bind]
    rw [free_skip (by omega) (free_skip (by omega) (free_head _ _ _))]
    rfl
  · refine ⟨n + 3 + k + 1, ?_⟩
    simp only [h, if_false, freeStrList]
    have := freeAll_tokens k (n + 3) (n + 3 + k + 1) [n + 3 + k] ((n + 2) :: n :: l) (by simp)
    simp only [List.cons_append, List.nil_append] at this
    rw [this]
    simp only [ok_bind]
    rw [free_skip (by omega) (free_head _ _ _)]
    rfl

theorem partsMem_eq (parts : List (Bool × Bool)) (n : Nat) (l : List Nat) :
    ∃ m, partsMem parts ⟨n, l⟩ = ok ⟨m, l⟩ := by
  induction parts generalizing n with
  | nil => exact ⟨n, rfl⟩
  | cons p parts ih =>
    obtain ⟨a, b⟩ := p
    have : ∃ m, partMem a b ⟨n, l⟩ = ok ⟨m, l⟩ := by
      cases a <;> cases b <;> simp [partMem, alloc_eq, Heap.free]
    obtain ⟨m, h⟩ := this
    simp only [partsMem, h, ok_bind]
    exact ih m

theorem multipartMem_eq (parts : List (Bool × Bool)) (n : Nat) (l : List Nat) :
    ∃ m, multipartMem parts ⟨n, l⟩ = ok ⟨m, l⟩ := by
  unfold multipartMem
  simp only [alloc_eq]
  obtain ⟨m, h⟩ := partsMem_eq parts (n + 1 + 1) ((n + 1) :: n :: l)
  rw [h]
  exact ⟨m, by simp [freeAll, Heap.free]⟩

/-- Every access log line of `req` leaves `e` blocks. -/
def Logs (req : Req) (e : Nat) : Prop := ∀ n l, ∃ m A, logMem req ⟨n, l⟩ = ok ⟨m, A ++ l⟩ ∧ A.length = e

theorem routerMem_eq {req : Req} {e : Nat} (hlog : Logs req e) (r : Routed) (n : Nat) (l : List Nat) :
    ∃ m A, routerMem req ⟨n, l⟩ r = ok ⟨m, A ++ l⟩ ∧ A.length = leftRouted e r := by
  cases r with
  | rejected => exact hlog n l
  | constant => exact ⟨n, [], rfl, rfl⟩
  | param f =>
    cases f
    · exact ⟨n + 3, [], by simp [routerMem, alloc_eq, Heap.free], rfl⟩
    · refine ⟨n + 3, [n + 2], ?_, rfl⟩
      simp [routerMem, alloc_eq, Heap.free]

theorem fileMem_eq {req : Req} {e : Nat} (hlog : Logs req e) (isFile opened : Bool) (n : Nat) (l : List Nat) :
    ∃ m A, fileMem isFile opened req ⟨n, l⟩ = ok ⟨m, A ++ l⟩ ∧ A.length = if isFile then e else 0 := by
  cases isFile
  · exact ⟨n, [], rfl, rfl⟩
  · cases opened
    · simpa [fileMem, alloc_eq, free_head] using hlog (n + 1) l
    · simpa [fileMem, alloc_eq, free_head] using hlog (n + 1 + 1) l

theorem useMem_eq {req : Req} {e : Nat} (hlog : Logs req e) (u : Use) (n : Nat) (l : List Nat) :
    ∃ m A, useMem req ⟨n, l⟩ u = ok ⟨m, A ++ l⟩ ∧ A.length = leftUse e u := by
  cases u with
  | notGet =>
    obtain ⟨m, A, h, hA⟩ := hlog (n + 1) (n :: l)
    exact ⟨m, A ++ [n], by simp [useMem, alloc_eq, h], by simp [leftUse, hA]; omega⟩
  | «static» rewrite isFile opened indexIs indexOpened =>
    have h0 : ∃ m i, rewriteMem rewrite (.blk n) ⟨n + 1, n :: l⟩ = ok ⟨m, i :: l⟩ := by
      cases rewrite
      · exact ⟨n + 1, n, rfl⟩
      · exact ⟨n + 1 + 1, n + 1, by simp [rewriteMem, free_head, alloc_eq]⟩
    obtain ⟨m0, i, h0⟩ := h0
    obtain ⟨m1, A, h1, hA⟩ := fileMem_eq hlog isFile opened m0 (i :: l)
    simp only [useMem, alloc_eq, h0, ok_bind, h1]
    cases isFile
    · obtain ⟨m2, B, h2, hB⟩ := fileMem_eq hlog indexIs indexOpened m1 (A ++ i :: l)
      have hA : A = [] := by simpa using hA
      subst hA
      simp only [Bool.false_eq_true, if_false, h2]
      refine ⟨m2, B ++ [i], by simp, ?_⟩
      simp only [leftUse, Bool.false_or, List.length_append, List.length_singleton, hB]
      omega
    · refine ⟨m1, A ++ [i], by simp, ?_⟩
      simp only [if_true] at hA
      simp only [leftUse, Bool.true_or, List.length_append, List.length_singleton, hA, if_true]
      omega
  | api body parts r =>
    cases body
    · obtain ⟨m, A, h, hA⟩ := routerMem_eq hlog r (n + 1) (n :: l)
      refine ⟨m, A ++ [n], by simp [useMem, alloc_eq, h], ?_⟩
      simp [leftUse, hA]
      omega
    · cases parts with
      | none =>
        obtain ⟨m, A, h, hA⟩ := routerMem_eq hlog r (n + 1 + 1) ((n + 1) :: n :: l)
        refine ⟨m, A ++ [n + 1, n], by simp [useMem, alloc_eq, h], ?_⟩
        simp [leftUse, hA]
        omega
      | some ps =>
        obtain ⟨m0, h0⟩ := multipartMem_eq ps (n + 1 + 1) ((n + 1) :: n :: l)
        obtain ⟨m, A, h, hA⟩ := routerMem_eq hlog r m0 ((n + 1) :: n :: l)
        refine ⟨m, A ++ [n + 1, n], by simp [useMem, alloc_eq, h0, h], ?_⟩
        simp [leftUse, hA]
        omega

/-- `free_path_and_query_t` releases what `get_path_and_query_string` left. -/
theorem freePathQuery_eq (k n m : Nat) (A l : List Nat) :
    ∃ A', freePathQuery k (.blk n) (.blk (n + 3 + k)) (if 1 < k then .blk (n + 3 + k + 1) else .lit)
      ⟨m, A ++ ((if 1 < k then [n + 3 + k + 1] else []) ++ (n + 3 + k) :: n :: l)⟩ = ok ⟨m, A' ++ l⟩ ∧
      A'.length = A.length := by
  unfold freePathQuery
  by_cases h : 1 < k
  · simp only [h, if_true]
    have e : A ++ ([n + 3 + k + 1] ++ (n + 3 + k) :: n :: l) = (A ++ [n + 3 + k + 1, n + 3 + k, n]) ++ l := by simp
    rw [e, free_in (by simp)]
    simp only [ok_bind]
    rw [free_in (by rw [List.mem_erase_of_ne (by omega)]; simp)]
    simp only [ok_bind]
    rw [free_in (by rw [List.mem_erase_of_ne (by omega), List.mem_erase_of_ne (by omega)]; simp)]
    refine ⟨_, rfl, ?_⟩
    rw [List.length_erase_of_mem (by rw [List.mem_erase_of_ne (by omega), List.mem_erase_of_ne (by omega)]; simp),
      List.length_erase_of_mem (by rw [List.mem_erase_of_ne (by omega)]; simp), List.length_erase_of_mem (by simp)]
    simp
  · simp only [h, if_false, List.nil_append]
    have e : A ++ (n + 3 + k) :: n :: l = (A ++ [n + 3 + k, n]) ++ l := by simp
    rw [e, free_in (by simp)]
    simp only [ok_bind]
    rw [free_in (by rw [List.mem_erase_of_ne (by omega)]; simp)]
    refine ⟨_, rfl, ?_⟩
    rw [List.length_erase_of_mem (by rw [List.mem_erase_of_ne (by omega)]; simp), List.length_erase_of_mem (by simp)]
    simp

/-- How many blocks a request leaves behind, `e` for every access log line. -/
inductive Leaves (e : Nat) : Course → Nat → Prop where
  | badMethod : Leaves e .badMethod (2 + e)
  | refused : Leaves e .refused (3 + e)
  | served (lines : List Str) (k n : Nat) (u : Use) : TypeLines lines k → 0 < n →
      (∀ l ∈ lines, NulFree l ∧ l.length ≤ 1023) → Leaves e (.served lines n u) (5 + k + leftUse e u)

theorem requestMem_eq {req : Req} {e k : Nat} {c : Course} (hlog : Logs req e) (hc : Leaves e c k) (n : Nat) (l : List Nat) :
    ∃ m A, requestMem req ⟨n, l⟩ c = ok ⟨m, A ++ l⟩ ∧ A.length = k := by
  cases hc with
  | badMethod =>
    obtain ⟨m, A, h, hA⟩ := hlog (n + 1 + 1 + 1) ((n + 1 + 1) :: (n + 1) :: n :: l)
    obtain ⟨L, h2, hL⟩ := free_mid m n (A ++ [n + 1 + 1, n + 1]) l
    refine ⟨m, L, ?_, by simp [hL, hA]; omega⟩
    simp only [List.append_assoc, List.cons_append, List.nil_append] at h2
    simp only [requestMem, alloc_eq, h, ok_bind, h2]
  | refused =>
    obtain ⟨m, A, h, hA⟩ := hlog (n + 1 + 1 + 1 + 1) ((n + 1 + 1 + 1) :: (n + 1 + 1) :: (n + 1) :: n :: l)
    obtain ⟨L, h2, hL⟩ := free_mid m n (A ++ [n + 1 + 1 + 1, n + 1 + 1, n + 1]) l
    refine ⟨m, L, ?_, by simp [hL, hA]; omega⟩
    simp only [List.append_assoc, List.cons_append, List.nil_append] at h2
    simp only [requestMem, alloc_eq, h, ok_bind, h2]
  | served lines k t u hk ht hl =>
    obtain ⟨m1, i1, K, h1, hK⟩ := headersMem_eq hk hl 0 (n + 1 + 1 + 1 + 1 + 1) (n + 1)
      [n + 1 + 1 + 1 + 1, n + 1 + 1 + 1, n + 1 + 1, n + 1] (n :: l) (by simp)
    obtain ⟨m2, h2⟩ := pathQueryMem_eq t m1 (K ++ n :: l) (by omega)
    obtain ⟨m3, A, h3, hA⟩ := useMem_eq hlog u (m2 + 1)
      (m2 :: ((if 1 < t then [m1 + 3 + t + 1] else []) ++ (m1 + 3 + t) :: m1 :: (K ++ n :: l)))
    obtain ⟨B, h4, hB⟩ := freePathQuery_eq t m1 m3 (A ++ [m2]) (K ++ n :: l)
    obtain ⟨L, h5, hL⟩ := free_mid m3 n (B ++ K) l
    refine ⟨m3, L, ?_, ?_⟩
    · simp only [List.append_assoc, List.cons_append, List.nil_append] at h1 h2 h3 h4 h5
      simp only [requestMem, alloc_eq, h1, ok_bind, h2, h3, h4, h5]
    · simp only [List.length_append, List.length_cons, List.length_nil] at hL hB hK
      omega

/-! ### C73 -/

/-- C73 in full: after a request, exactly the blocks that were allocated before it are allocated. -/
def C73_statement : Prop :=
  ∀ (req : Req) (c : Course) (h h' : Heap), requestMem req h c = ok h' → h'.live.Perm h.live

/-- C73 is false: a request with an unsupported method leaves the copies of its address and request line. -/
theorem C73_refuted : ¬ C73_statement := by
  intro h
  have := (h (api_request_new 5 b!"10.0.0.1") .badMethod ⟨0, []⟩ ⟨4, [2, 1]⟩ (by decide)).length_eq
  revert this
  decide

/-- C73, what happens: no request releases a literal, a block twice or a block it does not own, whatever was
allocated before stays allocated, and exactly so many blocks are left behind. Missing: that there are none. -/
theorem C73_partial (req : Req) (hs : List (Str × Str)) (c : Course) (h : Heap) (e k : Nat) (hst : req.Stored hs)
    (hlen : FitsLog hs) (hz : ∀ p ∈ hs, NulFree p.1 ∧ NulFree p.2)
    (he : EmptyQuoted hs e) (hc : Leaves e c k) :
    ∃ h' A, requestMem req h c = ok h' ∧ h'.live = A ++ h.live ∧ A.length = k := by
  obtain ⟨m, A, h1, h2⟩ := requestMem_eq (fun n l => logMem_eq hst hlen hz he n l) hc h.next h.live
  exact ⟨_, A, h1, rfl, h2⟩

/-- At least two blocks, six for a request that is served. -/
theorem leaves_le {e k : Nat} {c : Course} (h : Leaves e c k) :
    2 ≤ k ∧ (∀ lines n u, c = .served lines n u → 6 ≤ k) := by
  cases h with
  | badMethod => exact ⟨by omega, fun _ _ _ h => nomatch h⟩
  | refused => exact ⟨by omega, fun _ _ _ h => nomatch h⟩
  | served lines k n u hk hn hl =>
    have : 1 ≤ leftUse e u := by cases u <;> simp only [leftUse] <;> omega
    exact ⟨by omega, fun _ _ _ _ => by omega⟩

/-- C73, the consequence: memory grows without bound, by at least two blocks per request. -/
theorem C73_grows (rs : List (Req × Course)) (h : Heap)
    (hr : ∀ r ∈ rs, ∃ hs e k, r.1.Stored hs ∧ FitsLog hs ∧
      (∀ p ∈ hs, NulFree p.1 ∧ NulFree p.2) ∧ EmptyQuoted hs e ∧ Leaves e r.2 k) :
    ∃ h', requestsMem rs h = ok h' ∧ h.live.length + 2 * rs.length ≤ h'.live.length := by
  induction rs generalizing h with
  | nil => exact ⟨h, rfl, by simp⟩
  | cons r rs ih =>
    obtain ⟨hs, e, k, hst, hlen, hz, he, h2⟩ := hr r (by simp)
    obtain ⟨m, A, h3, h4⟩ := requestMem_eq (fun n l => logMem_eq hst hlen hz he n l) h2 h.next h.live
    obtain ⟨h', h5, h6⟩ := ih ⟨m, A ++ h.live⟩ (fun r hr' => hr r (by simp [hr']))
    refine ⟨h', ?_, ?_⟩
    · simp only [requestsMem]
      rw [h3]
      exact h5
    · have := (leaves_le h2).1
      simp only [List.length_append, List.length_cons] at h6 ⊢
      omega

/-- The test of `free_path_and_query_t` (http_utils.c:475) is right: the query is a heap string iff it is not
empty, which is when the URL has at least two tokens. -/
theorem C73_query (url path query : Str) (ts : List Str) (hz : NulFree url) (h : Runs b!"?" url ts)
    (hlen : ∀ u ∈ ts, u.length < 1023) (hcnt : ts.length ≤ 50)
    (hq : get_path_and_query_string url = ok (path, query)) : query ≠ [] ↔ 1 < ts.length := by
  have hne : ∀ u ∈ ts, u ≠ [] := by
    clear hz hlen hcnt hq
    induction h with
    | nil => simp
    | last d t _ ht => simpa using ht
    | cons d t x s ts _ ht _ _ _ ih =>
      intro u hu
      rcases List.mem_cons.mp hu with rfl | hu
      · exact ht
      · exact ih u hu
  cases ts with
  | nil =>
    cases h with
    | nil _ hd => rw [C36_uninit url (by simpa using hd)] at hq; cases hq
  | cons t ts =>
    rw [C36_runs_partial url t ts hz h hlen hcnt] at hq
    simp only [ok.injEq, Prod.mk.injEq] at hq
    rw [← hq.2]
    cases ts with
    | nil => simp
    | cons u us => simpa using hne u (by simp)

example : Leaves 0 (.served [b!"Host: a", b!"Content-Type: text/plain"] 2 (.api true none (.param false))) 8 :=
  .served _ 1 2 _ (.no _ _ _ (by rw [← startswith_iff]; decide) (.yes _ _ _ (by rw [← startswith_iff]; decide) .nil))
    (by omega) (by decide)
example : (api_request_new 5 b!"10.0.0.1").Stored [] := ⟨rfl, .nil⟩
example : EmptyQuoted [(b!"Host", b!"a"), (b!"Referer", [])] 1 :=
  ⟨some [], none, ⟨[(b!"Host", b!"a")], [], rfl, by decide⟩, (by unfold FirstHeader; decide), by decide⟩
example : requestMem (api_request_new 5 b!"10.0.0.1") ⟨0, []⟩
    (.served [b!"Host: a", b!"Content-Type: text/plain"] 2 (.api true none (.param false))) =
      ok ⟨29, [25, 24, 23, 15, 4, 3, 2, 1]⟩ := by decide +kernel

end Mem
end Wayuu
