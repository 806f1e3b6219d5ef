import Verif.Model.Reuse
import Verif.Lemmas.Limits
import Verif.Lemmas.Keeps
/-
Property C88: the table of connections and the re-use of descriptor numbers (ws.c:411-456).
-/
namespace Wayuu.Reuse
open C Spec

/-- The worker's connection was entered in the table and has not been removed yet. -/
def Worker.registered (w : Worker) : Bool :=
  match w.phase with
  | .serving | .closed true => true
  | _ => false

/-- C88: after every run, each connection being served is in the table, and each entry of the table is a connection
that is being served or is just being closed. -/
def C88_statement : Prop :=
  ∀ (limits : List PathLimit) (slots n : Nat) (evs : List Ev) (s : S), run limits (start slots n) evs = some s →
    (∀ w ∈ s.workers, w.phase = .serving → w.conn ∈ s.live) ∧
    (∀ c ∈ s.live, c.socket ≠ 0 → ∃ w ∈ s.workers, w.conn = c ∧ (w.phase = .serving ∨ w.phase = .closed true))

/-- A request with an unsupported method on connection 7 is turned down; number 7 goes to the next connection, which is
entered in the table; then the first worker removes the entry. -/
theorem C88_refuted : ¬ C88_statement := by
  intro h
  have := (h [] 4 2 [.accept 0 ⟨7, b!"/a", b!"1.2.3.4"⟩, .reject 0, .close 0, .accept 1 ⟨7, b!"/b", b!"5.6.7.8"⟩, .add 1, .del 0]
    _ rfl).1 ⟨.serving, ⟨7, b!"/b", b!"5.6.7.8"⟩⟩ (by decide) rfl
  revert this
  decide

/-! ### Counting -/

theorem countP_two {α : Type} (p q r : α → Bool) (l : List α) (h1 : ∀ x, p x → r x) (h2 : ∀ x, q x → r x)
    (h3 : ∀ x, p x → q x → False) : l.countP p + l.countP q ≤ l.countP r := by
  induction l with
  | nil => simp
  | cons x l ih =>
    simp only [List.countP_cons]
    have h1 := h1 x
    have h2 := h2 x
    have h3 := h3 x
    cases hp : p x <;> cases hq : q x <;> cases hr : r x <;> first | (exfalso; simp_all; done) | (simp; omega)

/-- Replacing an element changes a count by what the two elements contribute. -/
theorem countP_set_add {α : Type} (p : α → Bool) {l : List α} {i : Nat} {a b : α} (h : l[i]? = some a) :
    (l.set i b).countP p + (if p a then 1 else 0) = l.countP p + (if p b then 1 else 0) := by
  induction l generalizing i with
  | nil => simp at h
  | cons x l ih =>
    cases i with
    | zero =>
      simp only [List.getElem?_cons_zero, Option.some.injEq] at h
      subst h
      simp only [List.set_cons_zero, List.countP_cons]
      omega
    | succ i =>
      simp only [List.getElem?_cons_succ] at h
      have := ih h
      simp only [List.set_cons_succ, List.countP_cons]
      omega

theorem countP_pos_of_get {α : Type} (p : α → Bool) {l : List α} {i : Nat} {a : α} (h : l[i]? = some a) (hp : p a) :
    1 ≤ l.countP p :=
  List.countP_pos_iff.mpr ⟨a, List.mem_of_getElem? h, hp⟩

theorem addSlot_some {socket : Nat} {ip path : Str} {live live' : List Conn} (h : addSlot socket ip path live = some live') :
    ∃ a z b, live = a ++ z :: b ∧ z.socket = 0 ∧ live' = a ++ ⟨socket, path, ip⟩ :: b := by
  induction live generalizing live' with
  | nil => cases h
  | cons x r ih =>
    unfold addSlot at h
    split at h
    · rename_i hx
      cases h
      exact ⟨[], x, r, rfl, hx, rfl⟩
    · cases hr : addSlot socket ip path r with
      | none => rw [hr] at h; cases h
      | some r' =>
        rw [hr] at h
        cases h
        obtain ⟨a, z, b, rfl, hz, rfl⟩ := ih hr
        exact ⟨x :: a, z, b, rfl, hz, rfl⟩

/-- What `connection_add` does to a count of entries. -/
theorem add_count (p : Conn → Bool) (hp : ∀ c, c.socket = 0 → p c = false) {limits : List PathLimit} {live live' : List Conn}
    {c : Conn} {b : Bool} (h : connection_add limits live c.socket c.IP c.path = ok (b, live')) :
    live'.countP p = live.countP p + (if b && p c then 1 else 0) := by
  cases c
  rcases connection_add_ok h with ⟨rfl, rfl⟩ | ⟨rfl, h'⟩
  · simp
  · obtain ⟨x, z, y, rfl, hz, rfl⟩ := addSlot_some h'
    simp [List.countP_append, List.countP_cons, hp z hz]
    omega

/-! ### Any run -/

/-- The table has no more entries for a number than there are registered connections with it. -/
def AtMost (s : S) : Prop :=
  ∀ n, n ≠ 0 → s.live.countP (fun c => c.socket == n) ≤ s.workers.countP (fun w => w.registered && w.conn.socket == n)

theorem del_count (n m : Nat) (hm : m ≠ 0) (live : List Conn) :
    (connection_del n live).countP (fun c => c.socket == m) =
      live.countP (fun c => c.socket == m) - (if n = m then 1 else 0) := by
  induction live with
  | nil => simp [connection_del]
  | cons c r ih =>
    unfold connection_del
    have hm' : ¬ 0 = m := fun h => hm h.symm
    split
    · rename_i hc
      subst hc
      by_cases h : c.socket = m <;> simp [h, hm']
    · rename_i hc
      simp only [List.countP_cons, ih]
      by_cases h : n = m
      · subst h; simp [hc]
      · simp [h]

theorem step_atMost {limits : List PathLimit} {s s' : S} {e : Ev} (h : AtMost s) (hs : step limits s e = some s') : AtMost s' := by
  intro n hn
  have h := h n hn
  cases e with
  | accept i c =>
    unfold step at hs
    dsimp only at hs
    split at hs
    · rename_i w hw
      split at hs
      · rename_i hc
        cases hs
        have := countP_set_add (fun w : Worker => w.registered && w.conn.socket == n) (b := ⟨.accepted, c⟩) hw
        simp [Worker.registered, hc.1] at this
        simp [Worker.registered] at h ⊢
        omega
      · cases hs
    · cases hs
  | add i =>
    unfold step at hs
    dsimp only at hs
    split at hs
    · rename_i w hw
      split at hs
      · rename_i hc
        split at hs
        · rename_i live' ha
          cases hs
          have e := add_count (fun c => c.socket == n) (by intro c hc'; simp [hc']; omega) ha
          have := countP_set_add (fun w : Worker => w.registered && w.conn.socket == n) (b := ⟨.serving, w.conn⟩) hw
          simp only [Worker.registered, hc, Bool.true_and, Bool.false_and] at this e h ⊢
          rw [e]
          simp only [Bool.false_eq_true, if_false] at this
          omega
        · rename_i live' ha
          cases hs
          have e := add_count (fun c => c.socket == n) (by intro c hc'; simp [hc']; omega) ha
          have := countP_set_add (fun w : Worker => w.registered && w.conn.socket == n) (b := ⟨.refused, w.conn⟩) hw
          simp only [Worker.registered, hc, Bool.false_and] at this e h ⊢
          rw [e]
          simp only [Bool.false_eq_true, if_false] at this
          simp
          omega
        · cases hs
      · cases hs
    · cases hs
  | reject i =>
    unfold step at hs
    dsimp only at hs
    split at hs
    · rename_i w hw
      split at hs
      · rename_i hc
        cases hs
        have := countP_set_add (fun w : Worker => w.registered && w.conn.socket == n) (b := ⟨.refused, w.conn⟩) hw
        simp [Worker.registered, hc] at this
        simp [Worker.registered] at h ⊢
        omega
      · cases hs
    · cases hs
  | close i =>
    unfold step at hs
    dsimp only at hs
    split at hs
    · rename_i w hw
      split at hs
      · rename_i hc
        cases hs
        have := countP_set_add (fun w : Worker => w.registered && w.conn.socket == n) (b := ⟨.closed true, w.conn⟩) hw
        simp only [Worker.registered, hc, Bool.true_and, Nat.add_right_cancel_iff] at this h ⊢
        omega
      · rename_i hc
        cases hs
        have := countP_set_add (fun w : Worker => w.registered && w.conn.socket == n) (b := ⟨.closed false, w.conn⟩) hw
        simp only [Worker.registered, hc, Bool.false_and, Nat.add_right_cancel_iff] at this h ⊢
        omega
      · cases hs
    · cases hs
  | del i =>
    unfold step at hs
    dsimp only at hs
    split at hs
    · rename_i w hw
      split at hs
      · rename_i b hc
        cases hs
        have := countP_set_add (fun w : Worker => w.registered && w.conn.socket == n) (b := ⟨.idle, w.conn⟩) hw
        dsimp only
        rw [del_count _ _ hn]
        cases b <;> simp only [Worker.registered, hc, Bool.true_and, Bool.false_and, Bool.false_eq_true, if_false, beq_iff_eq] at this h ⊢ <;> omega
      · cases hs
    · cases hs

theorem run_atMost {limits : List PathLimit} {evs : List Ev} {s s' : S} (h : AtMost s) (hr : run limits s evs = some s') : AtMost s' := by
  induction evs generalizing s with
  | nil => cases hr; exact h
  | cons e evs ih =>
    simp only [run, Option.bind_eq_some_iff] at hr
    obtain ⟨t, ht, hr⟩ := hr
    exact ih (step_atMost h ht) hr

theorem start_atMost (slots n : Nat) : AtMost (start slots n) := by
  intro m hm
  have : ¬ 0 = m := fun h => hm h.symm
  simp [start, List.countP_replicate, this]

/-- C88, in every run whatsoever: the table never has more entries with a number than there are registered
connections with that number. In particular, when all workers are idle, the whole table is free again. -/
theorem C88_drained (limits : List PathLimit) (slots n : Nat) (evs : List Ev) (s : S) (hr : run limits (start slots n) evs = some s) :
    (∀ m, m ≠ 0 → s.live.countP (fun c => c.socket == m) ≤ s.workers.countP (fun w => w.registered && w.conn.socket == m)) ∧
    ((∀ w ∈ s.workers, w.phase = .idle) → ∀ c ∈ s.live, c.socket = 0) := by
  have h := run_atMost (start_atMost slots n) hr
  refine ⟨h, fun hi c hc => ?_⟩
  by_contra hne
  have h1 := h _ hne
  have h2 : s.workers.countP (fun w => w.registered && w.conn.socket == c.socket) = 0 := by
    rw [List.countP_eq_zero]
    intro w hw
    simp [Worker.registered, hi w hw]
  have h3 : 1 ≤ s.live.countP (fun d => d.socket == c.socket) := List.countP_pos_iff.mpr ⟨c, hc, by simp⟩
  omega

/-! ### Runs without re-use -/

/-- No connection gets the number of a descriptor whose entry is still to be removed. -/
def NoReuse (limits : List PathLimit) : S → List Ev → Bool
  | _, [] => true
  | s, e :: es =>
    (match e with
      | .accept _ c => s.workers.all (fun w => match w.phase with | .closed _ => w.conn.socket != c.socket | _ => true)
      | _ => true) &&
    (match step limits s e with
      | some s' => NoReuse limits s' es
      | none => true)

theorem noReuse_cons {limits : List PathLimit} {s : S} {e : Ev} {es : List Ev} (h : NoReuse limits s (e :: es) = true) :
    (∀ i c, e = .accept i c → ∀ w ∈ s.workers, ∀ b, w.phase = .closed b → w.conn.socket ≠ c.socket) ∧
    ∀ s', step limits s e = some s' → NoReuse limits s' es = true := by
  simp only [NoReuse, Bool.and_eq_true] at h
  obtain ⟨h1, h2⟩ := h
  constructor
  · rintro i c rfl w hw b hb
    have := List.all_eq_true.mp h1 w hw
    simpa [hb] using this
  · intro s' hs
    rw [hs] at h2
    exact h2

/-- The table is the registered connections, and no two connections have the same number. -/
structure Exact (s : S) : Prop where
  table : ∀ c : Conn, c.socket ≠ 0 → s.live.countP (fun d => d == c) = s.workers.countP (fun w => w.registered && w.conn == c)
  distinct : ∀ n, s.workers.countP (fun w => w.phase != .idle && w.conn.socket == n) ≤ 1
  pos : ∀ w ∈ s.workers, w.phase ≠ .idle → w.conn.socket ≠ 0

theorem mem_set_of {α : Type} {l : List α} {i : Nat} {a x : α} (h : x ∈ l.set i a) : x ∈ l ∨ x = a := List.mem_or_eq_of_mem_set h

/-- A step of worker `i` that keeps its connection and does not touch the table or its registration. -/
theorem exact_move {s : S} {i : Nat} {w : Worker} {ph : Phase} (h : Exact s) (hw : s.workers[i]? = some w) (h1 : w.phase ≠ .idle)
    (h3 : (⟨ph, w.conn⟩ : Worker).registered = w.registered) : Exact { s with workers := s.workers.set i ⟨ph, w.conn⟩ } where
  table c hc := by
    have := h.table c hc
    have e := countP_set_add (fun w : Worker => w.registered && w.conn == c) (b := ⟨ph, w.conn⟩) hw
    dsimp only at e ⊢
    rw [h3] at e
    omega
  distinct n := by
    have := h.distinct n
    have e := countP_set_add (fun w : Worker => w.phase != .idle && w.conn.socket == n) (b := ⟨ph, w.conn⟩) hw
    have h1' : (w.phase != Phase.idle) = true := by simpa using h1
    dsimp only at e ⊢
    rw [h1'] at e
    have h4 : (if (ph != Phase.idle && w.conn.socket == n) = true then 1 else 0) ≤ (if (true && w.conn.socket == n) = true then 1 else 0) := by
      cases (ph != Phase.idle) <;> simp
    omega
  pos v hv hne := by
    rcases mem_set_of hv with hv | rfl
    · exact h.pos v hv hne
    · exact h.pos w (List.mem_of_getElem? hw) h1

theorem del_none {n : Nat} {live : List Conn} (h : ∀ c ∈ live, c.socket ≠ n) : connection_del n live = live := connection_del_notin h

/-- The connection of a worker in the middle of closing is the only one with its number. -/
theorem exact_only {s : S} {i : Nat} {w : Worker} (h : Exact s) (hw : s.workers[i]? = some w) (h1 : w.phase ≠ .idle)
    {c : Conn} (hc : c ∈ s.live) (hs : c.socket = w.conn.socket) : w.registered = true ∧ c = w.conn := by
  have hpos : c.socket ≠ 0 := by rw [hs]; exact h.pos w (List.mem_of_getElem? hw) h1
  have h2 := h.table c hpos
  have h3 : 1 ≤ s.live.countP (fun d => d == c) := List.countP_pos_iff.mpr ⟨c, hc, by simp⟩
  by_contra hcon
  have h4 : 1 ≤ s.workers.countP (fun v => (v.phase != .idle && v.conn.socket == w.conn.socket) && !(v.registered && v.conn == c)) := by
    refine countP_pos_of_get _ hw ?_
    have : (w.phase != Phase.idle) = true := by simpa using h1
    simp only [this, beq_self_eq_true, Bool.and_self, Bool.true_and, Bool.not_eq_true', Bool.and_eq_false_iff, beq_eq_false_iff_ne]
    by_cases hr : w.registered = true
    · right; intro hwc; exact hcon ⟨hr, hwc.symm⟩
    · left; simpa using hr
  have h5 := countP_two (fun v : Worker => v.registered && v.conn == c)
    (fun v => (v.phase != .idle && v.conn.socket == w.conn.socket) && !(v.registered && v.conn == c))
    (fun v => v.phase != .idle && v.conn.socket == w.conn.socket) s.workers
    (by
      intro v hv
      simp only [Bool.and_eq_true, beq_iff_eq] at hv
      have : v.phase ≠ .idle := by
        intro hi
        have := hv.1
        simp [Worker.registered, hi] at this
      simp [this, hv.2, hs])
    (by intro v hv; simp only [Bool.and_eq_true] at hv ⊢; exact hv.1)
    (by intro v hv hv'; simp only [Bool.and_eq_true, Bool.not_eq_true'] at hv hv'; simp_all)
  have h6 := h.distinct w.conn.socket
  omega

/-- `connection_del` of a number that only `c` has, seen as a count. -/
theorem del_count_exact {c d : Conn} {live : List Conn} (hd : d.socket ≠ 0) (h : ∀ x ∈ live, x.socket = c.socket → x = c) :
    (connection_del c.socket live).countP (fun x => x == d) = live.countP (fun x => x == d) - (if c = d then 1 else 0) := by
  induction live with
  | nil => simp [connection_del]
  | cons x r ih =>
    have ih := ih (fun y hy => h y (by simp [hy]))
    unfold connection_del
    split
    · rename_i hx
      have := h x (by simp) hx
      subst this
      have h0 : ¬ (⟨0, [], []⟩ : Conn) = d := by rintro rfl; exact hd rfl
      by_cases hxd : x = d <;> simp [hxd, h0]
    · rename_i hx
      simp only [List.countP_cons, ih]
      by_cases hcd : c = d
      · subst hcd
        have : ¬ x = c := fun e => hx (by rw [e])
        simp [this]
      · simp [hcd]

theorem step_exact {limits : List PathLimit} {s s' : S} {e : Ev} (h : Exact s) (hs : step limits s e = some s')
    (hn : ∀ i c, e = .accept i c → ∀ w ∈ s.workers, ∀ b, w.phase = .closed b → w.conn.socket ≠ c.socket) : Exact s' := by
  cases e with
  | accept i c =>
    have hn := hn i c rfl
    unfold step at hs
    dsimp only at hs
    split at hs
    · rename_i w hw
      split at hs
      · rename_i hc
        obtain ⟨hc1, hc2, hc3⟩ := hc
        cases hs
        refine ⟨fun d hd => ?_, fun n => ?_, fun v hv hne => ?_⟩
        · have := h.table d hd
          have e := countP_set_add (fun w : Worker => w.registered && w.conn == d) (b := ⟨.accepted, c⟩) hw
          simp only [Worker.registered, hc1, Bool.false_and, Bool.false_eq_true, if_false] at e this ⊢
          omega
        · have := h.distinct n
          have e := countP_set_add (fun w : Worker => w.phase != .idle && w.conn.socket == n) (b := ⟨.accepted, c⟩) hw
          by_cases hcn : c.socket = n
          · have h0 : s.workers.countP (fun w => w.phase != .idle && w.conn.socket == n) = 0 := by
              rw [List.countP_eq_zero]
              intro v hv
              have h1 := List.all_eq_true.mp hc3 v hv
              have h2 := hn v hv
              subst hcn
              intro hcon
              simp only [Bool.and_eq_true, bne_iff_ne, ne_eq, beq_iff_eq] at hcon
              cases hph : v.phase with
              | idle => exact hcon.1 hph
              | closed b => exact h2 b hph hcon.2
              | accepted => simp [Worker.isOpen, hph, hcon.2] at h1
              | serving => simp [Worker.isOpen, hph, hcon.2] at h1
              | refused => simp [Worker.isOpen, hph, hcon.2] at h1
            have h9 : (if ((Phase.accepted != Phase.idle) && c.socket == n) = true then 1 else 0) ≤ 1 := by split <;> omega
            rw [h0] at e
            dsimp only at e ⊢
            omega
          · simp [hc1, hcn] at e
            simp at this ⊢
            omega
        · rcases mem_set_of hv with hv | rfl
          · exact h.pos v hv hne
          · exact hc2
      · cases hs
    · cases hs
  | add i =>
    unfold step at hs
    dsimp only at hs
    split at hs
    · rename_i w hw
      split at hs
      · rename_i hc
        have hne : w.phase ≠ .idle := by rw [hc]; decide
        split at hs
        · rename_i live' ha
          cases hs
          refine ⟨fun d hd => ?_, fun n => ?_, fun v hv hne' => ?_⟩
          · have := h.table d hd
            have e1 := add_count (fun x => x == d) (by intro x hx; simp only [beq_eq_false_iff_ne]; rintro rfl; exact hd hx) ha
            have e2 := countP_set_add (fun w : Worker => w.registered && w.conn == d) (b := ⟨.serving, w.conn⟩) hw
            simp only [Worker.registered, hc, Bool.true_and, Bool.false_and, Bool.false_eq_true, if_false] at e1 e2 this ⊢
            rw [e1]
            omega
          · have := h.distinct n
            have e := countP_set_add (fun w : Worker => w.phase != .idle && w.conn.socket == n) (b := ⟨.serving, w.conn⟩) hw
            simp [hc] at e
            simp at this ⊢
            omega
          · rcases mem_set_of hv with hv | rfl
            · exact h.pos v hv hne'
            · exact h.pos w (List.mem_of_getElem? hw) hne
        · rename_i live' ha
          cases hs
          have : live' = s.live := by
            rcases connection_add_ok ha with ⟨-, e⟩ | ⟨e, -⟩
            · exact e
            · cases e
          subst this
          exact exact_move h hw hne (by simp [Worker.registered, hc])
        · cases hs
      · cases hs
    · cases hs
  | reject i =>
    unfold step at hs
    dsimp only at hs
    split at hs
    · rename_i w hw
      split at hs
      · rename_i hc
        cases hs
        exact exact_move h hw (by rw [hc]; decide) (by simp [Worker.registered, hc])
      · cases hs
    · cases hs
  | close i =>
    unfold step at hs
    dsimp only at hs
    split at hs
    · rename_i w hw
      split at hs
      · rename_i hc
        cases hs
        exact exact_move h hw (by rw [hc]; decide) (by simp [Worker.registered, hc])
      · rename_i hc
        cases hs
        exact exact_move h hw (by rw [hc]; decide) (by simp [Worker.registered, hc])
      · cases hs
    · cases hs
  | del i =>
    unfold step at hs
    dsimp only at hs
    split at hs
    · rename_i w hw
      split at hs
      · rename_i b hc
        cases hs
        have hne : w.phase ≠ .idle := by rw [hc]; simp
        refine ⟨fun d hd => ?_, fun n => ?_, fun v hv hne' => ?_⟩
        · have h1 := h.table d hd
          have e1 := del_count_exact (c := w.conn) (live := s.live) hd (fun x hx hs => (exact_only h hw hne hx hs).2)
          have e2 := countP_set_add (fun w : Worker => w.registered && w.conn == d) (b := ⟨.idle, w.conn⟩) hw
          dsimp only
          rw [e1]
          cases b with
          | true =>
            simp only [Worker.registered, hc, Bool.true_and, Bool.false_and, Bool.false_eq_true, if_false, beq_iff_eq] at e2 h1 ⊢
            omega
          | false =>
            have hz : (if w.conn = d then 1 else 0) ≤ 0 ∨ s.live.countP (fun x => x == d) = 0 := by
              by_cases hwd : w.conn = d
              · right
                rw [List.countP_eq_zero]
                intro x hx hxd
                simp only [beq_iff_eq] at hxd
                subst hxd
                have := (exact_only h hw hne hx (by rw [hwd])).1
                simp [Worker.registered, hc] at this
              · left; simp [hwd]
            simp only [Worker.registered, hc, Bool.false_and, Bool.false_eq_true, if_false] at e2 h1 ⊢
            omega
        · have := h.distinct n
          have e := countP_set_add (fun w : Worker => w.phase != .idle && w.conn.socket == n) (b := ⟨.idle, w.conn⟩) hw
          simp at e this ⊢
          omega
        · rcases mem_set_of hv with hv | rfl
          · exact h.pos v hv hne'
          · exact absurd rfl hne'
      · cases hs
    · cases hs

theorem run_exact {limits : List PathLimit} {evs : List Ev} {s s' : S} (h : Exact s) (hn : NoReuse limits s evs = true)
    (hr : run limits s evs = some s') : Exact s' := by
  induction evs generalizing s with
  | nil => cases hr; exact h
  | cons e evs ih =>
    simp only [run, Option.bind_eq_some_iff] at hr
    obtain ⟨t, ht, hr⟩ := hr
    have hn := noReuse_cons hn
    exact ih (step_exact h ht hn.1) (hn.2 t ht) hr

theorem start_exact (slots n : Nat) : Exact (start slots n) where
  table c hc := by
    have : ¬ (⟨0, [], []⟩ : Conn) = c := by rintro rfl; exact hc rfl
    simp [start, List.countP_replicate, this, Worker.registered]
  distinct m := by simp [start, List.countP_replicate]
  pos w hw hne := by
    simp [start, List.mem_replicate] at hw
    rw [hw.2] at hne
    exact absurd rfl hne

/-- C88 for the runs in which no number is given out again before its entry has been removed: the table has each connection
being served exactly once, each entry is a connection being served or just being closed, and entries have
different numbers. -/
theorem C88_partial (limits : List PathLimit) (slots n : Nat) (evs : List Ev) (s : S) (hn : NoReuse limits (start slots n) evs = true)
    (hr : run limits (start slots n) evs = some s) :
    (∀ w ∈ s.workers, w.phase = .serving → s.live.countP (fun c => c.socket == w.conn.socket) = 1 ∧ w.conn ∈ s.live) ∧
    (∀ c ∈ s.live, c.socket ≠ 0 → ∃ w ∈ s.workers, w.conn = c ∧ (w.phase = .serving ∨ w.phase = .closed true)) := by
  have h := run_exact (start_exact slots n) hn hr
  have ha := run_atMost (start_atMost slots n) hr
  constructor
  · intro w hw hph
    have hpos := h.pos w hw (by rw [hph]; decide)
    have h1 := h.table w.conn hpos
    have h2 : 1 ≤ s.workers.countP (fun v => v.registered && v.conn == w.conn) :=
      List.countP_pos_iff.mpr ⟨w, hw, by simp [Worker.registered, hph]⟩
    have h3 : w.conn ∈ s.live := by
      rw [← h1] at h2
      obtain ⟨c, hc, e⟩ := List.countP_pos_iff.mp h2
      simp only [beq_iff_eq] at e
      rwa [e] at hc
    refine ⟨?_, h3⟩
    have h4 := ha _ hpos
    have h5 : s.workers.countP (fun v => v.registered && v.conn.socket == w.conn.socket) ≤
        s.workers.countP (fun v => v.phase != .idle && v.conn.socket == w.conn.socket) := by
      apply List.countP_mono_left
      intro v _ hv
      simp only [Bool.and_eq_true, beq_iff_eq, bne_iff_ne] at hv ⊢
      refine ⟨fun hi => ?_, hv.2⟩
      have := hv.1
      simp [Worker.registered, hi] at this
    have h6 := h.distinct w.conn.socket
    have h7 : 1 ≤ s.live.countP (fun c => c.socket == w.conn.socket) := List.countP_pos_iff.mpr ⟨_, h3, by simp⟩
    omega
  · intro c hc hne
    have h1 := h.table c hne
    have h2 : 1 ≤ s.live.countP (fun d => d == c) := List.countP_pos_iff.mpr ⟨c, hc, by simp⟩
    rw [h1] at h2
    obtain ⟨w, hw, e⟩ := List.countP_pos_iff.mp h2
    simp only [Bool.and_eq_true, beq_iff_eq] at e
    refine ⟨w, hw, e.2, ?_⟩
    have := e.1
    unfold Worker.registered at this
    split at this
    · left; assumption
    · right; assumption
    · cases this

/-! ### How far it goes -/

theorem run_append (limits : List PathLimit) (s : S) (a b : List Ev) :
    run limits s (a ++ b) = (run limits s a).bind (fun t => run limits t b) := by
  induction a generalizing s with
  | nil => rfl
  | cons e a ih =>
    simp only [List.cons_append, run]
    cases step limits s e with
    | none => rfl
    | some t => exact ih t

/-- The events that slip connection `c` past the table: worker 0 turns down a request on the number, closes it, worker `k` gets the
number and registers it, and worker 0 removes the entry. -/
def slip (k : Nat) (c : Conn) : List Ev := [.accept 0 c, .reject 0, .close 0, .accept k c, .add k, .del 0]

theorem run_slip (limits : List PathLimit) (slots : Nat) (h : Worker) (served idle : List Worker) (v : Worker) (c : Conn)
    (hh : h.phase = .idle) (hv : v.phase = .idle) (hs : ∀ w ∈ served, w.conn.socket ≠ c.socket) (hi : ∀ w ∈ idle, w.phase = .idle)
    (h0 : c.socket ≠ 0) (hadd : connection_add limits (List.replicate (slots + 1) ⟨0, [], []⟩) c.socket c.IP c.path =
      ok (true, c :: List.replicate slots ⟨0, [], []⟩)) :
    run limits ⟨List.replicate (slots + 1) ⟨0, [], []⟩, h :: (served ++ v :: idle)⟩ (slip (served.length + 1) c) =
      some ⟨List.replicate (slots + 1) ⟨0, [], []⟩, ⟨.idle, c⟩ :: (served ++ ⟨.serving, c⟩ :: idle)⟩ := by
  have hho : h.isOpen = false := by simp [Worker.isOpen, hh]
  have hvo : v.isOpen = false := by simp [Worker.isOpen, hv]
  have hio : ∀ w ∈ idle, w.isOpen = false := by
    intro w hw
    simp [Worker.isOpen, hi w hw]
  have hco : (⟨.closed false, c⟩ : Worker).isOpen = false := rfl
  have hdel : connection_del c.socket (c :: List.replicate slots ⟨0, [], []⟩) = List.replicate (slots + 1) ⟨0, [], []⟩ := by
    simp [connection_del, List.replicate_succ]
  simp +contextual [slip, run, step, hh, hv, h0, hho, hvo, hio, hs]
  rw [if_pos ⟨hv, by
    intro x hx
    simp only [List.mem_cons, List.mem_append] at hx
    rcases hx with rfl | hx | rfl | hx
    · exact Or.inl hco
    · exact Or.inr (hs x hx)
    · exact Or.inl hvo
    · exact Or.inl (hio x hx)⟩]
  simp [hadd, hdel]

/-- C88 fails without bound: whatever the rules, any number of connections that an empty table admits can be served at the same
time with nothing in the table, so that no rule counts them. -/
theorem C88_unbounded (limits : List PathLimit) (slots : Nat) (cs : List Conn)
    (h0 : ∀ c ∈ cs, c.socket ≠ 0) (hd : (cs.map (·.socket)).Nodup)
    (hok : ∀ c ∈ cs, c.path.length < 512 ∧ c.IP.length < 16 ∧ connection_validate limits (List.replicate (slots + 1) ⟨0, [], []⟩) c.IP c.path = true) :
    ∃ evs s, run limits (start (slots + 1) (cs.length + 1)) evs = some s ∧ s.live = List.replicate (slots + 1) ⟨0, [], []⟩ ∧
      s.workers.tail = cs.map (fun c => ⟨.serving, c⟩) := by
  suffices h : ∀ (done todo : List Conn), cs = done ++ todo → ∃ evs h', h'.phase = .idle ∧
      run limits (start (slots + 1) (cs.length + 1)) evs =
        some ⟨List.replicate (slots + 1) ⟨0, [], []⟩,
          h' :: (done.map (fun c => ⟨.serving, c⟩) ++ List.replicate todo.length ⟨.idle, ⟨0, [], []⟩⟩)⟩ by
    obtain ⟨evs, h', -, hr⟩ := h cs [] (by simp)
    exact ⟨evs, _, hr, rfl, by simp⟩
  intro done
  induction done using List.reverseRecOn with
  | nil =>
    intro todo e
    refine ⟨[], ⟨.idle, ⟨0, [], []⟩⟩, rfl, ?_⟩
    simp at e
    subst e
    simp [run, start, List.replicate_succ]
  | append_singleton done c ih =>
    intro todo e
    obtain ⟨evs, h', hi, hr⟩ := ih (c :: todo) (by rw [e]; simp)
    have hc : c ∈ cs := by rw [e]; simp
    refine ⟨evs ++ slip (done.length + 1) c, ⟨.idle, c⟩, rfl, ?_⟩
    rw [run_append, hr, Option.bind_some]
    obtain ⟨l1, l2, l3⟩ := hok c hc
    have := run_slip limits slots h' (done.map (fun c => ⟨.serving, c⟩)) (List.replicate todo.length ⟨.idle, ⟨0, [], []⟩⟩)
      ⟨.idle, ⟨0, [], []⟩⟩ c hi rfl (by
        intro w hw
        obtain ⟨d, hdm, rfl⟩ := List.mem_map.mp hw
        rw [e] at hd
        simp only [List.map_append, List.map_cons, List.map_nil, List.append_assoc, List.nodup_append] at hd
        exact hd.2.2 _ (List.mem_map.mpr ⟨d, hdm, rfl⟩) _ (by simp)) (by intro w hw; rw [List.eq_of_mem_replicate hw]) (h0 c hc) (by
        unfold connection_add
        rw [l3]
        have f1 : fmtInto HTTP_MAX_PATH c.path = ok c.path := fmtInto_ok l1
        have f2 : fmtInto HTTP_MAX_IP c.IP = ok c.IP := fmtInto_ok l2
        simp [List.replicate_succ, addSlot, f1, f2])
    simp only [List.length_map] at this
    rw [show List.replicate (c :: todo).length (⟨.idle, ⟨0, [], []⟩⟩ : Worker) = ⟨.idle, ⟨0, [], []⟩⟩ :: List.replicate todo.length ⟨.idle, ⟨0, [], []⟩⟩
      from rfl, this]
    simp

/-- A run without re-use of a pending number; the first number is given out again after its entry was removed. -/
def sampleRun : List Ev :=
  [.accept 0 ⟨7, b!"/a", b!"1"⟩, .accept 1 ⟨8, b!"/b", b!"2"⟩, .add 1, .reject 0, .close 0, .del 0, .accept 0 ⟨7, b!"/c", b!"3"⟩, .add 0]

example : NoReuse [] (start 4 2) sampleRun = true ∧ ∃ s, run [] (start 4 2) sampleRun = some s ∧
    s.live = [⟨8, b!"/b", b!"2"⟩, ⟨7, b!"/c", b!"3"⟩, ⟨0, [], []⟩, ⟨0, [], []⟩] := ⟨by decide, _, rfl, by decide⟩

/-- The connections of `C88_unbounded`: two at a time on a path for which the rules allow one. -/
example : (∀ c ∈ [(⟨7, b!"/a/1", b!"1.2.3.4"⟩ : Conn), ⟨8, b!"/a/2", b!"1.2.3.4"⟩], c.socket ≠ 0 ∧ c.path.length < 512 ∧ c.IP.length < 16 ∧
      connection_validate [⟨b!"/a", 0, 0, 0⟩] (List.replicate (3 + 1) ⟨0, [], []⟩) c.IP c.path = true) ∧
    (([(⟨7, b!"/a/1", b!"1.2.3.4"⟩ : Conn), ⟨8, b!"/a/2", b!"1.2.3.4"⟩]).map (·.socket)).Nodup := by decide

end Wayuu.Reuse
