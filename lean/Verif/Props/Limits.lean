import Verif.Lemmas.Limits
import Verif.Props.Conf
/-
Properties C48 and C49 (ws.c, limit rules and the table of live connections).
-/
namespace Wayuu
open C Spec

/-! ### C48 -/

/-- The path of every rule line fits `path[512]`. -/
def PathsFit (lines : List (List Byte)) : Prop :=
  ∀ l ∈ lines, ∀ text p fields, BeforeNul l text → text.head? = some 47 → Runs b!"," text (p :: fields) → p.length < 512

/-- C48: every limits file gives the rules of its lines, in order, and nothing else, up to 64. Every file has
lines and every line is either a rule or none (last two parts), so no file is left out. -/
theorem C48_rules (fs : FS) (wsRoot : Str) (hroot : wsRoot.length < 256) :
    (fs.openRead (wsRoot ++ b!"/etc/limits") = none → load_limits fs wsRoot = ok []) ∧
    (∀ content lines rules, fs.openRead (wsRoot ++ b!"/etc/limits") = some content → FileLines content lines →
      PathsFit lines → List.Forall₂ LineRule lines rules →
      load_limits fs wsRoot = ok ((rules.filterMap (fun r => r)).take 64)) ∧
    (∀ content, ∃ lines rules, FileLines content lines ∧ List.Forall₂ LineRule lines rules) := by
  have hf : fmtInto (ROOT_PATH_MAX + 32) (wsRoot ++ b!"/etc/limits") = ok (wsRoot ++ b!"/etc/limits") := by
    apply fmtInto_ok
    show _ ≤ 256 + 32
    simp; omega
  refine ⟨?_, ?_, ?_⟩
  · intro h
    simp [load_limits, hf, h]
  · intro content lines rules h hl hp hr
    simp only [load_limits, hf, ok_bind, h]
    have hfl := hl
    obtain ⟨rfl, h1, h2⟩ := hl
    rw [limitsLoop_eq lines rules _ [] ⟨[], 0, 0, 0⟩ ?_ hfl hr hp rfl (by simp)]
    · rfl
    · have : lines.length ≤ lines.flatten.length := by
        clear hfl hr hp h h2
        induction lines with
        | nil => simp
        | cons l ls ih =>
          have := ih (fun m hm => h1 m (by simp [hm]))
          have h3 : 0 < l.length := List.length_pos_iff.mpr (h1 l (by simp)).1
          simp only [List.length_cons, List.flatten_cons, List.length_append]; omega
      omega
  · intro content
    obtain ⟨lines, hl⟩ := lines_exist content
    refine ⟨lines, ?_⟩
    have : ∃ rules, List.Forall₂ LineRule lines rules := by
      clear hl
      induction lines with
      | nil => exact ⟨[], .nil⟩
      | cons l ls ih =>
        obtain ⟨rs, hrs⟩ := ih
        obtain ⟨r, hr⟩ := lineRule_exists l
        exact ⟨r :: rs, .cons hr hrs⟩
    obtain ⟨rules, hr⟩ := this
    exact ⟨rules, hl, hr⟩

/-- The rules of a line are determined by the line: the description above leaves no choice. -/
theorem C48_unique (line : List Byte) (r r' : Option PathLimit) (h : LineRule line r) (h' : LineRule line r') : r = r' := by
  obtain ⟨t, f, hb, hf, hc⟩ := h
  obtain ⟨t', f', hb', hf', hc'⟩ := h'
  obtain rfl := beforeNul_unique hb hb'
  obtain rfl := runs_unique hf hf'
  rcases hc with ⟨h1, p, a, b, m, rfl, rfl⟩ | ⟨h1, rfl⟩ <;> rcases hc' with ⟨h2, p', a', b', m', h3, rfl⟩ | ⟨h2, rfl⟩
  · cases h3; rfl
  · rcases h2 with h2 | h2
    · exact absurd h1 h2
    · simp at h2; omega
  · subst h3
    rcases h1 with h1 | h1
    · exact absurd h2 h1
    · simp at h1; omega
  · rfl

/-- C48, the missing condition: a rule line whose path has 512 bytes or more overruns `path[512]`. -/
theorem C48_over (fs : FS) (wsRoot content path rest : Str) (hroot : wsRoot.length < 256)
    (h : fs.openRead (wsRoot ++ b!"/etc/limits") = some content) (hc : content = 47 :: path ++ 44 :: rest)
    (hp : 511 ≤ path.length) (hn : NulFree path) (h10 : (10 : Byte) ∉ path) (h44 : (44 : Byte) ∉ path) :
    load_limits fs wsRoot = ub .oob := by
  have hf : fmtInto (ROOT_PATH_MAX + 32) (wsRoot ++ b!"/etc/limits") = ok (wsRoot ++ b!"/etc/limits") := by
    apply fmtInto_ok
    show _ ≤ 256 + 32
    simp; omega
  have key : ∀ (n : Nat) (acc : List PathLimit) (cur : PathLimit), limitsLoop (n + 1) content acc cur = ub .oob := by
    intro n acc cur
    obtain ⟨l, r, hg, hl⟩ : ∃ l r, getline content = some (l, r) ∧ ∃ z, l = 47 :: path ++ 44 :: z := by
      have : ∀ s : Str, (10 : Byte) ∉ s → ∀ t, getlineAux (s ++ t) = (s ++ (getlineAux t).1, (getlineAux t).2) := by
        intro s hs t
        induction s with
        | nil => rfl
        | cons c s ih =>
          simp only [List.mem_cons, not_or] at hs
          rw [List.cons_append, getlineAux, if_neg (Ne.symm hs.1), ih hs.2]; rfl
      have h1 := this (47 :: path ++ [44]) (by simp [h10]) rest
      refine ⟨47 :: path ++ 44 :: (getlineAux rest).1, (getlineAux rest).2, ?_, (getlineAux rest).1, rfl⟩
      · rw [hc]
        unfold getline
        simp only [List.cons_append]
        rw [show (47 :: (path ++ 44 :: rest) : Str) = (47 :: path ++ [44]) ++ rest by simp, h1]
        simp
    obtain ⟨z, rfl⟩ := hl
    have hu : ∃ w, untilNul (47 :: path ++ 44 :: z) = 47 :: path ++ 44 :: w := by
      have h2 : BeforeNul (47 :: path ++ 44 :: z) (47 :: path ++ 44 :: untilNul z) := by
        obtain ⟨a, b⟩ := untilNul_before z
        refine ⟨?_, ?_⟩
        · intro c hc
          simp only [List.mem_append, List.mem_cons] at hc
          rcases hc with (rfl | hc) | rfl | hc
          · decide
          · exact hn c hc
          · decide
          · exact a c hc
        · rcases b with b | ⟨r, b⟩
          · left; rw [← b]
          · right; exact ⟨r, by conv => { lhs; rw [b] }; simp⟩
      exact ⟨_, beforeNul_unique (untilNul_before _) h2⟩
    obtain ⟨w, hu⟩ := hu
    rw [limitsLoop, hg]
    simp only [hu]
    rw [if_pos (by simp)]
    have ht : strtok (47 :: path ++ 44 :: w) b!"," = some (47 :: path, w) := by
      have := strtok_cons (delim := b!",") (d := []) (t := 47 :: path) (x := 44) (s := w) (by simp) (by simp) (by
        intro c hc
        simp only [List.mem_cons] at hc ⊢
        rcases hc with rfl | hc
        · simp
        · simp only [List.not_mem_nil, or_false]; rintro rfl; exact h44 hc) (by simp)
      simpa using this
    simp only [ht]
    rw [fmtInto_over (show 512 < (47 :: path).length + 1 by simp; omega)]
    rfl
  simp only [load_limits, hf, ok_bind, h]
  exact key content.length [] _

/-- A file system whose only file is `/etc/limits`. -/
def limitsFile (content : List Byte) : FS :=
  ⟨fun p => if p = [b!"etc"] then some .dir else if p = [b!"etc", b!"limits"] then some (.file content) else none,
    fun _ => true, fun _ => true⟩

example : load_limits (limitsFile b!"# max\n/a,5,2,10\n/b,1\n\n/c,7,3\nx/d,1,1,1") [] =
    ok [⟨b!"/a", 5, 2, 10⟩, ⟨b!"/c", 7, 3, 0⟩] := by decide +kernel
example : (limitsFile b!"/a,1,2\n").openRead ([] ++ b!"/etc/limits") = some b!"/a,1,2\n" ∧
    FileLines b!"/a,1,2\n" [b!"/a,1,2\n"] := by
  refine ⟨by decide, rfl, by decide, by decide⟩
example : PathsFit [b!"/a,1,2\n"] := by
  intro l hl text p fields hb hh hr
  have h1 : l = b!"/a,1,2\n" := by simpa using hl
  subst h1
  have h2 : text = b!"/a,1,2\n" := beforeNul_unique hb ⟨by decide, Or.inl rfl⟩
  subst h2
  obtain ⟨p', us, rest, h3, h4, -⟩ := runs_head_fields hr (by decide)
  cases h3
  have h5 : strtok b!"/a,1,2\n" b!"," = some (b!"/a", b!"1,2\n") := by decide
  rw [h5] at h4
  cases h4
  decide
example : LineRule b!"/a,1,2\n" (some ⟨b!"/a", 1, 2, 0⟩) := by
  refine ⟨b!"/a,1,2\n", [b!"/a", b!"1", b!"2\n"], ⟨by decide, Or.inl rfl⟩, ?_, Or.inl ⟨by decide, _, _, _, _, rfl, by decide⟩⟩
  exact .cons [] b!"/a" 44 b!"1,2\n" _ (by simp) (by simp) (by decide) (by decide)
    (.cons [] b!"1" 44 b!"2\n" _ (by simp) (by simp) (by decide) (by decide)
      (.last [] b!"2\n" (by simp) (by simp) (by decide)))

/-! ### C49 -/

/-- One step of a history: a connection is offered or a socket is released. -/
inductive ConnOp where
  | add (socket : Nat) (ip path : Str)
  | del (socket : Nat)

/-- A history of connections handled one at a time. -/
def history (limits : List PathLimit) : List ConnOp → List Conn → C (List Conn)
  | [], live => ok live
  | .add socket ip path :: ops, live => do
    let (_, live) ← connection_add limits live socket ip path
    history limits ops live
  | .del socket :: ops, live => history limits ops (connection_del socket live)

/-- The limits hold, allowing `extra` connections more than the rule says. -/
def Within (extra : Int) (limits : List PathLimit) (live : List Conn) : Prop :=
  ∀ l ∈ limits, (liveUnder l.path live : Int) ≤ max 0 (l.max_connections + extra) ∧
    ∀ ip, (liveUnderFrom l.path ip live : Int) ≤ max 0 (l.max_connections_per_ip + extra)

/-- C49 as stated. -/
def C49_statement : Prop :=
  ∀ limits ops live live', limits.length ≤ 64 → (∀ l ∈ limits, l.path ≠ []) → Within 0 limits live →
    history limits ops live = ok live' → Within 0 limits live'

theorem countP_replace {α} (p : α → Bool) (a b : List α) (x : α) :
    (a ++ x :: b).countP p = (a ++ b).countP p + (if p x then 1 else 0) := by
  simp only [List.countP_append, List.countP_cons]; omega

theorem countP_replace_le {α} (p : α → Bool) (a b : List α) (x : α) :
    (a ++ b).countP p ≤ (a ++ x :: b).countP p := by
  rw [countP_replace]; omega

theorem connection_del_within (extra : Int) (limits : List PathLimit) (live : List Conn) (socket : Nat)
    (h : Within extra limits live) : Within extra limits (connection_del socket live) := by
  classical
  rcases connection_del_cases socket live with h1 | ⟨a, c, b, rfl, -, h1⟩
  · rw [h1]; exact h
  · rw [h1]
    intro l hl
    obtain ⟨h2, h3⟩ := h l hl
    have key : ∀ p : Conn → Bool, p ⟨0, [], []⟩ = false → (a ++ ⟨0, [], []⟩ :: b).countP p ≤ (a ++ c :: b).countP p := by
      intro p hp
      rw [countP_replace, countP_replace, hp]; simp
    have hz : ∀ q, ¬ Under q ⟨0, [], []⟩ := fun q h => h.1 rfl
    refine ⟨?_, fun ip => ?_⟩
    · have := key (fun c => decide (Under l.path c)) (by simp [hz])
      unfold liveUnder at *; omega
    · have := key (fun c => decide (Under l.path c ∧ c.IP = ip)) (by simp [hz])
      have := h3 ip
      unfold liveUnderFrom at *; omega

theorem connection_add_within (limits : List PathLimit) (live live' : List Conn) (socket : Nat) (ip path : Str) (b : Bool)
    (hlen : limits.length ≤ 64) (hne : ∀ l ∈ limits, l.path ≠ []) (h : Within 1 limits live)
    (hadd : connection_add limits live socket ip path = ok (b, live')) : Within 1 limits live' := by
  classical
  have hact : activeRules limits = limits := by
    unfold activeRules
    rw [List.take_of_length_le hlen]
    refine List.takeWhile_eq_self_iff.mpr (fun l hl => ?_)
    simpa using hne l hl
  unfold connection_add at hadd
  cases hv : connection_validate limits live ip path with
  | false =>
    simp [hv] at hadd
    rw [← hadd.2]; exact h
  | true =>
    have hval := (connection_validate_iff limits live ip path).mp hv
    rw [hact] at hval
    simp only [hv, Bool.not_true, Bool.false_eq_true, if_false] at hadd
    cases hs : addSlot socket ip path live with
    | none =>
      simp [hs] at hadd
      rw [← hadd.2]; exact h
    | some live2 =>
      simp only [hs] at hadd
      obtain ⟨p1, hp1, hadd⟩ := bind_eq_ok.mp hadd
      obtain ⟨p2, hp2, hadd⟩ := bind_eq_ok.mp hadd
      have : live' = live2 := by cases hadd; rfl
      subst this
      obtain ⟨x, c, y, rfl, hc, -, rfl⟩ := addSlot_some hs
      intro l hl
      obtain ⟨h2, h3⟩ := h l hl
      have hz : ∀ q, ¬ Under q c := fun q h => h.1 hc
      refine ⟨?_, fun ip' => ?_⟩
      · unfold liveUnder at *
        rw [countP_replace] at h2 ⊢
        by_cases hu : Under l.path ⟨socket, path, ip⟩
        · have := (hval l hl hu.2).1
          unfold liveUnder at this
          rw [countP_replace] at this
          simp only [hu, hz, decide_true, decide_false, if_true, Bool.false_eq_true, if_false] at this ⊢
          omega
        · simp only [hu, hz, decide_false, Bool.false_eq_true, if_false] at h2 ⊢
          omega
      · have h3 := h3 ip'
        unfold liveUnderFrom at *
        rw [countP_replace] at h3 ⊢
        by_cases hu : Under l.path ⟨socket, path, ip⟩ ∧ ip = ip'
        · obtain ⟨hu, rfl⟩ := hu
          have := (hval l hl hu.2).2
          unfold liveUnderFrom at this
          rw [countP_replace] at this
          simp only [hu, hz, and_self, false_and, decide_true, decide_false, if_true, Bool.false_eq_true, if_false] at this ⊢
          omega
        · simp only [hu, hz, false_and, decide_false, Bool.false_eq_true, if_false] at h3 ⊢
          omega

/-- C49 is false: a rule that allows no connections lets one in. -/
theorem C49_refuted : ¬ C49_statement := by
  classical
  intro h
  have := h [⟨b!"/a", 0, 0, 0⟩] [.add 4 b!"1.2.3.4" b!"/a/x"] [⟨0, [], []⟩] [⟨4, b!"/a/x", b!"1.2.3.4"⟩]
    (by decide) (by decide) ?_ (by decide +kernel) ⟨b!"/a", 0, 0, 0⟩ (by simp)
  · have h1 := this.1
    have h2 : Under b!"/a" ⟨4, b!"/a/x", b!"1.2.3.4"⟩ := ⟨by decide, (startswith_iff _ _).mp (by decide)⟩
    simp [liveUnder, h2] at h1
  · intro l hl
    have hz : ∀ q, ¬ Under q ⟨0, [], []⟩ := fun q h => h.1 rfl
    simp at hl
    subst hl
    simp [liveUnder, liveUnderFrom, hz]

/-- What does hold of C49: in every history the number of live connections under a limited path never exceeds
its maximum by more than one, and never exceeds it by more than one for one address; a rule with a negative
maximum lets no connection in. Missing: the extra connection (see `C49_attained`). -/
theorem C49_partial (limits : List PathLimit) (ops : List ConnOp) (live live' : List Conn)
    (hlen : limits.length ≤ 64) (hne : ∀ l ∈ limits, l.path ≠ []) (h : Within 1 limits live)
    (hrun : history limits ops live = ok live') : Within 1 limits live' := by
  induction ops generalizing live with
  | nil => cases hrun; exact h
  | cons op ops ih =>
    cases op with
    | add socket ip path =>
      simp only [history] at hrun
      obtain ⟨⟨b, live2⟩, h1, hrun⟩ := bind_eq_ok.mp hrun
      exact ih live2 (connection_add_within limits live live2 socket ip path b hlen hne h h1) hrun
    | del socket =>
      exact ih _ (connection_del_within 1 limits live socket h) hrun

/-- C49, the decision: a connection is refused exactly if some rule for its path is already exceeded or the
table is full; a refused connection leaves the table as it is, an accepted one takes the first free slot. -/
theorem C49_decision (limits : List PathLimit) (live : List Conn) (socket : Nat) (ip path : Str)
    (hlen : limits.length ≤ 64) (hne : ∀ l ∈ limits, l.path ≠ []) (hp : path.length < 512) (hi : ip.length < 16) :
    ∃ r live', connection_add limits live socket ip path = ok (r, live') ∧
      (r = true ↔ (∃ c ∈ live, c.socket = 0) ∧ ∀ l ∈ limits, CasePrefix l.path path →
        (liveUnder l.path live : Int) ≤ l.max_connections ∧ (liveUnderFrom l.path ip live : Int) ≤ l.max_connections_per_ip) ∧
      (r = false → live' = live) ∧
      (r = true → ∃ a c b, live = a ++ c :: b ∧ c.socket = 0 ∧ (∀ x ∈ a, x.socket ≠ 0) ∧ live' = a ++ ⟨socket, path, ip⟩ :: b) := by
  have hact : activeRules limits = limits := by
    unfold activeRules
    rw [List.take_of_length_le hlen]
    refine List.takeWhile_eq_self_iff.mpr (fun l hl => ?_)
    simpa using hne l hl
  have hval := connection_validate_iff limits live ip path
  rw [hact] at hval
  rw [← hval]
  unfold connection_add
  cases hv : connection_validate limits live ip path with
  | false => exact ⟨false, live, by simp, by simp, by simp, by simp⟩
  | true =>
    simp only [Bool.not_true, Bool.false_eq_true, if_false]
    cases hs : addSlot socket ip path live with
    | none =>
      refine ⟨false, live, by simp, ?_, by simp, by simp⟩
      have := addSlot_none hs
      simp only [Bool.false_eq_true, and_true, false_iff, not_exists, not_and]
      exact this
    | some live2 =>
      refine ⟨true, live2, ?_, ?_, by simp, fun _ => addSlot_some hs⟩
      · simp only
        rw [fmtInto_ok (show path.length + 1 ≤ 512 by omega), fmtInto_ok (show ip.length + 1 ≤ 16 by omega)]
        rfl
      · obtain ⟨a, c, b, rfl, hc, -, -⟩ := addSlot_some hs
        simp only [and_true, true_iff]
        exact ⟨c, by simp, hc⟩

example := C49_decision [⟨b!"/a", 5, 2, 10⟩] [⟨3, b!"/a/x", b!"1.2.3.4"⟩, ⟨0, [], []⟩] 9 b!"1.2.3.4" b!"/A/y"
  (by decide) (by decide) (by decide) (by decide)

theorem addSlot_free (socket : Nat) (ip path : Str) (a : List Conn) (c : Conn) (b : List Conn) (ha : ∀ x ∈ a, x.socket ≠ 0)
    (hc : c.socket = 0) : addSlot socket ip path (a ++ c :: b) = some (a ++ ⟨socket, path, ip⟩ :: b) := by
  induction a with
  | nil => simp [addSlot, hc]
  | cons x a ih =>
    rw [List.cons_append, addSlot, if_neg (ha x (by simp)), ih (fun y hy => ha y (by simp [hy]))]
    rfl

/-- C49: the bound of `C49_partial` is exact. For every maximum `m` that the table can hold, `m + 1` connections
from one address, offered one after the other, are all accepted. -/
theorem C49_attained (p ip path : Str) (m : Nat) (secs : Int) (free : List Conn) (sockets : List Nat)
    (hpp : p ≠ []) (hpre : CasePrefix p path) (hp : path.length < 512) (hi : ip.length < 16)
    (hfree : ∀ c ∈ free, c.socket = 0) (hs : ∀ s ∈ sockets, s ≠ 0) (hn : sockets.length = m + 1) (hroom : m < free.length) :
    ∃ live', history [⟨p, m, m, secs⟩] (sockets.map (fun s => .add s ip path)) free = ok live' ∧
      liveUnder p live' = m + 1 ∧ liveUnderFrom p ip live' = m + 1 := by
  classical
  have hall : ∀ A : List Conn, (∀ x ∈ A, Under p x ∧ x.IP = ip) → ∀ F : List Conn, (∀ c ∈ F, c.socket = 0) →
      liveUnder p (A ++ F) = A.length ∧ liveUnderFrom p ip (A ++ F) = A.length := by
    intro A hA F hF
    have hz : ∀ c ∈ F, ¬ Under p c := fun c hc h => h.1 (hF c hc)
    unfold liveUnder liveUnderFrom
    simp only [List.countP_append]
    constructor
    · rw [List.countP_eq_length.mpr (by simpa using fun x hx => (hA x hx).1), List.countP_eq_zero.mpr (by simpa using hz), Nat.add_zero]
    · rw [List.countP_eq_length.mpr (by simpa using hA),
        List.countP_eq_zero.mpr (by simpa using fun x hx h => absurd h (hz x hx)), Nat.add_zero]
  have key : ∀ (ss : List Nat) (A F : List Conn), (∀ s ∈ ss, s ≠ 0) → (∀ x ∈ A, Under p x ∧ x.IP = ip) →
      (∀ c ∈ F, c.socket = 0) → A.length + ss.length = m + 1 → ss.length ≤ F.length →
      ∃ live', history [⟨p, m, m, secs⟩] (ss.map (fun s => .add s ip path)) (A ++ F) = ok live' ∧
        liveUnder p live' = m + 1 ∧ liveUnderFrom p ip live' = m + 1 := by
    intro ss
    induction ss with
    | nil =>
      intro A F _ hA hF hl _
      have := hall A hA F hF
      simp only [List.length_nil, Nat.add_zero] at hl
      exact ⟨A ++ F, rfl, by omega, by omega⟩
    | cons s ss ih =>
      intro A F hs hA hF hl hlen
      simp only [List.length_cons] at hl hlen
      cases F with
      | nil => simp at hlen
      | cons f F =>
        have hcnt := hall A hA (f :: F) hF
        have hu : Under p ⟨s, path, ip⟩ := ⟨hs s (by simp), hpre⟩
        obtain ⟨live', h1, h2⟩ := ih (A ++ [⟨s, path, ip⟩]) F (fun x hx => hs x (by simp [hx]))
          (by
            intro x hx
            simp only [List.mem_append, List.mem_singleton] at hx
            rcases hx with hx | rfl
            · exact hA x hx
            · exact ⟨hu, rfl⟩)
          (fun c hc => hF c (by simp [hc])) (by simp; omega) (by simp at hlen; omega)
        refine ⟨live', ?_, h2⟩
        rw [← h1]
        have hadd : connection_add [⟨p, m, m, secs⟩] (A ++ f :: F) s ip path = ok (true, A ++ ⟨s, path, ip⟩ :: F) := by
          have hv : connection_validate [⟨p, m, m, secs⟩] (A ++ f :: F) ip path = true := by
            rw [connection_validate_iff]
            have : activeRules [⟨p, m, m, secs⟩] = [⟨p, m, m, secs⟩] := by simp [activeRules, hpp]
            rw [this]
            intro l hl' _
            simp only [List.mem_singleton] at hl'
            subst hl'
            simp only [hcnt]
            omega
          unfold connection_add
          rw [hv]
          simp only [Bool.not_true, Bool.false_eq_true, if_false]
          rw [addSlot_free s ip path A f F (fun x hx => (hA x hx).1.1) (hF f (by simp))]
          simp only
          rw [fmtInto_ok (show path.length + 1 ≤ 512 by omega), fmtInto_ok (show ip.length + 1 ≤ 16 by omega)]
          rfl
        simp only [List.map_cons, history, hadd, ok_bind, List.append_assoc, List.singleton_append]
  exact key sockets [] free hs (by simp) hfree (by simp [hn]) (by omega)

example : ∃ (p ip path : Str) (free : List Conn) (sockets : List Nat), p ≠ [] ∧ CasePrefix p path ∧ path.length < 512 ∧
    ip.length < 16 ∧ (∀ c ∈ free, c.socket = 0) ∧ (∀ s ∈ sockets, s ≠ 0) ∧ sockets.length = 2 + 1 ∧ 2 < free.length :=
  ⟨b!"/a", b!"1.2.3.4", b!"/A/x", List.replicate 5 ⟨0, [], []⟩, [4, 5, 6], by decide, (startswith_iff _ _).mp (by decide),
    by decide, by decide, by decide, by decide, by decide, by decide⟩
example : Within 1 [⟨b!"/a", 0, 0, 0⟩] [⟨0, [], []⟩] ∧
    history [⟨b!"/a", 0, 0, 0⟩] [.add 4 b!"1" b!"/a/x", .add 5 b!"1" b!"/a/x", .del 4] [⟨0, [], []⟩, ⟨0, [], []⟩]
      = ok [⟨0, [], []⟩, ⟨0, [], []⟩] := by
  classical
  refine ⟨?_, by decide +kernel⟩
  intro l hl
  have hz : ∀ q, ¬ Under q ⟨0, [], []⟩ := fun q h => h.1 rfl
  simp at hl
  subst hl
  simp [liveUnder, liveUnderFrom, hz]
  omega

end Wayuu
