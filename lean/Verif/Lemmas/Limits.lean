import Verif.Spec.Limits
import Verif.Lemmas.Files
/-
Lemmas about limit rules and the table of live connections.
-/
namespace Wayuu
open C Spec

theorem getlineAux_eq {l r : List Byte} (hne : l ≠ []) (h : (10 : Byte) ∉ l.dropLast)
    (hend : l.getLast? = some 10 ∨ r = []) : getlineAux (l ++ r) = (l, r) := by
  induction l with
  | nil => exact absurd rfl hne
  | cons c l ih =>
    cases l with
    | nil =>
      simp only [List.getLast?_singleton, Option.some.injEq] at hend
      by_cases hc : c = 10
      · simp [getlineAux, hc]
      · have hr : r = [] := by rcases hend with h | h <;> tauto
        simp [getlineAux, hc, hr]
    | cons d l =>
      simp only [List.dropLast_cons_cons, List.mem_cons, not_or] at h
      have hc : c ≠ 10 := Ne.symm h.1
      have := ih (by simp) h.2 (by simpa using hend)
      simp only [List.cons_append] at this ⊢
      rw [getlineAux, if_neg hc, this]

theorem getline_lines {l : List Byte} {ls : List (List Byte)} (h : FileLines ((l :: ls).flatten) (l :: ls)) :
    getline ((l :: ls).flatten) = some (l, ls.flatten) := by
  obtain ⟨-, h1, h2⟩ := h
  have hl := h1 l (by simp)
  have : getlineAux (l ++ ls.flatten) = (l, ls.flatten) := by
    refine getlineAux_eq hl.1 hl.2 ?_
    cases ls with
    | nil => right; rfl
    | cons m ls => left; exact h2 l (by simp)
  simp only [List.flatten_cons]
  unfold getline
  cases hl2 : l ++ ls.flatten with
  | nil => simp [hl.1] at hl2
  | cons a b => simp only; rw [← hl2, this]

theorem fileLines_tail {l : List Byte} {ls : List (List Byte)} (h : FileLines ((l :: ls).flatten) (l :: ls)) :
    FileLines ls.flatten ls := by
  obtain ⟨-, h1, h2⟩ := h
  refine ⟨rfl, fun m hm => h1 m (by simp [hm]), fun m hm => h2 m ?_⟩
  cases ls with
  | nil => simp at hm
  | cons a b => simp only [List.dropLast_cons_cons, List.mem_cons]; exact Or.inr hm

/-- The runs of a text in terms of `strtok`. -/
theorem strtok_of_runs {delim s : Str} {ts : List Str} (h : Runs delim s ts) :
    (ts = [] ∧ strtok s delim = none) ∨ ∃ t us rest, ts = t :: us ∧ strtok s delim = some (t, rest) ∧ Runs delim rest us := by
  cases h with
  | nil d hd => exact Or.inl ⟨rfl, strtok_delims hd⟩
  | last d t hd ht htd => exact Or.inr ⟨t, [], [], rfl, strtok_last hd ht htd, .nil [] (by simp)⟩
  | cons d t x s ts hd ht htd hx hr => exact Or.inr ⟨t, ts, s, rfl, strtok_cons hd ht htd hx, hr⟩

theorem limitFields_three (n : Nat) (r : PathLimit) (rest : Str) (us : List Str) (h : Runs b!"," rest us) :
    limitFields (n + 1) r rest 3 = ({ r with max_seconds := (us.head?.map atoi).getD r.max_seconds }, 3 + min 1 us.length) := by
  unfold limitFields
  rcases strtok_of_runs h with ⟨rfl, h2⟩ | ⟨t, vs, rest', rfl, h2, -⟩
  · simp [h2]
  · simp [h2]

theorem limitFields_two (n : Nat) (r : PathLimit) (rest : Str) (us : List Str) (h : Runs b!"," rest us) :
    limitFields (n + 2) r rest 2 =
      (match us with
       | [] => (r, 2)
       | u :: us => ({ r with max_connections_per_ip := atoi u, max_seconds := (us.head?.map atoi).getD r.max_seconds },
          3 + min 1 us.length)) := by
  unfold limitFields
  rcases strtok_of_runs h with ⟨rfl, h2⟩ | ⟨t, vs, rest', rfl, h2, h3⟩
  · simp [h2]
  · simp [h2, limitFields_three _ _ _ _ h3]

theorem limitFields_one (n : Nat) (r : PathLimit) (rest : Str) (us : List Str) (h : Runs b!"," rest us) :
    limitFields (n + 3) r rest 1 =
      (match us with
       | [] => (r, 1)
       | [a] => ({ r with max_connections := atoi a }, 2)
       | a :: b :: us => (⟨r.path, atoi a, atoi b, (us.head?.map atoi).getD r.max_seconds⟩, 3 + min 1 us.length)) := by
  unfold limitFields
  rcases strtok_of_runs h with ⟨rfl, h2⟩ | ⟨t, vs, rest', rfl, h2, h3⟩
  · simp [h2]
  · simp only [h2]
    have := limitFields_two n { r with max_connections := atoi t } rest' vs h3
    simp [this]
    cases vs <;> simp

theorem runs_head_fields {text : Str} {fields : List Str} (h : Runs b!"," text fields) (hh : text.head? = some 47) :
    ∃ p us rest, fields = p :: us ∧ strtok text b!"," = some (p, rest) ∧ Runs b!"," rest us := by
  rcases strtok_of_runs h with ⟨rfl, h2⟩ | h
  · exfalso
    have := strtok_none h2
    cases text with
    | nil => simp at hh
    | cons c t =>
      simp only [List.head?_cons, Option.some.injEq] at hh
      subst hh
      have := this 47 (by simp)
      simp at this
  · obtain ⟨t, us, rest, h1, h2, h3⟩ := h
    exact ⟨t, us, rest, h1, h2, h3⟩

theorem limitsLoop_eq (lines : List (List Byte)) (rules : List (Option PathLimit)) (n : Nat) (acc : List PathLimit)
    (cur : PathLimit) (hn : lines.length < n) (hl : FileLines lines.flatten lines) (hr : List.Forall₂ LineRule lines rules)
    (hs : ∀ l ∈ lines, ∀ text p fields, BeforeNul l text → text.head? = some 47 → Runs b!"," text (p :: fields) → p.length < 512)
    (hc : cur.max_seconds = 0) (ha : acc.length < 64) :
    limitsLoop n lines.flatten acc cur = ok ((acc ++ rules.filterMap (fun r => r)).take 64) := by
  induction hr generalizing n acc cur with
  | nil =>
    obtain ⟨n, rfl⟩ : ∃ k, n = k + 1 := ⟨n - 1, by simp at hn; omega⟩
    simp only [limitsLoop, List.flatten_nil, getline, List.filterMap_nil, List.append_nil]
    rw [List.take_of_length_le (by omega)]
  | @cons l r ls rs h1 h2 ih =>
    obtain ⟨n, rfl⟩ : ∃ k, n = k + 1 := ⟨n - 1, by simp at hn; omega⟩
    have hn' : ls.length < n := by simp at hn; omega
    have ih' := fun acc cur h3 h4 => ih n acc cur hn' (fileLines_tail hl) (fun l hl => hs l (by simp [hl])) h3 h4
    rw [limitsLoop, getline_lines hl]
    simp only
    obtain ⟨text, fields, ht, hf, hcase⟩ := h1
    have htx : untilNul l = text := beforeNul_unique (untilNul_before l) ht
    rw [htx]
    by_cases hh : text.head? = some 47
    · rw [if_pos hh]
      obtain ⟨p, us, rest, rfl, htok, hus⟩ := runs_head_fields hf hh
      simp only [htok]
      rw [fmtInto_ok (show p.length + 1 ≤ 512 from hs l (by simp) text p us ht hh hf)]
      simp only [ok_bind]
      rw [limitFields_one 1 _ _ us hus]
      match us, hcase with
      | [], hcase =>
        have hr : r = none := by simpa using hcase
        subst hr
        simp only [show ¬ 3 ≤ 1 by omega, if_false]
        rw [ih' _ _ (by simpa using hc) ha]
        simp
      | [a], hcase =>
        have hr : r = none := by simpa using hcase
        subst hr
        simp only [show ¬ 3 ≤ 2 by omega, if_false]
        rw [ih' _ _ (by simpa using hc) ha]
        simp
      | a :: b :: more, hcase =>
        have hr : r = some ⟨p, atoi a, atoi b, (more.head?.map atoi).getD 0⟩ := by
          rcases hcase with ⟨-, p', a', b', m', h, h'⟩ | ⟨h | h, -⟩
          · cases h; exact h'
          · exact absurd hh h
          · simp at h; omega
        subst hr
        simp only [hc, show 3 ≤ 3 + min 1 more.length by omega, if_true]
        simp only [List.filterMap_cons]
        by_cases hlast : 64 ≤ acc.length + 1
        · rw [if_pos (show MAX_LIMIT_RULES ≤ acc.length + 1 from hlast)]
          have : acc.length = 63 := by omega
          congr 1
          rw [List.take_append, this, List.take_of_length_le (by omega)]
          simp
        · rw [if_neg (show ¬ MAX_LIMIT_RULES ≤ acc.length + 1 from hlast), ih' _ _ rfl (by simp; omega)]
          simp
    · rw [if_neg hh]
      have hr : r = none := by
        rcases hcase with ⟨h, -⟩ | ⟨-, h⟩
        · exact absurd h hh
        · exact h
      subst hr
      rw [ih' _ _ hc ha]
      simp

theorem lines_exist (content : List Byte) : ∃ lines, FileLines content lines := by
  induction content with
  | nil => exact ⟨[], rfl, by simp, by simp⟩
  | cons c s ih =>
    obtain ⟨lines, rfl, h1, h2⟩ := ih
    by_cases hc : c = 10
    · refine ⟨[c] :: lines, by simp, ?_, ?_⟩
      · intro l hl
        simp only [List.mem_cons] at hl
        rcases hl with rfl | hl
        · simp
        · exact h1 l hl
      · intro l hl
        cases lines with
        | nil => simp at hl
        | cons m ms =>
          simp only [List.dropLast_cons_cons, List.mem_cons] at hl
          rcases hl with rfl | hl
          · simp [hc]
          · exact h2 l hl
    · cases lines with
      | nil => exact ⟨[[c]], by simp, by simp, by simp⟩
      | cons m ms =>
        refine ⟨(c :: m) :: ms, by simp, ?_, ?_⟩
        · intro l hl
          simp only [List.mem_cons] at hl
          rcases hl with rfl | hl
          · have := h1 m (by simp)
            refine ⟨by simp, ?_⟩
            cases m with
            | nil => exact absurd rfl this.1
            | cons a m =>
              simp only [List.dropLast_cons_cons, List.mem_cons, not_or]
              exact ⟨Ne.symm hc, this.2⟩
          · exact h1 l (by simp [hl])
        · intro l hl
          cases ms with
          | nil => simp at hl
          | cons k ms =>
            simp only [List.dropLast_cons_cons, List.mem_cons] at hl
            rcases hl with rfl | hl
            · have hm := h2 m (by simp)
              have hmne := (h1 m (by simp)).1
              cases m with
              | nil => exact absurd rfl hmne
              | cons a m => simpa using hm
            · exact h2 l (by simp [hl])

theorem lineRule_exists (line : List Byte) : ∃ r, LineRule line r := by
  obtain ⟨fields, hf⟩ := runs_exists b!"," (untilNul line)
  by_cases hh : (untilNul line).head? = some 47
  · match fields, hf with
    | [], hf => exact ⟨none, _, _, untilNul_before line, hf, Or.inr ⟨Or.inr (by simp), rfl⟩⟩
    | [a], hf => exact ⟨none, _, _, untilNul_before line, hf, Or.inr ⟨Or.inr (by simp), rfl⟩⟩
    | [a, b], hf => exact ⟨none, _, _, untilNul_before line, hf, Or.inr ⟨Or.inr (by simp), rfl⟩⟩
    | p :: a :: b :: more, hf =>
      exact ⟨_, _, _, untilNul_before line, hf, Or.inl ⟨hh, p, a, b, more, rfl, rfl⟩⟩
  · exact ⟨none, _, _, untilNul_before line, hf, Or.inr ⟨Or.inl hh, rfl⟩⟩

/-! ### the table of live connections -/

theorem get_live_stats_eq (path ip : Str) (live : List Conn) :
    get_live_stats path ip live = (liveUnder path live, liveUnderFrom path ip live) := by
  classical
  induction live with
  | nil => simp [get_live_stats, liveUnder, liveUnderFrom]
  | cons c r ih =>
    simp only [get_live_stats, ih]
    unfold liveUnder liveUnderFrom at *
    rw [List.countP_cons, List.countP_cons]
    by_cases h0 : c.socket = 0
    · have h1 : ¬ Under path c := fun h => h.1 h0
      simp [h0, h1]
    · by_cases h1 : startswith c.path path = true
      · have h2 : Under path c := ⟨h0, (startswith_iff _ _).mp h1⟩
        by_cases h3 : c.IP = ip
        · simp [h0, h1, h2, h3, strEq]
        · simp [h0, h1, h2, h3, strEq, Ne.symm h3]
      · have h2 : ¬ Under path c := fun h => h1 ((startswith_iff _ _).mpr h.2)
        simp [h0, h1, h2]

/-- The rules in force: at most 64, up to the first with an empty path. -/
def activeRules (limits : List PathLimit) : List PathLimit :=
  (limits.take 64).takeWhile (fun l => !l.path.isEmpty)

theorem validateLoop_iff (live : List Conn) (ip path : Str) (n : Nat) (limits : List PathLimit) :
    validateLoop live ip path n limits = true ↔
      ∀ l ∈ (limits.take n).takeWhile (fun l => !l.path.isEmpty), CasePrefix l.path path →
        (liveUnder l.path live : Int) ≤ l.max_connections ∧ (liveUnderFrom l.path ip live : Int) ≤ l.max_connections_per_ip := by
  induction limits generalizing n with
  | nil => cases n <;> simp [validateLoop]
  | cons l r ih =>
    cases n with
    | zero => simp [validateLoop]
    | succ n =>
      rw [validateLoop]
      by_cases hp : l.path = []
      · simp [hp]
      · have hp' : (!l.path.isEmpty) = true := by simpa using hp
        simp only [hp, if_false, List.take_succ_cons, List.takeWhile_cons, hp', if_true, List.mem_cons,
          forall_eq_or_imp]
        rw [← ih n, get_live_stats_eq]
        by_cases hs : startswith path l.path = true
        · have := (startswith_iff _ _).mp hs
          simp only [hs, if_true, this, true_implies]
          by_cases h1 : (liveUnder l.path live : Int) > l.max_connections
          · simp only [h1, if_true, Bool.false_eq_true, false_iff]
            intro h; omega
          · by_cases h2 : (liveUnderFrom l.path ip live : Int) > l.max_connections_per_ip
            · simp only [h1, if_false, h2, if_true, Bool.false_eq_true, false_iff]
              intro h; omega
            · simp only [h1, if_false, h2]
              constructor
              · intro h; exact ⟨⟨by omega, by omega⟩, h⟩
              · intro h; exact h.2
        · have : ¬ CasePrefix l.path path := fun h => hs ((startswith_iff _ _).mpr h)
          simp [hs, this]

theorem connection_validate_iff (limits : List PathLimit) (live : List Conn) (ip path : Str) :
    connection_validate limits live ip path = true ↔
      ∀ l ∈ activeRules limits, CasePrefix l.path path →
        (liveUnder l.path live : Int) ≤ l.max_connections ∧ (liveUnderFrom l.path ip live : Int) ≤ l.max_connections_per_ip :=
  validateLoop_iff live ip path 64 limits

theorem addSlot_some {socket : Nat} {ip path : Str} {live live' : List Conn} (h : addSlot socket ip path live = some live') :
    ∃ a c b, live = a ++ c :: b ∧ c.socket = 0 ∧ (∀ x ∈ a, x.socket ≠ 0) ∧ live' = a ++ ⟨socket, path, ip⟩ :: b := by
  induction live generalizing live' with
  | nil => simp [addSlot] at h
  | cons c r ih =>
    unfold addSlot at h
    by_cases hc : c.socket = 0
    · rw [if_pos hc] at h
      simp only [Option.some.injEq] at h
      subst h
      exact ⟨[], c, r, rfl, hc, by simp, rfl⟩
    · rw [if_neg hc] at h
      cases hr : addSlot socket ip path r with
      | none => simp [hr] at h
      | some r' =>
        simp only [hr, Option.map_some, Option.some.injEq] at h
        subst h
        obtain ⟨a, d, b, rfl, h1, h2, rfl⟩ := ih hr
        exact ⟨c :: a, d, b, rfl, h1, by simpa [hc] using h2, rfl⟩

theorem addSlot_none {socket : Nat} {ip path : Str} {live : List Conn} (h : addSlot socket ip path live = none) :
    ∀ c ∈ live, c.socket ≠ 0 := by
  induction live with
  | nil => simp
  | cons c r ih =>
    unfold addSlot at h
    by_cases hc : c.socket = 0
    · rw [if_pos hc] at h; cases h
    · rw [if_neg hc] at h
      simp only [Option.map_eq_none_iff] at h
      simpa [hc] using ih h

theorem connection_del_notin {socket : Nat} {live : List Conn} (h : ∀ c ∈ live, c.socket ≠ socket) :
    connection_del socket live = live := by
  induction live with
  | nil => rfl
  | cons c r ih =>
    rw [connection_del, if_neg (h c (by simp)), ih (fun x hx => h x (by simp [hx]))]

theorem connection_del_mid {socket : Nat} (a : List Conn) (c : Conn) (b : List Conn) (ha : ∀ x ∈ a, x.socket ≠ socket)
    (hc : c.socket = socket) : connection_del socket (a ++ c :: b) = a ++ ⟨0, [], []⟩ :: b := by
  induction a with
  | nil => simp [connection_del, hc]
  | cons x a ih =>
    rw [List.cons_append, connection_del, if_neg (ha x (by simp)), ih (fun y hy => ha y (by simp [hy]))]
    rfl

theorem connection_del_cases (socket : Nat) (live : List Conn) :
    connection_del socket live = live ∨
      ∃ a c b, live = a ++ c :: b ∧ c.socket = socket ∧ connection_del socket live = a ++ ⟨0, [], []⟩ :: b := by
  induction live with
  | nil => left; rfl
  | cons c r ih =>
    by_cases hc : c.socket = socket
    · right; exact ⟨[], c, r, rfl, hc, by simp [connection_del, hc]⟩
    · rcases ih with ih | ⟨a, d, b, rfl, h1, h2⟩
      · left; rw [connection_del, if_neg hc, ih]
      · right; exact ⟨c :: a, d, b, rfl, h1, by rw [List.cons_append, connection_del, if_neg hc, h2]⟩

end Wayuu
