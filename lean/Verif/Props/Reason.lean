import Verif.Spec.Reason
import Verif.Props.Messages
import Verif.Props.Unread
import Verif.Props.Evasion
/-
Property C146 (ws.c:385-456 and log.c:63-92): what the server log says about connections that are turned away.
-/
namespace Wayuu
open C Spec

/-- C146 in full: at the levels the command line can set, a connection that is turned away leaves the reason in the server log, and
nothing else. -/
def C146_statement : Prop :=
  ∀ (env : Env) (st : St) (socket : Nat) (peer line text method url rest : Str) (ms : List Msg) (level : Nat),
    level = DEBUG_LEVEL ∨ level = DEFAULT_LEVEL →
    env.limits.length ≤ 64 → (∀ l ∈ env.limits, l.path ≠ []) → peer.length < 16 → Begins st.input line text method url rest →
    Supported method → ¬ Admits env.limits st.live peer url → accept_msgs env st socket peer = ok ms →
    ∃ why, Reason env.limits st.live peer url why ∧ (written level ms).map Msg.text = [why]

theorem validate_reason (live : List Conn) (ip url : Str) : ∀ (n : Nat) (before ls : List PathLimit), ls.length ≤ n →
    (∀ l ∈ ls, l.path ≠ []) → (∀ x ∈ before, Kept live ip url x) →
    ((∀ x ∈ before ++ ls, Kept live ip url x) ∧ validate_msgs live ip url n ls = []) ∨
    (¬ (∀ x ∈ before ++ ls, Kept live ip url x) ∧ ∃ why, Reason (before ++ ls) live ip url why ∧ validate_msgs live ip url n ls = [⟨1, why⟩]) := by
  intro n
  induction n with
  | zero =>
    intro before ls hl _ hb
    obtain rfl := List.length_eq_zero_iff.mp (Nat.le_zero.mp hl)
    exact Or.inl ⟨by simpa using hb, rfl⟩
  | succ n ih =>
    intro before ls hl hne hb
    cases ls with
    | nil => exact Or.inl ⟨by simpa using hb, rfl⟩
    | cons l r =>
      have hr : r.length ≤ n := by simpa using hl
      have next : Kept live ip url l → _ := fun hk => ih (before ++ [l]) r hr (fun x hx => hne x (by simp [hx]))
        (fun x hx => by
          rcases List.mem_append.mp hx with h | h
          · exact hb x h
          · rw [List.mem_singleton.mp h]; exact hk)
      rw [List.append_assoc, List.singleton_append] at next
      unfold validate_msgs
      rw [if_neg (hne l (by simp)), get_live_stats_eq]
      dsimp only
      by_cases hs : startswith url l.path = true
      · rw [if_pos hs]
        have hs' := (startswith_iff _ _).mp hs
        by_cases h1 : (liveUnder l.path live : Int) > l.max_connections
        · rw [if_pos h1]
          exact Or.inr ⟨fun h => absurd (h l (by simp) hs').1 (by omega), _, .total before r l rfl hb hs' h1, rfl⟩
        · rw [if_neg h1]
          by_cases h2 : (liveUnderFrom l.path ip live : Int) > l.max_connections_per_ip
          · rw [if_pos h2]
            exact Or.inr ⟨fun h => absurd (h l (by simp) hs').2 (by omega), _, .address before r l rfl hb hs' (by omega) h2, rfl⟩
          · rw [if_neg h2]
            exact next (fun _ => ⟨by omega, by omega⟩)
      · rw [if_neg hs]
        exact next (fun h => absurd ((startswith_iff _ _).mpr h) hs)

/-- The messages of `connection_add`: none for a connection that is admitted, the reason for any other. -/
theorem add_reason {limits : List PathLimit} {live : List Conn} {ip url : Str} (hl : limits.length ≤ 64) (hne : ∀ l ∈ limits, l.path ≠ []) :
    (Admits limits live ip url ∧ add_msgs limits live ip url = []) ∨
    (¬ Admits limits live ip url ∧ ∃ why, Reason limits live ip url why ∧ add_msgs limits live ip url = [⟨1, why⟩]) := by
  have hv : (∀ x ∈ limits, Kept live ip url x) ↔ connection_validate limits live ip url = true := by
    have e : activeRules limits = limits := by
      unfold activeRules
      rw [List.take_of_length_le hl, List.takeWhile_eq_self_iff]
      intro l h
      simpa using hne l h
    rw [connection_validate_iff, e]
    rfl
  unfold add_msgs
  rcases validate_reason live ip url 64 [] limits hl hne (by simp) with ⟨h1, h2⟩ | ⟨h1, why, h2, h3⟩
  · rw [List.nil_append] at h1
    rw [show MAX_LIMIT_RULES = 64 from rfl, h2, hv.mp h1, List.nil_append, Bool.true_and]
    cases hs : addSlot 1 ip url live with
    | none =>
      have hfull := addSlot_none hs
      right
      refine ⟨fun h => ?_, _, .full h1 hfull, by simp⟩
      obtain ⟨c, hc, hz⟩ := h.1
      exact hfull c hc hz
    | some live' =>
      obtain ⟨a, c, b, e, hz, -⟩ := addSlot_some hs
      exact Or.inl ⟨⟨⟨c, by rw [e]; simp, hz⟩, h1⟩, by simp⟩
  · rw [List.nil_append] at h1 h2
    have hf : connection_validate limits live ip url = false := by
      rw [← Bool.not_eq_true, ← hv]
      exact h1
    right
    refine ⟨fun h => h1 h.2, why, h2, ?_⟩
    rw [show MAX_LIMIT_RULES = 64 from rfl, h3, hf]
    rfl

theorem away_msgs {env : Env} {st : St} {socket : Nat} {peer line text method url rest : Str} {ms : List Msg}
    (hl : env.limits.length ≤ 64) (hne : ∀ l ∈ env.limits, l.path ≠ []) (hp : peer.length < 16)
    (hb : Begins st.input line text method url rest) (hs : Supported method) (ha : ¬ Admits env.limits st.live peer url)
    (h : accept_msgs env st socket peer = ok ms) :
    ∃ why t, Reason env.limits st.live peer url why ∧ ms = [⟨0, t⟩, ⟨1, why⟩] := by
  obtain ⟨e1, e2⟩ := requestLine_eq hb.1 hb.2.1 hb.2.2.1 hb.2.2.2.1 hb.2.2.2.2
  obtain ⟨b, hb1, hb2⟩ := startswithany_methods method
  have hadm := connection_add_admits (live := st.live) (socket := socket) hl hne (show url.length < 512 by have := hb.2.2.2.2; omega) hp
  unfold accept_msgs at h
  obtain ⟨ip, hip, h⟩ := bind_eq_ok.mp h
  rw [fmtInto_ok (by omega)] at hip
  cases hip
  dsimp only at h
  rw [e1, ok_bind] at h
  obtain ⟨t, -, h⟩ := bind_eq_ok.mp h
  rw [hb1, ok_bind, hb2.mpr hs] at h
  simp only [Bool.not_true, Bool.false_eq_true, if_false] at h
  rw [e2, ok_bind] at h
  have hadd := hadm.2 ha
  simp only [api_request_new] at h
  rw [hadd, ok_bind] at h
  simp only [Bool.not_false, if_true] at h
  rcases add_reason (live := st.live) (ip := peer) (url := url) hl hne with ⟨g, -⟩ | ⟨-, why, g1, g2⟩
  · exact absurd g ha
  · cases h
    exact ⟨why, _, g1, by rw [g2]; rfl⟩

/-- C146, with `-d`: exactly one message, the reason. Missing: at the default level nothing is written (`C146_quiet`). -/
theorem C146_partial (env : Env) (st : St) (socket : Nat) (peer line text method url rest : Str) (ms : List Msg)
    (hl : env.limits.length ≤ 64) (hne : ∀ l ∈ env.limits, l.path ≠ []) (hp : peer.length < 16)
    (hb : Begins st.input line text method url rest) (hs : Supported method) (ha : ¬ Admits env.limits st.live peer url)
    (h : accept_msgs env st socket peer = ok ms) :
    ∃ why, Reason env.limits st.live peer url why ∧ written DEBUG_LEVEL ms = [⟨1, why⟩] := by
  obtain ⟨why, t, h1, rfl⟩ := away_msgs hl hne hp hb hs ha h
  exact ⟨why, h1, rfl⟩

/-- C146: at the default level a connection that is turned away leaves nothing in the server log. -/
theorem C146_quiet (env : Env) (st : St) (socket : Nat) (peer line text method url rest : Str) (ms : List Msg)
    (hl : env.limits.length ≤ 64) (hne : ∀ l ∈ env.limits, l.path ≠ []) (hp : peer.length < 16)
    (hb : Begins st.input line text method url rest) (hs : Supported method) (ha : ¬ Admits env.limits st.live peer url)
    (h : accept_msgs env st socket peer = ok ms) : written DEFAULT_LEVEL ms = [] := by
  obtain ⟨why, t, h1, rfl⟩ := away_msgs hl hne hp hb hs ha h
  rfl

/-- C146: a reason is only given for connections that are turned away, and there is only one. -/
theorem C146_unique (limits : List PathLimit) (live : List Conn) (ip url why why' : Str) (h : Reason limits live ip url why)
    (h' : Reason limits live ip url why') : ¬ Admits limits live ip url ∧ why = why' := by
  have split : ∀ {a b a' b' : List PathLimit} {l l' : PathLimit}, a ++ l :: b = a' ++ l' :: b' → (∀ x ∈ a, Kept live ip url x) →
      (∀ x ∈ a', Kept live ip url x) → ¬ Kept live ip url l → ¬ Kept live ip url l' → l = l' := by
    intro a b a' b' l l' e h1 h2 n1 n2
    rcases List.append_eq_append_iff.mp e with ⟨c, e1, e2⟩ | ⟨c, e1, e2⟩
    · cases c with
      | nil => simp at e2; exact e2.1
      | cons x c =>
        simp only [List.cons_append, List.cons.injEq] at e2
        exact absurd (h2 l (by rw [e1, e2.1]; simp)) n1
    · cases c with
      | nil => simp at e2; exact e2.1.symm
      | cons x c =>
        simp only [List.cons_append, List.cons.injEq] at e2
        exact absurd (h1 l' (by rw [e1, e2.1]; simp)) n2
  cases h with
  | total a b l e k1 k2 k3 =>
    have n : ¬ Kept live ip url l := fun hk => absurd (hk k2).1 (by omega)
    refine ⟨fun h => n (h.2 l (by rw [e]; simp)), ?_⟩
    cases h' with
    | total a' b' l' e' j1 j2 j3 =>
      rw [split (e.symm.trans e') k1 j1 n (fun hk => absurd (hk j2).1 (by omega))]
    | address a' b' l' e' j1 j2 j3 j4 =>
      have := split (e.symm.trans e') k1 j1 n (fun hk => absurd (hk j2).2 (by omega))
      subst this
      omega
    | full j1 j2 => exact absurd (j1 l (by rw [e]; simp)) n
  | address a b l e k1 k2 k3 k4 =>
    have n : ¬ Kept live ip url l := fun hk => absurd (hk k2).2 (by omega)
    refine ⟨fun h => n (h.2 l (by rw [e]; simp)), ?_⟩
    cases h' with
    | total a' b' l' e' j1 j2 j3 =>
      have := split (e.symm.trans e') k1 j1 n (fun hk => absurd (hk j2).1 (by omega))
      subst this
      omega
    | address a' b' l' e' j1 j2 j3 j4 =>
      rw [split (e.symm.trans e') k1 j1 n (fun hk => absurd (hk j2).2 (by omega))]
    | full j1 j2 => exact absurd (j1 l (by rw [e]; simp)) n
  | full k1 k2 =>
    refine ⟨fun h => ?_, ?_⟩
    · obtain ⟨c, hc, hz⟩ := h.1
      exact k2 c hc hz
    · cases h' with
      | total a' b' l' e' j1 j2 j3 => exact absurd (k1 l' (by rw [e']; simp) j2).1 (by omega)
      | address a' b' l' e' j1 j2 j3 j4 => exact absurd (k1 l' (by rw [e']; simp) j2).2 (by omega)
      | full j1 j2 => rfl

theorem busy_msgs : (accept_msgs busyEnv (busySt b!"/docs/index.html") 7 b!"10.0.0.1").bind (fun ms => ok (written DEBUG_LEVEL ms)) =
    ok [⟨1, b!"IP:10.0.0.1 denied, max_connections exceeded for /docs"⟩] := by decide +kernel

/-- C146 is false: at the default level nothing is written. -/
theorem C146_refuted : ¬ C146_statement := by
  intro h
  cases hm : accept_msgs busyEnv (busySt b!"/docs/index.html") 7 b!"10.0.0.1" with
  | ub f =>
    have := busy_msgs
    rw [hm] at this
    cases this
  | ok ms =>
    have hb := begins_get (url := b!"/docs/index.html") (by decide) (by decide) (by unfold White; decide)
    have hs : Supported b!"GET" := ⟨b!"GET", by decide, (startswith_iff _ _).mp (by decide)⟩
    obtain ⟨why, -, h2⟩ := h busyEnv (busySt b!"/docs/index.html") 7 b!"10.0.0.1" _ _ _ _ _ ms DEFAULT_LEVEL (Or.inr rfl) (by decide)
      (by decide) (by decide) hb hs (busy_full _) hm
    rw [C146_quiet busyEnv (busySt b!"/docs/index.html") 7 b!"10.0.0.1" _ _ _ _ _ ms (by decide) (by decide) (by decide) hb hs
      (busy_full _) hm] at h2
    cases h2

/-- The reason for the connection that is turned away there. -/
example : Reason busyEnv.limits (busySt b!"/docs/index.html").live b!"10.0.0.1" b!"/docs/index.html"
    b!"IP:10.0.0.1 denied, max_connections exceeded for /docs" := by
  cases hm : accept_msgs busyEnv (busySt b!"/docs/index.html") 7 b!"10.0.0.1" with
  | ub f =>
    have := busy_msgs
    rw [hm] at this
    cases this
  | ok ms =>
    obtain ⟨why, h1, h2⟩ := C146_partial busyEnv (busySt b!"/docs/index.html") 7 b!"10.0.0.1" _ _ _ _ _ ms (by decide) (by decide) (by decide)
      (begins_get (url := b!"/docs/index.html") (by decide) (by decide) (by unfold White; decide))
      ⟨b!"GET", by decide, (startswith_iff _ _).mp (by decide)⟩ (busy_full _) hm
    have := busy_msgs
    rw [hm] at this
    simp only [C.bind, ok.injEq, h2, List.cons.injEq, Msg.mk.injEq] at this
    rw [this.1.2] at h1
    exact h1

end Wayuu
