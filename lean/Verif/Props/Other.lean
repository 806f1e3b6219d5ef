import Verif.Props.Blanks
import Verif.Props.Evasion
/-
Property C111 (ws.c:368-409): which requests a limit rule concerns.
-/
namespace Wayuu
open C Spec

/-- C111 as a user expects it: a rule for `/docs` concerns `/docs`, what is below it and its queries, nothing else. -/
def C111_statement : Prop :=
  ∀ (env : Env) (before : List PathLimit) (rule : PathLimit) (after : List PathLimit) (st : St) (socket : Nat)
    (peer line text method url rest : Str), (before ++ rule :: after).length ≤ 64 → rule.path ≠ [] →
    Begins st.input line text method url rest → Supported method → peer.length < 16 → ¬ Concerns rule.path url →
    accept_request { env with limits := before ++ rule :: after } st socket peer =
      accept_request { env with limits := before ++ after } st socket peer

theorem validateLoop_skip {live : List Conn} {ip url : Str} {rule : PathLimit} (hne : rule.path ≠ [])
    (h : startswith url rule.path = false) (after : List PathLimit) :
    ∀ (before : List PathLimit) (n k : Nat), (before ++ rule :: after).length ≤ n → (before ++ after).length ≤ k →
      validateLoop live ip url n (before ++ rule :: after) = validateLoop live ip url k (before ++ after) := by
  have fuel : ∀ (ls : List PathLimit) (n k : Nat), ls.length ≤ n → ls.length ≤ k →
      validateLoop live ip url n ls = validateLoop live ip url k ls := by
    intro ls
    induction ls with
    | nil => intro n k _ _; cases n <;> cases k <;> rfl
    | cons l r ih =>
      intro n k hn hk
      obtain ⟨n, rfl⟩ : ∃ m, n = m + 1 := ⟨n - 1, by simp at hn; omega⟩
      obtain ⟨k, rfl⟩ : ∃ m, k = m + 1 := ⟨k - 1, by simp at hk; omega⟩
      simp only [List.length_cons, Nat.add_le_add_iff_right] at hn hk
      simp only [validateLoop, ih n k hn hk]
  intro before
  induction before with
  | nil =>
    intro n k hn hk
    obtain ⟨n, rfl⟩ : ∃ m, n = m + 1 := ⟨n - 1, by simp at hn; omega⟩
    simp only [List.nil_append, List.length_cons, Nat.add_le_add_iff_right] at hn hk ⊢
    rw [validateLoop, if_neg hne, if_neg (by simp [h])]
    exact fuel after n k hn hk
  | cons l r ih =>
    intro n k hn hk
    obtain ⟨n, rfl⟩ : ∃ m, n = m + 1 := ⟨n - 1, by simp at hn; omega⟩
    obtain ⟨k, rfl⟩ : ∃ m, k = m + 1 := ⟨k - 1, by simp at hk; omega⟩
    simp only [List.cons_append, List.length_cons, Nat.add_le_add_iff_right] at hn hk ⊢
    simp only [validateLoop, ih n k hn hk]

/-- C111: a rule whose path is not the beginning of the URL (up to case) makes no difference. -/
theorem C111_partial (env : Env) (before : List PathLimit) (rule : PathLimit) (after : List PathLimit) (st : St) (socket : Nat)
    (peer line text method url rest : Str) (hlim : (before ++ rule :: after).length ≤ 64) (hne : rule.path ≠ [])
    (hb : Begins st.input line text method url rest) (hs : Supported method) (hp : peer.length < 16)
    (hno : ¬ CasePrefix rule.path url) :
    accept_request { env with limits := before ++ rule :: after } st socket peer =
      accept_request { env with limits := before ++ after } st socket peer := by
  have hadd : ∀ live ip, connection_add (before ++ rule :: after) live socket ip url = connection_add (before ++ after) live socket ip url := by
    intro live ip
    unfold connection_add connection_validate
    have h1 : startswith url rule.path = false := by
      cases h : startswith url rule.path with
      | false => rfl
      | true => exact absurd ((startswith_iff _ _).mp h) hno
    rw [show MAX_LIMIT_RULES = 64 from rfl, validateLoop_skip hne h1 after before 64 64 hlim (by simp at hlim ⊢; omega)]
  rw [begins_line hb (by omega) hs, begins_line hb (by omega) hs]
  simp only [hadd]
  unfold too_many_connections
  rw [dispatch_limits env (before ++ rule :: after) (before ++ after),
    send_http_status_limits env (before ++ rule :: after) (before ++ after)]

/-- C111, what happens instead: while a rule is exhausted every URL that begins with its path is refused, whatever follows. -/
theorem C111_beyond (env : Env) (st : St) (socket : Nat) (peer line text method url rest : Str) (rule : PathLimit)
    (hlim : env.limits.length ≤ 64) (hne : ∀ l ∈ env.limits, l.path ≠ []) (hp : peer.length < 16)
    (hb : Begins st.input line text method url rest) (hs : Supported method) (hsock : ∀ c ∈ st.live, c.socket ≠ socket)
    (hrule : rule ∈ env.limits) (hurl : CasePrefix rule.path url) (hfull : rule.max_connections < liveUnder rule.path st.live) :
    Refused env st socket peer := by
  obtain ⟨st', reply, fields, h1, h2, h3, -⟩ := (C65_admission env st socket peer line text method url rest hlim hne hp hb hs hsock).1 (by
    intro ha
    have := (ha.2 rule hrule hurl).1
    omega)
  exact ⟨st', reply, fields, h1, h2, h3⟩

/-- `/docs-old/a` is refused on account of a rule for `/docs`. -/
theorem C111_witness :
    (accept_request busyEnv (busySt b!"/docs-old/a") 7 b!"10.0.0.1").bind (fun x => ok (x.1.sent.take 12)) = ok b!"HTTP/1.1 429" ∧
    (accept_request { busyEnv with limits := [] } (busySt b!"/docs-old/a") 7 b!"10.0.0.1").bind (fun x => ok (x.1.sent.take 12)) ≠
      ok b!"HTTP/1.1 429" := by
  decide +kernel

theorem C111_refuted : ¬ C111_statement := by
  intro h
  have := h busyEnv [] docsRule [] (busySt b!"/docs-old/a") 7 b!"10.0.0.1" _ _ b!"GET" b!"/docs-old/a" _ (by decide) (by decide)
    (begins_get (url := b!"/docs-old/a") (by decide) (by decide) (by unfold White; decide))
    ⟨b!"GET", by decide, (startswith_iff _ _).mp (by decide)⟩ (by decide) (by
      rintro ⟨a, b, e, he, ho⟩
      have hl : a.length = 5 := by simpa [docsRule] using congrArg List.length he
      have hb : b = b!"-old/a" := by
        have := congrArg (List.drop 5) e
        rw [List.drop_left' hl] at this
        rw [← this]; decide
      subst hb
      revert ho; decide)
  have h1 := C111_witness.1
  have h2 := C111_witness.2
  rw [show busyEnv = { busyEnv with limits := [] ++ docsRule :: [] } from rfl, this] at h1
  exact h2 h1

example : Refused busyEnv (busySt b!"/docs-old/a") 7 b!"10.0.0.1" :=
  C111_beyond busyEnv (busySt b!"/docs-old/a") 7 b!"10.0.0.1" _ _ b!"GET" b!"/docs-old/a" _ docsRule (by decide) (by decide) (by decide)
    (begins_get (url := b!"/docs-old/a") (by decide) (by decide) (by unfold White; decide))
    ⟨b!"GET", by decide, (startswith_iff _ _).mp (by decide)⟩ (by decide) (by simp [busyEnv]) ((startswith_iff _ _).mp (by decide)) (by
      have h1 : Under docsRule.path ⟨9, b!"/docs/a", b!"10.0.0.2"⟩ := ⟨by decide, (startswith_iff _ _).mp (by decide)⟩
      simp [liveUnder, busySt, h1, docsRule] at *
      simp [List.countP_cons, h1])

/-- C111_partial applies to other paths. -/
example : ¬ CasePrefix docsRule.path b!"/doc" ∧ ¬ CasePrefix docsRule.path b!"/x/docs" := by
  constructor <;> (rw [← startswith_iff]; decide)

end Wayuu
