import Verif.Props.Headers
/-
C82: memory reserved for the body of a request.
-/
namespace Wayuu
open C Spec

/-- C82 as stated: the block reserved for the body is at most a fixed amount larger than what the client sends. -/
def C82_statement : Prop :=
  ∀ (env : Env) (st st' : St) (bs input : List Byte) (ip : Str) (h : HdrSt), bs.length = 1024 → bs.getLast? = some 0 →
    parseHeaders (bs.map some) input ip = ok h → readForm env { st with input := h.input } h.content_length [] = ok st' →
    st.req.form = [] → st'.req.form.length ≤ input.length + 65536

/-- C82, what is reserved: for every announced length `n`, whatever the client sends after the header section (nothing, for
instance), a block of `n + 1` bytes is reserved, written byte by byte, and passed to the handler. -/
theorem C82_reserved (env : Env) (st : St) (bs input body : List Byte) (lines : List (List Byte)) (ip : Str) (n : Nat) (h : HdrSt)
    (hb : bs.length = 1024) (hz : bs.getLast? = some 0) (hsec : Section input lines body) (hlen : LengthOf lines (some n))
    (hn : 0 < n) (hlt : n < 2 ^ 31)
    (hsp : ∀ l ∈ lines, ∀ t, BeforeNul l t → CasePrefix b!"Content-Length:" t → CasePrefix b!"Content-Length: " t)
    (hok : parseHeaders (bs.map some) input ip = ok h) :
    ∃ st', readForm env { st with input := h.input } h.content_length [] = ok st' ∧ st'.req.form.length = n + 1 := by
  obtain ⟨last, h1, -, -, -, -, -, h2, -⟩ := parse_fields (lineBuf_of hb hz) hsec hok
  have e := foldl_clen hlen (.init bs ip) ((lineBuf_of hb hz).load (line := [65]) (by decide)) rfl hsec.length_le
    (fun m hm => by cases hm; exact hlt) hsp
  have e : h.content_length = n := h2.trans e
  by_cases hle : n ≤ body.length
  · obtain ⟨st', a, b, -⟩ := C44_partial env st bs input body lines ip n h hb hz hsec hlen hn hlt hle hsp hok
    exact ⟨st', a, by rw [b]; simp; omega⟩
  · obtain ⟨st', a, -, b⟩ := C44_short env { st with input := h.input } n hn (by rw [h1]; simp only; omega)
    rw [e]
    refine ⟨st', a, ?_⟩
    rw [b, h1]
    simp
    omega

/-- C82, the part that holds: no more than the announced length is reserved, so for a client that sends what it announces
at most one byte more than that. Missing: clients that announce a body and do not send it. -/
theorem C82_partial (env : Env) (st st' : St) (n : Int) (hf : st.req.form = [])
    (h : readForm env st n [] = ok st') :
    st'.req.form.length ≤ (n + 1).toNat ∧ (n ≤ st.input.length → st'.req.form.length ≤ st.input.length + 1) := by
  by_cases hn : 0 < n
  · obtain ⟨m, rfl⟩ : ∃ m : Nat, n = m := ⟨n.toNat, by omega⟩
    have : st'.req.form.length = m + 1 := by
      by_cases hle : m ≤ st.input.length
      · have := readForm_plain env st m (by omega) [] (by decide) hle
        rw [this] at h
        cases h
        simp; omega
      · obtain ⟨st1, a, -, b⟩ := C44_short env st m (by omega) (by omega)
        rw [a] at h
        cases h
        rw [b]
        simp; omega
    omega
  · unfold readForm at h
    rw [if_neg hn] at h
    cases h
    rw [hf]
    simp

example : ∃ st', readForm sampleEnv { sampleSt with input := b!"abcdef", req := { sampleReq with form := [] } } 4 [] = ok st' ∧
    st'.req.form.length ≤ b!"abcdef".length + 1 := by
  have := readForm_plain sampleEnv { sampleSt with input := b!"abcdef", req := { sampleReq with form := [] } } 4 (by decide) [] (by decide) (by decide)
  exact ⟨_, this, (C82_partial sampleEnv { sampleSt with input := b!"abcdef", req := { sampleReq with form := [] } } _ 4 rfl this).2 (by decide)⟩

theorem length_large : LengthOf [b!"Content-Length: 2000000000\r\n"] (some 2000000000) := by
  have := LengthOf.field [] none b!"Content-Length: 2000000000\r\n" b!"Content-Length: 2000000000\r\n" b!"2000000000" .none ⟨by decide, Or.inl rfl⟩
    ⟨b!"Content-Length", b!" 2000000000\r\n", rfl, rfl, by
      rw [show b!"2000000000" = strip b!" 2000000000\r\n" by decide]; exact isStrip_strip _⟩ (by decide)
    (by unfold digit; decide)
  exact this

/-- Thirty bytes make the server reserve two thousand million. -/
theorem reserve_sample : ∃ h, parseHeaders ((lineBytes b!"POST /api/a HTTP/1.1\r\n").map some) b!"Content-Length: 2000000000\r\n\r\n" b!"10.0.0.1" = ok h ∧
    ∀ (env : Env) (st : St), ∃ st', readForm env { st with input := h.input } h.content_length [] = ok st' ∧ st'.req.form.length = 2000000001 := by
  have hs := one_line_section (line := b!"Content-Length: 2000000000\r\n") (by decide) (by decide) (by decide) (by decide) (by decide) []
  have key : (parseHeaders ((lineBytes b!"POST /api/a HTTP/1.1\r\n").map some) b!"Content-Length: 2000000000\r\n\r\n" b!"10.0.0.1").bind
      (fun _ => ok ()) = ok () := by decide +kernel
  cases hp : parseHeaders ((lineBytes b!"POST /api/a HTTP/1.1\r\n").map some) b!"Content-Length: 2000000000\r\n\r\n" b!"10.0.0.1" with
  | ub f => rw [hp] at key; cases key
  | ok x =>
    refine ⟨x, rfl, fun env st => ?_⟩
    refine C82_reserved env st _ _ [] _ b!"10.0.0.1" 2000000000 x (by decide +kernel) (by decide +kernel) hs length_large (by decide) (by decide) ?_ hp
    intro l hl t ht hc
    simp only [List.mem_singleton] at hl
    subst hl
    rw [beforeNul_unique ht ⟨by decide, Or.inl rfl⟩]
    exact ⟨b!"Content-Length: ", b!"2000000000\r\n", rfl, rfl⟩

theorem C82_refuted : ¬ C82_statement := by
  intro h
  obtain ⟨x, hp, hx⟩ := reserve_sample
  obtain ⟨st', h1, h2⟩ := hx sampleEnv { sampleSt with req := { sampleReq with form := [] } }
  have := h sampleEnv { sampleSt with req := { sampleReq with form := [] } } st' _ _ _ x (by decide +kernel) (by decide +kernel) hp h1 rfl
  rw [h2] at this
  exact absurd this (by decide)

end Wayuu
