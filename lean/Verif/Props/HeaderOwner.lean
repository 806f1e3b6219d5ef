import Verif.Props.LogHeaders
/-
C137: whose the result of `http_get_header` is (http_utils.c:520-530).
-/
namespace Wayuu
open C Spec

/-- C137 in full: what `http_get_header` returns to the user's code can be freed, whether the request has the header or not. -/
def C137_statement : Prop :=
  ∀ (env : Env) (st st' : St) (socket : Nat) (peer line text method url rest body name : Str) (lines : List (List Byte))
    (hs : List (Str × Str)) (e : Event) (ev : List Event),
    Begins st.input line text method url rest → Section rest lines body → Named lines hs → NulFree name → name.length < 64 →
    (∀ p ∈ hs, p.1.length < 64 ∧ p.2.length < 256) → accept_request env st socket peer = ok (st', e :: ev) →
    ∃ r, http_get_header e.request name = ok r ∧ freeStr r = ok ()

/-- C137, exactly: the result may be freed if one of the first twenty headers has this name, otherwise it may not: it is then an empty
text that is part of the program. -/
theorem C137_partial (env : Env) (st st' : St) (socket : Nat) (peer line text method url rest body name : Str) (lines : List (List Byte))
    (hs : List (Str × Str)) (e : Event) (ev : List Event)
    (hb : Begins st.input line text method url rest) (hsec : Section rest lines body) (hn : Named lines hs) (hz : NulFree name)
    (hl : name.length < 64) (hf : ∀ v, FirstHeader (hs.take 20) name (some v) → v.length < 256)
    (h : accept_request env st socket peer = ok (st', e :: ev)) :
    ((∃ p ∈ hs.take 20, p.1 = name) → ∃ r, http_get_header e.request name = ok r ∧ freeStr r = ok () ∧
      FirstHeader (hs.take 20) name (some r.s)) ∧
    ((∀ p ∈ hs.take 20, p.1 ≠ name) → ∃ r, http_get_header e.request name = ok r ∧ freeStr r = ub .badFree ∧ r.s = []) := by
  have hst := first_stored hb hsec hn h
  have hz' : ∀ p ∈ hs.take 20, NulFree p.1 ∧ NulFree p.2 := fun p hp => headers_nulFree hn p (List.mem_of_mem_take hp)
  obtain ⟨k1, -, k3⟩ := C37_exact e.request (hs.take 20) name hst hz' hz hl
  have hv := headerValue_first (hs.take 20) name
  generalize headerValue (hs.take 20) name = v at hv
  constructor
  · rintro ⟨p, hp, rfl⟩
    cases v with
    | none => exact absurd rfl (hv p hp)
    | some v => exact ⟨_, k1 v hv (hf v hv), rfl, hv⟩
  · intro hno
    exact ⟨_, k3 hno, rfl, rfl⟩

/-- C137, what callers can do: freeing the result unless it is the empty text (as wayuu_log.c:51-56 does) is right in every case; a
header without a value then leaves its block behind. -/
theorem C137_guard (env : Env) (st st' : St) (socket : Nat) (peer line text method url rest body name : Str) (lines : List (List Byte))
    (hs : List (Str × Str)) (e : Event) (ev : List Event)
    (hb : Begins st.input line text method url rest) (hsec : Section rest lines body) (hn : Named lines hs) (hz : NulFree name)
    (hl : name.length < 64) (hf : ∀ v, FirstHeader (hs.take 20) name (some v) → v.length < 256)
    (h : accept_request env st socket peer = ok (st', e :: ev)) :
    ∃ r, http_get_header e.request name = ok r ∧ (if r.s ≠ [] then freeStr r else ok ()) = ok () ∧
      (r.heap = true ∧ r.s = [] ↔ FirstHeader (hs.take 20) name (some [])) := by
  have hst := first_stored hb hsec hn h
  have hz' : ∀ p ∈ hs.take 20, NulFree p.1 ∧ NulFree p.2 := fun p hp => headers_nulFree hn p (List.mem_of_mem_take hp)
  obtain ⟨k1, -, k3⟩ := C37_exact e.request (hs.take 20) name hst hz' hz hl
  have hv := headerValue_first (hs.take 20) name
  generalize headerValue (hs.take 20) name = v at hv
  cases v with
  | none =>
    refine ⟨_, k3 hv, rfl, ⟨fun h => absurd h.1 (by simp), fun h => ?_⟩⟩
    cases firstHeader_unique hv h
  | some v =>
    refine ⟨_, k1 v hv (hf v hv), by split <;> rfl, ⟨fun h => ?_, fun h => ?_⟩⟩
    · have : v = [] := h.2
      rwa [this] at hv
    · cases firstHeader_unique hv h
      exact ⟨rfl, rfl⟩

/-- C137 is false: the code asks for a header that the request does not have. -/
theorem C137_refuted : ¬ C137_statement := by
  intro h
  have key : typeSeen (accept_request sampleRouterEnv (typeSt b!"Host: a\r\n") 7 b!"10.0.0.1") = ok (some none) := by decide +kernel
  obtain ⟨st', e, ev, h1, -⟩ := typeSeen_some key
  have hs := one_line_section (line := b!"Host: a\r\n") (by decide) (by decide) (by decide) (by decide) (by decide) []
  have hn : Named [b!"Host: a\r\n"] [(b!"Host", b!"a")] :=
    .header _ b!"Host: a\r\n" _ _ _ _ ⟨by decide, Or.inl rfl⟩ (headerLine_iff.mpr ⟨by decide, by decide⟩) .nil
  obtain ⟨r, g1, g2⟩ := h _ _ _ _ _ _ _ _ _ _ _ b!"Accept" _ _ e ev (type_begins _) hs hn (by decide) (by decide) (by decide) h1
  obtain ⟨r', g3, g4, -⟩ := (C137_partial _ _ _ _ _ _ _ _ _ _ _ b!"Accept" _ _ e ev (type_begins _) hs hn (by decide) (by decide)
    (by
      intro v hv
      have : FirstHeader [(b!"Host", b!"a")] b!"Accept" none := by unfold FirstHeader; decide
      cases firstHeader_unique this hv) h1).2 (by decide)
  rw [g1, ok.injEq] at g3
  subst g3
  rw [g2] at g4
  cases g4

/-- What `http_get_header` returns to the first user code of a request, and what `free` makes of it. -/
def ownerSeen (name : Str) (r : C (St × List Event)) : C (Option (C (HStr × C Unit))) := do
  let (_, ev) ← r
  ok (ev.head?.map (fun e => do
    let r ← http_get_header e.request name
    ok (r, freeStr r)))

/-- The request of `C137_refuted`: the header it has, and one that it has not. -/
example : ownerSeen b!"Host" (accept_request sampleRouterEnv (typeSt b!"Host: a\r\n") 7 b!"10.0.0.1") =
    ok (some (ok (⟨true, b!"a"⟩, ok ()))) := by decide +kernel
example : ownerSeen b!"Accept" (accept_request sampleRouterEnv (typeSt b!"Host: a\r\n") 7 b!"10.0.0.1") =
    ok (some (ok (⟨false, []⟩, ub .badFree))) := by decide +kernel

end Wayuu
