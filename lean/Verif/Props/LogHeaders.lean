import Verif.Model.LogHeaders
import Verif.Props.MediaType
import Verif.Props.Messages
/-
C136: what `http_log_headers` shows (http_utils.c:508-518).
-/
namespace Wayuu
open C Spec

/-- The text for one header. -/
def _root_.Wayuu.Spec.headerText (p : List Byte × List Byte) : List Byte := b!"HEADER: " ++ p.1 ++ b!", VALUE: " ++ p.2

/-- C136 in full: if the first user code of a request calls `http_log_headers`, the log gets all the headers of the request, in order and
with their number; nothing if the level for debug messages is not enabled. -/
def C136_statement : Prop :=
  ∀ (env : Env) (st st' : St) (socket level : Nat) (peer line text method url rest body : Str) (lines : List (List Byte))
    (hs : List (Str × Str)) (e : Event) (ev : List Event),
    Begins st.input line text method url rest → Section rest lines body → Named lines hs →
    accept_request env st socket peer = ok (st', e :: ev) →
    ∃ ms, http_log_headers level e.request = ok ms ∧ (written level ms).map (·.text) =
      if level ≤ 1 then (b!"Found " ++ fmtNat hs.length ++ b!" headers") :: hs.map headerText else []

/-- The loop over a table that was filled with these names and values. -/
theorem logHeadersLoop_stored {pre tl : List Header} {hs : List (Str × Str)}
    (h : List.Forall₂ (fun (h : Header) (p : Str × Str) =>
      strncpyAt (calloc HTTP_MAX_HEADER_NAME) 0 p.1 HTTP_MAX_HEADER_NAME = ok h.name ∧
      strncpyAt (calloc HTTP_MAX_HEADER_VALUE) 0 p.2 HTTP_MAX_HEADER_VALUE = ok h.value) tl hs)
    (hz : ∀ p ∈ hs, NulFree p.1 ∧ NulFree p.2) :
    ((∀ p ∈ hs, p.1.length < 64 ∧ p.2.length < 256) →
      logHeadersLoop (pre ++ tl) tl.length pre.length = ok (hs.map fun p => ⟨1, headerText p⟩)) ∧
    ((∃ p ∈ hs, 64 ≤ p.1.length ∨ 256 ≤ p.2.length) → logHeadersLoop (pre ++ tl) tl.length pre.length = ub .oob) := by
  induction h generalizing pre with
  | nil => exact ⟨fun _ => rfl, by simp⟩
  | @cons hd p tl hs h1 _ ih =>
    obtain ⟨h1, h2⟩ := h1
    rw [calloc_strncpy_pad, ok.injEq] at h1 h2
    obtain ⟨z1, z2⟩ := hz p (by simp)
    have ih := ih (pre := pre ++ [hd]) (fun q hq => hz q (by simp [hq]))
    rw [List.append_assoc, List.length_append] at ih
    have e : logHeadersLoop (pre ++ hd :: tl) (hd :: tl).length pre.length = (do
        let name ← cstr hd.name
        let value ← cstr hd.value
        let more ← logHeadersLoop (pre ++ hd :: tl) tl.length (pre.length + 1)
        ok (⟨1, b!"HEADER: " ++ name ++ b!", VALUE: " ++ value⟩ :: more)) := by
      rw [List.length_cons, logHeadersLoop]
      simp
    rw [e, ← h1, ← h2]
    constructor
    · intro hf
      have hp := hf p (by simp)
      rw [cstr_padTo z1 hp.1, cstr_padTo z2 hp.2]
      simp only [ok_bind]
      rw [show logHeadersLoop (pre ++ hd :: tl) tl.length (pre.length + 1) = _ from ih.1 (fun q hq => hf q (by simp [hq]))]
      rfl
    · rintro ⟨q, hq, hl⟩
      by_cases l1 : p.1.length < 64
      · rw [cstr_padTo z1 l1]
        by_cases l2 : p.2.length < 256
        · rw [cstr_padTo z2 l2]
          simp only [ok_bind]
          have hq : q ∈ hs := by
            rcases List.mem_cons.mp hq with rfl | hq
            · omega
            · exact hq
          rw [show logHeadersLoop (pre ++ hd :: tl) tl.length (pre.length + 1) = _ from ih.2 ⟨q, hq, hl⟩]
          rfl
        · rw [cstr_padTo_over z2 (Nat.le_of_not_lt l2)]; rfl
      · rw [cstr_padTo_over z1 (Nat.le_of_not_lt l1)]; rfl

/-- What the first user code finds in the table of headers. -/
theorem first_stored {env : Env} {st st' : St} {socket : Nat} {peer line text method url rest body : Str} {lines : List (List Byte)}
    {hs : List (Str × Str)} {e : Event} {ev : List Event}
    (hb : Begins st.input line text method url rest) (hsec : Section rest lines body) (hn : Named lines hs)
    (h : accept_request env st socket peer = ok (st', e :: ev)) : e.request.Stored (hs.take 20) := by
  obtain ⟨x, p, q, f, h1, h2⟩ := first_request hb h
  obtain ⟨g1, g2, g3⟩ := lineBytes_buf hb.1.2.1
  refine stored_of g1 (by rw [g3]; simp) hsec hn h1 ?_
  rw [h2]
  exact ⟨rfl, rfl⟩

/-- C136, exactly: of the headers the first twenty are shown, if their names have less than 64 and their values less than 256 bytes each;
if one of them is longer, its array is read past its end (at the level for debug messages, and nothing is read at others). -/
theorem C136_exact (env : Env) (st st' : St) (socket level : Nat) (peer line text method url rest body : Str) (lines : List (List Byte))
    (hs : List (Str × Str)) (e : Event) (ev : List Event)
    (hb : Begins st.input line text method url rest) (hsec : Section rest lines body) (hn : Named lines hs)
    (h : accept_request env st socket peer = ok (st', e :: ev)) :
    (1 < level → http_log_headers level e.request = ok []) ∧
    (level ≤ 1 → (∀ p ∈ hs.take 20, p.1.length < 64 ∧ p.2.length < 256) →
      ∃ ms, http_log_headers level e.request = ok ms ∧ (written level ms).map (·.text) =
        (b!"Found " ++ fmtNat (min 20 hs.length) ++ b!" headers") :: (hs.take 20).map headerText) ∧
    (level ≤ 1 → (∃ p ∈ hs.take 20, 64 ≤ p.1.length ∨ 256 ≤ p.2.length) → http_log_headers level e.request = ub .oob) := by
  obtain ⟨s1, s2⟩ := first_stored hb hsec hn h
  have hl := s2.length_eq
  rw [List.length_take] at hl
  have key := logHeadersLoop_stored (pre := []) s2 (fun p hp => headers_nulFree hn p (List.mem_of_mem_take hp))
  rw [List.nil_append, List.length_nil] at key
  generalize hr : e.request = r at *
  generalize ht : hs.take 20 = hs' at *
  refine ⟨fun hlv => ?_, fun hlv hf => ?_, fun hlv hf => ?_⟩
  · unfold http_log_headers
    rw [if_neg (by omega)]
  · refine ⟨⟨1, b!"Found " ++ fmtNat r.n_headers ++ b!" headers"⟩ :: hs'.map fun p => ⟨1, headerText p⟩, ?_, ?_⟩
    · unfold http_log_headers
      rw [if_pos hlv, s1, key.1 hf]
      rfl
    · have : ∀ m ∈ (⟨1, b!"Found " ++ fmtNat r.n_headers ++ b!" headers"⟩ :: hs'.map fun p => (⟨1, headerText p⟩ : Msg)),
          decide (level ≤ m.level) = true := by
        intro m hm
        have : m.level = 1 := by
          rcases List.mem_cons.mp hm with rfl | hm
          · rfl
          · obtain ⟨p, -, rfl⟩ := List.mem_map.mp hm
            rfl
        simpa [this] using hlv
      unfold written
      rw [List.filter_eq_self.mpr this, List.map_cons, List.map_map, s1, hl]
      rfl
  · unfold http_log_headers
    rw [if_pos hlv, s1, key.2 hf]
    rfl

/-- C136, what holds: at most twenty headers with names of less than 64 and values of less than 256 bytes. -/
theorem C136_partial (env : Env) (st st' : St) (socket level : Nat) (peer line text method url rest body : Str) (lines : List (List Byte))
    (hs : List (Str × Str)) (e : Event) (ev : List Event)
    (hb : Begins st.input line text method url rest) (hsec : Section rest lines body) (hn : Named lines hs)
    (h : accept_request env st socket peer = ok (st', e :: ev)) (hl : hs.length ≤ 20)
    (hf : ∀ p ∈ hs, p.1.length < 64 ∧ p.2.length < 256) :
    ∃ ms, http_log_headers level e.request = ok ms ∧ (written level ms).map (·.text) =
      if level ≤ 1 then (b!"Found " ++ fmtNat hs.length ++ b!" headers") :: hs.map headerText else [] := by
  obtain ⟨h1, h2, -⟩ := C136_exact env st st' socket level peer line text method url rest body lines hs e ev hb hsec hn h
  by_cases hlv : level ≤ 1
  · rw [if_pos hlv]
    rw [List.take_of_length_le hl] at h2
    obtain ⟨ms, g1, g2⟩ := h2 hlv hf
    exact ⟨ms, g1, by rw [g2, Nat.min_eq_right hl]⟩
  · rw [if_neg hlv]
    exact ⟨[], h1 (by omega), rfl⟩

/-- A header line with a name of 64 bytes. -/
def longNameLine : Str := List.replicate 64 65 ++ b!": b\r\n"

theorem longName_named : Named [longNameLine] [(List.replicate 64 65, b!"b")] :=
  .header _ longNameLine _ _ _ _ ⟨by unfold longNameLine; decide +kernel, Or.inl rfl⟩ (headerLine_iff.mpr ⟨by decide +kernel, by decide +kernel⟩) .nil

/-- C136 is false: a name of 64 bytes is read past its end. -/
theorem C136_refuted : ¬ C136_statement := by
  intro h
  have key : typeSeen (accept_request sampleRouterEnv (typeSt longNameLine) 7 b!"10.0.0.1") = ok (some none) := by decide +kernel
  obtain ⟨st', e, ev, h1, -⟩ := typeSeen_some key
  have hs := one_line_section (line := longNameLine) (by decide +kernel) (by decide +kernel) (by decide +kernel) (by decide +kernel)
    (by decide +kernel) []
  obtain ⟨ms, g, -⟩ := h _ _ _ _ 1 _ _ _ _ _ _ _ _ _ e ev (type_begins _) hs longName_named h1
  rw [(C136_exact _ _ _ _ 1 _ _ _ _ _ _ _ _ _ e ev (type_begins _) hs longName_named h1).2.2 (by decide)
    ⟨_, List.mem_cons_self, Or.inl (by decide)⟩] at g
  cases g

/-- What `http_log_headers` writes when the first user code of a request calls it. -/
def headersSeen (level : Nat) (r : C (St × List Event)) : C (Option (C (List Str))) := do
  let (_, ev) ← r
  ok (ev.head?.map (fun e => do
    let ms ← http_log_headers level e.request
    ok ((written level ms).map (·.text))))

example : headersSeen 1 (accept_request sampleRouterEnv (typeSt b!"Host: a\r\nAccept:*/*\r\n") 7 b!"10.0.0.1") =
    ok (some (ok [b!"Found 2 headers", b!"HEADER: Host, VALUE: a", b!"HEADER: Accept, VALUE: */*"])) := by decide +kernel
example : headersSeen 2 (accept_request sampleRouterEnv (typeSt b!"Host: a\r\nAccept:*/*\r\n") 7 b!"10.0.0.1") =
    ok (some (ok [])) := by decide +kernel
/-- The hypotheses of `C136_partial`. -/
example : Begins (typeSt b!"Host: a\r\n").input b!"GET /api/user/7 HTTP/1.1\r\n" b!"GET /api/user/7 HTTP/1.1\r\n" b!"GET" b!"/api/user/7"
      (b!"Host: a\r\n" ++ b!"\r\n") ∧ Section (b!"Host: a\r\n" ++ b!"\r\n") [b!"Host: a\r\n"] [] ∧
    Named [b!"Host: a\r\n"] [(b!"Host", b!"a")] ∧
    ∃ st' e ev, accept_request sampleRouterEnv (typeSt b!"Host: a\r\n") 7 b!"10.0.0.1" = ok (st', e :: ev) := by
  refine ⟨type_begins _, one_line_section (by decide) (by decide) (by decide) (by decide) (by decide) [],
    .header _ b!"Host: a\r\n" _ _ _ _ ⟨by decide, Or.inl rfl⟩ (headerLine_iff.mpr ⟨by decide, by decide⟩) .nil, ?_⟩
  obtain ⟨st', e, ev, h1, -⟩ := typeSeen_some (t := none) (r := accept_request sampleRouterEnv (typeSt b!"Host: a\r\n") 7 b!"10.0.0.1")
    (by decide +kernel)
  exact ⟨st', e, ev, h1⟩

end Wayuu
