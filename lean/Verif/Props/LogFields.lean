import Verif.Spec.LogRead
import Verif.Props.Log
import Verif.Props.Peer
/-
C104: reading the access log.
-/
namespace Wayuu
open C Spec

/-- C104 in full: whatever a client sends, a status read from a line that its request adds to the access log is the status of
the response it was sent (with a clock that prints no quotes, and handlers that do nothing). -/
def C104_statement : Prop :=
  ∀ (env : Env) (st st' : St) (socket : Nat) (peer : Str) (ev : List Event) (reply line request referer ua body : Str)
    (fields : List (Str × Str)) (status length code : Nat),
    (34 : Byte) ∉ env.ts → (34 : Byte) ∉ peer → (∀ h st, env.handle h st = ok st) → (∀ f st, env.filt f st = ok (st, true)) →
    accept_request env st socket peer = ok (st', ev) → st'.log = st.log ++ [line] →
    st'.sent = st.sent ++ reply → Response reply code fields body →
    Reads line request status length referer ua → status = code

theorem cut_byte {c : Byte} {a b a' b' : Str} (h : a ++ [c] ++ b = a' ++ [c] ++ b') (ha : c ∉ a) (ha' : c ∉ a') :
    a = a' ∧ b = b' := by
  induction a generalizing a' with
  | nil =>
    cases a' with
    | nil => simpa using h
    | cons x a' =>
      simp only [List.nil_append, List.cons_append, List.cons.injEq] at h
      exact absurd (by simp [← h.1]) ha'
  | cons x a ih =>
    cases a' with
    | nil =>
      simp only [List.nil_append, List.cons_append, List.cons.injEq] at h
      exact absurd (by simp [h.1]) ha
    | cons y a' =>
      simp only [List.cons_append, List.cons.injEq] at h
      obtain ⟨e1, e2⟩ := ih h.2 (fun hc => ha (by simp [hc])) (fun hc => ha' (by simp [hc]))
      exact ⟨by rw [h.1, e1], e2⟩

theorem digits_no {s : Str} {n : Nat} (h : NatText s n) : (34 : Byte) ∉ s ∧ (32 : Byte) ∉ s := by
  constructor
  · intro hc; exact absurd (h.2.1 34 hc) (by unfold digit; decide)
  · intro hc; exact absurd (h.2.1 32 hc) (by unfold digit; decide)

/-- A line is read in one way only. -/
theorem reads_unique {line r r' f f' u u' : Str} {s s' n n' : Nat} (h : Reads line r s n f u) (h' : Reads line r' s' n' f' u') :
    r = r' ∧ s = s' ∧ n = n' ∧ f = f' ∧ u = u' := by
  obtain ⟨pre, code, len, post, e, h1, h2, h3, h4, h5, h6⟩ := h
  obtain ⟨pre', code', len', post', e', h1', h2', h3', h4', h5', h6'⟩ := h'
  rw [e] at e'
  simp only [List.append_assoc] at e'
  rw [← List.append_assoc pre, ← List.append_assoc pre'] at e'
  obtain ⟨-, e'⟩ := cut_byte e' h1 h1'
  change r ++ (b!"\"" ++ b!" " ++ _) = r' ++ (b!"\"" ++ b!" " ++ _) at e'
  rw [List.append_assoc, List.append_assoc, ← List.append_assoc r, ← List.append_assoc r'] at e'
  obtain ⟨er, e'⟩ := cut_byte e' h2 h2'
  have e' := List.append_cancel_left e'
  rw [← List.append_assoc code, ← List.append_assoc code'] at e'
  obtain ⟨ec, e'⟩ := cut_byte e' (digits_no h5).2 (digits_no h5').2
  change len ++ (b!" " ++ b!"\"" ++ _) = len' ++ (b!" " ++ b!"\"" ++ _) at e'
  rw [List.append_assoc, List.append_assoc, ← List.append_assoc len, ← List.append_assoc len'] at e'
  obtain ⟨el, e'⟩ := cut_byte e' (digits_no h6).2 (digits_no h6').2
  have e' := List.append_cancel_left e'
  change f ++ (b!"\"" ++ b!" \"" ++ _) = f' ++ (b!"\"" ++ b!" \"" ++ _) at e'
  rw [List.append_assoc, List.append_assoc, ← List.append_assoc f, ← List.append_assoc f'] at e'
  obtain ⟨ef, e'⟩ := cut_byte e' h3 h3'
  have e' := List.append_cancel_left e'
  rw [← List.append_assoc u, ← List.append_assoc u'] at e'
  obtain ⟨eu, -⟩ := cut_byte e' h4 h4'
  rw [ec] at h5
  rw [el] at h6
  exact ⟨er, natText_unique h5 h5', natText_unique h6 h6', ef, eu⟩

/-- C104, what holds: the line recorded for a response (see C58) is read as it was meant, if the request line, the address,
the referer and the user agent have no quotes; and nothing else can be read from it. Missing: requests with quotes. -/
theorem C104_partial (env : Env) (st st' : St) (hs : List (Str × Str)) (code : Nat) (hr : Recorded env st st' hs code)
    (hok : env.logOk = true) (hts : (34 : Byte) ∉ env.ts) (hip : (34 : Byte) ∉ st.req.IP) (hrl : (34 : Byte) ∉ st.req.request_line)
    (hh : ∀ p ∈ hs, (34 : Byte) ∉ p.2) :
    ∃ line referer ua, st'.log = st.log ++ [line] ∧ FirstHeader hs b!"Referer" referer ∧ FirstHeader hs b!"User-Agent" ua ∧
      Reads line st.req.request_line code st'.req.response_length (referer.getD []) (ua.getD []) ∧
      ∀ request status length f u, Reads line request status length f u →
        request = st.req.request_line ∧ status = code ∧ length = st'.req.response_length ∧ f = referer.getD [] ∧ u = ua.getD [] := by
  obtain ⟨line, referer, ua, e, ⟨ct, lt, h1, h2, h3⟩, hf, hu⟩ := hr.2 hok
  have hv : ∀ (name : Str) (v : Option Str), FirstHeader hs name v → (34 : Byte) ∉ v.getD [] := by
    intro name v hv
    cases v with
    | none => simp
    | some v =>
      obtain ⟨a, b, rfl, -⟩ := hv
      exact hh (name, v) (by simp)
  have hR : Reads line st.req.request_line code st'.req.response_length (referer.getD []) (ua.getD []) := by
    refine ⟨st.req.IP ++ b!" - - [" ++ env.ts ++ b!"] ", ct, lt, b!" " ++ env.rt ++ b!"\n", by rw [h3]; simp, ?_, hrl, hv _ _ hf, hv _ _ hu, h1, h2⟩
    simp [hip, hts]
  refine ⟨line, referer, ua, e, hf, hu, hR, fun request status length f u h => ?_⟩
  exact reads_unique h hR

/-- C104, quotes in the two headers only: request, status and length are still read right. -/
theorem C104_headers (env : Env) (st st' : St) (hs : List (Str × Str)) (code : Nat) (hr : Recorded env st st' hs code)
    (hok : env.logOk = true) (hts : (34 : Byte) ∉ env.ts) (hip : (34 : Byte) ∉ st.req.IP) (hrl : (34 : Byte) ∉ st.req.request_line) :
    ∃ line, st'.log = st.log ++ [line] ∧ ∀ request status length f u, Reads line request status length f u →
      request = st.req.request_line ∧ status = code ∧ length = st'.req.response_length := by
  obtain ⟨line, referer, ua, e, ⟨ct, lt, h1, h2, h3⟩, hf, hu⟩ := hr.2 hok
  refine ⟨line, e, ?_⟩
  rintro request status length f u ⟨pre, code', len', post, e', k1, k2, k3, k4, k5, k6⟩
  rw [h3] at e'
  have hpre : (34 : Byte) ∉ st.req.IP ++ b!" - - [" ++ env.ts ++ b!"] " := by simp [hip, hts]
  have e1 : (st.req.IP ++ b!" - - [" ++ env.ts ++ b!"] ") ++ b!"\"" ++ (st.req.request_line ++ b!"\"" ++ (b!" " ++ (ct ++ b!" " ++ (lt ++ b!" " ++
      (b!"\"" ++ referer.getD [] ++ b!"\" \"" ++ ua.getD [] ++ b!"\" " ++ env.rt ++ b!"\n"))))) =
      pre ++ b!"\"" ++ (request ++ b!"\"" ++ (b!" " ++ (code' ++ b!" " ++ (len' ++ b!" " ++ (b!"\"" ++ f ++ b!"\" \"" ++ u ++ b!"\"" ++ post))))) := by
    simpa using e'
  obtain ⟨-, e2⟩ := cut_byte e1 hpre k1
  obtain ⟨er, e3⟩ := cut_byte e2 hrl k2
  obtain ⟨ec, e4⟩ := cut_byte (List.append_cancel_left e3) (digits_no h1).2 (digits_no k5).2
  obtain ⟨el, -⟩ := cut_byte e4 (digits_no h2).2 (digits_no k6).2
  rw [← ec] at k5
  rw [← el] at k6
  exact ⟨er.symm, natText_unique k5 h1, natText_unique k6 h2⟩

/-- C104, what happens instead: a client makes the log say whatever it likes. Any request, status, length, referer and user
agent are read from every line that a request adds, if the rest of its request line after the URL spells them out – and
whatever the response was. -/
theorem C104_forged (env : Env) (st st' : St) (socket : Nat) (peer line method url rest after : Str) (lines : List (List Byte))
    (ev : List Event) (request code len referer ua more : Str) (status length : Nat)
    (hu : UserSigns env) (hts : (34 : Byte) ∉ env.ts) (hpl : peer.length < 16) (hpeer : (34 : Byte) ∉ peer)
    (hb : Begins st.input line (request ++ b!"\" " ++ code ++ b!" " ++ len ++ b!" \"" ++ referer ++ b!"\" \"" ++ ua ++ b!"\"" ++ more ++ b!"\r\n")
      method url rest) (hs : Section rest lines after) (hn : Peer.NoRealIP lines)
    (h1 : (34 : Byte) ∉ request) (h2 : (34 : Byte) ∉ referer) (h3 : (34 : Byte) ∉ ua) (h4 : NatText code status) (h5 : NatText len length)
    (h : accept_request env st socket peer = ok (st', ev)) :
    ∃ ls, st'.log = st.log ++ ls ∧ ∀ l ∈ ls, Reads l request status length referer ua := by
  obtain ⟨buf, inp, rl, m, j, ls, hr, e, hl⟩ := accept_request_signs hu h
  obtain ⟨g1, g2, g3, g4, g5⟩ := hb
  obtain ⟨e1, -⟩ := requestLine_eq g1 g2 g3 g4 g5
  rw [e1] at hr
  simp only [ok.injEq, Prod.mk.injEq] at hr
  obtain ⟨rfl, rfl, hrl, -, -⟩ := hr
  have key : ∀ l ∈ ls, Signature env peer rl <+: l := by
    rcases hl with hl | ⟨hd, hp, hl⟩
    · exact hl
    · obtain ⟨b1, a, b2⟩ := lineBytes_buf g1.2.1
      have := (C65_recorded (lineBytes line) rest after lines peer hd b1 (by rw [b2]; simp) (by omega) hs hp).2.1 hn
      rw [this] at hl
      exact hl
  refine ⟨ls, e, fun l hl => ?_⟩
  obtain ⟨post, hm⟩ := key l hl
  refine ⟨peer ++ b!" - - [" ++ env.ts ++ b!"] ", code, len, more ++ b!"\" " ++ post, ?_, by simp [hpeer, hts], h1, h2, h3, h4, h5⟩
  rw [← hm, ← hrl]
  unfold Signature
  generalize hx : request ++ b!"\" " ++ code ++ b!" " ++ len ++ b!" \"" ++ referer ++ b!"\" \"" ++ ua ++ b!"\"" ++ more = x
  rw [show (x ++ b!"\r\n").take ((x ++ b!"\r\n").length - 2) = x by simp, ← hx]
  simp

/-! ### Examples -/

/-- A request line with quotes: the response is a 400, the log says 200. -/
def quotedSt : St := { sampleSt with live := [⟨0, [], []⟩], input := b!"POST /x\" 200 5 \"a\" \"b\" HTTP/1.1\r\n\r\n" }

def quotedLine : Str := b!"10.0.0.1 - - [now] \"POST /x\" 200 5 \"a\" \"b\" HTTP/1.1\" 400 68 \"\" \"\" 1\n"

theorem C104_witness : (accept_request sampleEnv quotedSt 7 b!"10.0.0.1").bind (fun x => ok (x.1.log, x.1.sent)) =
    ok ([quotedLine], statusReply b!"HTTP/1.1 400 Bad Request\r\n" []) := by decide +kernel

theorem quoted_reads : Reads quotedLine b!"POST /x" 200 5 b!"a" b!"b" :=
  ⟨b!"10.0.0.1 - - [now] ", b!"200", b!"5", b!" HTTP/1.1\" 400 68 \"\" \"\" 1\n", by decide, by decide, by decide, by decide, by decide,
    fmtNat_text 200, fmtNat_text 5⟩

theorem C104_refuted : ¬ C104_statement := by
  intro h
  have hw := C104_witness
  cases hr : accept_request sampleEnv quotedSt 7 b!"10.0.0.1" with
  | ub e => rw [hr] at hw; cases hw
  | ok x =>
    obtain ⟨st', ev⟩ := x
    rw [hr] at hw
    simp only [C.bind, ok.injEq, Prod.mk.injEq] at hw
    obtain ⟨fields, h1, -⟩ := statusReply_response (status := 400) (start := b!"HTTP/1.1 400 Bad Request\r\n") (by decide) []
    have := h sampleEnv quotedSt st' 7 b!"10.0.0.1" ev _ quotedLine _ _ _ _ fields _ _ _ (by decide) (by decide) (fun _ _ => rfl) (fun _ _ => rfl)
      hr (by rw [hw.1]; rfl) (by rw [hw.2]; rfl) h1 quoted_reads
    revert this
    decide

theorem sample_signs : UserSigns sampleEnv :=
  ⟨fun _ st st' h => by cases h; exact Signs.refl _ _, fun _ st st' b h => by cases h; exact Signs.refl _ _⟩

/-- C104_forged applies to that request. -/
example (st' : St) (ev : List Event) (h : accept_request sampleEnv quotedSt 7 b!"10.0.0.1" = ok (st', ev)) :
    ∃ ls, st'.log = [] ++ ls ∧ ∀ l ∈ ls, Reads l b!"POST /x" 200 5 b!"a" b!"b" :=
  C104_forged sampleEnv quotedSt st' 7 b!"10.0.0.1" b!"POST /x\" 200 5 \"a\" \"b\" HTTP/1.1\r\n" b!"POST" b!"/x\"" b!"\r\n" [] [] ev
    b!"POST /x" b!"200" b!"5" b!"a" b!"b" b!" HTTP/1.1" 200 5 sample_signs (by decide) (by decide) (by decide)
    ⟨⟨by decide, by decide, by decide, by decide⟩, ⟨by decide, Or.inl rfl⟩,
      ⟨b!" ", 32, b!"200 5 \"a\" \"b\" HTTP/1.1\r\n", rfl, by unfold White; decide, by decide, by unfold White; decide, by decide,
        by unfold White; decide, by unfold White; decide⟩, by decide, by decide⟩
    (.blank _ b!"\r\n" _ ⟨by decide, by decide, by decide, by decide⟩ (by decide)) (by intro l hl; cases hl) (by decide) (by decide) (by decide)
    (fmtNat_text 200) (fmtNat_text 5) h

/-- C104_partial and C104_headers apply to every answer of the library (C58). -/
example : ∃ st', send_http_status sampleEnv sampleSt 404 b!"gone" = ok st' ∧ Recorded sampleEnv sampleSt st' [] 404 := by
  obtain ⟨st', h1, h2, -⟩ := C58_status sampleEnv sampleSt [] sample_headers 404 (by decide) b!"gone" (by decide)
  exact ⟨st', h1, h2⟩
example : (34 : Byte) ∉ sampleEnv.ts ∧ (34 : Byte) ∉ sampleSt.req.IP ∧ (34 : Byte) ∉ sampleSt.req.request_line ∧ sampleEnv.logOk = true := by
  decide

end Wayuu
