import Verif.Spec.Log
import Verif.Model.Log
import Verif.Lemmas.Http2
import Verif.Lemmas.Sample
/-
Properties C57 (log.c) and C58 (wayuu_log.c).
-/
namespace Wayuu
open C Spec

/-! ### C57 -/

/-- C57. For every documented level and every documented configured level: the message is written, as one
line naming the level, iff its level is at least the configured one; the process ends exactly for fatal
messages, with a failure status, after the line was written. `log_level_is_enabled` agrees. -/
theorem C57_level (st : LogSt) (level : Int) (ts tid loc msg : Str) (h1 : 0 ≤ level) (h2 : level ≤ 5)
    (h3 : st.level ≤ 5) :
    ∃ st' e, logger st level ts tid loc msg = ok (st', e) ∧ st'.level = st.level ∧
      (st.level ≤ level → ∃ name ∈ [(0, b!"TRACE"), (1, b!"DEBUG"), (2, b!"INFO "), (3, b!"WARN "), (4, b!"ERROR"), (5, b!"FATAL")],
        name.1 = level ∧
        st'.text = st.text ++ [ts ++ b!" " ++ tid ++ b!" " ++ name.2 ++ b!" " ++ loc ++ b!": " ++ msg ++ b!"\n"]) ∧
      (level < st.level → st'.text = st.text) ∧
      (e = .failure ↔ level = 5) ∧ (e = .returns ↔ level ≠ 5) ∧
      (log_level_is_enabled st level = true ↔ st.level ≤ level) := by
  obtain ⟨n, rfl⟩ := Int.eq_ofNat_of_zero_le h1
  have hn : n < 6 := by omega
  by_cases hl : (n : Int) < st.level
  · refine ⟨st, .returns, ?_, rfl, ?_, fun _ => rfl, ?_, ?_, ?_⟩
    · unfold logger; rw [if_pos hl]
    · intro h; omega
    · simp; omega
    · simp; omega
    · simp [log_level_is_enabled]
  · have key : ∀ k : Fin 6, ∃ name, level_names[k.val]? = some name ∧
        ((k.val : Int), name) ∈ [(0, b!"TRACE"), (1, b!"DEBUG"), (2, b!"INFO "), (3, b!"WARN "), (4, b!"ERROR"), (5, b!"FATAL")] := by
      intro k
      match k with
      | 0 => exact ⟨_, rfl, by decide⟩
      | 1 => exact ⟨_, rfl, by decide⟩
      | 2 => exact ⟨_, rfl, by decide⟩
      | 3 => exact ⟨_, rfl, by decide⟩
      | 4 => exact ⟨_, rfl, by decide⟩
      | 5 => exact ⟨_, rfl, by decide⟩
    obtain ⟨name, e1, e2⟩ := key ⟨n, hn⟩
    simp only at e1 e2
    refine ⟨{ st with text := st.text ++ [ts ++ b!" " ++ tid ++ b!" " ++ name ++ b!" " ++ loc ++ b!": " ++ msg ++ b!"\n"] },
      if (n : Int) = 5 then .failure else .returns, ?_, rfl, fun _ => ⟨_, e2, rfl, rfl⟩, fun h => absurd h hl, ?_, ?_, ?_⟩
    · unfold logger
      rw [if_neg hl, if_neg (by omega)]
      simp only [Int.toNat_natCast, e1]
      split
      · rfl
      · rfl
    · split <;> simp_all
    · split <;> simp_all
    · simp [log_level_is_enabled]

example := C57_level ⟨2, []⟩ 3 b!"t" b!"1" b!"f:g:3" b!"x" (by decide) (by decide) (by decide)

/-- C57, levels outside the documented range read past the table of names, if they are enabled. -/
theorem C57_range (st : LogSt) (level : Int) (ts tid loc msg : Str) (h : st.level ≤ level) (h2 : level < 0 ∨ 6 ≤ level) :
    logger st level ts tid loc msg = ub .oob := by
  unfold logger
  rw [if_neg (by omega)]
  by_cases h0 : level < 0
  · rw [if_pos h0]
  · rw [if_neg h0]
    have : level_names[level.toNat]? = none := by
      rw [List.getElem?_eq_none_iff]
      have : level_names.length = 6 := rfl
      omega
    rw [this]

example : logger ⟨2, []⟩ 6 b!"t" b!"1" b!"f:g:3" b!"x" = ub .oob := C57_range _ _ _ _ _ _ (by decide) (by decide)

/-- C57, `log_set_level` takes effect for the following messages. -/
theorem C57_set (st : LogSt) (l level : Int) : log_level_is_enabled (log_set_level st l) level = true ↔ l ≤ level := by
  simp [log_level_is_enabled, log_set_level]

example : (0 : Int) ≤ 5 ∧ (5 : Int) ≤ 5 ∧ ((LogSt.mk 2 []).level ≤ 5) := by decide
example : logger ⟨2, []⟩ 5 b!"t" b!"1" b!"f:g:3" b!"x" = ok (⟨2, [b!"t 1 FATAL f:g:3: x\n"]⟩, .failure) := by decide
example : logger ⟨2, []⟩ 1 b!"t" b!"1" b!"f:g:3" b!"x" = ok (⟨2, []⟩, .returns) := by decide

/-! ### C58 -/

/-- The log line of a response: it is the only one added, and it reports these values. -/
def Recorded (env : Env) (st st' : St) (hs : List (Str × Str)) (status : Nat) : Prop :=
  (env.logOk = false → st'.log = st.log) ∧
  (env.logOk = true → ∃ line referer ua, st'.log = st.log ++ [line] ∧
    AccessLine line st.req.IP env.ts st.req.request_line status st'.req.response_length
      (referer.getD []) (ua.getD []) env.rt ∧
    FirstHeader hs b!"Referer" referer ∧ FirstHeader hs b!"User-Agent" ua)

theorem recorded_of {env : Env} {st st' : St} {hs : List (Str × Str)} {status n : Nat}
    (hr : st'.req = { st.req with response_length := n })
    (hl : st'.log = (if env.logOk then st.log ++ [logLine env st'.req hs status] else st.log)) :
    Recorded env st st' hs status := by
  constructor
  · intro h; rw [hl, if_neg (by simp [h])]
  · intro h
    rw [if_pos h] at hl
    refine ⟨_, headerValue hs b!"Referer", headerValue hs b!"User-Agent", hl, ?_, headerValue_first .., headerValue_first ..⟩
    refine ⟨fmtNat status, fmtNat st'.req.response_length, fmtNat_text _, fmtNat_text _, ?_⟩
    have e1 : st'.req.IP = st.req.IP := by rw [hr]
    have e2 : st'.req.request_line = st.req.request_line := by rw [hr]
    have e3 : fmtInt (status : Int) = fmtNat status := by simp [fmtInt]
    unfold logLine accessLine
    rw [e1, e2, e3]

/-- C58, the response helpers: exactly one line is recorded for each response, with the client address, the
request line, the status, the length of the response, referer and user agent. -/
theorem C58_status (env : Env) (st : St) (hs : List (Str × Str)) (hh : st.req.HasHeaders hs)
    (status : Nat) (h : status ∈ supported) (message : Str) (hm : message.length ≤ 943) :
    ∃ st', send_http_status env st status message = ok st' ∧ Recorded env st st' hs status ∧
      (st.req.response_length = 0 → st'.req.response_length + st.sent.length = st'.sent.length) := by
  obtain ⟨start, hst⟩ := findStatus_some h
  obtain ⟨st', h1, h2, h3, h4, -⟩ := send_http_status_eq (env := env) hh hst hm
  refine ⟨st', h1, recorded_of h3 h4, fun h0 => ?_⟩
  have hl : start.length ≤ 36 := (table_lines _ (findStatus_cases hst)).1
  have hlen : (statusReply start message).length < 2 ^ 32 := by
    have hsv : WAYUU_HTTP_SERVER_STRING.length = 21 := by decide
    have hn := fmtNat_length (message.length + 2) 2 (by omega)
    unfold statusReply
    have hz : HTTP_CONTENT_LENGTH_ZERO.length ≤ 40 := by decide
    split <;> simp [hsv, CRLF] <;> omega
  rw [h3, h2]
  simp only [h0, Nat.zero_add, List.length_append]
  rw [Nat.mod_eq_of_lt hlen]
  omega

theorem C58_json (env : Env) (st : St) (hs : List (Str × Str)) (hh : st.req.HasHeaders hs)
    (status : Nat) (h : status ∈ supported) (data : Str) (hd : data.length < 2 ^ 31) :
    ∃ st', return_json_with_status env st status data = ok st' ∧ Recorded env st st' hs status := by
  obtain ⟨start, hst⟩ := findStatus_some h
  obtain ⟨st', h1, h2, h3, h4, -⟩ := return_json_eq (env := env) hh hst hd
  exact ⟨st', h1, recorded_of h3 h4⟩

example := C58_json sampleEnv sampleSt [] sample_headers 404 (by decide) b!"{}" (by decide)

theorem C58_stream (env : Env) (st : St) (hs : List (Str × Str)) (hh : st.req.HasHeaders hs)
    (status : Nat) (h : status ∈ supported) (content : Str) (hz : NulFree content) (hd : content.length + 300 < 2 ^ 31) :
    ∃ st', return_json_stream env st status content = ok st' ∧ Recorded env st st' hs status ∧
      st'.req.response_length + st.sent.length = st'.sent.length := by
  obtain ⟨start, hst⟩ := findStatus_some h
  obtain ⟨st', h1, h2, h3, h4, -⟩ := return_json_stream_eq (env := env) hh hst hz hd
  refine ⟨st', h1, recorded_of h3 h4, ?_⟩
  rw [h3, h2, List.length_append]
  simp only
  omega

example := C58_stream sampleEnv sampleSt [] sample_headers 200 (by decide) b!"line 1\nlast" (by decide) (by decide)

theorem C58_file (env : Env) (st : St) (hs : List (Str × Str)) (hh : st.req.HasHeaders hs) (session filename content : Str)
    (hse : cstr st.req.session = ok session) (hsl : session.length ≤ 490)
    (hopen : st.fs.openRead filename = some content) (hlen : content.length + 1200 < 2 ^ 31) :
    ∃ st', direct_file env st filename = ok (0, st') ∧ Recorded env st st' hs 200 ∧
      st'.req.response_length + st.sent.length = st'.sent.length := by
  obtain ⟨st', h1, h2, h3, h4, -⟩ := direct_file_eq (env := env) hh hse hsl hopen hlen
  refine ⟨st', h1, recorded_of h3 h4, ?_⟩
  rw [h3, h2, List.length_append]
  simp only
  omega

/-- C58 as claimed for whole requests: whatever the client sends, every entry added to the log is one line
(with a clock that prints no line breaks, and handlers that do nothing). -/
def C58_statement : Prop :=
  ∀ (env : Env) (st st' : St) (socket : Nat) (peer : Str) (ev : List Event),
    (10 : Byte) ∉ env.ts → (10 : Byte) ∉ env.rt → (10 : Byte) ∉ peer → (∀ h st, env.handle h st = ok st) →
    (∀ f st, env.filt f st = ok (st, true)) →
    accept_request env st socket peer = ok (st', ev) → ∀ l ∈ st'.log.drop st.log.length, SingleLine l

/-- C58 is false of the code: an empty `X-Real-IP` header makes the logged address a line break. -/
theorem C58_witness : (accept_request sampleEnv
    { sampleSt with input := b!"POST /x HTTP/1.1\r\nX-Real-IP:\r\n\r\n", live := [⟨0, [], []⟩] } 5 b!"10.0.0.1").bind
      (fun x => ok x.1.log) =
    ok [b!"\n - - [now] \"POST /x HTTP/1.1\" 400 68 \"\" \"\" 1\n"] := by decide +kernel

theorem C58_refuted : ¬ C58_statement := by
  intro h
  have hw := C58_witness
  cases hr : accept_request sampleEnv
    { sampleSt with input := b!"POST /x HTTP/1.1\r\nX-Real-IP:\r\n\r\n", live := [⟨0, [], []⟩] } 5 b!"10.0.0.1" with
  | ub e => rw [hr] at hw; cases hw
  | ok x =>
    obtain ⟨st', ev⟩ := x
    rw [hr] at hw
    have hlog : st'.log = _ := C.ok.inj hw
    obtain ⟨l, h1, h2⟩ := h sampleEnv _ st' 5 b!"10.0.0.1" ev (by decide) (by decide) (by decide) (fun _ _ => rfl)
      (fun _ _ => rfl) hr b!"\n - - [now] \"POST /x HTTP/1.1\" 400 68 \"\" \"\" 1\n" (by rw [hlog]; exact List.mem_cons_self ..)
    apply h2
    have : l = (b!"\n - - [now] \"POST /x HTTP/1.1\" 400 68 \"\" \"\" 1\n").dropLast := by rw [h1]; simp
    rw [this]
    decide

/-- C58, what holds of the text: if the address, the request line and the two header values contain no line
break, the entry is one line. Missing: addresses taken from an empty `X-Real-IP` header. -/
theorem C58_line_partial (line ip ts request referer ua rt : Str) (status length : Nat)
    (h : AccessLine line ip ts request status length referer ua rt) (h1 : (10 : Byte) ∉ ip) (h2 : (10 : Byte) ∉ ts)
    (h3 : (10 : Byte) ∉ request) (h4 : (10 : Byte) ∉ referer) (h5 : (10 : Byte) ∉ ua) (h6 : (10 : Byte) ∉ rt) :
    SingleLine line := by
  obtain ⟨code, len, hc, hl, rfl⟩ := h
  have n1 : (10 : Byte) ∉ code := fun h => ((natText_oneLine hc).1 10 h).2 rfl
  have n2 : (10 : Byte) ∉ len := fun h => ((natText_oneLine hl).1 10 h).2 rfl
  exact ⟨_, rfl, by simp [h1, h2, h3, h4, h5, h6, n1, n2]⟩

example : AccessLine b!"1.2.3.4 - - [now] \"GET /\" 200 5 \"\" \"ua\" 1\n" b!"1.2.3.4" b!"now" b!"GET /" 200 5 [] b!"ua" b!"1" :=
  ⟨b!"200", b!"5", fmtNat_text 200, fmtNat_text 5, by decide⟩
example : sampleSt.req.HasHeaders [] ∧ 404 ∈ supported := ⟨sample_headers, by decide⟩

end Wayuu
