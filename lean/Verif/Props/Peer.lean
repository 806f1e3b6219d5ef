import Verif.Model.Peer
import Verif.Lemmas.LogSigned
import Verif.Lemmas.Sample
import Verif.Props.Address
import Verif.Props.Admission
/-
C100: the access log names the client (ws.c:473-478 with the rest of `accept_request`, wayuu_log.c:38-57).
-/
namespace Wayuu.Peer
open C Spec

/-- What the access log of one request should look like: every line written begins with the client's address in dotted
notation, the time and the request line as it was sent. -/
def LogNames (env : Env) (x : Addr) (line : Str) (ls : List Str) : Prop :=
  ∀ l ∈ ls, ∃ ip more, DottedQuad ip x ∧ l = ip ++ b!" - - [" ++ env.ts ++ b!"] \"" ++ line ++ b!"\" " ++ more

/-- No line of the header section is an X-Real-IP header. -/
def NoRealIP (lines : List (List Byte)) : Prop := ∀ l ∈ lines, ∀ t, BeforeNul l t → ¬ CasePrefix b!"X-Real-IP:" t

/-- C100 in full: whatever the request (without a header that says otherwise), the lines it adds to the access log name
the client it came from and the request. -/
def C100_statement : Prop :=
  ∀ (env : Env) (st st' : St) (socket : Nat) (c : Client) (stack : Addr) (line text method url rest after : Str)
    (lines : List (List Byte)) (ev : List Event),
    UserSigns env → Begins st.input line text method url rest → Section rest lines after → NoRealIP lines →
    handleConnection env st socket c stack = ok (st', ev) →
    ∃ ls, st'.log = st.log ++ ls ∧ LogNames env c.addr (text.take (text.length - 2)) ls

theorem handle_eq (env : Env) (st : St) (socket : Nat) (c : Client) (stack : Addr) :
    handleConnection env st socket c stack = accept_request env st socket (inet_ntoa (getpeername c stack).2) := by
  unfold handleConnection
  obtain ⟨r, x⟩ := getpeername c stack
  simp only [(C74_fits x).2.1, ok_bind]

/-- A request handled with the address `x`: every line it adds to the log bears `x` and the request line. -/
theorem logs_name {env : Env} {st st' : St} {socket : Nat} {x : Addr} {line text method url rest after : Str}
    {lines : List (List Byte)} {ev : List Event}
    (hu : UserSigns env) (hb : Begins st.input line text method url rest) (hs : Section rest lines after)
    (hn : NoRealIP lines) (h : accept_request env st socket (inet_ntoa x) = ok (st', ev)) :
    ∃ ls, st'.log = st.log ++ ls ∧ LogNames env x (text.take (text.length - 2)) ls := by
  obtain ⟨buf, inp, rl, m, j, ls, hr, e, hl⟩ := accept_request_signs hu h
  obtain ⟨h1, h2, h3, h4, h5⟩ := hb
  obtain ⟨e1, -⟩ := requestLine_eq h1 h2 h3 h4 h5
  rw [e1] at hr
  simp only [ok.injEq, Prod.mk.injEq] at hr
  obtain ⟨rfl, rfl, rfl, -, -⟩ := hr
  have key : ∀ l ∈ ls, Signature env (inet_ntoa x) (text.take (text.length - 2)) <+: l := by
    rcases hl with hl | ⟨hd, hp, hl⟩
    · exact hl
    · obtain ⟨b1, a, b2⟩ := lineBytes_buf h1.2.1
      have := (C65_recorded (lineBytes line) rest after lines (inet_ntoa x) hd b1 (by rw [b2]; simp)
        (by have := (C74_fits x).2.2.2.1; omega) hs hp).2.1 hn
      rw [this] at hl
      exact hl
  refine ⟨ls, e, fun l hl => ?_⟩
  obtain ⟨more, hm⟩ := key l hl
  exact ⟨inet_ntoa x, more, inet_ntoa_quad x, by rw [← hm]; rfl⟩

/-- C100, for clients that are still connected when a worker takes them from the queue. -/
theorem C100_partial (env : Env) (st st' : St) (socket : Nat) (c : Client) (stack : Addr)
    (line text method url rest after : Str) (lines : List (List Byte)) (ev : List Event) (hu : UserSigns env)
    (hb : Begins st.input line text method url rest) (hs : Section rest lines after) (hn : NoRealIP lines)
    (hc : c.gone = false) (h : handleConnection env st socket c stack = ok (st', ev)) :
    ∃ ls, st'.log = st.log ++ ls ∧ LogNames env c.addr (text.take (text.length - 2)) ls := by
  rw [handle_eq, getpeername, hc] at h
  exact logs_name hu hb hs hn h

/-- C100, clients that have gone: what is logged is the address found on the stack, whichever that is. -/
theorem C100_stack (env : Env) (st st' : St) (socket : Nat) (c : Client) (stack : Addr)
    (line text method url rest after : Str) (lines : List (List Byte)) (ev : List Event) (hu : UserSigns env)
    (hb : Begins st.input line text method url rest) (hs : Section rest lines after) (hn : NoRealIP lines)
    (hc : c.gone = true) (h : handleConnection env st socket c stack = ok (st', ev)) :
    ∃ ls, st'.log = st.log ++ ls ∧ LogNames env stack (text.take (text.length - 2)) ls := by
  rw [handle_eq, getpeername, hc] at h
  exact logs_name hu hb hs hn h

/-- C100, limits: a client still connected is admitted according to the connections of its own address; one that has
gone, according to those of the address found on the stack. -/
theorem C100_limits (env : Env) (st : St) (socket : Nat) (c : Client) (stack : Addr) (line text method url rest : Str)
    (hlim : env.limits.length ≤ 64) (hne : ∀ l ∈ env.limits, l.path ≠ [])
    (hb : Begins st.input line text method url rest) (hs : Supported method) (hsock : ∀ c ∈ st.live, c.socket ≠ socket)
    (hfree : ∃ c ∈ st.live, c.socket = 0) (l : PathLimit) (hl : l ∈ env.limits) (hpre : CasePrefix l.path url)
    (hover : l.max_connections_per_ip < liveUnderAddr l.path (if c.gone then stack else c.addr) st.live) :
    ∃ st' reply fields, handleConnection env st socket c stack = ok (st', []) ∧ st'.sent = st.sent ++ reply ∧
      Response reply 429 fields [] := by
  rw [handle_eq]
  have e : (getpeername c stack).2 = if c.gone then stack else c.addr := by unfold getpeername; split <;> rfl
  rw [e]
  generalize (if c.gone then stack else c.addr) = x at *
  have hu : url.length < 512 := by have := hb.2.2.2.2; omega
  have hx := (C74_fits x).2.2.2.1
  obtain ⟨r, live', d1, d2, -⟩ := C74_decision env.limits st.live socket x url hlim hne hu
  have hr : r = false := by
    cases r with
    | false => rfl
    | true =>
      have := ((d2.mp rfl).2 l hl hpre).2
      omega
  obtain ⟨h1, -⟩ := C65_admission env st socket (inet_ntoa x) line text method url rest hlim hne (by omega) hb hs hsock
  obtain ⟨st', reply, fields, g1, g2, g3, -⟩ := h1 (fun ha => by
    obtain ⟨k1, -⟩ := connection_add_admits (socket := socket) hlim hne hu (show (inet_ntoa x).length < 16 by omega)
    obtain ⟨_, _, _, -, -, -, k⟩ := k1 ha
    rw [d1, hr] at k
    cases k)
  exact ⟨st', reply, fields, g1, g2, g3⟩

/-! ### the refutation, and examples -/

/-- A request no handler is registered for, in the socket's buffer. -/
def homeSt : St := { sampleSt with input := b!"GET /api/x HTTP/1.1\r\nHost: a\r\n\r\n", live := [⟨0, [], []⟩] }

theorem home_begins : Begins homeSt.input b!"GET /api/x HTTP/1.1\r\n" b!"GET /api/x HTTP/1.1\r\n" b!"GET" b!"/api/x" b!"Host: a\r\n\r\n" :=
  ⟨⟨by decide, by decide, by decide, by decide⟩, ⟨by decide, Or.inl rfl⟩,
    ⟨b!" ", 32, b!"HTTP/1.1\r\n", rfl, by unfold White; decide, by decide, by unfold White; decide, by decide,
      by unfold White; decide, by unfold White; decide⟩, by decide, by decide⟩

theorem home_section : Section b!"Host: a\r\n\r\n" [b!"Host: a\r\n"] [] :=
  .line _ b!"Host: a\r\n" b!"\r\n" [] [] ⟨by decide, by decide, by decide, by decide⟩ (by decide) (by decide) (by decide)
    (.blank _ b!"\r\n" [] ⟨by decide, by decide, by decide, by decide⟩ (Or.inr rfl))

theorem home_noReal : NoRealIP [b!"Host: a\r\n"] := by
  intro l hl t ht
  rw [List.mem_singleton] at hl
  subst hl
  rw [beforeNul_eq ht, ← startswith_iff]
  decide

theorem sampleEnv_signs : UserSigns sampleEnv :=
  ⟨fun _ _ _ h => by cases h; exact Signs.refl _ _, fun _ _ _ _ h => by cases h; exact Signs.refl _ _⟩

/-- Handlers that answer with the library's JSON functions, and filters that write nothing, satisfy the assumption. -/
theorem json_signs (env : Env) (data : Nat → Str) (status : Nat → Int) (stream : Nat → Bool)
    (hh : ∀ id st, env.handle id st = if stream id then return_json_stream env st (status id) (data id)
      else return_json_with_status env st (status id) (data id))
    (hf : ∀ id st st' b, env.filt id st = ok (st', b) → st' = st) : UserSigns env := by
  refine ⟨fun id st st' h => ?_, fun _ _ _ _ h => by rw [hf _ _ _ _ h]; exact Signs.refl _ _⟩
  rw [hh] at h
  split at h
  · exact return_json_stream_signs h
  · exact return_json_with_status_signs h

def victim : Addr := ⟨10, 0, 0, 1⟩
def visitor : Addr := ⟨66, 6, 6, 6⟩

/-- The log after a request of `visitor`, who has gone, taken by a worker that served `victim` before. -/
theorem gone_log : (match handleConnection sampleEnv homeSt 5 ⟨visitor, true⟩ victim with
    | .ok (s, _) => s.log
    | _ => []) = [b!"10.0.0.1 - - [now] \"GET /api/x HTTP/1.1\" 400 68 \"\" \"\" 1\n"] := by decide +kernel

/-- C100 is false of the code: the request of a client that has reset its connection is logged under the address of
another one. -/
theorem C100_refuted : ¬ C100_statement := by
  intro hs
  have hlog := gone_log
  cases h : handleConnection sampleEnv homeSt 5 ⟨visitor, true⟩ victim with
  | ub f => rw [h] at hlog; cases hlog
  | ok x =>
    obtain ⟨st', ev⟩ := x
    rw [h] at hlog
    simp only at hlog
    obtain ⟨ls, e, hl⟩ := hs _ _ _ _ _ _ _ _ _ _ _ _ _ _ sampleEnv_signs home_begins home_section home_noReal h
    rw [hlog] at e
    have e : ls = [b!"10.0.0.1 - - [now] \"GET /api/x HTTP/1.1\" 400 68 \"\" \"\" 1\n"] := e.symm
    subst e
    obtain ⟨ip, more, h1, h2⟩ := hl _ (List.mem_singleton.mpr rfl)
    have h3 := (C74_unique _ _ _ _ h1 (inet_ntoa_quad visitor)).mpr rfl
    rw [h3, show inet_ntoa visitor = b!"66.6.6.6" by decide] at h2
    simp at h2

example : UserSigns sampleEnv ∧ Begins homeSt.input b!"GET /api/x HTTP/1.1\r\n" b!"GET /api/x HTTP/1.1\r\n" b!"GET" b!"/api/x"
      b!"Host: a\r\n\r\n" ∧ Section b!"Host: a\r\n\r\n" [b!"Host: a\r\n"] [] ∧ NoRealIP [b!"Host: a\r\n"] ∧
    (match handleConnection sampleEnv homeSt 5 ⟨visitor, false⟩ victim with
    | .ok (s, _) => s.log
    | _ => []) = [b!"66.6.6.6 - - [now] \"GET /api/x HTTP/1.1\" 400 68 \"\" \"\" 1\n"] :=
  ⟨sampleEnv_signs, home_begins, home_section, home_noReal, by decide +kernel⟩

/-- A limit of one connection per address, reached by `victim`: it is `visitor`, who has gone, whose request is refused. -/
example : (match handleConnection { sampleEnv with limits := [⟨b!"/api", 10, 0, 10⟩] }
      { homeSt with live := [⟨4, b!"/api/y", b!"10.0.0.1"⟩, ⟨0, [], []⟩] } 5 ⟨visitor, true⟩ victim with
    | .ok (s, _) => s.log
    | _ => []) = [b!"10.0.0.1 - - [now] \"GET /api/x HTTP/1.1\" 429 77 \"\" \"\" 1\n"] := by decide +kernel
example : (0 : Int) < liveUnderAddr b!"/api" victim [⟨4, b!"/api/y", b!"10.0.0.1"⟩, ⟨0, [], []⟩] := by
  have : 0 < liveUnderAddr b!"/api" victim [⟨4, b!"/api/y", b!"10.0.0.1"⟩, ⟨0, [], []⟩] := by
    unfold liveUnderAddr
    rw [List.countP_pos_iff]
    refine ⟨_, List.mem_cons_self, ?_⟩
    simp only [decide_eq_true_eq]
    refine ⟨⟨by decide, ?_⟩, inet_ntoa_quad victim⟩
    exact (startswith_iff _ _).mp (by decide)
  omega

end Wayuu.Peer
