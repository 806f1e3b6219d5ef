import Verif.Lemmas.Request
import Verif.Lemmas.Response
import Verif.Lemmas.Sample
import Verif.Props.Limits
/-
Properties C41, C51 and C67 (ws.c, `accept_request`).
-/
namespace Wayuu
open C Spec

/-- The fields of a response without a body. -/
theorem statusReply_plain {status : Int} {start : Str} (hs : findStatus status HTTP_STATUS_TABLE = some start) :
    Response (statusReply start []) status.toNat [(b!"Server", b!"WAYUU/1.5.0"), (b!"Content-Length", b!"0")] [] := by
  have h0 : NatText b!"0" 0 := ⟨by decide, by unfold digit; decide, by decide, by decide⟩
  have := response_mk hs [b!"Server: WAYUU/1.5.0", b!"Content-Length: 0"] _ []
    (fields_cons field_server (fields_cons (field_length h0) .nil))
  simpa [statusReply, WAYUU_HTTP_SERVER_STRING, HTTP_CONTENT_LENGTH_ZERO, CRLF] using this

/-! ### C41 -/

/-- C41: whatever follows, a request line that begins with none of the supported methods (up to case) is
answered by exactly one 400 response; the socket is closed, no handler or filter runs and the table of live
connections is left as it was. -/
theorem C41_method (env : Env) (st : St) (socket : Nat) (peer line rest text : Str) (hp : peer.length < 24)
    (hl : LineOf st.input 1023 line rest) (hb : BeforeNul line text) (h2 : 2 ≤ text.length) (hm : ¬ Supported text)
    (hs : ∀ c ∈ st.live, c.socket ≠ socket) :
    ∃ st' reply fields, accept_request env st socket peer = ok (st', []) ∧ st'.sent = st.sent ++ reply ∧
      Response reply 400 fields [] ∧ Sized fields [] ∧ st'.closed = st.closed ++ [socket] ∧ st'.live = st.live ∧
      st'.fs = st.fs ∧ st'.input = rest ∧ (∀ f ∈ fields, f.1 = b!"Server" ∨ f.1 = b!"Content-Length") := by
  obtain ⟨b, hb1, hb2⟩ := startswithany_methods (wordAt text 254 0)
  have hbf : b = false := by
    cases b with
    | false => rfl
    | true =>
      exfalso
      obtain ⟨m, hm1, hm2⟩ := hb2.mp rfl
      exact hm ⟨m, hm1, casePrefix_trans_prefix hm2 (wordAt_zero_prefix text 254)⟩
  subst hbf
  obtain ⟨st2, start, h3, h4, h5, h6, h7, h8, h9, h10⟩ := bad_request_eq (env := env) (hs := [])
    (st := { st with input := rest, req := lineReq socket peer (text.take (text.length - 2)) (wordAt text 254 0) }) (noHeaders rfl rfl)
  obtain ⟨fields, h11, h12⟩ := statusReply_response h4 []
  refine ⟨connection_close st2, _, fields, ?_, h5, by simpa using h11, by simpa using h12, ?_, ?_, h7, h6, ?_⟩
  · unfold accept_request
    rw [fmtInto_ok (by omega)]
    simp only [ok_bind]
    rw [readRequestLine_eq hl hb h2]
    simp only [ok_bind, hb1, Bool.not_false, if_true]
    have h3' : bad_request env { st with input := rest, req := { api_request_new socket peer with
      request_line := text.take (text.length - 2), method := wordAt text 254 0 } } = ok st2 := h3
    rw [h3']
    rfl
  · have : st2.req.socket = socket := by rw [h10]; rfl
    simp [connection_close, h9, this]
  · have : st2.req.socket = socket := by rw [h10]; rfl
    simp only [connection_close, h8, this]
    exact connection_del_notin hs
  · obtain ⟨-, rfl, -⟩ := h11.unique (statusReply_plain h4)
    simp

/-- C41, the other direction and the condition: a shorter request line makes the server write before its
copy of the line. This includes connections that send nothing and failed TLS handshakes. -/
theorem C41_short (env : Env) (st : St) (socket : Nat) (peer line rest text : Str) (hp : peer.length < 24)
    (hl : LineOf st.input 1023 line rest) (hb : BeforeNul line text) (h2 : text.length < 2) :
    accept_request env st socket peer = ub .oob := by
  unfold accept_request
  rw [fmtInto_ok (by omega)]
  simp only [ok_bind]
  rw [readRequestLine_short hl hb h2]
  rfl

example : (b!"10.0.0.1").length < 24 ∧ LineOf b!"BREW /pot HTTP/1.1\r\n\r\n" 1023 b!"BREW /pot HTTP/1.1\r\n" b!"\r\n" ∧
    BeforeNul b!"BREW /pot HTTP/1.1\r\n" b!"BREW /pot HTTP/1.1\r\n" ∧ ¬ Supported b!"BREW /pot HTTP/1.1\r\n" := by
  refine ⟨by decide, ⟨by decide, by decide, by decide, by decide⟩, ⟨by decide, Or.inl rfl⟩, ?_⟩
  obtain ⟨b, h1, h2⟩ := startswithany_methods b!"BREW /pot HTTP/1.1\r\n"
  rw [← h2]
  have : startswithany b!"BREW /pot HTTP/1.1\r\n" ALLOWED_HTTP_METHODS = ok false := by decide +kernel
  rw [this] at h1
  cases h1
  decide
example : LineOf ([] : List Byte) 1023 [] [] ∧ BeforeNul [] [] := ⟨⟨rfl, by decide, by decide, by decide⟩, ⟨by decide, Or.inl rfl⟩⟩
example : (accept_request sampleEnv { sampleSt with input := b!"BREW /pot HTTP/1.1\r\n\r\n" } 7 b!"10.0.0.1").bind
    (fun x => ok (x.1.sent, x.1.closed)) =
    ok (b!"HTTP/1.1 400 Bad Request\r\nServer: WAYUU/1.5.0\r\nContent-Length: 0\r\n\r\n", [7]) := by decide +kernel

/-! ### C51 -/

/-- C51: for every request whose handling ends, with any routes, handlers, rules and files, its socket is
closed exactly once, nothing else is closed, and the table of live connections holds the same entries, in the
same slots, as before. -/
theorem C51_closed (env : Env) (hu : UserKeeps env) (st st' : St) (socket : Nat) (peer : Str) (ev : List Event)
    (h0 : socket ≠ 0) (hs : ∀ c ∈ st.live, c.socket ≠ socket)
    (h : accept_request env st socket peer = ok (st', ev)) :
    st'.closed = st.closed ++ [socket] ∧ st'.live.length = st.live.length ∧
    (∀ (i : Nat) (c : Conn), c.socket ≠ 0 → (st'.live[i]? = some c ↔ st.live[i]? = some c)) ∧
    ((∀ c ∈ st.live, c.socket = 0 → c = ⟨0, [], []⟩) → st'.live = st.live) := by
  have hsame : ∀ st1, Keeps { st with req := lineReq socket peer [] [] } st1 →
      (connection_close st1).closed = st.closed ++ [socket] ∧ (connection_close st1).live = st.live := by
    intro st1 k
    obtain ⟨h1, h2⟩ := connection_close_keeps k
    refine ⟨h1, ?_⟩
    rw [h2]
    exact connection_del_notin hs
  obtain ⟨-, hc⟩ := accept_request_cases h
  cases hc with
  | badMethod buf inp rl method j st1 hr hm h1 =>
    have k := bad_request_keeps h1
    obtain ⟨h2, h3⟩ := hsame st1 ⟨k.1, k.2.1, k.2.2⟩
    rw [h3]
    exact ⟨h2, rfl, fun _ _ _ => Iff.rfl, fun _ => rfl⟩
  | tooMany buf inp rl method j url live st1 hr hm hurl hadd h1 =>
    have hlive : live = st.live := by
      rcases connection_add_ok hadd with h | h
      · exact h.2
      · cases h.1
    subst hlive
    have k := send_http_status_keeps h1
    obtain ⟨h2, h3⟩ := hsame st1 ⟨k.1, k.2.1, k.2.2⟩
    rw [h3]
    exact ⟨h2, rfl, fun _ _ _ => Iff.rfl, fun _ => rfl⟩
  | served buf inp rl method j url live h st1 ev hr hm hurl hadd hh h1 =>
    have hadd' : addSlot socket peer url st.live = some live := by
      rcases connection_add_ok hadd with h | h
      · cases h.1
      · exact h.2
    obtain ⟨a, c, b, hl, hc, -, rfl⟩ := addSlot_some hadd'
    have k := dispatch_keeps hu h1
    obtain ⟨h2, h3⟩ := connection_close_keeps k
    have ha : ∀ x ∈ a, x.socket ≠ socket := fun x hx => hs x (by rw [hl]; simp [hx])
    have h3' : (connection_close st1).live = a ++ ⟨0, [], []⟩ :: b := by
      rw [h3]; exact connection_del_mid a _ b ha rfl
    rw [h3', hl]
    refine ⟨h2, by simp, ?_, ?_⟩
    · intro i d hd
      rcases Nat.lt_trichotomy i a.length with hi | hi | hi
      · rw [List.getElem?_append_left hi, List.getElem?_append_left hi]
      · subst hi
        simp only [List.getElem?_append_right (Nat.le_refl _), Nat.sub_self, List.getElem?_cons_zero, Option.some.injEq]
        constructor
        · intro e; subst e; exact absurd rfl hd
        · intro e; subst e; exact absurd hc hd
      · obtain ⟨n, rfl⟩ : ∃ n, i = a.length + (n + 1) := ⟨i - a.length - 1, by omega⟩
        simp [List.getElem?_append_right]
    · intro hfree
      rw [hfree c (by simp) hc]

/-- C51: user code built from the response helpers satisfies the condition of `C51_closed`. -/
theorem C51_helpers (env : Env) (st st' : St) :
    (∀ status m, send_http_status env st status m = ok st' → Keeps st st') ∧
    (∀ status d, return_json_with_status env st status d = ok st' → Keeps st st') ∧
    (∀ status c, return_json_stream env st status c = ok st' → Keeps st st') ∧
    (∀ f n, direct_file env st f = ok (n, st') → Keeps st st') ∧
    (∀ d n, http_print st d n = ok st' → Keeps st st') :=
  ⟨fun _ _ => send_http_status_keeps, fun _ _ => return_json_with_status_keeps, fun _ _ => return_json_stream_keeps,
    fun _ _ => direct_file_keeps, fun _ _ => http_print_keeps⟩

example : UserKeeps sampleEnv := by
  refine ⟨fun _ st st' h => ?_, fun _ st st' b h => ?_⟩
  · cases h; exact Keeps.refl _
  · cases h; exact Keeps.refl _
example : (accept_request sampleEnv { sampleSt with
      input := b!"GET /a HTTP/1.1\r\n\r\n", live := [⟨4, b!"/b", b!"1.1.1.1"⟩, ⟨0, [], []⟩, ⟨0, [], []⟩] } 7 b!"10.0.0.1").bind
    (fun x => ok (x.1.live, x.1.closed)) =
    ok ([⟨4, b!"/b", b!"1.1.1.1"⟩, ⟨0, [], []⟩, ⟨0, [], []⟩], [7]) := by decide +kernel

/-! ### C67 -/

/-- C67, as far as connections are dropped at all: a connection whose rule allows no further time is not
accepted once the rule's time is over. The clock appears nowhere in the code, so the only reading open to the
model is that the outcome depends on `max_seconds`. -/
def C67_statement : Prop :=
  ∃ limits live socket ip path p m n s s',
    connection_add (⟨p, m, n, s⟩ :: limits) live socket ip path ≠ connection_add (⟨p, m, n, s'⟩ :: limits) live socket ip path

theorem validateLoop_seconds (live : List Conn) (ip path : Str) (n : Nat) (limits limits' : List PathLimit)
    (h : List.Forall₂ (fun (a b : PathLimit) => a.path = b.path ∧ a.max_connections = b.max_connections ∧
      a.max_connections_per_ip = b.max_connections_per_ip) limits limits') :
    validateLoop live ip path n limits = validateLoop live ip path n limits' := by
  induction h generalizing n with
  | nil => rfl
  | @cons a b r r' h1 h2 ih =>
    cases n with
    | zero => rfl
    | succ n =>
      rw [validateLoop, validateLoop, h1.1, h1.2.1, h1.2.2, ih n]

section
variable (env : Env) (l l' : List PathLimit)

theorem log_access_limits : log_access { env with limits := l } = log_access { env with limits := l' } := rfl
theorem send_http_status_limits : send_http_status { env with limits := l } = send_http_status { env with limits := l' } := by
  funext st status m
  unfold send_http_status
  rw [log_access_limits env l l']
theorem direct_file_limits : direct_file { env with limits := l } = direct_file { env with limits := l' } := by
  funext st f
  unfold direct_file
  rw [log_access_limits env l l']
theorem handle_static_routes_limits :
    handle_static_routes { env with limits := l } = handle_static_routes { env with limits := l' } := by
  funext st
  unfold handle_static_routes
  rw [direct_file_limits env l l']
  rfl
theorem bad_request_limits : bad_request { env with limits := l } = bad_request { env with limits := l' } := by
  funext st; unfold bad_request; rw [send_http_status_limits env l l']
theorem router_limits : router_handle_request { env with limits := l } = router_handle_request { env with limits := l' } := by
  funext st
  unfold router_handle_request reject_routing_request
  rw [bad_request_limits env l l']
theorem save_tmp_file_limits : save_tmp_file { env with limits := l } = save_tmp_file { env with limits := l' } := by
  funext a b c d e f g
  unfold save_tmp_file
  rfl
theorem part_parse_limits : part_parse { env with limits := l } = part_parse { env with limits := l' } := by
  funext a b c d
  unfold part_parse
  rw [save_tmp_file_limits env l l']
theorem partsLoop_limits : partsLoop { env with limits := l } = partsLoop { env with limits := l' } := by
  funext form bd cl n
  induction n with
  | zero => rfl
  | succ n ih =>
    funext p tp tf fs
    rw [partsLoop, partsLoop, part_parse_limits env l l', ih]
theorem readForm_limits : readForm { env with limits := l } = readForm { env with limits := l' } := by
  funext st n b
  unfold readForm multipart_parse
  rw [partsLoop_limits env l l']
theorem dispatch_limits : dispatch { env with limits := l } = dispatch { env with limits := l' } := by
  funext st u n b
  unfold dispatch handle_api_request
  rw [readForm_limits env l l', router_limits env l l', bad_request_limits env l l', handle_static_routes_limits env l l']
end

/-- C67 is false: `max_seconds` is read from the file and never used. Two rule sets that differ only in
their times accept and refuse the same connections, and handle every request in the same way. -/
theorem C67_unused (limits limits' : List PathLimit)
    (h : List.Forall₂ (fun (a b : PathLimit) => a.path = b.path ∧ a.max_connections = b.max_connections ∧
      a.max_connections_per_ip = b.max_connections_per_ip) limits limits') :
    (∀ live socket ip path, connection_add limits live socket ip path = connection_add limits' live socket ip path) ∧
    (∀ (env : Env) st socket peer, accept_request { env with limits := limits } st socket peer =
      accept_request { env with limits := limits' } st socket peer) := by
  have h1 : ∀ live socket ip path, connection_add limits live socket ip path = connection_add limits' live socket ip path := by
    intro live socket ip path
    unfold connection_add connection_validate
    rw [validateLoop_seconds live ip path _ limits limits' h]
  refine ⟨h1, fun env st socket peer => ?_⟩
  unfold accept_request too_many_connections
  rw [dispatch_limits env limits limits', bad_request_limits env limits limits', send_http_status_limits env limits limits']
  simp only [h1]

theorem C67_refuted : ¬ C67_statement := by
  rintro ⟨limits, live, socket, ip, path, p, m, n, s, s', h⟩
  apply h
  refine (C67_unused _ _ ?_).1 _ _ _ _
  refine .cons ⟨rfl, rfl, rfl⟩ ?_
  clear h
  induction limits with
  | nil => exact .nil
  | cons a r ih => exact .cons ⟨rfl, rfl, rfl⟩ ih

end Wayuu
