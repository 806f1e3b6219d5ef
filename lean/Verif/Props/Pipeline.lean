import Verif.Lemmas.More
import Verif.Props.Requests
import Verif.Props.Headers
/-
Properties C106 and C107: what a client sends after its request.
-/
namespace Wayuu
open C Spec

/-- C106: whatever follows a complete request is not looked at. The outcome – undefined behaviour included –, what is sent, the
log, the files, the table of connections and the user code that is run are the same, and all that follows is left unread. -/
theorem C106_extra (env : Env) (hu : UserReadsNothing env) (st : St) (socket : Nat) (peer e : List Byte) (hc : Complete st.input) :
    accept_request env { st with input := st.input ++ e } socket peer =
      (fun x => ({ x.1 with input := x.1.input ++ e }, x.2)) <$> accept_request env st socket peer := by
  obtain ⟨line, rest, lines, body, n, hl, hw, hn, hlt, hle⟩ := hc
  unfold accept_request
  refine bind_same fun ip => ?_
  dsimp only
  have hm := readRequestLine_unread hl (hl.terminated hw.ne_nil) e
  rw [hm]
  cases hr : readRequestLine st.input with
  | ub f => rfl
  | ok x =>
    obtain ⟨buf, inp, rl, method, j⟩ := x
    obtain ⟨rfl, rfl⟩ := readRequestLine_buf hl hr
    simp only [map_ok, ok_bind]
    refine bind_same fun al => ?_
    split
    · exact bind_more (g := St.more e) (k := fun (x : St × List Event) => (x.1.more e, x.2))
        (f := fun s => ok (connection_close s, [])) (f' := fun s => ok (connection_close s, []))
        (send_http_status_unread e env { st with
          input := inp, req := { api_request_new socket ip with request_line := rl, method := method } } _ _) fun s => rfl
    · refine bind_same fun url => ?_
      refine bind_same fun x => ?_
      obtain ⟨added, live⟩ := x
      dsimp only
      split
      · exact bind_more (g := St.more e) (k := fun (x : St × List Event) => (x.1.more e, x.2))
          (f := fun s => ok (connection_close s, [])) (f' := fun s => ok (connection_close s, []))
          (send_http_status_unread e env { st with input := inp, live := live, req :=
            { api_request_new socket ip with request_line := rl, method := method, url := url } } _ _) fun s => rfl
      · have hb : LineBuf (lineBytes line) := lineBytes_buf hl.2.1
        rw [parseHeaders_unread hb hw e]
        cases hp : parseHeaders ((lineBytes line).map some) inp (api_request_new socket ip).IP with
        | ub f => rfl
        | ok h =>
          obtain ⟨last, h1, -, -, -, -, -, h2, -⟩ := parse_fields hb hw.section hp
          have hcl := foldl_clen_le hn (.init (lineBytes line) (api_request_new socket ip).IP) (hb.load (line := [65]) (by decide)) rfl
            hw.section.length_le hlt
          have hcl : h.content_length ≤ h.input.length := by
            rw [h2, h1]
            exact Int.le_trans hcl (by exact_mod_cast hle)
          simp only [map_ok, ok_bind]
          exact bind_more (g := fun (x : St × List Event) => (x.1.more e, x.2)) (k := fun (x : St × List Event) => (x.1.more e, x.2))
            (f := fun x => ok (connection_close x.1, x.2)) (f' := fun x => ok (connection_close x.1, x.2))
            (dispatch_unread e hu { st with
              input := h.input, live := live,
              req := { api_request_new socket ip with
                request_line := rl, method := method, url := url, headers := h.headers, n_headers := h.headers.length,
                content_type := h.content_type, IP := h.IP, session := h.session } } url h.boundary h.content_length hcl)
            fun x => rfl

/-- User code of the sample environment. -/
theorem sample_reads_nothing : UserReadsNothing sampleEnv := ⟨fun _ _ _ => rfl, fun _ _ _ => rfl⟩

/-- A request with a body of three bytes (and one without a blank after the colon). -/
theorem post_complete : Complete b!"POST /api/a HTTP/1.1\r\nContent-Length: 3\r\n\r\nabc" := by
  refine ⟨b!"POST /api/a HTTP/1.1\r\n", b!"Content-Length: 3\r\n\r\nabc", [b!"Content-Length: 3\r\n"], b!"abc", some 3,
    ⟨rfl, by decide, by decide, Or.inr (Or.inl rfl)⟩, ?_, ?_, by decide, by decide⟩
  · refine .line _ b!"Content-Length: 3\r\n" b!"\r\nabc" _ _ ⟨rfl, by decide, by decide, Or.inr (Or.inl rfl)⟩ (by decide) (by decide)
      (by decide) ?_
    exact .blank _ [13, 10] b!"abc" ⟨rfl, by decide, by decide, Or.inr (Or.inl rfl)⟩ (Or.inr rfl)
  · have := LengthOf.field [] none b!"Content-Length: 3\r\n" b!"Content-Length: 3\r\n" b!"3" .none ⟨by decide, Or.inl rfl⟩
      ⟨b!"Content-Length", b!" 3\r\n", rfl, rfl, by rw [show b!"3" = strip b!" 3\r\n" by decide]; exact isStrip_strip _⟩ (by decide)
      (by unfold digit; decide)
    exact this
example : Complete b!"POST /api/a HTTP/1.1\r\nContent-Length:12\r\n\r\nhello, world" := by
  refine ⟨b!"POST /api/a HTTP/1.1\r\n", b!"Content-Length:12\r\n\r\nhello, world", [b!"Content-Length:12\r\n"], b!"hello, world", some 12,
    ⟨rfl, by decide, by decide, Or.inr (Or.inl rfl)⟩, ?_, length_sample, by decide, by decide⟩
  refine .line _ b!"Content-Length:12\r\n" b!"\r\nhello, world" _ _ ⟨rfl, by decide, by decide, Or.inr (Or.inl rfl)⟩ (by decide)
    (by decide) (by decide) ?_
  exact .blank _ [13, 10] b!"hello, world" ⟨rfl, by decide, by decide, Or.inr (Or.inl rfl)⟩ (Or.inr rfl)

/-- A second request after a complete one: left unread, not logged, connection closed. -/
theorem C106_witness : (accept_request sampleEnv { sampleSt with
      live := [⟨0, [], []⟩], input := b!"POST /api/a HTTP/1.1\r\nContent-Length: 3\r\n\r\nabc" ++ b!"GET / HTTP/1.1\r\n\r\n" } 7 b!"10.0.0.1").bind
      (fun x => ok (x.1.input, x.1.log.length, x.1.closed)) = ok (b!"GET / HTTP/1.1\r\n\r\n", 1, [7]) := by decide +kernel

/-! ### C107 -/

/-- C107 in full: whoever sends a second request over the same connection has it looked at, or is told by the answer to the
first one that the connection is closed. -/
def C107_statement : Prop :=
  ∀ (env : Env) (st st' : St) (socket : Nat) (peer r1 r2 reply body : List Byte) (ev : List Event) (status : Nat)
    (fields : List (List Byte × List Byte)), UserReadsNothing env → UserKeeps env → Complete r1 → Complete r2 →
    accept_request env { st with input := r1 ++ r2 } socket peer = ok (st', ev) → st'.sent = st.sent ++ reply →
    Response reply status fields body → ¬ r2 <:+ st'.input ∨ (b!"Connection", b!"close") ∈ fields

/-- C107, what happens: the second request is not looked at, everything is as if it had not been sent, and the connection is
closed. Missing: that the client is told. -/
theorem C107_partial (env : Env) (st st' : St) (socket : Nat) (peer r1 r2 : List Byte) (ev : List Event)
    (hu : UserReadsNothing env) (hk : UserKeeps env) (hc : Complete r1) (h0 : socket ≠ 0) (hs : ∀ c ∈ st.live, c.socket ≠ socket)
    (h : accept_request env { st with input := r1 ++ r2 } socket peer = ok (st', ev)) :
    r2 <:+ st'.input ∧ st'.closed = st.closed ++ [socket] ∧
    ∃ st1, accept_request env { st with input := r1 } socket peer = ok (st1, ev) ∧ st'.out = st1.out ∧ st'.log = st1.log ∧
      st'.fs = st1.fs ∧ st'.live = st1.live := by
  have hm := C106_extra env hu { st with input := r1 } socket peer r2 hc
  have hcl := (C51_closed env hk { st with input := r1 ++ r2 } st' socket peer ev h0 hs h).1
  rw [show ({ st with input := r1 ++ r2 } : St) = { { st with input := r1 } with input := r1 ++ r2 } from rfl] at h
  rw [hm] at h
  cases ha : accept_request env { st with input := r1 } socket peer with
  | ub f => rw [ha] at h; cases h
  | ok x =>
    obtain ⟨st1, ev1⟩ := x
    rw [ha] at h
    simp only [map_ok, ok.injEq, Prod.mk.injEq] at h
    obtain ⟨rfl, rfl⟩ := h
    exact ⟨⟨st1.input, rfl⟩, hcl, st1, rfl, rfl, rfl, rfl, rfl⟩

theorem C107_refuted : ¬ C107_statement := by
  intro h
  have hr : ∃ st' : St, accept_request sampleEnv { { sampleSt with live := [⟨0, [], []⟩] } with
      input := b!"POST /api/a HTTP/1.1\r\nContent-Length: 3\r\n\r\nabc" ++ b!"POST /api/a HTTP/1.1\r\nContent-Length: 3\r\n\r\nabc" } 7 b!"10.0.0.1" =
      ok (st', []) ∧ st'.sent = statusReply b!"HTTP/1.1 400 Bad Request\r\n" [] := by
    have key : (accept_request sampleEnv { { sampleSt with live := [⟨0, [], []⟩] } with
      input := b!"POST /api/a HTTP/1.1\r\nContent-Length: 3\r\n\r\nabc" ++ b!"POST /api/a HTTP/1.1\r\nContent-Length: 3\r\n\r\nabc" } 7 b!"10.0.0.1").bind
      (fun x => ok (x.1.sent, x.2.length)) = ok (statusReply b!"HTTP/1.1 400 Bad Request\r\n" [], 0) := by decide +kernel
    cases ha : accept_request sampleEnv { { sampleSt with live := [⟨0, [], []⟩] } with
      input := b!"POST /api/a HTTP/1.1\r\nContent-Length: 3\r\n\r\nabc" ++ b!"POST /api/a HTTP/1.1\r\nContent-Length: 3\r\n\r\nabc" } 7 b!"10.0.0.1" with
    | ub f => rw [ha] at key; cases key
    | ok x =>
      rw [ha] at key
      change ok (x.1.sent, x.2.length) = _ at key
      simp only [ok.injEq, Prod.mk.injEq, List.length_eq_zero_iff] at key
      exact ⟨x.1, by rw [← key.2], key.1⟩
  obtain ⟨st', h1, h2⟩ := hr
  have hk : UserKeeps sampleEnv := by
    constructor
    · intro id a b hab; cases hab; exact ⟨rfl, rfl, rfl⟩
    · intro id a b c hab; cases hab; exact ⟨rfl, rfl, rfl⟩
  have hp := C107_partial sampleEnv { sampleSt with live := [⟨0, [], []⟩] } st' 7 b!"10.0.0.1" _ _ [] sample_reads_nothing hk post_complete
    (by decide) (by simp) h1
  have hres := statusReply_plain (status := 400) (start := b!"HTTP/1.1 400 Bad Request\r\n") rfl
  rcases h sampleEnv { sampleSt with live := [⟨0, [], []⟩] } st' 7 b!"10.0.0.1" _ _ _ [] [] _ _ sample_reads_nothing hk post_complete
    post_complete h1 h2 hres with h | h
  · exact h hp.1
  · revert h; decide

end Wayuu
