import Verif.Lemmas.Limits
import Verif.Model.Ws
/-
What a request leaves alone: nothing but `connection_add` and `connection_close` changes the table of live
connections, the closed sockets or the socket of the request.
-/
namespace Wayuu
open C Spec

/-- The table, the closed sockets and the socket of the request are the same. -/
def Keeps (st st' : St) : Prop :=
  st'.live = st.live ∧ st'.closed = st.closed ∧ st'.req.socket = st.req.socket

theorem Keeps.refl (st : St) : Keeps st st := ⟨rfl, rfl, rfl⟩
theorem Keeps.trans {a b c : St} (h : Keeps a b) (h' : Keeps b c) : Keeps a c :=
  ⟨h'.1.trans h.1, h'.2.1.trans h.2.1, h'.2.2.trans h.2.2⟩

theorem http_print_keeps {st st' : St} {d : List Byte} {n : Int} (h : http_print st d n = ok st') : Keeps st st' := by
  unfold http_print at h
  simp only at h
  split at h
  · cases h
  · cases h; exact ⟨rfl, rfl, rfl⟩

theorem http_print_str_keeps {st st' : St} {d : Str} (h : http_print_str st d = ok st') : Keeps st st' :=
  http_print_keeps h

theorem log_access_keeps {env : Env} {st st' : St} {status : Int} (h : log_access env st status = ok st') : Keeps st st' := by
  unfold log_access at h
  obtain ⟨r, -, h⟩ := bind_eq_ok.mp h
  obtain ⟨u, -, h⟩ := bind_eq_ok.mp h
  obtain ⟨_, -, h⟩ := bind_eq_ok.mp h
  obtain ⟨_, -, h⟩ := bind_eq_ok.mp h
  cases h
  unfold appendLog
  split <;> exact ⟨rfl, rfl, rfl⟩

theorem send_http_status_keeps {env : Env} {st st' : St} {status : Int} {m : Str}
    (h : send_http_status env st status m = ok st') : Keeps st st' := by
  unfold send_http_status at h
  split at h
  · cases h; exact Keeps.refl _
  · obtain ⟨_, -, h⟩ := bind_eq_ok.mp h
    obtain ⟨_, -, h⟩ := bind_eq_ok.mp h
    obtain ⟨_, -, h⟩ := bind_eq_ok.mp h
    obtain ⟨s1, h1, h⟩ := bind_eq_ok.mp h
    obtain ⟨s2, h2, h⟩ := bind_eq_ok.mp h
    have k1 := http_print_str_keeps h1
    have k2 := http_print_str_keeps h2
    have k3 := log_access_keeps h
    exact k1.trans (Keeps.trans (b := s2) ⟨k2.1, k2.2.1, k2.2.2⟩ ⟨k3.1, k3.2.1, k3.2.2⟩)

theorem bad_request_keeps {env : Env} {st st' : St} (h : bad_request env st = ok st') : Keeps st st' :=
  send_http_status_keeps h

theorem sessionHeaders_keeps {st st' : St} {n m : Nat} {s : Str} (h : sessionHeaders st n s = ok (m, st')) : Keeps st st' := by
  unfold sessionHeaders at h
  split at h
  · obtain ⟨_, -, h⟩ := bind_eq_ok.mp h
    obtain ⟨s1, h1, h⟩ := bind_eq_ok.mp h
    cases h
    exact http_print_keeps h1
  · cases h; exact Keeps.refl _

theorem return_headers_keeps {st st' : St} {n : Nat} {f : Str} (h : return_headers st f = ok (n, st')) : Keeps st st' := by
  unfold return_headers at h
  obtain ⟨_, -, h⟩ := bind_eq_ok.mp h
  obtain ⟨s1, h1, h⟩ := bind_eq_ok.mp h
  obtain ⟨_, -, h⟩ := bind_eq_ok.mp h
  obtain ⟨s2, h2, h⟩ := bind_eq_ok.mp h
  obtain ⟨_, -, h⟩ := bind_eq_ok.mp h
  obtain ⟨⟨_, s3⟩, h3, h⟩ := bind_eq_ok.mp h
  obtain ⟨s4, h4, h⟩ := bind_eq_ok.mp h
  cases h
  exact ((http_print_keeps h1).trans (http_print_keeps h2)).trans ((sessionHeaders_keeps h3).trans (http_print_keeps h4))

theorem return_file_keeps {st st' : St} {n : Int} {f : Str} (h : return_file st f = ok (n, st')) : Keeps st st' := by
  unfold return_file at h
  split at h
  · obtain ⟨s1, h1, h⟩ := bind_eq_ok.mp h
    simp only [ok.injEq, Prod.mk.injEq] at h
    rw [← h.2]
    exact http_print_keeps h1
  · cases h; exact Keeps.refl _

theorem direct_file_keeps {env : Env} {st st' : St} {n : Int} {f : Str} (h : direct_file env st f = ok (n, st')) :
    Keeps st st' := by
  unfold direct_file at h
  split at h
  · cases h; exact Keeps.refl _
  · obtain ⟨⟨_, s1⟩, h1, h⟩ := bind_eq_ok.mp h
    obtain ⟨⟨_, s2⟩, h2, h⟩ := bind_eq_ok.mp h
    obtain ⟨_, -, h⟩ := bind_eq_ok.mp h
    obtain ⟨s3, h3, h⟩ := bind_eq_ok.mp h
    cases h
    have k3 := log_access_keeps h3
    exact ((return_headers_keeps h1).trans (return_file_keeps h2)).trans ⟨k3.1, k3.2.1, k3.2.2⟩

theorem handle_static_routes_keeps {env : Env} {st st' : St} (h : handle_static_routes env st = ok st') : Keeps st st' := by
  unfold handle_static_routes at h
  obtain ⟨p, -, h⟩ := bind_eq_ok.mp h
  obtain ⟨_, -, h⟩ := bind_eq_ok.mp h
  obtain ⟨⟨r, s1⟩, h1, h⟩ := bind_eq_ok.mp h
  have k1 := direct_file_keeps h1
  have k1 : Keeps st s1 := ⟨k1.1, k1.2.1, k1.2.2⟩
  simp only at h
  split at h
  · obtain ⟨_, -, h⟩ := bind_eq_ok.mp h
    obtain ⟨⟨_, s2⟩, h2, h⟩ := bind_eq_ok.mp h
    cases h
    exact k1.trans (direct_file_keeps h2)
  · cases h; exact k1

/-- User code leaves them alone too (it has no access to the table; it is assumed not to close or change the socket). -/
def UserKeeps (env : Env) : Prop :=
  (∀ id st st', env.handle id st = ok st' → Keeps st st') ∧
  ∀ id st st' b, env.filt id st = ok (st', b) → Keeps st st'

theorem router_keeps {env : Env} (hu : UserKeeps env) {st st' : St} {ev : List Event}
    (h : router_handle_request env st = ok (st', ev)) : Keeps st st' := by
  unfold router_handle_request at h
  obtain ⟨_, -, h⟩ := bind_eq_ok.mp h
  obtain ⟨⟨hd, fl, form⟩, -, h⟩ := bind_eq_ok.mp h
  simp only at h
  have k0 : Keeps st { st with req := { st.req with form := form } } := ⟨rfl, rfl, rfl⟩
  cases hd with
  | none =>
    simp only at h
    obtain ⟨s1, h1, h⟩ := bind_eq_ok.mp h
    cases h
    exact k0.trans (bad_request_keeps h1)
  | some hd =>
    cases fl with
    | none =>
      simp only at h
      obtain ⟨s1, h1, h⟩ := bind_eq_ok.mp h
      cases h
      exact k0.trans (hu.1 _ _ _ h1)
    | some f =>
      simp only at h
      obtain ⟨⟨s1, b⟩, h1, h⟩ := bind_eq_ok.mp h
      have k1 := k0.trans (hu.2 _ _ _ _ h1)
      cases b with
      | false => simp at h; rw [← h.1]; exact k1
      | true =>
        simp only [Bool.not_true, Bool.false_eq_true, if_false] at h
        obtain ⟨s2, h2, h⟩ := bind_eq_ok.mp h
        cases h
        exact k1.trans (hu.1 _ _ _ h2)

theorem readForm_keeps {env : Env} {st st' : St} {n : Int} {b : Str} (h : readForm env st n b = ok st') : Keeps st st' := by
  unfold readForm at h
  split at h
  · obtain ⟨⟨form, inp⟩, -, h⟩ := bind_eq_ok.mp h
    simp only at h
    split at h
    · obtain ⟨⟨form, fs⟩, -, h⟩ := bind_eq_ok.mp h
      cases h; exact ⟨rfl, rfl, rfl⟩
    · cases h; exact ⟨rfl, rfl, rfl⟩
  · cases h; exact Keeps.refl _

theorem dispatch_keeps {env : Env} (hu : UserKeeps env) {st st' : St} {ev : List Event} {url : Str} {n : Int} {b : Str}
    (h : dispatch env st url n b = ok (st', ev)) : Keeps st st' := by
  unfold dispatch at h
  obtain ⟨⟨path, query⟩, -, h⟩ := bind_eq_ok.mp h
  simp only at h
  split at h
  · split at h
    · obtain ⟨s1, h1, h⟩ := bind_eq_ok.mp h
      cases h
      have k := handle_static_routes_keeps h1
      exact ⟨k.1, k.2.1, k.2.2⟩
    · obtain ⟨s1, h1, h⟩ := bind_eq_ok.mp h
      cases h
      have k := bad_request_keeps h1
      exact ⟨k.1, k.2.1, k.2.2⟩
  · obtain ⟨p, -, h⟩ := bind_eq_ok.mp h
    unfold handle_api_request at h
    obtain ⟨s1, h1, h⟩ := bind_eq_ok.mp h
    have k := (readForm_keeps h1).trans (router_keeps hu h)
    exact ⟨k.1, k.2.1, k.2.2⟩

theorem return_json_headers_keeps {st st' : St} {n : Nat} {status : Int} (h : return_json_headers st status = ok (n, st')) :
    Keeps st st' := by
  unfold return_json_headers at h
  split at h
  · cases h; exact Keeps.refl _
  · obtain ⟨_, -, h⟩ := bind_eq_ok.mp h
    obtain ⟨s1, h1, h⟩ := bind_eq_ok.mp h
    cases h
    exact http_print_keeps h1

theorem return_json_with_status_keeps {env : Env} {st st' : St} {status : Int} {data : Str}
    (h : return_json_with_status env st status data = ok st') : Keeps st st' := by
  unfold return_json_with_status at h
  obtain ⟨⟨_, s1⟩, h1, h⟩ := bind_eq_ok.mp h
  obtain ⟨_, -, h⟩ := bind_eq_ok.mp h
  obtain ⟨s2, h2, h⟩ := bind_eq_ok.mp h
  obtain ⟨s3, h3, h⟩ := bind_eq_ok.mp h
  obtain ⟨s4, h4, h⟩ := bind_eq_ok.mp h
  have k := log_access_keeps h
  exact ((return_json_headers_keeps h1).trans ((http_print_str_keeps h2).trans ((http_print_str_keeps h3).trans
    (http_print_str_keeps h4)))).trans ⟨k.1, k.2.1, k.2.2⟩

theorem streamLoop_keeps (n : Nat) {st st' : St} {len len' : Int} {content : Str}
    (h : streamLoop n st len content = ok (len', st')) : Keeps st st' := by
  induction n generalizing st len content with
  | zero => cases h; exact Keeps.refl _
  | succ n ih =>
    unfold streamLoop at h
    split at h
    · cases h; exact Keeps.refl _
    · obtain ⟨_, -, h⟩ := bind_eq_ok.mp h
      obtain ⟨s1, h1, h⟩ := bind_eq_ok.mp h
      exact (http_print_keeps h1).trans (ih h)

theorem send_stream_keeps {st st' : St} {len : Int} {content : Str} (h : send_stream st content = ok (len, st')) :
    Keeps st st' := by
  unfold send_stream at h
  obtain ⟨⟨_, s1⟩, h1, h⟩ := bind_eq_ok.mp h
  obtain ⟨s2, h2, h⟩ := bind_eq_ok.mp h
  obtain ⟨_, -, h⟩ := bind_eq_ok.mp h
  cases h
  exact (streamLoop_keeps _ h1).trans (http_print_keeps h2)

theorem return_json_stream_keeps {env : Env} {st st' : St} {status : Int} {content : Str}
    (h : return_json_stream env st status content = ok st') : Keeps st st' := by
  unfold return_json_stream at h
  obtain ⟨⟨_, s1⟩, h1, h⟩ := bind_eq_ok.mp h
  obtain ⟨s2, h2, h⟩ := bind_eq_ok.mp h
  obtain ⟨⟨_, s3⟩, h3, h⟩ := bind_eq_ok.mp h
  obtain ⟨_, -, h⟩ := bind_eq_ok.mp h
  obtain ⟨_, -, h⟩ := bind_eq_ok.mp h
  have k := log_access_keeps h
  exact ((return_json_headers_keeps h1).trans ((http_print_keeps h2).trans (send_stream_keeps h3))).trans ⟨k.1, k.2.1, k.2.2⟩

/-! ### the shape of a handled request -/

/-- The request after the request line was read. -/
def lineReq (socket : Nat) (ip rl method : Str) : Req :=
  { api_request_new socket ip with request_line := rl, method := method }

/-- The request after the header section was read. -/
def headReq (socket : Nat) (ip rl method url : Str) (h : HdrSt) : Req :=
  { lineReq socket ip rl method with
    url := url, headers := h.headers, n_headers := h.headers.length, content_type := h.content_type, IP := h.IP,
    session := h.session }

/-- The ways in which handling a request can end. -/
inductive Handled (env : Env) (st : St) (socket : Nat) (peer : Str) : St → List Event → Prop
  | badMethod (buf : Buf) (inp rl method : Str) (j : Nat) (st1 : St)
      (hr : readRequestLine st.input = ok (buf, inp, rl, method, j))
      (hm : startswithany method ALLOWED_HTTP_METHODS = ok false)
      (h1 : bad_request env { st with input := inp, req := lineReq socket peer rl method } = ok st1) :
      Handled env st socket peer (connection_close st1) []
  | tooMany (buf : Buf) (inp rl method : Str) (j : Nat) (url : Str) (live : List Conn) (st1 : St)
      (hr : readRequestLine st.input = ok (buf, inp, rl, method, j))
      (hm : startswithany method ALLOWED_HTTP_METHODS = ok true)
      (hurl : readUrl buf j = ok url)
      (hadd : connection_add env.limits st.live socket peer url = ok (false, live))
      (h1 : too_many_connections env
        { st with input := inp, live := live, req := { lineReq socket peer rl method with url := url } } = ok st1) :
      Handled env st socket peer (connection_close st1) []
  | served (buf : Buf) (inp rl method : Str) (j : Nat) (url : Str) (live : List Conn) (h : HdrSt) (st1 : St) (ev : List Event)
      (hr : readRequestLine st.input = ok (buf, inp, rl, method, j))
      (hm : startswithany method ALLOWED_HTTP_METHODS = ok true)
      (hurl : readUrl buf j = ok url)
      (hadd : connection_add env.limits st.live socket peer url = ok (true, live))
      (hh : parseHeaders buf inp peer = ok h)
      (h1 : dispatch env { st with input := h.input, live := live, req := headReq socket peer rl method url h } url
        h.content_length h.boundary = ok (st1, ev)) :
      Handled env st socket peer (connection_close st1) ev

theorem accept_request_cases {env : Env} {st st' : St} {socket : Nat} {peer : Str} {ev : List Event}
    (h : accept_request env st socket peer = ok (st', ev)) :
    peer.length < 24 ∧ Handled env st socket peer st' ev := by
  unfold accept_request at h
  obtain ⟨ip, hip, h2⟩ := bind_eq_ok.mp h
  clear h
  obtain ⟨hlen, rfl⟩ := fmtInto_eq_ok.mp hip
  refine ⟨hlen, ?_⟩
  rename' h2 => h
  dsimp only at h
  obtain ⟨⟨buf, inp, rl, method, j⟩, hr, h⟩ := bind_eq_ok.mp h
  dsimp only at h
  obtain ⟨allowed, hm, h⟩ := bind_eq_ok.mp h
  cases allowed with
  | false =>
    simp only [Bool.not_false, if_true] at h
    obtain ⟨st1, h1, h⟩ := bind_eq_ok.mp h
    cases h
    exact .badMethod buf inp rl method j st1 hr hm h1
  | true =>
    simp only [Bool.not_true, Bool.false_eq_true, if_false] at h
    obtain ⟨url, hurl, h⟩ := bind_eq_ok.mp h
    obtain ⟨⟨added, live⟩, hadd, h⟩ := bind_eq_ok.mp h
    dsimp only at h
    cases added with
    | false =>
      simp only [Bool.not_false, if_true] at h
      obtain ⟨st1, h1, h⟩ := bind_eq_ok.mp h
      cases h
      exact .tooMany buf inp rl method j url live st1 hr hm hurl hadd h1
    | true =>
      simp only [Bool.not_true, Bool.false_eq_true, if_false] at h
      obtain ⟨hd, hh, h⟩ := bind_eq_ok.mp h
      obtain ⟨⟨st1, ev1⟩, h1, h⟩ := bind_eq_ok.mp h
      cases h
      exact .served buf inp rl method j url live hd st1 ev1 hr hm hurl hadd hh h1

theorem connection_add_ok {limits : List PathLimit} {live live' : List Conn} {socket : Nat} {ip path : Str} {b : Bool}
    (h : connection_add limits live socket ip path = ok (b, live')) :
    (b = false ∧ live' = live) ∨ (b = true ∧ addSlot socket ip path live = some live') := by
  unfold connection_add at h
  split at h
  · cases h; exact Or.inl ⟨rfl, rfl⟩
  · cases hs : addSlot socket ip path live with
    | none => rw [hs] at h; cases h; exact Or.inl ⟨rfl, rfl⟩
    | some l =>
      rw [hs] at h
      simp only at h
      obtain ⟨_, -, h⟩ := bind_eq_ok.mp h
      obtain ⟨_, -, h⟩ := bind_eq_ok.mp h
      cases h
      exact Or.inr ⟨rfl, rfl⟩

theorem connection_close_keeps {st st1 : St} (k : Keeps st st1) :
    (connection_close st1).closed = st.closed ++ [st.req.socket] ∧
    (connection_close st1).live = connection_del st.req.socket st.live := by
  obtain ⟨h1, h2, h3⟩ := k
  simp [connection_close, h1, h2, h3]

end Wayuu
