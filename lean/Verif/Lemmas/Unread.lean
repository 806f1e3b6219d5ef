import Verif.Lemmas.Keeps
import Verif.Lemmas.Request
/-
What of a request is read from the socket: only the request line, the header section and, for the API, the body.
-/
namespace Wayuu
open C Spec

/-- Nothing was read from the socket. -/
def Stays (st st' : St) : Prop := st'.input = st.input

theorem Stays.refl (st : St) : Stays st st := rfl
theorem Stays.trans {a b c : St} (h : Stays a b) (h' : Stays b c) : Stays a c := Eq.trans h' h

theorem http_print_stays {st st' : St} {d : List Byte} {n : Int} (h : http_print st d n = ok st') : Stays st st' := by
  unfold http_print at h
  simp only at h
  split at h
  · cases h
  · cases h; exact rfl

theorem http_print_str_stays {st st' : St} {d : Str} (h : http_print_str st d = ok st') : Stays st st' :=
  http_print_stays h

theorem log_access_stays {env : Env} {st st' : St} {status : Int} (h : log_access env st status = ok st') : Stays st st' := by
  unfold log_access at h
  obtain ⟨r, -, h⟩ := bind_eq_ok.mp h
  obtain ⟨u, -, h⟩ := bind_eq_ok.mp h
  obtain ⟨_, -, h⟩ := bind_eq_ok.mp h
  obtain ⟨_, -, h⟩ := bind_eq_ok.mp h
  cases h
  unfold appendLog
  split <;> exact rfl

theorem send_http_status_stays {env : Env} {st st' : St} {status : Int} {m : Str}
    (h : send_http_status env st status m = ok st') : Stays st st' := by
  unfold send_http_status at h
  split at h
  · cases h; exact Stays.refl _
  · obtain ⟨_, -, h⟩ := bind_eq_ok.mp h
    obtain ⟨_, -, h⟩ := bind_eq_ok.mp h
    obtain ⟨_, -, h⟩ := bind_eq_ok.mp h
    obtain ⟨s1, h1, h⟩ := bind_eq_ok.mp h
    obtain ⟨s2, h2, h⟩ := bind_eq_ok.mp h
    have k1 := http_print_str_stays h1
    have k2 := http_print_str_stays h2
    have k3 := log_access_stays h
    exact k1.trans (Stays.trans (b := s2) k2 k3)

theorem bad_request_stays {env : Env} {st st' : St} (h : bad_request env st = ok st') : Stays st st' :=
  send_http_status_stays h

theorem sessionHeaders_stays {st st' : St} {n m : Nat} {s : Str} (h : sessionHeaders st n s = ok (m, st')) : Stays st st' := by
  unfold sessionHeaders at h
  split at h
  · obtain ⟨_, -, h⟩ := bind_eq_ok.mp h
    obtain ⟨s1, h1, h⟩ := bind_eq_ok.mp h
    cases h
    exact http_print_stays h1
  · cases h; exact Stays.refl _

theorem return_headers_stays {st st' : St} {n : Nat} {f : Str} (h : return_headers st f = ok (n, st')) : Stays st st' := by
  unfold return_headers at h
  obtain ⟨_, -, h⟩ := bind_eq_ok.mp h
  obtain ⟨s1, h1, h⟩ := bind_eq_ok.mp h
  obtain ⟨_, -, h⟩ := bind_eq_ok.mp h
  obtain ⟨s2, h2, h⟩ := bind_eq_ok.mp h
  obtain ⟨_, -, h⟩ := bind_eq_ok.mp h
  obtain ⟨⟨_, s3⟩, h3, h⟩ := bind_eq_ok.mp h
  obtain ⟨s4, h4, h⟩ := bind_eq_ok.mp h
  cases h
  exact ((http_print_stays h1).trans (http_print_stays h2)).trans ((sessionHeaders_stays h3).trans (http_print_stays h4))

theorem return_file_stays {st st' : St} {n : Int} {f : Str} (h : return_file st f = ok (n, st')) : Stays st st' := by
  unfold return_file at h
  split at h
  · obtain ⟨s1, h1, h⟩ := bind_eq_ok.mp h
    simp only [ok.injEq, Prod.mk.injEq] at h
    rw [← h.2]
    exact http_print_stays h1
  · cases h; exact Stays.refl _

theorem direct_file_stays {env : Env} {st st' : St} {n : Int} {f : Str} (h : direct_file env st f = ok (n, st')) :
    Stays st st' := by
  unfold direct_file at h
  split at h
  · cases h; exact Stays.refl _
  · obtain ⟨⟨_, s1⟩, h1, h⟩ := bind_eq_ok.mp h
    obtain ⟨⟨_, s2⟩, h2, h⟩ := bind_eq_ok.mp h
    obtain ⟨_, -, h⟩ := bind_eq_ok.mp h
    obtain ⟨s3, h3, h⟩ := bind_eq_ok.mp h
    cases h
    have k3 := log_access_stays h3
    exact ((return_headers_stays h1).trans (return_file_stays h2)).trans k3

theorem handle_static_routes_stays {env : Env} {st st' : St} (h : handle_static_routes env st = ok st') : Stays st st' := by
  unfold handle_static_routes at h
  obtain ⟨p, -, h⟩ := bind_eq_ok.mp h
  obtain ⟨_, -, h⟩ := bind_eq_ok.mp h
  obtain ⟨⟨r, s1⟩, h1, h⟩ := bind_eq_ok.mp h
  have k1 := direct_file_stays h1
  have k1 : Stays st s1 := k1
  simp only at h
  split at h
  · obtain ⟨_, -, h⟩ := bind_eq_ok.mp h
    obtain ⟨⟨_, s2⟩, h2, h⟩ := bind_eq_ok.mp h
    cases h
    exact k1.trans (direct_file_stays h2)
  · cases h; exact k1

/-- User code reads nothing from the socket. -/
def UserStays (env : Env) : Prop :=
  (∀ id st st', env.handle id st = ok st' → Stays st st') ∧
  ∀ id st st' b, env.filt id st = ok (st', b) → Stays st st'

theorem router_stays {env : Env} (hu : UserStays env) {st st' : St} {ev : List Event}
    (h : router_handle_request env st = ok (st', ev)) : Stays st st' := by
  unfold router_handle_request at h
  obtain ⟨_, -, h⟩ := bind_eq_ok.mp h
  obtain ⟨⟨hd, fl, form⟩, -, h⟩ := bind_eq_ok.mp h
  simp only at h
  have k0 : Stays st { st with req := { st.req with form := form } } := rfl
  cases hd with
  | none =>
    simp only at h
    obtain ⟨s1, h1, h⟩ := bind_eq_ok.mp h
    cases h
    exact k0.trans (bad_request_stays h1)
  | some hd =>
    cases fl with
    | none =>
      simp only at h
      obtain ⟨s1, h1, h⟩ := bind_eq_ok.mp h
      cases h
      exact k0.trans (hu.1 _ _ _ h1)
    | some f =>
      simp only at h
      obtain ⟨⟨s1, b⟩, h1, h⟩ := bind_eq_ok.mp h
      have k1 := k0.trans (hu.2 _ _ _ _ h1)
      cases b with
      | false => simp at h; rw [← h.1]; exact k1
      | true =>
        simp only [Bool.not_true, Bool.false_eq_true, if_false] at h
        obtain ⟨s2, h2, h⟩ := bind_eq_ok.mp h
        cases h
        exact k1.trans (hu.1 _ _ _ h2)

theorem return_json_headers_stays {st st' : St} {n : Nat} {status : Int} (h : return_json_headers st status = ok (n, st')) :
    Stays st st' := by
  unfold return_json_headers at h
  split at h
  · cases h; exact Stays.refl _
  · obtain ⟨_, -, h⟩ := bind_eq_ok.mp h
    obtain ⟨s1, h1, h⟩ := bind_eq_ok.mp h
    cases h
    exact http_print_stays h1

theorem return_json_with_status_stays {env : Env} {st st' : St} {status : Int} {data : Str}
    (h : return_json_with_status env st status data = ok st') : Stays st st' := by
  unfold return_json_with_status at h
  obtain ⟨⟨_, s1⟩, h1, h⟩ := bind_eq_ok.mp h
  obtain ⟨_, -, h⟩ := bind_eq_ok.mp h
  obtain ⟨s2, h2, h⟩ := bind_eq_ok.mp h
  obtain ⟨s3, h3, h⟩ := bind_eq_ok.mp h
  obtain ⟨s4, h4, h⟩ := bind_eq_ok.mp h
  have k := log_access_stays h
  exact ((return_json_headers_stays h1).trans ((http_print_str_stays h2).trans ((http_print_str_stays h3).trans
    (http_print_str_stays h4)))).trans k

theorem streamLoop_stays (n : Nat) {st st' : St} {len len' : Int} {content : Str}
    (h : streamLoop n st len content = ok (len', st')) : Stays st st' := by
  induction n generalizing st len content with
  | zero => cases h; exact Stays.refl _
  | succ n ih =>
    unfold streamLoop at h
    split at h
    · cases h; exact Stays.refl _
    · obtain ⟨_, -, h⟩ := bind_eq_ok.mp h
      obtain ⟨s1, h1, h⟩ := bind_eq_ok.mp h
      exact (http_print_stays h1).trans (ih h)

theorem send_stream_stays {st st' : St} {len : Int} {content : Str} (h : send_stream st content = ok (len, st')) :
    Stays st st' := by
  unfold send_stream at h
  obtain ⟨⟨_, s1⟩, h1, h⟩ := bind_eq_ok.mp h
  obtain ⟨s2, h2, h⟩ := bind_eq_ok.mp h
  obtain ⟨_, -, h⟩ := bind_eq_ok.mp h
  cases h
  exact (streamLoop_stays _ h1).trans (http_print_stays h2)

theorem return_json_stream_stays {env : Env} {st st' : St} {status : Int} {content : Str}
    (h : return_json_stream env st status content = ok st') : Stays st st' := by
  unfold return_json_stream at h
  obtain ⟨⟨_, s1⟩, h1, h⟩ := bind_eq_ok.mp h
  obtain ⟨s2, h2, h⟩ := bind_eq_ok.mp h
  obtain ⟨⟨_, s3⟩, h3, h⟩ := bind_eq_ok.mp h
  obtain ⟨_, -, h⟩ := bind_eq_ok.mp h
  obtain ⟨_, -, h⟩ := bind_eq_ok.mp h
  have k := log_access_stays h
  exact ((return_json_headers_stays h1).trans ((http_print_stays h2).trans (send_stream_stays h3))).trans k

theorem bodyLoop_input (n : Nat) {inp inp' : List Byte} {c : Byte} {form form' : Buf} {i : Nat}
    (h : bodyLoop n inp c form i = ok (form', inp')) : inp' = inp.drop n := by
  induction n generalizing inp c form i with
  | zero => cases h; rfl
  | succ n ih =>
    unfold bodyLoop at h
    cases inp with
    | nil =>
      simp only at h
      obtain ⟨_, -, h⟩ := bind_eq_ok.mp h
      obtain ⟨_, -, h⟩ := bind_eq_ok.mp h
      simpa using ih h
    | cons x r =>
      simp only at h
      obtain ⟨_, -, h⟩ := bind_eq_ok.mp h
      obtain ⟨_, -, h⟩ := bind_eq_ok.mp h
      simpa using ih h

/-- The body: as many bytes as were announced, whatever is done with them. -/
theorem readForm_input {env : Env} {st st' : St} {n : Int} {b : Str} (h : readForm env st n b = ok st') :
    st'.input = st.input.drop n.toNat := by
  unfold readForm at h
  split at h
  · obtain ⟨⟨form, inp⟩, h1, h⟩ := bind_eq_ok.mp h
    have e := bodyLoop_input _ h1
    simp only at h
    split at h
    · obtain ⟨⟨form, fs⟩, -, h⟩ := bind_eq_ok.mp h
      cases h; exact e
    · cases h; exact e
  · rename_i hn
    cases h
    rw [Int.toNat_of_nonpos (by omega)]
    rfl

theorem dispatch_input {env : Env} (hu : UserStays env) {st st' : St} {ev : List Event} {url : Str} {n : Int} {b : Str}
    (h : dispatch env st url n b = ok (st', ev)) :
    st'.input = if startswith url API_MOUNT = true then st.input.drop n.toNat else st.input := by
  unfold dispatch at h
  obtain ⟨⟨path, query⟩, -, h⟩ := bind_eq_ok.mp h
  simp only at h
  split at h
  · rename_i hs
    rw [if_neg (by simpa using hs)]
    split at h
    · obtain ⟨s1, h1, h⟩ := bind_eq_ok.mp h
      cases h
      have k := handle_static_routes_stays h1
      exact k
    · obtain ⟨s1, h1, h⟩ := bind_eq_ok.mp h
      cases h
      have k := bad_request_stays h1
      exact k
  · rename_i hs
    rw [if_pos (by simpa using hs)]
    obtain ⟨p, -, h⟩ := bind_eq_ok.mp h
    unfold handle_api_request at h
    obtain ⟨s1, h1, h⟩ := bind_eq_ok.mp h
    have k := router_stays hu h
    have k' := readForm_input h1
    exact Eq.trans k k'

end Wayuu
