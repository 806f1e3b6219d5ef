import Verif.Lemmas.LogBound
/-
Every line added to the access log carries the address and the request line of the request it is written for.
-/
namespace Wayuu
open C Spec

/-- How the line written for a request begins. -/
def Signature (env : Env) (ip line : Str) : Str := ip ++ b!" - - [" ++ env.ts ++ b!"] \"" ++ line ++ b!"\" "

/-- The request keeps its address and its line, and what is added to the log bears them. -/
def Signs (env : Env) (st st' : St) : Prop :=
  st'.req.IP = st.req.IP ∧ st'.req.request_line = st.req.request_line ∧
  ∃ ls, st'.log = st.log ++ ls ∧ ∀ l ∈ ls, Signature env st.req.IP st.req.request_line <+: l

theorem Signs.refl (env : Env) (st : St) : Signs env st st := ⟨rfl, rfl, [], by simp, by simp⟩

theorem Signs.trans {env : Env} {a b c : St} (h : Signs env a b) (h' : Signs env b c) : Signs env a c := by
  obtain ⟨i1, r1, ls, e1, s1⟩ := h
  obtain ⟨i2, r2, ms, e2, s2⟩ := h'
  rw [i1, r1] at s2
  refine ⟨i2.trans i1, r2.trans r1, ls ++ ms, by rw [e2, e1, List.append_assoc], ?_⟩
  intro l hl
  rcases List.mem_append.mp hl with hl | hl
  · exact s1 l hl
  · exact s2 l hl

theorem Signs.same {env : Env} {a b : St} (h1 : b.log = a.log) (h2 : b.req.IP = a.req.IP)
    (h3 : b.req.request_line = a.req.request_line) : Signs env a b := ⟨h2, h3, [], by simp [h1], by simp⟩

theorem http_print_signs {env : Env} {st st' : St} {d : List Byte} {n : Int} (h : http_print st d n = ok st') :
    Signs env st st' := by
  unfold http_print at h
  simp only at h
  split at h
  · cases h
  · cases h; exact .same rfl rfl rfl

theorem http_print_str_signs {env : Env} {st st' : St} {d : Str} (h : http_print_str st d = ok st') : Signs env st st' :=
  http_print_signs h

theorem log_access_signs {env : Env} {st st' : St} {status : Int} (h : log_access env st status = ok st') :
    Signs env st st' := by
  unfold log_access at h
  obtain ⟨r, -, h⟩ := bind_eq_ok.mp h
  obtain ⟨u, -, h⟩ := bind_eq_ok.mp h
  obtain ⟨_, -, h⟩ := bind_eq_ok.mp h
  obtain ⟨_, -, h⟩ := bind_eq_ok.mp h
  cases h
  unfold appendLog
  split
  · refine ⟨rfl, rfl, [accessLine env st.req status r.s u.s], rfl, ?_⟩
    intro l hl
    rw [List.mem_singleton] at hl
    subst hl
    unfold accessLine Signature
    exact ⟨_, by simp only [List.append_assoc]; rfl⟩
  · exact Signs.refl _ _

theorem Signs.len (env : Env) (st : St) (n : Int) :
    Signs env st { st with req := { st.req with response_length := toUInt32 n } } := .same rfl rfl rfl

theorem send_http_status_signs {env : Env} {st st' : St} {status : Int} {m : Str}
    (h : send_http_status env st status m = ok st') : Signs env st st' := by
  unfold send_http_status at h
  split at h
  · cases h; exact Signs.refl _ _
  · obtain ⟨_, -, h⟩ := bind_eq_ok.mp h
    obtain ⟨_, -, h⟩ := bind_eq_ok.mp h
    obtain ⟨_, -, h⟩ := bind_eq_ok.mp h
    obtain ⟨s1, h1, h⟩ := bind_eq_ok.mp h
    obtain ⟨s2, h2, h⟩ := bind_eq_ok.mp h
    have k1 := http_print_str_signs (env := env) h1
    have k2 := http_print_str_signs (env := env) h2
    have k3 := log_access_signs h
    exact (k1.trans ((Signs.len env s1 _).trans (k2.trans ((Signs.len env s2 _).trans k3))))

theorem bad_request_signs {env : Env} {st st' : St} (h : bad_request env st = ok st') : Signs env st st' :=
  send_http_status_signs h

theorem sessionHeaders_signs {env : Env} {st st' : St} {n m : Nat} {s : Str} (h : sessionHeaders st n s = ok (m, st')) :
    Signs env st st' := by
  unfold sessionHeaders at h
  split at h
  · obtain ⟨_, -, h⟩ := bind_eq_ok.mp h
    obtain ⟨s1, h1, h⟩ := bind_eq_ok.mp h
    cases h
    exact http_print_signs h1
  · cases h; exact Signs.refl _ _

theorem return_headers_signs {env : Env} {st st' : St} {n : Nat} {f : Str} (h : return_headers st f = ok (n, st')) :
    Signs env st st' := by
  unfold return_headers at h
  obtain ⟨_, -, h⟩ := bind_eq_ok.mp h
  obtain ⟨s1, h1, h⟩ := bind_eq_ok.mp h
  obtain ⟨_, -, h⟩ := bind_eq_ok.mp h
  obtain ⟨s2, h2, h⟩ := bind_eq_ok.mp h
  obtain ⟨_, -, h⟩ := bind_eq_ok.mp h
  obtain ⟨⟨_, s3⟩, h3, h⟩ := bind_eq_ok.mp h
  obtain ⟨s4, h4, h⟩ := bind_eq_ok.mp h
  cases h
  exact ((http_print_signs h1).trans (http_print_signs h2)).trans ((sessionHeaders_signs h3).trans (http_print_signs h4))

theorem return_file_signs {env : Env} {st st' : St} {n : Int} {f : Str} (h : return_file st f = ok (n, st')) :
    Signs env st st' := by
  unfold return_file at h
  split at h
  · obtain ⟨s1, h1, h⟩ := bind_eq_ok.mp h
    simp only [ok.injEq, Prod.mk.injEq] at h
    rw [← h.2]
    exact http_print_signs h1
  · cases h; exact Signs.refl _ _

theorem direct_file_signs {env : Env} {st st' : St} {n : Int} {f : Str} (h : direct_file env st f = ok (n, st')) :
    Signs env st st' := by
  unfold direct_file at h
  split at h
  · cases h; exact Signs.refl _ _
  · obtain ⟨⟨_, s1⟩, h1, h⟩ := bind_eq_ok.mp h
    obtain ⟨⟨_, s2⟩, h2, h⟩ := bind_eq_ok.mp h
    obtain ⟨l, -, h⟩ := bind_eq_ok.mp h
    obtain ⟨s3, h3, h⟩ := bind_eq_ok.mp h
    cases h
    have k3 := log_access_signs h3
    exact (return_headers_signs h1).trans ((return_file_signs h2).trans ((Signs.len env s2 _).trans k3))

theorem handle_static_routes_signs {env : Env} {st st' : St} (h : handle_static_routes env st = ok st') :
    Signs env st st' := by
  unfold handle_static_routes at h
  obtain ⟨p, -, h⟩ := bind_eq_ok.mp h
  obtain ⟨_, -, h⟩ := bind_eq_ok.mp h
  obtain ⟨⟨r, s1⟩, h1, h⟩ := bind_eq_ok.mp h
  have j : Signs env st { st with req := { st.req with path := p } } := .same rfl rfl rfl
  simp only at h
  have k := direct_file_signs h1
  by_cases hr : r < 0
  · rw [if_pos hr] at h
    obtain ⟨_, -, h⟩ := bind_eq_ok.mp h
    obtain ⟨⟨_, s2⟩, h2, h⟩ := bind_eq_ok.mp h
    cases h
    exact j.trans (k.trans (direct_file_signs h2))
  · rw [if_neg hr] at h
    cases h
    exact j.trans k

/-- The handlers and filters leave the address and the line of the request alone, and write to the log, if at all, as
the library does. -/
def UserSigns (env : Env) : Prop :=
  (∀ id st st', env.handle id st = ok st' → Signs env st st') ∧
  ∀ id st st' b, env.filt id st = ok (st', b) → Signs env st st'

theorem router_signs {env : Env} (hu : UserSigns env) {st st' : St} {ev : List Event}
    (h : router_handle_request env st = ok (st', ev)) : Signs env st st' := by
  unfold router_handle_request at h
  obtain ⟨_, -, h⟩ := bind_eq_ok.mp h
  obtain ⟨⟨hd, fl, form⟩, -, h⟩ := bind_eq_ok.mp h
  simp only at h
  have k0 : Signs env st { st with req := { st.req with form := form } } := .same rfl rfl rfl
  cases hd with
  | none =>
    simp only at h
    obtain ⟨s1, h1, h⟩ := bind_eq_ok.mp h
    cases h
    exact k0.trans (bad_request_signs h1)
  | some hd =>
    cases fl with
    | none =>
      simp only at h
      obtain ⟨s1, h1, h⟩ := bind_eq_ok.mp h
      cases h
      exact k0.trans (hu.1 _ _ _ h1)
    | some f =>
      simp only at h
      obtain ⟨⟨s1, b⟩, h1, h⟩ := bind_eq_ok.mp h
      have k1 := k0.trans (hu.2 _ _ _ _ h1)
      cases b with
      | false => simp at h; rw [← h.1]; exact k1
      | true =>
        simp only [Bool.not_true, Bool.false_eq_true, if_false] at h
        obtain ⟨s2, h2, h⟩ := bind_eq_ok.mp h
        cases h
        exact k1.trans (hu.1 _ _ _ h2)

theorem readForm_signs {env : Env} {st st' : St} {n : Int} {b : Str} (h : readForm env st n b = ok st') :
    Signs env st st' := by
  unfold readForm at h
  split at h
  · obtain ⟨⟨form, inp⟩, -, h⟩ := bind_eq_ok.mp h
    simp only at h
    split at h
    · obtain ⟨⟨form, fs⟩, -, h⟩ := bind_eq_ok.mp h
      cases h; exact .same rfl rfl rfl
    · cases h; exact .same rfl rfl rfl
  · cases h; exact Signs.refl _ _

theorem dispatch_signs {env : Env} (hu : UserSigns env) {st st' : St} {ev : List Event} {url : Str}
    {n : Int} {b : Str} (h : dispatch env st url n b = ok (st', ev)) : Signs env st st' := by
  unfold dispatch at h
  obtain ⟨⟨path, query⟩, -, h⟩ := bind_eq_ok.mp h
  simp only at h
  have j : ∀ p, Signs env st { st with req := { st.req with query_string := query, path := p } } :=
    fun p => .same rfl rfl rfl
  split at h
  · split at h
    · obtain ⟨s1, h1, h⟩ := bind_eq_ok.mp h
      cases h
      exact (j path).trans (handle_static_routes_signs h1)
    · obtain ⟨s1, h1, h⟩ := bind_eq_ok.mp h
      cases h
      exact (j path).trans (bad_request_signs h1)
  · obtain ⟨p, -, h⟩ := bind_eq_ok.mp h
    unfold handle_api_request at h
    obtain ⟨s1, h1, h⟩ := bind_eq_ok.mp h
    exact (j p).trans ((readForm_signs h1).trans (router_signs hu h))

/-- Every request: the lines it adds to the log bear its line and the peer's address, or, if the header section was
read, the address found there. -/
theorem accept_request_signs {env : Env} (hu : UserSigns env) {st st' : St} {socket : Nat}
    {peer : Str} {ev : List Event} (h : accept_request env st socket peer = ok (st', ev)) :
    ∃ buf inp rl method j ls, readRequestLine st.input = ok (buf, inp, rl, method, j) ∧ st'.log = st.log ++ ls ∧
      ((∀ l ∈ ls, Signature env peer rl <+: l) ∨
       ∃ h, parseHeaders buf inp peer = ok h ∧ ∀ l ∈ ls, Signature env h.IP rl <+: l) := by
  obtain ⟨hp, hh⟩ := accept_request_cases h
  cases hh with
  | badMethod buf inp rl method j st1 hr hm h1 =>
    obtain ⟨-, -, ls, e, s⟩ := bad_request_signs h1
    exact ⟨buf, inp, rl, method, j, ls, hr, e, Or.inl s⟩
  | tooMany buf inp rl method j url live st1 hr hm hurl hadd h1 =>
    obtain ⟨-, -, ls, e, s⟩ := send_http_status_signs h1
    exact ⟨buf, inp, rl, method, j, ls, hr, e, Or.inl s⟩
  | served buf inp rl method j url live hd st1 ev hr hm hurl hadd hh h1 =>
    obtain ⟨-, -, ls, e, s⟩ := dispatch_signs hu h1
    exact ⟨buf, inp, rl, method, j, ls, hr, e, Or.inr ⟨hd, hh, s⟩⟩

/-! ### the functions handlers answer with -/

theorem return_json_headers_signs {env : Env} {st st' : St} {n : Nat} {status : Int}
    (h : return_json_headers st status = ok (n, st')) : Signs env st st' := by
  unfold return_json_headers at h
  split at h
  · cases h; exact Signs.refl _ _
  · obtain ⟨_, -, h⟩ := bind_eq_ok.mp h
    obtain ⟨s1, h1, h⟩ := bind_eq_ok.mp h
    cases h
    exact http_print_signs h1

theorem return_json_with_status_signs {env : Env} {st st' : St} {status : Int} {data : Str}
    (h : return_json_with_status env st status data = ok st') : Signs env st st' := by
  unfold return_json_with_status at h
  obtain ⟨⟨_, s1⟩, h1, h⟩ := bind_eq_ok.mp h
  obtain ⟨_, -, h⟩ := bind_eq_ok.mp h
  obtain ⟨s2, h2, h⟩ := bind_eq_ok.mp h
  obtain ⟨s3, h3, h⟩ := bind_eq_ok.mp h
  obtain ⟨s4, h4, h⟩ := bind_eq_ok.mp h
  have k := log_access_signs h
  exact ((return_json_headers_signs h1).trans ((http_print_str_signs h2).trans ((http_print_str_signs h3).trans
    (http_print_str_signs h4)))).trans ⟨k.1, k.2.1, k.2.2⟩

theorem streamLoop_signs {env : Env} (n : Nat) {st st' : St} {len len' : Int} {content : Str}
    (h : streamLoop n st len content = ok (len', st')) : Signs env st st' := by
  induction n generalizing st len content with
  | zero => cases h; exact Signs.refl _ _
  | succ n ih =>
    unfold streamLoop at h
    split at h
    · cases h; exact Signs.refl _ _
    · obtain ⟨_, -, h⟩ := bind_eq_ok.mp h
      obtain ⟨s1, h1, h⟩ := bind_eq_ok.mp h
      exact (http_print_signs h1).trans (ih h)

theorem return_json_stream_signs {env : Env} {st st' : St} {status : Int} {content : Str}
    (h : return_json_stream env st status content = ok st') : Signs env st st' := by
  unfold return_json_stream at h
  obtain ⟨⟨_, s1⟩, h1, h⟩ := bind_eq_ok.mp h
  obtain ⟨s2, h2, h⟩ := bind_eq_ok.mp h
  obtain ⟨⟨_, s3⟩, h3, h⟩ := bind_eq_ok.mp h
  obtain ⟨_, -, h⟩ := bind_eq_ok.mp h
  obtain ⟨_, -, h⟩ := bind_eq_ok.mp h
  have k := log_access_signs h
  unfold send_stream at h3
  obtain ⟨⟨_, t1⟩, g1, h3⟩ := bind_eq_ok.mp h3
  obtain ⟨t2, g2, h3⟩ := bind_eq_ok.mp h3
  obtain ⟨_, -, h3⟩ := bind_eq_ok.mp h3
  cases h3
  exact ((return_json_headers_signs h1).trans ((http_print_signs h2).trans ((streamLoop_signs _ g1).trans
    (http_print_signs g2)))).trans ⟨k.1, k.2.1, k.2.2⟩

end Wayuu
