import Verif.Lemmas.Keeps
/-
What a request does not look at: data already sent, the access log and the sockets already closed.
-/
namespace Wayuu
open C Spec

/-- What happened before a request. -/
structure Past where
  out : List (List Byte)
  log : List Str
  closed : List Nat

/-- The same state, later. -/
def St.after (p : Past) (st : St) : St :=
  { st with out := p.out ++ st.out, log := p.log ++ st.log, closed := p.closed ++ st.closed }

/-- Rewrite the next step of a `do` block with its result. -/
macro "go" t:term : tactic =>
  `(tactic| (have k := $t; (try dsimp only [St.after] at k); (try dsimp only [St.after]); rw [k, ok_bind]; clear k))

theorem bind_ok {α β : Type} {m : C α} {f : α → C β} {a : α} {r : C β} (h : m = ok a) (h' : f a = r) : (m >>= f) = r := by
  rw [h]; exact h'

theorem http_print_after (p : Past) {st st' : St} {d : List Byte} {n : Int} (h : http_print st d n = ok st') :
    http_print (st.after p) d n = ok (st'.after p) := by
  unfold http_print at h ⊢
  simp only at h ⊢
  split at h
  · cases h
  · rename_i hc
    cases h
    refine (if_neg hc).trans ?_
    simp [St.after]

theorem http_print_str_after (p : Past) {st st' : St} {d : Str} (h : http_print_str st d = ok st') :
    http_print_str (st.after p) d = ok (st'.after p) := http_print_after p h

theorem log_access_after (p : Past) {env : Env} {st st' : St} {status : Int} (h : log_access env st status = ok st') :
    log_access env (st.after p) status = ok (st'.after p) := by
  unfold log_access at h ⊢
  obtain ⟨r, h1, h⟩ := bind_eq_ok.mp h
  obtain ⟨u, h2, h⟩ := bind_eq_ok.mp h
  obtain ⟨_, h3, h⟩ := bind_eq_ok.mp h
  obtain ⟨_, h4, h⟩ := bind_eq_ok.mp h
  go (h1)
  go (h2)
  go (h3)
  go (h4)
  cases h
  unfold appendLog
  split <;> simp [St.after]

theorem send_http_status_after (p : Past) {env : Env} {st st' : St} {status : Int} {m : Str}
    (h : send_http_status env st status m = ok st') : send_http_status env (st.after p) status m = ok (st'.after p) := by
  unfold send_http_status at h ⊢
  split at h
  · cases h; rfl
  · obtain ⟨_, e1, h⟩ := bind_eq_ok.mp h
    obtain ⟨_, e2, h⟩ := bind_eq_ok.mp h
    obtain ⟨_, e3, h⟩ := bind_eq_ok.mp h
    obtain ⟨s1, h1, h⟩ := bind_eq_ok.mp h
    obtain ⟨s2, h2, h⟩ := bind_eq_ok.mp h
    go (e1)
    go (e2)
    go (e3)
    go (http_print_str_after p h1)
    go (http_print_str_after p h2)
    have k := log_access_after p h
    try dsimp only [St.after] at k
    try dsimp only [St.after]
    exact k

theorem bad_request_after (p : Past) {env : Env} {st st' : St} (h : bad_request env st = ok st') :
    bad_request env (st.after p) = ok (st'.after p) := send_http_status_after p h

theorem sessionHeaders_after (p : Past) {st st' : St} {n m : Nat} {s : Str} (h : sessionHeaders st n s = ok (m, st')) :
    sessionHeaders (st.after p) n s = ok (m, st'.after p) := by
  unfold sessionHeaders at h ⊢
  split at h
  · rename_i hc
    refine (if_pos hc).trans ?_
    obtain ⟨_, e, h⟩ := bind_eq_ok.mp h
    obtain ⟨s1, h1, h⟩ := bind_eq_ok.mp h
    go (e)
    go (http_print_after p h1)
    cases h
    rfl
  · rename_i hc
    refine (if_neg hc).trans ?_
    cases h
    rfl

theorem return_headers_after (p : Past) {st st' : St} {n : Nat} {f : Str} (h : return_headers st f = ok (n, st')) :
    return_headers (st.after p) f = ok (n, st'.after p) := by
  unfold return_headers at h ⊢
  obtain ⟨_, e1, h⟩ := bind_eq_ok.mp h
  obtain ⟨s1, h1, h⟩ := bind_eq_ok.mp h
  obtain ⟨_, e2, h⟩ := bind_eq_ok.mp h
  obtain ⟨s2, h2, h⟩ := bind_eq_ok.mp h
  obtain ⟨_, e3, h⟩ := bind_eq_ok.mp h
  obtain ⟨⟨_, s3⟩, h3, h⟩ := bind_eq_ok.mp h
  obtain ⟨s4, h4, h⟩ := bind_eq_ok.mp h
  go (e1)
  go (http_print_after p h1)
  go (e2)
  go (http_print_after p h2)
  go (e3)
  go (sessionHeaders_after p h3)
  go (http_print_after p h4)
  cases h
  rfl

theorem return_file_after (p : Past) {st st' : St} {n : Int} {f : Str} (h : return_file st f = ok (n, st')) :
    return_file (st.after p) f = ok (n, st'.after p) := by
  unfold return_file at h ⊢
  dsimp only [St.after] at h ⊢
  split at h
  · obtain ⟨s1, h1, h⟩ := bind_eq_ok.mp h
    go (http_print_after p h1)
    simp only [ok.injEq, Prod.mk.injEq] at h
    rw [← h.1, ← h.2]
  · cases h; rfl

theorem direct_file_after (p : Past) {env : Env} {st st' : St} {n : Int} {f : Str} (h : direct_file env st f = ok (n, st')) :
    direct_file env (st.after p) f = ok (n, st'.after p) := by
  unfold direct_file at h ⊢
  dsimp only [St.after] at h ⊢
  split at h
  · rename_i hc
    refine (if_pos hc).trans ?_
    cases h; rfl
  · rename_i hc
    refine (if_neg hc).trans ?_
    obtain ⟨⟨_, s1⟩, h1, h⟩ := bind_eq_ok.mp h
    obtain ⟨⟨_, s2⟩, h2, h⟩ := bind_eq_ok.mp h
    obtain ⟨_, e, h⟩ := bind_eq_ok.mp h
    obtain ⟨s3, h3, h⟩ := bind_eq_ok.mp h
    go (return_headers_after p h1)
    go (return_file_after p h2)
    go (e)
    go (log_access_after p h3)
    cases h
    rfl

theorem handle_static_routes_after (p : Past) {env : Env} {st st' : St} (h : handle_static_routes env st = ok st') :
    handle_static_routes env (st.after p) = ok (st'.after p) := by
  unfold handle_static_routes at h ⊢
  obtain ⟨q, e1, h⟩ := bind_eq_ok.mp h
  obtain ⟨_, e2, h⟩ := bind_eq_ok.mp h
  obtain ⟨⟨r, s1⟩, h1, h⟩ := bind_eq_ok.mp h
  go (e1)
  go (e2)
  go (direct_file_after p h1)
  dsimp only at h ⊢
  split at h
  · rename_i hc
    refine (if_pos hc).trans ?_
    obtain ⟨_, e3, h⟩ := bind_eq_ok.mp h
    obtain ⟨⟨_, s2⟩, h2, h⟩ := bind_eq_ok.mp h
    go (e3)
    go (direct_file_after p h2)
    cases h
    rfl
  · rename_i hc
    refine (if_neg hc).trans ?_
    cases h
    rfl

theorem reject_routing_request_after (p : Past) {env : Env} {st st' : St} (h : reject_routing_request env st = ok st') :
    reject_routing_request env (st.after p) = ok (st'.after p) := bad_request_after p h

theorem too_many_connections_after (p : Past) {env : Env} {st st' : St} (h : too_many_connections env st = ok st') :
    too_many_connections env (st.after p) = ok (st'.after p) := send_http_status_after p h

/-- User code does not look at them either. -/
def UserBlind (env : Env) : Prop :=
  (∀ p id st st', env.handle id st = ok st' → env.handle id (st.after p) = ok (st'.after p)) ∧
  ∀ p id st st' b, env.filt id st = ok (st', b) → env.filt id (st.after p) = ok (st'.after p, b)

theorem router_after (p : Past) {env : Env} (hu : UserBlind env) {st st' : St} {ev : List Event}
    (h : router_handle_request env st = ok (st', ev)) : router_handle_request env (st.after p) = ok (st'.after p, ev) := by
  unfold router_handle_request at h ⊢
  obtain ⟨_, e1, h⟩ := bind_eq_ok.mp h
  obtain ⟨⟨hd, fl, form⟩, e2, h⟩ := bind_eq_ok.mp h
  go (e1)
  go (e2)
  dsimp only at h ⊢
  cases hd with
  | none =>
    dsimp only at h ⊢
    obtain ⟨s1, h1, h⟩ := bind_eq_ok.mp h
    go (reject_routing_request_after p h1)
    cases h
    rfl
  | some hd =>
    cases fl with
    | none =>
      dsimp only at h ⊢
      obtain ⟨s1, h1, h⟩ := bind_eq_ok.mp h
      go (hu.1 p _ _ _ h1)
      cases h
      rfl
    | some f =>
      dsimp only at h ⊢
      obtain ⟨⟨s1, b⟩, h1, h⟩ := bind_eq_ok.mp h
      go (hu.2 p _ _ _ _ h1)
      cases b with
      | false =>
        simp only [Bool.not_false, if_true, ok.injEq, Prod.mk.injEq] at h ⊢
        rw [← h.1, ← h.2]
        exact ⟨rfl, rfl⟩
      | true =>
        simp only [Bool.not_true, Bool.false_eq_true, if_false] at h ⊢
        obtain ⟨s2, h2, h⟩ := bind_eq_ok.mp h
        go (hu.1 p _ _ _ h2)
        cases h
        rfl

theorem readForm_after (p : Past) {env : Env} {st st' : St} {n : Int} {b : Str} (h : readForm env st n b = ok st') :
    readForm env (st.after p) n b = ok (st'.after p) := by
  unfold readForm at h ⊢
  split at h
  · rename_i hc
    refine (if_pos hc).trans ?_
    obtain ⟨⟨f, i⟩, e1, h⟩ := bind_eq_ok.mp h
    go (e1)
    dsimp only at h ⊢
    split at h
    · rename_i hb
      refine (if_pos hb).trans ?_
      obtain ⟨⟨f2, fs⟩, e2, h⟩ := bind_eq_ok.mp h
      go (e2)
      cases h
      rfl
    · rename_i hb
      refine (if_neg hb).trans ?_
      cases h
      rfl
  · rename_i hc
    refine (if_neg hc).trans ?_
    cases h
    rfl

theorem dispatch_after (p : Past) {env : Env} (hu : UserBlind env) {st st' : St} {url b : Str} {n : Int} {ev : List Event}
    (h : dispatch env st url n b = ok (st', ev)) : dispatch env (st.after p) url n b = ok (st'.after p, ev) := by
  unfold dispatch at h ⊢
  obtain ⟨⟨path, query⟩, e1, h⟩ := bind_eq_ok.mp h
  go (e1)
  dsimp only at h ⊢
  split at h
  · rename_i hc
    refine (if_pos hc).trans ?_
    split at h
    · rename_i hm
      refine (if_pos hm).trans ?_
      obtain ⟨s1, h1, h⟩ := bind_eq_ok.mp h
      go (handle_static_routes_after p h1)
      cases h
      rfl
    · rename_i hm
      refine (if_neg hm).trans ?_
      obtain ⟨s1, h1, h⟩ := bind_eq_ok.mp h
      go (bad_request_after p h1)
      cases h
      rfl
  · rename_i hc
    refine (if_neg hc).trans ?_
    obtain ⟨q, e2, h⟩ := bind_eq_ok.mp h
    go (e2)
    unfold handle_api_request at h ⊢
    obtain ⟨s1, h1, h⟩ := bind_eq_ok.mp h
    go (readForm_after p h1)
    have k := router_after p hu h
    try dsimp only [St.after] at k
    try dsimp only [St.after]
    exact k

theorem accept_request_after (p : Past) {env : Env} (hu : UserBlind env) {st st' : St} {socket : Nat} {peer : Str}
    {ev : List Event} (r : Req) (h : accept_request env st socket peer = ok (st', ev)) :
    accept_request env { st.after p with req := r } socket peer = ok (st'.after p, ev) := by
  unfold accept_request at h ⊢
  obtain ⟨ip, e1, h⟩ := bind_eq_ok.mp h
  go (e1)
  obtain ⟨⟨buf, inp, rl, m, j⟩, e2, h⟩ := bind_eq_ok.mp h
  go (e2)
  obtain ⟨al, e3, h⟩ := bind_eq_ok.mp h
  go (e3)
  dsimp only at h ⊢
  split at h
  · rename_i hc
    refine (if_pos hc).trans ?_
    obtain ⟨s1, h1, h⟩ := bind_eq_ok.mp h
    go (bad_request_after p h1)
    cases h
    simp [connection_close]
  · rename_i hc
    refine (if_neg hc).trans ?_
    obtain ⟨url, e4, h⟩ := bind_eq_ok.mp h
    go (e4)
    obtain ⟨⟨added, live⟩, e5, h⟩ := bind_eq_ok.mp h
    go (e5)
    dsimp only at h ⊢
    split at h
    · rename_i hd
      refine (if_pos hd).trans ?_
      obtain ⟨s1, h1, h⟩ := bind_eq_ok.mp h
      go (too_many_connections_after p h1)
      cases h
      simp [connection_close]
    · rename_i hd
      refine (if_neg hd).trans ?_
      obtain ⟨hd, e6, h⟩ := bind_eq_ok.mp h
      go (e6)
      obtain ⟨⟨s1, ev1⟩, h1, h⟩ := bind_eq_ok.mp h
      go (dispatch_after p hu h1)
      simp only [ok.injEq, Prod.mk.injEq] at h ⊢
      rw [← h.1, ← h.2]
      simp [connection_close]

end Wayuu
