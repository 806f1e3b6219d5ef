import Verif.Lemmas.LogSigned
import Verif.Spec.Log
/-
Requests and the lines of the access log: each entry is one line if what is printed contains no line break.
-/
namespace Wayuu
open C Spec

/-- Nothing that is printed into the access log contains a line break. -/
def Unbroken (env : Env) (r : Req) : Prop :=
  (10 : Byte) ∉ env.ts ∧ (10 : Byte) ∉ env.rt ∧ (10 : Byte) ∉ r.IP ∧ (10 : Byte) ∉ r.request_line ∧
    ∀ h ∈ r.headers, ∀ v, cstr h.value = ok v → (10 : Byte) ∉ v

/-- The request keeps its address, its line and its headers, and what is added to the log are single lines. -/
def Neat (env : Env) (st st' : St) : Prop :=
  st'.req.IP = st.req.IP ∧ st'.req.request_line = st.req.request_line ∧ st'.req.headers = st.req.headers ∧
  ∃ ls, st'.log = st.log ++ ls ∧ (Unbroken env st.req → ∀ l ∈ ls, SingleLine l)

theorem Neat.refl (env : Env) (st : St) : Neat env st st := ⟨rfl, rfl, rfl, [], by simp, by simp⟩

theorem Neat.trans {env : Env} {a b c : St} (h : Neat env a b) (h' : Neat env b c) : Neat env a c := by
  obtain ⟨i1, r1, h1, ls, e1, s1⟩ := h
  obtain ⟨i2, r2, h2, ms, e2, s2⟩ := h'
  refine ⟨i2.trans i1, r2.trans r1, h2.trans h1, ls ++ ms, by rw [e2, e1, List.append_assoc], ?_⟩
  intro hn l hl
  rcases List.mem_append.mp hl with hl | hl
  · exact s1 hn l hl
  · exact s2 (by unfold Unbroken; rw [i1, r1, h1]; exact hn) l hl

theorem Neat.same {env : Env} {a b : St} (h1 : b.log = a.log) (h2 : b.req.IP = a.req.IP)
    (h3 : b.req.request_line = a.req.request_line) (h4 : b.req.headers = a.req.headers) : Neat env a b :=
  ⟨h2, h3, h4, [], by simp [h1], by simp⟩

theorem getHeaderLoop_neat {headers : List Header} (hv : ∀ h ∈ headers, ∀ v, cstr h.value = ok v → (10 : Byte) ∉ v) {name : Str}
    (n : Nat) : ∀ {i : Nat} {s : HStr}, getHeaderLoop headers name n i = ok s → (10 : Byte) ∉ s.s := by
  induction n with
  | zero => intro i s h; cases h; simp
  | succ n ih =>
    intro i s h
    unfold getHeaderLoop at h
    split at h
    · cases h
    · rename_i hd hhd
      obtain ⟨eq, -, h⟩ := bind_eq_ok.mp h
      cases eq with
      | false => simp only [Bool.false_eq_true, if_false] at h; exact ih h
      | true =>
        simp only [if_true] at h
        obtain ⟨v, h1, h⟩ := bind_eq_ok.mp h
        cases h
        exact hv hd (List.mem_of_getElem? hhd) v h1

theorem fmtInt_oneLine (n : Int) : (10 : Byte) ∉ fmtInt n := by
  have key : ∀ m : Nat, (10 : Byte) ∉ fmtNat m := fun m h => ((natText_oneLine (fmtNat_text m)).1 10 h).2 rfl
  unfold fmtInt
  split <;> simp [key]

theorem http_print_neat {env : Env} {st st' : St} {d : List Byte} {n : Int} (h : http_print st d n = ok st') :
    Neat env st st' := by
  unfold http_print at h
  simp only at h
  split at h
  · cases h
  · cases h; exact .same rfl rfl rfl rfl

theorem http_print_str_neat {env : Env} {st st' : St} {d : Str} (h : http_print_str st d = ok st') : Neat env st st' :=
  http_print_neat h

theorem log_access_neat {env : Env} {st st' : St} {status : Int} (h : log_access env st status = ok st') :
    Neat env st st' := by
  unfold log_access at h
  obtain ⟨r, hr, h⟩ := bind_eq_ok.mp h
  obtain ⟨u, hu, h⟩ := bind_eq_ok.mp h
  obtain ⟨_, -, h⟩ := bind_eq_ok.mp h
  obtain ⟨_, -, h⟩ := bind_eq_ok.mp h
  cases h
  unfold appendLog
  split
  · refine ⟨rfl, rfl, rfl, [accessLine env st.req status r.s u.s], rfl, ?_⟩
    intro hn l hl
    rw [List.mem_singleton] at hl
    subst hl
    obtain ⟨n1, n2, n3, n4, n5⟩ := hn
    have e1 := getHeaderLoop_neat n5 _ hr
    have e2 := getHeaderLoop_neat n5 _ hu
    have e3 : (10 : Byte) ∉ fmtInt status := fmtInt_oneLine status
    have e4 : (10 : Byte) ∉ fmtNat st.req.response_length := fun h => ((natText_oneLine (fmtNat_text _)).1 10 h).2 rfl
    refine ⟨_, rfl, ?_⟩
    simp [n1, n2, n3, n4, e1, e2, e3, e4]
  · exact Neat.refl _ _

theorem Neat.len (env : Env) (st : St) (n : Int) :
    Neat env st { st with req := { st.req with response_length := toUInt32 n } } := .same rfl rfl rfl rfl

theorem send_http_status_neat {env : Env} {st st' : St} {status : Int} {m : Str}
    (h : send_http_status env st status m = ok st') : Neat env st st' := by
  unfold send_http_status at h
  split at h
  · cases h; exact Neat.refl _ _
  · obtain ⟨_, -, h⟩ := bind_eq_ok.mp h
    obtain ⟨_, -, h⟩ := bind_eq_ok.mp h
    obtain ⟨_, -, h⟩ := bind_eq_ok.mp h
    obtain ⟨s1, h1, h⟩ := bind_eq_ok.mp h
    obtain ⟨s2, h2, h⟩ := bind_eq_ok.mp h
    have k1 := http_print_str_neat (env := env) h1
    have k2 := http_print_str_neat (env := env) h2
    have k3 := log_access_neat h
    exact (k1.trans ((Neat.len env s1 _).trans (k2.trans ((Neat.len env s2 _).trans k3))))

theorem bad_request_neat {env : Env} {st st' : St} (h : bad_request env st = ok st') : Neat env st st' :=
  send_http_status_neat h

theorem sessionHeaders_neat {env : Env} {st st' : St} {n m : Nat} {s : Str} (h : sessionHeaders st n s = ok (m, st')) :
    Neat env st st' := by
  unfold sessionHeaders at h
  split at h
  · obtain ⟨_, -, h⟩ := bind_eq_ok.mp h
    obtain ⟨s1, h1, h⟩ := bind_eq_ok.mp h
    cases h
    exact http_print_neat h1
  · cases h; exact Neat.refl _ _

theorem return_headers_neat {env : Env} {st st' : St} {n : Nat} {f : Str} (h : return_headers st f = ok (n, st')) :
    Neat env st st' := by
  unfold return_headers at h
  obtain ⟨_, -, h⟩ := bind_eq_ok.mp h
  obtain ⟨s1, h1, h⟩ := bind_eq_ok.mp h
  obtain ⟨_, -, h⟩ := bind_eq_ok.mp h
  obtain ⟨s2, h2, h⟩ := bind_eq_ok.mp h
  obtain ⟨_, -, h⟩ := bind_eq_ok.mp h
  obtain ⟨⟨_, s3⟩, h3, h⟩ := bind_eq_ok.mp h
  obtain ⟨s4, h4, h⟩ := bind_eq_ok.mp h
  cases h
  exact ((http_print_neat h1).trans (http_print_neat h2)).trans ((sessionHeaders_neat h3).trans (http_print_neat h4))

theorem return_file_neat {env : Env} {st st' : St} {n : Int} {f : Str} (h : return_file st f = ok (n, st')) :
    Neat env st st' := by
  unfold return_file at h
  split at h
  · obtain ⟨s1, h1, h⟩ := bind_eq_ok.mp h
    simp only [ok.injEq, Prod.mk.injEq] at h
    rw [← h.2]
    exact http_print_neat h1
  · cases h; exact Neat.refl _ _

theorem direct_file_neat {env : Env} {st st' : St} {n : Int} {f : Str} (h : direct_file env st f = ok (n, st')) :
    Neat env st st' := by
  unfold direct_file at h
  split at h
  · cases h; exact Neat.refl _ _
  · obtain ⟨⟨_, s1⟩, h1, h⟩ := bind_eq_ok.mp h
    obtain ⟨⟨_, s2⟩, h2, h⟩ := bind_eq_ok.mp h
    obtain ⟨l, -, h⟩ := bind_eq_ok.mp h
    obtain ⟨s3, h3, h⟩ := bind_eq_ok.mp h
    cases h
    have k3 := log_access_neat h3
    exact (return_headers_neat h1).trans ((return_file_neat h2).trans ((Neat.len env s2 _).trans k3))

theorem handle_static_routes_neat {env : Env} {st st' : St} (h : handle_static_routes env st = ok st') :
    Neat env st st' := by
  unfold handle_static_routes at h
  obtain ⟨p, -, h⟩ := bind_eq_ok.mp h
  obtain ⟨_, -, h⟩ := bind_eq_ok.mp h
  obtain ⟨⟨r, s1⟩, h1, h⟩ := bind_eq_ok.mp h
  have j : Neat env st { st with req := { st.req with path := p } } := .same rfl rfl rfl rfl
  simp only at h
  have k := direct_file_neat h1
  by_cases hr : r < 0
  · rw [if_pos hr] at h
    obtain ⟨_, -, h⟩ := bind_eq_ok.mp h
    obtain ⟨⟨_, s2⟩, h2, h⟩ := bind_eq_ok.mp h
    cases h
    exact j.trans (k.trans (direct_file_neat h2))
  · rw [if_neg hr] at h
    cases h
    exact j.trans k

/-- The handlers and filters leave the address, the line and the headers of the request alone, and write to the log, if
at all, as the library does. -/
def UserNeat (env : Env) : Prop :=
  (∀ id st st', env.handle id st = ok st' → Neat env st st') ∧
  ∀ id st st' b, env.filt id st = ok (st', b) → Neat env st st'

theorem router_neat {env : Env} (hu : UserNeat env) {st st' : St} {ev : List Event}
    (h : router_handle_request env st = ok (st', ev)) : Neat env st st' := by
  unfold router_handle_request at h
  obtain ⟨_, -, h⟩ := bind_eq_ok.mp h
  obtain ⟨⟨hd, fl, form⟩, -, h⟩ := bind_eq_ok.mp h
  simp only at h
  have k0 : Neat env st { st with req := { st.req with form := form } } := .same rfl rfl rfl rfl
  cases hd with
  | none =>
    simp only at h
    obtain ⟨s1, h1, h⟩ := bind_eq_ok.mp h
    cases h
    exact k0.trans (bad_request_neat h1)
  | some hd =>
    cases fl with
    | none =>
      simp only at h
      obtain ⟨s1, h1, h⟩ := bind_eq_ok.mp h
      cases h
      exact k0.trans (hu.1 _ _ _ h1)
    | some f =>
      simp only at h
      obtain ⟨⟨s1, b⟩, h1, h⟩ := bind_eq_ok.mp h
      have k1 := k0.trans (hu.2 _ _ _ _ h1)
      cases b with
      | false => simp at h; rw [← h.1]; exact k1
      | true =>
        simp only [Bool.not_true, Bool.false_eq_true, if_false] at h
        obtain ⟨s2, h2, h⟩ := bind_eq_ok.mp h
        cases h
        exact k1.trans (hu.1 _ _ _ h2)

theorem readForm_neat {env : Env} {st st' : St} {n : Int} {b : Str} (h : readForm env st n b = ok st') :
    Neat env st st' := by
  unfold readForm at h
  split at h
  · obtain ⟨⟨form, inp⟩, -, h⟩ := bind_eq_ok.mp h
    simp only at h
    split at h
    · obtain ⟨⟨form, fs⟩, -, h⟩ := bind_eq_ok.mp h
      cases h; exact .same rfl rfl rfl rfl
    · cases h; exact .same rfl rfl rfl rfl
  · cases h; exact Neat.refl _ _

theorem dispatch_neat {env : Env} (hu : UserNeat env) {st st' : St} {ev : List Event} {url : Str}
    {n : Int} {b : Str} (h : dispatch env st url n b = ok (st', ev)) : Neat env st st' := by
  unfold dispatch at h
  obtain ⟨⟨path, query⟩, -, h⟩ := bind_eq_ok.mp h
  simp only at h
  have j : ∀ p, Neat env st { st with req := { st.req with query_string := query, path := p } } :=
    fun p => .same rfl rfl rfl rfl
  split at h
  · split at h
    · obtain ⟨s1, h1, h⟩ := bind_eq_ok.mp h
      cases h
      exact (j path).trans (handle_static_routes_neat h1)
    · obtain ⟨s1, h1, h⟩ := bind_eq_ok.mp h
      cases h
      exact (j path).trans (bad_request_neat h1)
  · obtain ⟨p, -, h⟩ := bind_eq_ok.mp h
    unfold handle_api_request at h
    obtain ⟨s1, h1, h⟩ := bind_eq_ok.mp h
    exact (j p).trans ((readForm_neat h1).trans (router_neat hu h))

/-! ### the functions handlers answer with -/

theorem return_json_headers_neat {env : Env} {st st' : St} {n : Nat} {status : Int}
    (h : return_json_headers st status = ok (n, st')) : Neat env st st' := by
  unfold return_json_headers at h
  split at h
  · cases h; exact Neat.refl _ _
  · obtain ⟨_, -, h⟩ := bind_eq_ok.mp h
    obtain ⟨s1, h1, h⟩ := bind_eq_ok.mp h
    cases h
    exact http_print_neat h1

theorem return_json_with_status_neat {env : Env} {st st' : St} {status : Int} {data : Str}
    (h : return_json_with_status env st status data = ok st') : Neat env st st' := by
  unfold return_json_with_status at h
  obtain ⟨⟨_, s1⟩, h1, h⟩ := bind_eq_ok.mp h
  obtain ⟨_, -, h⟩ := bind_eq_ok.mp h
  obtain ⟨s2, h2, h⟩ := bind_eq_ok.mp h
  obtain ⟨s3, h3, h⟩ := bind_eq_ok.mp h
  obtain ⟨s4, h4, h⟩ := bind_eq_ok.mp h
  have k := log_access_neat h
  exact ((return_json_headers_neat h1).trans ((http_print_str_neat h2).trans ((http_print_str_neat h3).trans
    (http_print_str_neat h4)))).trans k

theorem streamLoop_neat {env : Env} (n : Nat) {st st' : St} {len len' : Int} {content : Str}
    (h : streamLoop n st len content = ok (len', st')) : Neat env st st' := by
  induction n generalizing st len content with
  | zero => cases h; exact Neat.refl _ _
  | succ n ih =>
    unfold streamLoop at h
    split at h
    · cases h; exact Neat.refl _ _
    · obtain ⟨_, -, h⟩ := bind_eq_ok.mp h
      obtain ⟨s1, h1, h⟩ := bind_eq_ok.mp h
      exact (http_print_neat h1).trans (ih h)

theorem return_json_stream_neat {env : Env} {st st' : St} {status : Int} {content : Str}
    (h : return_json_stream env st status content = ok st') : Neat env st st' := by
  unfold return_json_stream at h
  obtain ⟨⟨_, s1⟩, h1, h⟩ := bind_eq_ok.mp h
  obtain ⟨s2, h2, h⟩ := bind_eq_ok.mp h
  obtain ⟨⟨_, s3⟩, h3, h⟩ := bind_eq_ok.mp h
  obtain ⟨_, -, h⟩ := bind_eq_ok.mp h
  obtain ⟨_, -, h⟩ := bind_eq_ok.mp h
  have k := log_access_neat h
  unfold send_stream at h3
  obtain ⟨⟨_, t1⟩, g1, h3⟩ := bind_eq_ok.mp h3
  obtain ⟨t2, g2, h3⟩ := bind_eq_ok.mp h3
  obtain ⟨_, -, h3⟩ := bind_eq_ok.mp h3
  cases h3
  exact ((return_json_headers_neat h1).trans ((http_print_neat h2).trans ((streamLoop_neat _ g1).trans
    (http_print_neat g2)))).trans k

end Wayuu
