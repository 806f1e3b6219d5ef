import Verif.Lemmas.Headers
import Verif.Lemmas.Keeps
import Verif.Lemmas.Json
/-
Every line added to the access log is short, whatever the client sends.
-/
namespace Wayuu
open C Spec

/-- The parts of a request that appear in the access log have the sizes of their arrays. -/
structure Fits (r : Req) : Prop where
  ip : r.IP.length ≤ 24
  line : r.request_line.length ≤ 1023
  len : r.response_length < 2 ^ 32
  vals : ∀ h ∈ r.headers, h.value.length = 256

/-- The formatted time and response time fit theirs. -/
def Clock (env : Env) : Prop := env.ts.length ≤ 63 ∧ env.rt.length ≤ 63

/-- At most `n` lines are added to the log, each of at most 2000 bytes. -/
def Logs (n : Nat) (st st' : St) : Prop :=
  Fits st.req → Fits st'.req ∧ ∃ ls, st'.log = st.log ++ ls ∧ ls.length ≤ n ∧ ∀ l ∈ ls, l ≠ [] ∧ l.length ≤ 2000

theorem Logs.refl (st : St) : Logs 0 st st := fun h => ⟨h, [], by simp, by simp, by simp⟩

theorem Logs.trans {n m : Nat} {a b c : St} (h : Logs n a b) (h' : Logs m b c) : Logs (n + m) a c := by
  intro hf
  obtain ⟨h1, ls, e1, l1, s1⟩ := h hf
  obtain ⟨h2, ms, e2, l2, s2⟩ := h' h1
  refine ⟨h2, ls ++ ms, by rw [e2, e1, List.append_assoc], by simp; omega, ?_⟩
  intro l hl
  rcases List.mem_append.mp hl with hl | hl
  · exact s1 l hl
  · exact s2 l hl

theorem Logs.mono {n m : Nat} {a b : St} (h : Logs n a b) (hnm : n ≤ m) : Logs m a b := by
  intro hf
  obtain ⟨h1, ls, e1, l1, s1⟩ := h hf
  exact ⟨h1, ls, e1, by omega, s1⟩

/-- Same log, and the request still fits. -/
theorem Logs.same {a b : St} (h1 : b.log = a.log) (h2 : Fits a.req → Fits b.req) : Logs 0 a b :=
  fun hf => ⟨h2 hf, [], by simp [h1], by simp, by simp⟩

theorem http_print_logs {st st' : St} {d : List Byte} {n : Int} (h : http_print st d n = ok st') : Logs 0 st st' := by
  unfold http_print at h
  simp only at h
  split at h
  · cases h
  · cases h; exact .same rfl id

theorem http_print_str_logs {st st' : St} {d : Str} (h : http_print_str st d = ok st') : Logs 0 st st' := http_print_logs h

theorem getHeaderLoop_length {headers : List Header} (hv : ∀ h ∈ headers, h.value.length = 256) {name : Str} (n : Nat) :
    ∀ {i : Nat} {s : HStr}, getHeaderLoop headers name n i = ok s → s.s.length ≤ 255 := by
  induction n with
  | zero => intro i s h; cases h; simp
  | succ n ih =>
    intro i s h
    unfold getHeaderLoop at h
    split at h
    · cases h
    · rename_i hd hhd
      obtain ⟨eq, -, h⟩ := bind_eq_ok.mp h
      cases eq with
      | false => simp only [Bool.false_eq_true, if_false] at h; exact ih h
      | true =>
        simp only [if_true] at h
        obtain ⟨v, h1, h⟩ := bind_eq_ok.mp h
        cases h
        obtain ⟨-, r, hr⟩ := cstr_eq_ok.mp h1
        have := hv hd (List.mem_of_getElem? hhd)
        rw [hr] at this
        simp at this
        simp only
        omega

theorem accessLine_length {env : Env} (hc : Clock env) {r : Req} (hf : Fits r) {status : Int} (h1 : -(2 ^ 31) ≤ status)
    (h2 : status < 2 ^ 31) {referer ua : Str} (h3 : referer.length ≤ 255) (h4 : ua.length ≤ 255) :
    accessLine env r status referer ua ≠ [] ∧ (accessLine env r status referer ua).length ≤ 2000 := by
  have a1 := hf.ip
  have a2 := hf.line
  have a3 := fmtNat_length r.response_length 9 (by have := hf.len; omega)
  have a4 := fmtInt_length status h1 h2
  have a5 := hc.1
  have a6 := hc.2
  unfold accessLine
  refine ⟨by simp, ?_⟩
  simp only [List.length_append, List.length_cons, List.length_nil]
  omega

theorem log_access_logs {env : Env} (hc : Clock env) {st st' : St} {status : Int} (h1 : -(2 ^ 31) ≤ status)
    (h2 : status < 2 ^ 31) (h : log_access env st status = ok st') : Logs 1 st st' := by
  unfold log_access at h
  obtain ⟨r, hr, h⟩ := bind_eq_ok.mp h
  obtain ⟨u, hu, h⟩ := bind_eq_ok.mp h
  obtain ⟨_, -, h⟩ := bind_eq_ok.mp h
  obtain ⟨_, -, h⟩ := bind_eq_ok.mp h
  cases h
  intro hf
  unfold appendLog
  split
  · refine ⟨⟨hf.ip, hf.line, hf.len, hf.vals⟩, [accessLine env st.req status r.s u.s], rfl, by simp, ?_⟩
    intro l hl
    rw [List.mem_singleton] at hl
    subst hl
    exact accessLine_length hc hf h1 h2 (getHeaderLoop_length hf.vals _ hr) (getHeaderLoop_length hf.vals _ hu)
  · exact ⟨hf, [], by simp, by simp, by simp⟩

theorem toUInt32_lt (n : Int) : toUInt32 n < 2 ^ 32 := by
  unfold toUInt32
  omega

theorem findStatus_range {status : Int} {l : Str} (h : findStatus status HTTP_STATUS_TABLE = some l) :
    -(2 ^ 31) ≤ status ∧ status < 2 ^ 31 := by
  have key : ∀ (t : List (Int × Str)), (∀ p ∈ t, -(2 ^ 31) ≤ p.1 ∧ p.1 < 2 ^ 31) → findStatus status t = some l →
      -(2 ^ 31) ≤ status ∧ status < 2 ^ 31 := by
    intro t
    induction t with
    | nil => intro _ h; cases h
    | cons p t ih =>
      obtain ⟨c, m⟩ := p
      intro hp h
      unfold findStatus at h
      split at h
      · rename_i e; subst e; exact hp _ List.mem_cons_self
      · exact ih (fun q hq => hp q (List.mem_cons_of_mem _ hq)) h
  exact key _ (by decide) h

theorem Fits.withLen {r : Req} (h : Fits r) (n : Int) : Fits { r with response_length := toUInt32 n } :=
  ⟨h.ip, h.line, toUInt32_lt n, h.vals⟩

theorem Logs.len (st : St) (n : Int) : Logs 0 st { st with req := { st.req with response_length := toUInt32 n } } :=
  .same rfl (fun hf => hf.withLen n)

theorem send_http_status_logs {env : Env} (hc : Clock env) {st st' : St} {status : Int} {m : Str}
    (h : send_http_status env st status m = ok st') : Logs 1 st st' := by
  unfold send_http_status at h
  split at h
  · cases h; exact (Logs.refl _).mono (by omega)
  · rename_i hs
    obtain ⟨r1, r2⟩ := findStatus_range hs
    obtain ⟨_, -, h⟩ := bind_eq_ok.mp h
    obtain ⟨_, -, h⟩ := bind_eq_ok.mp h
    obtain ⟨_, -, h⟩ := bind_eq_ok.mp h
    obtain ⟨s1, h1, h⟩ := bind_eq_ok.mp h
    obtain ⟨s2, h2, h⟩ := bind_eq_ok.mp h
    have k1 := http_print_str_logs h1
    have k2 := http_print_str_logs h2
    have k3 := log_access_logs hc r1 r2 h
    exact (k1.trans ((Logs.len s1 _).trans (k2.trans ((Logs.len s2 _).trans k3))))

theorem bad_request_logs {env : Env} (hc : Clock env) {st st' : St} (h : bad_request env st = ok st') : Logs 1 st st' :=
  send_http_status_logs hc h

theorem sessionHeaders_logs {st st' : St} {n m : Nat} {s : Str} (h : sessionHeaders st n s = ok (m, st')) : Logs 0 st st' := by
  unfold sessionHeaders at h
  split at h
  · obtain ⟨_, -, h⟩ := bind_eq_ok.mp h
    obtain ⟨s1, h1, h⟩ := bind_eq_ok.mp h
    cases h
    exact http_print_logs h1
  · cases h; exact Logs.refl _

theorem return_headers_logs {st st' : St} {n : Nat} {f : Str} (h : return_headers st f = ok (n, st')) : Logs 0 st st' := by
  unfold return_headers at h
  obtain ⟨_, -, h⟩ := bind_eq_ok.mp h
  obtain ⟨s1, h1, h⟩ := bind_eq_ok.mp h
  obtain ⟨_, -, h⟩ := bind_eq_ok.mp h
  obtain ⟨s2, h2, h⟩ := bind_eq_ok.mp h
  obtain ⟨_, -, h⟩ := bind_eq_ok.mp h
  obtain ⟨⟨_, s3⟩, h3, h⟩ := bind_eq_ok.mp h
  obtain ⟨s4, h4, h⟩ := bind_eq_ok.mp h
  cases h
  exact ((http_print_logs h1).trans (http_print_logs h2)).trans ((sessionHeaders_logs h3).trans (http_print_logs h4))

theorem return_file_logs {st st' : St} {n : Int} {f : Str} (h : return_file st f = ok (n, st')) : Logs 0 st st' := by
  unfold return_file at h
  split at h
  · obtain ⟨s1, h1, h⟩ := bind_eq_ok.mp h
    simp only [ok.injEq, Prod.mk.injEq] at h
    rw [← h.2]
    exact http_print_logs h1
  · cases h; exact Logs.refl _

/-- One line if the file is sent, none otherwise. -/
theorem direct_file_logs {env : Env} (hc : Clock env) {st st' : St} {n : Int} {f : Str} (h : direct_file env st f = ok (n, st')) :
    (n < 0 ∧ Logs 0 st st') ∨ (¬ n < 0 ∧ Logs 1 st st') := by
  unfold direct_file at h
  split at h
  · cases h; exact Or.inl ⟨by decide, Logs.refl _⟩
  · obtain ⟨⟨_, s1⟩, h1, h⟩ := bind_eq_ok.mp h
    obtain ⟨⟨_, s2⟩, h2, h⟩ := bind_eq_ok.mp h
    obtain ⟨l, -, h⟩ := bind_eq_ok.mp h
    obtain ⟨s3, h3, h⟩ := bind_eq_ok.mp h
    cases h
    have k3 := log_access_logs hc (by decide) (by decide) h3
    exact Or.inr ⟨by decide, ((return_headers_logs h1).trans ((return_file_logs h2).trans ((Logs.len s2 _).trans k3)))⟩

theorem handle_static_routes_logs {env : Env} (hc : Clock env) {st st' : St} (h : handle_static_routes env st = ok st') :
    Logs 1 st st' := by
  unfold handle_static_routes at h
  obtain ⟨p, -, h⟩ := bind_eq_ok.mp h
  obtain ⟨_, -, h⟩ := bind_eq_ok.mp h
  obtain ⟨⟨r, s1⟩, h1, h⟩ := bind_eq_ok.mp h
  have j : Logs 0 st _ := Logs.same (a := st) (b := { st with req := { st.req with path := p } }) rfl
    (fun hf => ⟨hf.ip, hf.line, hf.len, hf.vals⟩)
  simp only at h
  rcases direct_file_logs hc h1 with ⟨hr, k⟩ | ⟨hr, k⟩
  · rw [if_pos hr] at h
    obtain ⟨_, -, h⟩ := bind_eq_ok.mp h
    obtain ⟨⟨_, s2⟩, h2, h⟩ := bind_eq_ok.mp h
    cases h
    rcases direct_file_logs hc h2 with ⟨-, k2⟩ | ⟨-, k2⟩
    · exact (j.trans (k.trans k2)).mono (by omega)
    · exact (j.trans (k.trans k2)).mono (by omega)
  · rw [if_neg hr] at h
    cases h
    exact (j.trans k).mono (by omega)

/-- User code leaves those parts of the request intact and writes at most `n` lines, of the size of `log_access`. -/
def UserLogs (env : Env) (n : Nat) : Prop :=
  (∀ id st st', env.handle id st = ok st' → Logs n st st') ∧
  ∀ id st st' b, env.filt id st = ok (st', b) → Logs n st st'

theorem router_logs {env : Env} (hc : Clock env) {n : Nat} (hu : UserLogs env n) {st st' : St} {ev : List Event}
    (h : router_handle_request env st = ok (st', ev)) : Logs (2 * n + 1) st st' := by
  unfold router_handle_request at h
  obtain ⟨_, -, h⟩ := bind_eq_ok.mp h
  obtain ⟨⟨hd, fl, form⟩, -, h⟩ := bind_eq_ok.mp h
  simp only at h
  have k0 : Logs 0 st { st with req := { st.req with form := form } } :=
    .same rfl (fun hf => ⟨hf.ip, hf.line, hf.len, hf.vals⟩)
  cases hd with
  | none =>
    simp only at h
    obtain ⟨s1, h1, h⟩ := bind_eq_ok.mp h
    cases h
    exact (k0.trans (bad_request_logs hc h1)).mono (by omega)
  | some hd =>
    cases fl with
    | none =>
      simp only at h
      obtain ⟨s1, h1, h⟩ := bind_eq_ok.mp h
      cases h
      exact (k0.trans (hu.1 _ _ _ h1)).mono (by omega)
    | some f =>
      simp only at h
      obtain ⟨⟨s1, b⟩, h1, h⟩ := bind_eq_ok.mp h
      have k1 := k0.trans (hu.2 _ _ _ _ h1)
      cases b with
      | false => simp at h; rw [← h.1]; exact k1.mono (by omega)
      | true =>
        simp only [Bool.not_true, Bool.false_eq_true, if_false] at h
        obtain ⟨s2, h2, h⟩ := bind_eq_ok.mp h
        cases h
        exact (k1.trans (hu.1 _ _ _ h2)).mono (by omega)

theorem readForm_logs {env : Env} {st st' : St} {n : Int} {b : Str} (h : readForm env st n b = ok st') : Logs 0 st st' := by
  unfold readForm at h
  split at h
  · obtain ⟨⟨form, inp⟩, -, h⟩ := bind_eq_ok.mp h
    simp only at h
    split at h
    · obtain ⟨⟨form, fs⟩, -, h⟩ := bind_eq_ok.mp h
      cases h; exact .same rfl (fun hf => ⟨hf.ip, hf.line, hf.len, hf.vals⟩)
    · cases h; exact .same rfl (fun hf => ⟨hf.ip, hf.line, hf.len, hf.vals⟩)
  · cases h; exact Logs.refl _

theorem dispatch_logs {env : Env} (hc : Clock env) {k : Nat} (hu : UserLogs env k) {st st' : St} {ev : List Event} {url : Str}
    {n : Int} {b : Str} (h : dispatch env st url n b = ok (st', ev)) : Logs (2 * k + 1) st st' := by
  unfold dispatch at h
  obtain ⟨⟨path, query⟩, -, h⟩ := bind_eq_ok.mp h
  simp only at h
  have j : ∀ p, Logs 0 st { st with req := { st.req with query_string := query, path := p } } :=
    fun p => .same rfl (fun hf => ⟨hf.ip, hf.line, hf.len, hf.vals⟩)
  split at h
  · split at h
    · obtain ⟨s1, h1, h⟩ := bind_eq_ok.mp h
      cases h
      exact ((j path).trans (handle_static_routes_logs hc h1)).mono (by omega)
    · obtain ⟨s1, h1, h⟩ := bind_eq_ok.mp h
      cases h
      exact ((j path).trans (bad_request_logs hc h1)).mono (by omega)
  · obtain ⟨p, -, h⟩ := bind_eq_ok.mp h
    unfold handle_api_request at h
    obtain ⟨s1, h1, h⟩ := bind_eq_ok.mp h
    exact ((j p).trans ((readForm_logs h1).trans (router_logs hc hu h))).mono (by omega)

theorem cstr_length {b : Buf} {s : Str} (h : cstr b = ok s) : s.length < b.length := by
  obtain ⟨-, r, rfl⟩ := cstr_eq_ok.mp h
  simp

theorem storeHeader_fits {hs hs' : List Header} {line : Str} (h : storeHeader hs line = ok hs')
    (hv : ∀ h ∈ hs, h.value.length = 256) : ∀ h ∈ hs', h.value.length = 256 := by
  unfold storeHeader at h
  split at h
  · obtain ⟨nv, -, h⟩ := bind_eq_ok.mp h
    split at h
    · obtain ⟨_, -, h⟩ := bind_eq_ok.mp h
      obtain ⟨_, -, h⟩ := bind_eq_ok.mp h
      obtain ⟨_, -, h⟩ := bind_eq_ok.mp h
      obtain ⟨v, -, h⟩ := bind_eq_ok.mp h
      obtain ⟨b, h1, h⟩ := bind_eq_ok.mp h
      cases h
      rw [strncpy_full (by simp)] at h1
      cases h1
      intro x hx
      rcases List.mem_append.mp hx with hx | hx
      · exact hv x hx
      · rw [List.mem_singleton] at hx
        subst hx
        exact length_padTo _ _
    · cases h; exact hv
  · cases h; exact hv

/-- The same for the state of the header loop. -/
def HFits (h : HdrSt) : Prop := h.IP.length ≤ 24 ∧ ∀ x ∈ h.headers, x.value.length = 256

theorem hdrContentType_fits {h h' : HdrSt} {line : Str} (hh : hdrContentType h line = ok h') (hf : HFits h) : HFits h' := by
  have tail : ∀ x : HdrSt, HFits x →
      (if startswith line b!"Content-Type: multipart/form-data" then
        match strcasestr line b!"boundary=" with
        | some b => do
          let mb ← fmtInto 100 (b!"--" ++ b.drop 9)
          let mb ← trimStr mb
          ok { x with boundary := mb }
        | none => ok x
      else ok x) = ok h' → HFits h' := by
    intro x hx hh
    split at hh
    · split at hh
      · obtain ⟨_, -, hh⟩ := bind_eq_ok.mp hh
        obtain ⟨_, -, hh⟩ := bind_eq_ok.mp hh
        cases hh; exact hx
      · cases hh; exact hx
    · cases hh; exact hx
  unfold hdrContentType at hh
  dsimp only at hh
  split at hh
  · obtain ⟨_, -, hh⟩ := bind_eq_ok.mp hh
    obtain ⟨_, -, hh⟩ := bind_eq_ok.mp hh
    obtain ⟨x, e, hh⟩ := bind_eq_ok.mp hh
    exact tail x (by cases e; exact hf) hh
  · obtain ⟨x, e, hh⟩ := bind_eq_ok.mp hh
    exact tail x (by cases e; exact hf) hh

theorem hdrLengthIP_fits {h h' : HdrSt} {line : Str} (hh : hdrLengthIP h line = ok h') (hf : HFits h) : HFits h' := by
  have tail : ∀ x : HdrSt, HFits x →
      (if startswith line b!"X-Real-IP:" then do
        let buf ← trim x.buf
        let s ← strAt buf 11
        ok { x with buf, IP := s.take 24 }
      else ok x) = ok h' → HFits h' := by
    intro x hx hh
    split at hh
    · obtain ⟨_, -, hh⟩ := bind_eq_ok.mp hh
      obtain ⟨s, -, hh⟩ := bind_eq_ok.mp hh
      cases hh
      exact ⟨by simp only [List.length_take]; omega, hx.2⟩
    · cases hh; exact hx
  unfold hdrLengthIP at hh
  dsimp only at hh
  split at hh
  · obtain ⟨_, -, hh⟩ := bind_eq_ok.mp hh
    obtain ⟨x, e, hh⟩ := bind_eq_ok.mp hh
    exact tail x (by cases e; exact hf) hh
  · obtain ⟨x, e, hh⟩ := bind_eq_ok.mp hh
    exact tail x (by cases e; exact hf) hh

theorem hdrSession_fits {h h' : HdrSt} (hh : hdrSession h = ok h') (hf : HFits h) : HFits h' := by
  unfold hdrSession at hh
  obtain ⟨w, -, hh⟩ := bind_eq_ok.mp hh
  obtain ⟨_, -, hh⟩ := bind_eq_ok.mp hh
  have tail : ∀ x : HdrSt, HFits x →
      (if startswith w b!"Cookie:" then do
        let c ← x.session.load 0
        if c = 0 then do
          let s ← strAt x.buf 18
          if s.length < MAX_SESSION then do
            let session ← strcpyAt x.session 0 s
            ok { x with session }
          else ok x
        else ok x
      else ok x) = ok h' → HFits h' := by
    intro x hx hh
    split at hh
    · obtain ⟨_, -, hh⟩ := bind_eq_ok.mp hh
      split at hh
      · obtain ⟨_, -, hh⟩ := bind_eq_ok.mp hh
        split at hh
        · obtain ⟨_, -, hh⟩ := bind_eq_ok.mp hh
          cases hh; exact hx
        · cases hh; exact hx
      · cases hh; exact hx
    · cases hh; exact hx
  dsimp only at hh
  split at hh
  · obtain ⟨_, -, hh⟩ := bind_eq_ok.mp hh
    obtain ⟨_, -, hh⟩ := bind_eq_ok.mp hh
    obtain ⟨_, -, hh⟩ := bind_eq_ok.mp hh
    obtain ⟨x, e, hh⟩ := bind_eq_ok.mp hh
    exact tail x (by cases e; exact hf) hh
  · obtain ⟨x, e, hh⟩ := bind_eq_ok.mp hh
    exact tail x (by cases e; exact hf) hh

theorem headerStep_fits {h h' : HdrSt} (hh : headerStep h = ok h') (hf : HFits h) : HFits h' := by
  unfold headerStep at hh
  obtain ⟨_, -, hh⟩ := bind_eq_ok.mp hh
  obtain ⟨hs, e1, hh⟩ := bind_eq_ok.mp hh
  obtain ⟨h1, e2, hh⟩ := bind_eq_ok.mp hh
  obtain ⟨h2, e3, hh⟩ := bind_eq_ok.mp hh
  exact hdrSession_fits hh (hdrLengthIP_fits e3 (hdrContentType_fits e2 ⟨hf.1, storeHeader_fits e1 hf.2⟩))

theorem headerLoop_fits (n : Nat) : ∀ {k : Nat} {h h' : HdrSt}, headerLoop n k h = ok h' → HFits h → HFits h' := by
  induction n with
  | zero => intro k h h' hh hf; cases hh; exact hf
  | succ n ih =>
    intro k h h' hh hf
    unfold headerLoop at hh
    obtain ⟨_, -, hh⟩ := bind_eq_ok.mp hh
    split at hh
    · obtain ⟨h1, e1, hh⟩ := bind_eq_ok.mp hh
      obtain ⟨⟨_, _, _⟩, -, hh⟩ := bind_eq_ok.mp hh
      exact ih hh (show HFits _ from headerStep_fits (h' := h1) e1 hf)
    · cases hh; exact hf

theorem parseHeaders_fits {buf : Buf} {inp : List Byte} {ip : Str} {h : HdrSt} (hh : parseHeaders buf inp ip = ok h)
    (hip : ip.length ≤ 24) : HFits h := by
  unfold parseHeaders at hh
  obtain ⟨_, -, hh⟩ := bind_eq_ok.mp hh
  obtain ⟨_, -, hh⟩ := bind_eq_ok.mp hh
  obtain ⟨⟨_, _, _⟩, -, hh⟩ := bind_eq_ok.mp hh
  exact headerLoop_fits _ hh ⟨hip, by simp⟩

theorem storeI_length {b b' : Buf} {i : Int} {v : Byte} (h : b.storeI i v = ok b') : b'.length = b.length := by
  unfold Buf.storeI at h
  split at h
  · cases h
  · unfold Buf.store at h
    split at h
    · cases h; simp
    · cases h

theorem readRequestLine_fits {input : List Byte} {buf : Buf} {inp rl m : Str} {j : Nat}
    (h : readRequestLine input = ok (buf, inp, rl, m, j)) : rl.length ≤ 1023 := by
  unfold readRequestLine at h
  obtain ⟨⟨_, b, _⟩, h1, h⟩ := bind_eq_ok.mp h
  obtain ⟨line, h2, h⟩ := bind_eq_ok.mp h
  obtain ⟨r, h3, h⟩ := bind_eq_ok.mp h
  obtain ⟨rl', h4, h⟩ := bind_eq_ok.mp h
  obtain ⟨⟨_, _⟩, -, h⟩ := bind_eq_ok.mp h
  cases h
  obtain ⟨l, rest, ⟨-, hl, -⟩, e⟩ := get_line_first input
  rw [e] at h1
  cases h1
  have a1 := cstr_length h2
  have a2 := cstr_length h4
  have a3 := storeI_length h3
  have a4 : ((lineBytes l).map some).length = 1024 := by rw [List.length_map]; exact (lineBytes_buf hl).1
  simp at a3
  omega

/-- Every request: the lines it adds to the access log are short; there is at most one unless user code writes more. -/
theorem accept_request_logs {env : Env} (hc : Clock env) {k : Nat} (hu : UserLogs env k) {st st' : St} {socket : Nat}
    {peer : Str} {ev : List Event} (h : accept_request env st socket peer = ok (st', ev)) :
    ∃ ls, st'.log = st.log ++ ls ∧ ls.length ≤ 2 * k + 1 ∧ ∀ l ∈ ls, l ≠ [] ∧ l.length ≤ 2000 := by
  obtain ⟨hp, hh⟩ := accept_request_cases h
  cases hh with
  | badMethod buf inp rl method j st1 hr hm h1 =>
    obtain ⟨-, ls, e, l, s⟩ := bad_request_logs hc h1 ⟨by simp [lineReq, api_request_new]; omega,
      by simpa [lineReq] using readRequestLine_fits hr, by simp [lineReq, api_request_new], by simp [lineReq, api_request_new]⟩
    exact ⟨ls, e, by omega, s⟩
  | tooMany buf inp rl method j url live st1 hr hm hurl hadd h1 =>
    obtain ⟨-, ls, e, l, s⟩ := send_http_status_logs hc h1 ⟨by simp [lineReq, api_request_new]; omega,
      by simpa [lineReq] using readRequestLine_fits hr, by simp [lineReq, api_request_new], by simp [lineReq, api_request_new]⟩
    exact ⟨ls, e, by omega, s⟩
  | served buf inp rl method j url live h st1 ev hr hm hurl hadd hh h1 =>
    have hf := parseHeaders_fits hh (by omega)
    obtain ⟨-, ls, e, l, s⟩ := dispatch_logs hc hu h1 ⟨hf.1,
      by simpa [headReq, lineReq] using readRequestLine_fits hr, by simp [headReq, lineReq, api_request_new], hf.2⟩
    exact ⟨ls, e, l, s⟩

end Wayuu
