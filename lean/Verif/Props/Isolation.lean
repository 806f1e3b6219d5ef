import Verif.Lemmas.Frame
import Verif.Model.Worker
import Verif.Props.Static
import Verif.Props.Http
/-
Property C75 (ws.c:693-703 and everything a request runs): requests served one after another do not influence one
another.
-/
namespace Wayuu
open C Spec

namespace Spec

/-- What a request gives: data sent to the client, lines of the access log, user code run. -/
structure Reply where
  sent : List Byte
  log : List Str
  ev : List Event

/-- The first request of a server that has just started, with these files and this table of connections. -/
def Alone (env : Env) (live : List Conn) (fs : FS) (j : Job) (r : Reply) (fs' : FS) : Prop :=
  ∃ req st', serve env { req := req, input := [], out := [], log := [], fs := fs, live := live, closed := [] } j = ok (st', r.ev) ∧
    st'.sent = r.sent ∧ st'.log = r.log ∧ st'.fs = fs'

/-- Each request served by a server of its own; only the files are handed on. -/
inductive Each (env : Env) (live : List Conn) : FS → List Job → List Reply → FS → Prop
  | nil (fs) : Each env live fs [] [] fs
  | cons {fs fs1 fs2 j js r rs} : Alone env live fs j r fs1 → Each env live fs1 js rs fs2 → Each env live fs (j :: js) (r :: rs) fs2

/-- What comes from the network. -/
def Wire (j : Job) : Nat × Str × List Byte := (j.socket, j.peer, j.input)

/-- The sockets are valid and new, and the free slots of the table are blank. -/
def Ready (live : List Conn) (js : List Job) : Prop :=
  (∀ j ∈ js, j.socket ≠ 0 ∧ ∀ c ∈ live, c.socket ≠ j.socket) ∧ ∀ c ∈ live, c.socket = 0 → c = ⟨0, [], []⟩

end Spec

/-- C75 in full: a worker that serves any sequence of connections sends and logs exactly what a server of its own would
send and log for each of them. -/
def C75_statement : Prop :=
  ∀ (env : Env) (st st' : St) (js js' : List Job) (rs : List Reply) (fs' : FS) (evs : List Event),
    UserBlind env → UserKeeps env → Ready st.live js → js.map Wire = js'.map Wire → Each env st.live st.fs js' rs fs' →
    worker env js st = ok (st', evs) →
    st'.sent = st.sent ++ rs.flatMap (·.sent) ∧ st'.log = st.log ++ rs.flatMap (·.log) ∧ evs = rs.flatMap (·.ev)

/-- C75 when the stack of the worker holds the same bytes in both cases: the whole sequence is defined behaviour if each
request alone is, what is sent and logged is what each would get alone, the sockets are closed once each and in that
order, the files are those of the last request and the table of connections is the one before. -/
theorem C75_partial (env : Env) (hb : UserBlind env) (hk : UserKeeps env) (js : List Job) :
    ∀ (st : St) (rs : List Reply) (fs' : FS), Ready st.live js → Each env st.live st.fs js rs fs' →
    ∃ st', worker env js st = ok (st', rs.flatMap (·.ev)) ∧ st'.sent = st.sent ++ rs.flatMap (·.sent) ∧
      st'.log = st.log ++ rs.flatMap (·.log) ∧ st'.closed = st.closed ++ js.map (·.socket) ∧
      st'.fs = fs' ∧ st'.live = st.live := by
  induction js with
  | nil =>
    intro st rs fs' _ h
    cases h
    exact ⟨st, rfl, by simp, by simp, by simp, rfl, rfl⟩
  | cons j js ih =>
    intro st rs fs' hr h
    cases h with
    | cons h1 h2 =>
      rename_i fs1 r rs
      obtain ⟨req, s1, h1, hs, hl, hf⟩ := h1
      unfold serve at h1
      dsimp only at h1
      have k := accept_request_after ⟨st.out, st.log, st.closed⟩ (env := { env with junk := j.junk }) hb st.req h1
      obtain ⟨c1, -, -, c2⟩ := C51_closed { env with junk := j.junk } hk
        { req := req, input := j.input, out := [], log := [], fs := st.fs, live := st.live, closed := [] } s1 j.socket j.peer _ (hr.1 j (by simp)).1
        (hr.1 j (by simp)).2 h1
      have c2 := c2 hr.2
      simp only [List.nil_append] at c1 c2
      have hlive : (s1.after ⟨st.out, st.log, st.closed⟩).live = st.live := c2
      obtain ⟨st', w1, w2, w3, w4, w5, w6⟩ := ih (s1.after ⟨st.out, st.log, st.closed⟩) rs fs'
        (by rw [hlive]; exact ⟨fun x hx => hr.1 x (by simp [hx]), hr.2⟩) (by
          rw [hlive]
          show Each env st.live s1.fs js rs fs'
          rw [hf]; exact h2)
      refine ⟨st', ?_, ?_, ?_, ?_, w5, by rw [w6, hlive]⟩
      · unfold worker
        have : serve env st j = ok (s1.after ⟨st.out, st.log, st.closed⟩, r.ev) := by
          unfold serve
          refine Eq.trans ?_ k
          simp [St.after]
        rw [this, ok_bind]
        simp only
        rw [w1, ok_bind]
        rfl
      · rw [w2, List.flatMap_cons, ← hs]
        simp [St.sent, St.after]
      · rw [w3, List.flatMap_cons, ← hl]
        simp [St.after]
      · rw [w4]
        simp [St.after, c1]

/-- A worker whose stack holds this, serving one request for a folder. -/
def docsJob (junk : List Byte) : Job := ⟨7, b!"10.0.0.1", b!"GET /docs/ HTTP/1.1\r\n\r\n", junk⟩

theorem sampleEnv_blind : UserBlind sampleEnv := by
  refine ⟨?_, ?_⟩
  · intro p id st st' h
    simp only [sampleEnv, ok.injEq] at h ⊢
    rw [h]
  · intro p id st st' b h
    simp only [sampleEnv, ok.injEq, Prod.mk.injEq] at h ⊢
    exact ⟨by rw [h.1], h.2⟩

theorem sampleEnv_keeps : UserKeeps sampleEnv := by
  refine ⟨?_, ?_⟩
  · intro id st st' h
    simp only [sampleEnv, ok.injEq] at h
    rw [h]; exact Keeps.refl _
  · intro id st st' b h
    simp only [sampleEnv, ok.injEq, Prod.mk.injEq] at h
    rw [h.1]; exact Keeps.refl _

/-- C75 fails: what earlier requests left on the stack decides whether a folder is answered with its own index page. -/
theorem C75_refuted : ¬ C75_statement := by
  intro h
  have e1 : (serve sampleEnv { sampleSt with live := [⟨0, [], []⟩], fs := docsFs } (docsJob [65, 0])).bind
      (fun x => ok (x.1.sent.reverse.take 4)) = ok b!"etis" := by decide +kernel
  have e2 : (serve sampleEnv { sampleSt with live := [⟨0, [], []⟩], fs := docsFs } (docsJob [47, 0])).bind
      (fun x => ok (x.1.sent.reverse.take 4)) = ok b!"redl" := by decide +kernel
  cases h1 : serve sampleEnv { sampleSt with live := [⟨0, [], []⟩], fs := docsFs } (docsJob [65, 0]) with
  | ub f => rw [h1] at e1; cases e1
  | ok x1 =>
    cases h2 : serve sampleEnv { sampleSt with live := [⟨0, [], []⟩], fs := docsFs } (docsJob [47, 0]) with
    | ub f => rw [h2] at e2; cases e2
    | ok x2 =>
      obtain ⟨a, -, -⟩ := h sampleEnv { sampleSt with live := [⟨0, [], []⟩], fs := docsFs } x1.1 [docsJob [65, 0]] [docsJob [47, 0]]
        [⟨x2.1.sent, x2.1.log, x2.2⟩] x2.1.fs x1.2 sampleEnv_blind sampleEnv_keeps
        ⟨by simp [docsJob], by simp⟩ rfl (.cons ⟨sampleReq, x2.1, h2, rfl, rfl, rfl⟩ (.nil _)) (by
          unfold worker
          rw [h1, ok_bind]
          simp [worker])
      rw [h1] at e1
      rw [h2] at e2
      simp only [C.bind, ok.injEq] at e1 e2
      rw [a] at e1
      simp only [List.flatMap_cons, List.flatMap_nil, List.append_nil, St.sent, sampleSt, List.flatten_nil, List.nil_append] at e1 e2
      rw [e1] at e2
      revert e2
      decide

set_option maxRecDepth 20000 in
/-- Two requests, one of them for a file, and their replies. -/
theorem docs_each : ∃ r1 r2 fs', Each sampleEnv [⟨0, [], []⟩] docsFs
    [⟨7, b!"10.0.0.1", b!"BREW /pot HTTP/1.1\r\n\r\n", [65, 0]⟩, docsJob [65, 0]] [r1, r2] fs' := by
  have e1 : (serve sampleEnv { req := sampleReq, input := [], out := [], log := [], fs := docsFs, live := [⟨0, [], []⟩], closed := [] }
    ⟨7, b!"10.0.0.1", b!"BREW /pot HTTP/1.1\r\n\r\n", [65, 0]⟩).bind (fun x => ok x.1.fs) = ok docsFs := by rfl
  have e2 : ((serve sampleEnv { req := sampleReq, input := [], out := [], log := [], fs := docsFs, live := [⟨0, [], []⟩], closed := [] }
    (docsJob [65, 0])).bind (fun x => ok ())) = ok () := by decide +kernel
  cases h1 : serve sampleEnv { req := sampleReq, input := [], out := [], log := [], fs := docsFs, live := [⟨0, [], []⟩], closed := [] }
    ⟨7, b!"10.0.0.1", b!"BREW /pot HTTP/1.1\r\n\r\n", [65, 0]⟩ with
  | ub f => rw [h1] at e1; cases e1
  | ok x1 =>
    cases h2 : serve sampleEnv { req := sampleReq, input := [], out := [], log := [], fs := docsFs, live := [⟨0, [], []⟩], closed := [] }
      (docsJob [65, 0]) with
    | ub f => rw [h2] at e2; cases e2
    | ok x2 =>
      rw [h1] at e1
      simp only [C.bind, ok.injEq] at e1
      exact ⟨⟨x1.1.sent, x1.1.log, x1.2⟩, ⟨x2.1.sent, x2.1.log, x2.2⟩, x2.1.fs,
        .cons ⟨sampleReq, x1.1, h1, rfl, rfl, e1⟩ (.cons ⟨sampleReq, x2.1, h2, rfl, rfl, rfl⟩ (.nil _))⟩
example : UserBlind sampleEnv ∧ UserKeeps sampleEnv ∧
    Ready [⟨0, [], []⟩] [⟨7, b!"10.0.0.1", b!"BREW /pot HTTP/1.1\r\n\r\n", [65, 0]⟩, docsJob [65, 0]] :=
  ⟨sampleEnv_blind, sampleEnv_keeps, by simp [docsJob], by simp⟩

/-- C75: handlers and filters made of the response helpers do not look at the past. -/
theorem C75_helpers (env : Env) (p : Past) (st st' : St) :
    (∀ status m, send_http_status env st status m = ok st' → send_http_status env (st.after p) status m = ok (st'.after p)) ∧
    (∀ f n, direct_file env st f = ok (n, st') → direct_file env (st.after p) f = ok (n, st'.after p)) ∧
    (∀ d, http_print_str st d = ok st' → http_print_str (st.after p) d = ok (st'.after p)) ∧
    (∀ s, log_access env st s = ok st' → log_access env (st.after p) s = ok (st'.after p)) :=
  ⟨fun _ _ => send_http_status_after p, fun _ _ => direct_file_after p, fun _ => http_print_str_after p,
    fun _ => log_access_after p⟩

/-- An answer after another request answered on the same thread. -/
example (p : Past) : ∃ st', send_http_status sampleEnv sampleSt 404 b!"gone" = ok st' ∧
    send_http_status sampleEnv (sampleSt.after p) 404 b!"gone" = ok (st'.after p) := by
  obtain ⟨st', _, _, h, -⟩ := C30_status sampleEnv sampleSt [] sample_headers 404 (by decide) b!"gone" (by decide)
  exact ⟨st', h, (C75_helpers sampleEnv p sampleSt st').1 _ _ h⟩

end Wayuu
