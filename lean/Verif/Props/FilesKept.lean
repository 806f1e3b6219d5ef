import Verif.Props.Writes
import Verif.Props.PartsFit
import Verif.Props.WholeEnding
/-
If user code leaves the files alone, so does the server (with the library's digest size, storing an upload is never completed, see
`save_tmp_file_never`). A server that is set up well at the start stays so until somebody else changes the files.
-/
namespace Wayuu
open C Spec

/-- User code changes no files. -/
def UserLeaves (env : Env) : Prop :=
  (∀ id st st', env.handle id st = ok st' → st'.fs = st.fs) ∧ ∀ id st st' b, env.filt id st = ok (st', b) → st'.fs = st.fs

theorem part_parse_kept {env : Env} (hmax : 18 ≤ env.evpMax) {fs fs' : FS}
    {tf tf' tmpdata : Buf} {n : Int} (h : part_parse env fs tf tmpdata n = ok (tf', fs')) : fs' = fs := by
  unfold part_parse at h
  obtain ⟨_, -, h⟩ := bind_eq_ok.mp h
  obtain ⟨_, -, h⟩ := bind_eq_ok.mp h
  split at h
  · cases h; exact rfl
  obtain ⟨_, -, h⟩ := bind_eq_ok.mp h
  split at h
  · cases h; exact rfl
  split at h
  · cases h
  dsimp only at h
  obtain ⟨_, -, h⟩ := bind_eq_ok.mp h
  obtain ⟨_, -, h⟩ := bind_eq_ok.mp h
  obtain ⟨_, -, h⟩ := bind_eq_ok.mp h
  obtain ⟨_, -, h⟩ := bind_eq_ok.mp h
  obtain ⟨_, -, h⟩ := bind_eq_ok.mp h
  split at h <;>
  · obtain ⟨_, -, h⟩ := bind_eq_ok.mp h
    obtain ⟨_, -, h⟩ := bind_eq_ok.mp h
    split at h
    · split at h
      · obtain ⟨_, -, h⟩ := bind_eq_ok.mp h
        exact absurd h (save_tmp_file_never hmax _ _ _ _ _ _ _ _)
      · obtain ⟨_, -, h⟩ := bind_eq_ok.mp h
        obtain ⟨_, -, h⟩ := bind_eq_ok.mp h
        obtain ⟨_, -, h⟩ := bind_eq_ok.mp h
        obtain ⟨_, -, h⟩ := bind_eq_ok.mp h
        cases h; exact rfl
    · cases h; exact rfl

theorem partsLoop_kept {env : Env} (hmax : 18 ≤ env.evpMax) {form : Buf} {b : Str}
    {cl : Nat} : ∀ (n ptr : Nat) (tp tf tf' : Buf) (fs fs' : FS), partsLoop env form b cl n ptr tp tf fs = ok (tf', fs') →
      fs' = fs
  | 0, _, _, _, _, _, _, h => by cases h; exact rfl
  | n + 1, ptr, tp, tf, tf', fs, fs', h => by
    unfold partsLoop at h
    split at h
    · cases h; exact rfl
    obtain ⟨_, -, h⟩ := bind_eq_ok.mp h
    split at h
    · cases h; exact rfl
    obtain ⟨_, -, h⟩ := bind_eq_ok.mp h
    split at h
    · cases h; exact rfl
    dsimp only at h
    obtain ⟨_, -, h⟩ := bind_eq_ok.mp h
    obtain ⟨⟨tf1, fs1⟩, h1, h⟩ := bind_eq_ok.mp h
    dsimp only at h
    obtain ⟨_, -, h⟩ := bind_eq_ok.mp h
    exact (partsLoop_kept hmax n _ _ _ _ _ _ h).trans (part_parse_kept hmax h1)

theorem readForm_kept {env : Env} (hmax : 18 ≤ env.evpMax) {st st' : St} {n : Int}
    {b : Str} (h : readForm env st n b = ok st') : st'.fs = st.fs := by
  unfold readForm at h
  split at h
  · obtain ⟨⟨form, inp⟩, -, h⟩ := bind_eq_ok.mp h
    dsimp only at h
    split at h
    · obtain ⟨⟨form, fs⟩, h1, h⟩ := bind_eq_ok.mp h
      cases h
      unfold multipart_parse at h1
      obtain ⟨⟨tf, fs1⟩, h2, h1⟩ := bind_eq_ok.mp h1
      obtain ⟨_, -, h1⟩ := bind_eq_ok.mp h1
      obtain ⟨_, -, h1⟩ := bind_eq_ok.mp h1
      cases h1
      exact partsLoop_kept hmax _ _ _ _ _ _ _ h2
    · cases h; exact rfl
  · cases h; exact rfl

theorem router_kept {env : Env}  (hu : UserLeaves env) {st st' : St} {ev : List Event}
    (h : router_handle_request env st = ok (st', ev)) : st'.fs = st.fs := by
  unfold router_handle_request at h
  obtain ⟨_, -, h⟩ := bind_eq_ok.mp h
  obtain ⟨⟨hd, fl, form⟩, -, h⟩ := bind_eq_ok.mp h
  dsimp only at h
  cases hd with
  | none =>
    obtain ⟨s1, h1, h⟩ := bind_eq_ok.mp h
    cases h
    unfold reject_routing_request bad_request at h1
    exact (send_http_status_sameFs h1 :)
  | some hd =>
    cases fl with
    | none =>
      obtain ⟨s1, h1, h⟩ := bind_eq_ok.mp h
      cases h
      exact (hu.1 _ _ _ h1 :)
    | some f =>
      obtain ⟨⟨s1, b⟩, h1, h⟩ := bind_eq_ok.mp h
      have k1 := hu.2 _ _ _ _ h1
      cases b with
      | false =>
        simp only [Bool.not_false, if_true, ok.injEq, Prod.mk.injEq] at h
        rw [← h.1]
        exact k1
      | true =>
        simp only [Bool.not_true, Bool.false_eq_true, if_false] at h
        obtain ⟨s2, h2, h⟩ := bind_eq_ok.mp h
        cases h
        exact (hu.1 _ _ _ h2).trans k1

/-- The files after page or API. -/
theorem dispatch_kept {env : Env} (hmax : 18 ≤ env.evpMax) (hu : UserLeaves env) {st st1 : St} {url b : Str} {n : Int} {ev : List Event}
    (h1 : dispatch env st url n b = ok (st1, ev)) : st1.fs = st.fs := by
  unfold dispatch at h1
  obtain ⟨⟨path, query⟩, -, h1⟩ := bind_eq_ok.mp h1
  dsimp only at h1
  split at h1
  · split at h1
    · obtain ⟨s1, h2, h1⟩ := bind_eq_ok.mp h1
      cases h1
      exact (static_sameFs h2 :)
    · obtain ⟨s1, h2, h1⟩ := bind_eq_ok.mp h1
      cases h1
      exact (send_http_status_sameFs (show send_http_status _ _ _ _ = _ from h2) :)
  · obtain ⟨p, -, h1⟩ := bind_eq_ok.mp h1
    unfold handle_api_request at h1
    obtain ⟨s1, h2, h1⟩ := bind_eq_ok.mp h1
    exact (router_kept hu h1).trans (readForm_kept hmax h2 :)

/-- The files after a request. -/
theorem accept_kept {env : Env} (hmax : 18 ≤ env.evpMax) 
    (hu : UserLeaves env) {st st' : St} {socket : Nat} {peer : Str} {ev : List Event}
    (h : accept_request env st socket peer = ok (st', ev)) :
    st'.fs = st.fs := by
  obtain ⟨-, hc⟩ := accept_request_cases h
  cases hc with
  | badMethod buf inp rl method j st1 hr hm h1 => exact (send_http_status_sameFs (show send_http_status _ _ _ _ = _ from h1) :)
  | tooMany buf inp rl method j url live st1 hr hm hurl hadd h1 => exact (send_http_status_sameFs (show send_http_status _ _ _ _ = _ from h1) :)
  | served buf inp rl method j url live hd st1 ev hr hm hurl hadd hh h1 =>
    exact (dispatch_kept hmax hu h1 :)

namespace Whole
open Wayuu.Queue Wayuu.Server
open Spec

/-- Nobody else changes the files. -/
def Undisturbed (evs : List Ev) : Prop := ∀ e ∈ evs, ∀ fs, e ≠ .files fs

theorem files_kept {x : World} {w0 w : WSt} {evs : List Ev} (hmax : ∀ k, 18 ≤ (x.env k).evpMax) (hu : ∀ k, UserLeaves (x.env k))
    (h : Runs x w0 evs w) (hf : Undisturbed evs) : w.st.fs = w0.st.fs := by
  induction h with
  | nil => rfl
  | @snoc w' w'' e evs' _ hst ih =>
    have ih := ih (fun e he => hf e (List.mem_append_left _ he))
    cases e with
    | connect v =>
      obtain ⟨-, -, ⟨-, rfl⟩ | ⟨-, -, b, p, -, rfl⟩⟩ := connect_ok hst
      · exact ih
      · exact ih
    | error => rw [(error_ok hst).2.2]; exact ih
    | thread a =>
      obtain ⟨srv, -, ⟨-, rfl⟩ | ⟨v, st', ev, -, h1, rfl⟩⟩ := thread_ok hst
      · exact ih
      · exact (accept_kept (hmax _) (hu _) h1).trans ih
    | files fs => exact absurd rfl (hf (.files fs) (by simp) fs)

theorem always_sound {x : World} {cap n : Nat} {st : St} {evs : List Ev} {regs : List Registration} (hset : SoundServer x st regs)
    (hu : ∀ k, UserLeaves (x.env k)) (hf : Undisturbed evs) : AlwaysSound x cap n st evs regs := by
  intro evs1 e w1 hp hr
  have hfs : w1.st.fs = st.fs := files_kept hset.digest hu hr (fun e he => hf e (hp.subset (List.mem_append_left _ he)))
  exact ⟨hset.root, fun k => setup_move (hset.setup k) hfs, hset.digest, hset.peer⟩

/-- C149 from the start of the server: it is set up well when it starts, nobody else changes the files, and user code leaves them alone.
Then every client that is served gets what its bytes lead to on the server as it was at the start. -/
theorem C149_start (x : World) (cap n m : Nat) (st : St) (evs : List Ev) (w : WSt) (s : Nat → Str) (regs : List Registration)
    (hc : 0 < cap) (hu : ∀ k, UserKeeps (x.env k)) (hl : ∀ k, UserLeaves (x.env k)) (hst : st.live = List.replicate m ⟨0, [], []⟩)
    (hso : Sockets evs) (hf : Undisturbed evs) (h : Runs x (initial cap n st) evs w) (hset : SoundServer x st regs)
    (hs : ∀ k, Stack (x.env k) (s k) ∧ s k ≠ []) :
    ∀ d ∈ w.served, ∃ o,
      LeadsTo (x.env d.conn).limits st.live (x.client d.conn).peer regs (siteOf (x.env d.conn) (s d.conn)) st.fs (x.client d.conn).input o ∧
      (∀ o', LeadsTo (x.env d.conn).limits st.live (x.client d.conn).peer regs (siteOf (x.env d.conn) (s d.conn)) st.fs
        (x.client d.conn).input o' → o' = o) ∧ DoneAs (x.env d.conn) st.fs d o := by
  intro d hd
  obtain ⟨evs1, e, w1, o, h1, h2, -, h3, h4, h5⟩ := C149_served x cap n m st evs w s regs hc hu hst hso h (always_sound hset hl hf) hs d hd
  have hfs : w1.st.fs = st.fs := files_kept hset.digest hl h2 (fun e he => hf e (h1.subset (List.mem_append_left _ he)))
  rw [hfs] at h3 h4 h5
  exact ⟨o, h3, h4, h5⟩

/-- An answer with JSON does not touch the files. -/
theorem return_json_kept {env : Env} {st st' : St} {status : Int} {data : Str} (h : return_json_with_status env st status data = ok st') :
    st'.fs = st.fs := by
  unfold return_json_with_status at h
  obtain ⟨⟨_, s1⟩, h1, h⟩ := bind_eq_ok.mp h
  obtain ⟨_, -, h⟩ := bind_eq_ok.mp h
  obtain ⟨s2, h2, h⟩ := bind_eq_ok.mp h
  obtain ⟨s3, h3, h⟩ := bind_eq_ok.mp h
  obtain ⟨s4, h4, h⟩ := bind_eq_ok.mp h
  unfold http_print_str at h2 h3 h4
  have k1 : s1.fs = st.fs := by
    unfold return_json_headers at h1
    split at h1
    · cases h1; rfl
    · obtain ⟨_, -, h1⟩ := bind_eq_ok.mp h1
      obtain ⟨s5, h5, h1⟩ := bind_eq_ok.mp h1
      cases h1
      exact http_print_sameFs h5
  exact (log_access_sameFs h).trans ((http_print_sameFs h4).trans ((http_print_sameFs h3).trans ((http_print_sameFs h2).trans k1)))

/-- The code of the application in `soundEnv` answers and leaves the files alone. -/
theorem soundEnv_leaves : UserLeaves soundEnv :=
  ⟨fun _ _ _ h => return_json_kept h, fun _ st st' b h => by
    have h : (ok (st, true) : C (St × Bool)) = ok (st', b) := h
    cases h; rfl⟩

/-- A run in which a visitor is served meets the hypotheses. -/
example : ∃ w s, Runs calmWorld (initial 2 1 pageSt) calmEvs w ∧ w.served.length = 1 ∧ (∀ k, UserKeeps (calmWorld.env k)) ∧
    (∀ k, UserLeaves (calmWorld.env k)) ∧ pageSt.live = List.replicate 1 ⟨0, [], []⟩ ∧ Sockets calmEvs ∧ Undisturbed calmEvs ∧
    SoundServer calmWorld pageSt sampleRegs ∧ ∀ k, Stack (calmWorld.env k) s ∧ s ≠ [] := by
  have e : (run calmWorld (initial 2 1 pageSt) calmEvs).map (fun w => w.served.length) = some 1 := by decide +kernel
  obtain ⟨w, hw, hs⟩ := Option.map_eq_some_iff.mp e
  obtain ⟨s, h1, h2⟩ := (soundEnv_setup [] []).stack
  refine ⟨w, s, runs_of_run hw, hs, fun _ => soundEnv_keeps, fun _ => soundEnv_leaves, rfl,
    by unfold Sockets calmEvs putEvs takeEvs; simp, by unfold Undisturbed calmEvs putEvs takeEvs; simp, ?_, fun _ => ⟨h1, h2⟩⟩
  exact { root := by decide
          setup := fun _ => setup_move (soundEnv_setup [] []) rfl
          digest := fun _ => show 18 ≤ soundEnv.evpMax by decide
          peer := fun _ => show b!"10.0.0.1" ≠ [] ∧ (b!"10.0.0.1").length < 16 by decide }

end Whole
end Wayuu
