import Verif.Model.Messages
import Verif.Props.LogSingle
/-
Lemmas about the messages of a request.
-/
namespace Wayuu
open C Spec

theorem written_append (n : Nat) (a b : List Msg) : written n (a ++ b) = written n a ++ written n b := by
  unfold written
  exact List.filter_append _ _

theorem written_nil {n : Nat} {a : List Msg} (h : ∀ m ∈ a, m.level < n) : written n a = [] := by
  unfold written
  rw [List.filter_eq_nil_iff]
  intro m hm
  have := h m hm
  simp only [decide_eq_true_eq]
  omega

theorem validate_level (live : List Conn) (ip path : Str) : ∀ (n : Nat) (ls : List PathLimit),
    ∀ m ∈ validate_msgs live ip path n ls, m.level = 1
  | 0, _ => by simp [validate_msgs]
  | _ + 1, [] => by simp [validate_msgs]
  | n + 1, l :: r => by
    unfold validate_msgs
    dsimp only
    intro m hm
    split at hm
    · simp at hm
    · split at hm
      · split at hm
        · simp at hm; subst hm; rfl
        · split at hm
          · simp at hm; subst hm; rfl
          · exact validate_level live ip path n r m hm
      · exact validate_level live ip path n r m hm

theorem add_level (limits : List PathLimit) (live : List Conn) (ip path : Str) : ∀ m ∈ add_msgs limits live ip path, m.level = 1 := by
  intro m hm
  unfold add_msgs at hm
  rcases List.mem_append.mp hm with h | h
  · exact validate_level _ _ _ _ _ m h
  · split at h
    · simp at h; subst h; rfl
    · simp at h

theorem header_level {hs : List Header} {line : Str} {ms : List Msg} (h : header_msgs hs line = ok ms) : ∀ m ∈ ms, m.level = 0 := by
  unfold header_msgs at h
  split at h
  · obtain ⟨nv, -, h⟩ := bind_eq_ok.mp h
    split at h
    · obtain ⟨a, -, h⟩ := bind_eq_ok.mp h
      obtain ⟨b, -, h⟩ := bind_eq_ok.mp h
      cases h
      simp
    · cases h; simp
  · cases h; simp

theorem headerLoop_level : ∀ (n k : Nat) (h : HdrSt) (ms : List Msg), headerLoopMsgs n k h = ok ms → ∀ m ∈ ms, m.level = 0
  | 0, _, _, ms, hm => by
    cases hm; simp
  | n + 1, k, h, ms, hm => by
    unfold headerLoopMsgs at hm
    obtain ⟨line, -, hm⟩ := bind_eq_ok.mp hm
    split at hm
    · obtain ⟨a, h1, hm⟩ := bind_eq_ok.mp hm
      obtain ⟨h', -, hm⟩ := bind_eq_ok.mp hm
      obtain ⟨⟨k', buf, inp⟩, -, hm⟩ := bind_eq_ok.mp hm
      obtain ⟨more, h2, hm⟩ := bind_eq_ok.mp hm
      cases hm
      intro m hm
      rcases List.mem_append.mp hm with hm | hm
      · exact header_level h1 m hm
      · exact headerLoop_level n _ _ _ h2 m hm
    · cases hm; simp

theorem section_level {buf : Buf} {input : List Byte} {ip : Str} {ms : List Msg} (h : section_msgs buf input ip = ok ms) :
    ∀ m ∈ ms, m.level = 0 := by
  unfold section_msgs at h
  obtain ⟨b1, -, h⟩ := bind_eq_ok.mp h
  obtain ⟨b2, -, h⟩ := bind_eq_ok.mp h
  obtain ⟨⟨k', buf, inp⟩, -, h⟩ := bind_eq_ok.mp h
  exact headerLoop_level _ _ _ _ h

theorem param_level (matcher : Str) (rs : List Route) : ∀ m ∈ param_msgs matcher rs, m.level = 1 := by
  induction rs with
  | nil => simp [param_msgs]
  | cons r rs ih =>
    unfold param_msgs
    intro m hm
    split at hm
    · simp at hm
    · split at hm
      · simp at hm; subst hm; rfl
      · exact ih m hm

theorem router_level {env : Env} {req : Req} {ms : List Msg} (h : router_msgs env req = ok ms) : ∀ m ∈ ms, m.level = 1 := by
  unfold router_msgs at h
  obtain ⟨mt, -, h⟩ := bind_eq_ok.mp h
  obtain ⟨⟨hd, a, b⟩, -, h⟩ := bind_eq_ok.mp h
  dsimp only at h
  have hp := param_level mt env.routes
  split at h <;>
  · cases h
    intro m hm
    simp only [List.mem_append, List.mem_cons, List.not_mem_nil, or_false] at hm
    rcases hm with hm | hm
    all_goals first
      | (rcases hm with rfl | hm <;> first | rfl | exact hp m hm | (subst hm; rfl))
      | (subst hm; rfl)
      | exact hp m hm

/-- The values that decide what is written at the default level: not among them is the session. -/
theorem api_loud {env : Env} {st : St} {n : Int} {b : Str} {ms : List Msg} (h : api_msgs env st n b = ok ms) :
    ∃ fm, form_msgs env st n b = ok fm ∧ written DEFAULT_LEVEL ms = written DEFAULT_LEVEL fm := by
  unfold api_msgs at h
  obtain ⟨s, -, h⟩ := bind_eq_ok.mp h
  dsimp only at h
  obtain ⟨fm, h1, h⟩ := bind_eq_ok.mp h
  obtain ⟨st1, -, h⟩ := bind_eq_ok.mp h
  obtain ⟨rs, h2, h⟩ := bind_eq_ok.mp h
  cases h
  refine ⟨fm, h1, ?_⟩
  rw [written_append, written_append, written_append, written_nil (a := rs) (fun m hm => by rw [router_level h2 m hm]; decide),
    List.append_nil]
  rw [written_nil (by simp), written_nil]
  · rfl
  · intro m hm
    split at hm
    · simp at hm; subst hm; exact Nat.lt_succ_self 1
    · simp at hm

theorem static_congr {env : Env} {st st' : St} {ms ms' : List Msg} (h : static_msgs env st = ok ms) (h' : static_msgs env st' = ok ms')
    (e1 : st'.fs = st.fs) (e2 : st'.req.path = st.req.path) (e3 : st'.req.IP = st.req.IP) : ms' = ms := by
  unfold static_msgs at h h'
  rw [e1, e2, e3, h] at h'
  cases h'
  rfl

theorem form_congr {env : Env} {st st' : St} {n : Int} {b : Str} {ms ms' : List Msg} (h : form_msgs env st n b = ok ms)
    (h' : form_msgs env st' n b = ok ms') (e1 : st'.fs = st.fs) (e2 : st'.input = st.input) (e3 : st'.req.IP = st.req.IP) :
    ms' = ms := by
  unfold form_msgs at h h'
  rw [e1, e2, e3, h] at h'
  cases h'
  rfl

theorem dispatch_loud {env : Env} {st st' : St} {url : Str} {n : Int} {b : Str} {ms ms' : List Msg}
    (h : dispatch_msgs env st url n b = ok ms) (h' : dispatch_msgs env st' url n b = ok ms') (e1 : st'.fs = st.fs)
    (e2 : st'.input = st.input) (e3 : st'.req.IP = st.req.IP) (e4 : st'.req.method = st.req.method) :
    written DEFAULT_LEVEL ms = written DEFAULT_LEVEL ms' := by
  unfold dispatch_msgs at h h'
  obtain ⟨⟨path, query⟩, hq, h⟩ := bind_eq_ok.mp h
  rw [hq, ok_bind] at h'
  dsimp only at h h'
  split at h
  · rename_i hu
    rw [if_pos hu] at h'
    split at h
    · rename_i hg
      rw [e4, if_pos hg] at h'
      rw [static_congr h h' e1 rfl e3]
    · rename_i hg
      rw [e4, if_neg hg] at h'
      cases h; cases h'
      rfl
  · rename_i hu
    rw [if_neg hu] at h'
    obtain ⟨p, hp, h⟩ := bind_eq_ok.mp h
    rw [hp, ok_bind] at h'
    obtain ⟨f, k1, k2⟩ := api_loud h
    obtain ⟨f', k1', k2'⟩ := api_loud h'
    rw [k2, k2', form_congr k1 k1' e1 e2 e3]

end Wayuu
