import Verif.Model.LogRotate
import Verif.Props.LogFile
/-
C165, C166: the file of the server log under another name, and set again (log.c:63-112).
-/
namespace Wayuu.LogRotate
open C LogFile

/-- The lines of a file by its name. -/
def under (st : DState) (name : List Byte) : Option (List (List Byte)) := (st.names name).bind fun id => st.files[id]?

/-- A message of the program. -/
structure Message where
  level : Int
  ts : List Byte
  tid : List Byte
  loc : List Byte
  text : List Byte

/-- Levels of messages that do not end the program. -/
def Message.Usual (m : Message) : Prop := 0 ≤ m.level ∧ m.level ≤ 4

def Message.event (m : Message) : Event := .call (.msg m.level m.ts m.tid m.loc m.text)

/-- The lines of messages that pass a level. -/
def shown (level : Int) (ms : List Message) : List (List Byte) :=
  (ms.filter fun m => level ≤ m.level).map fun m =>
    m.ts ++ b!" " ++ m.tid ++ b!" " ++ levelName m.level ++ b!" " ++ m.loc ++ b!": " ++ m.text ++ b!"\n"

theorem shown_append (level : Int) (a b : List Message) : shown level (a ++ b) = shown level a ++ shown level b := by
  simp [shown]

theorem run_append (limit : Nat) {st st1 : DState} {a : List Event} (h : run limit st a = ok (st1, .returns)) (b : List Event) :
    run limit st (a ++ b) = run limit st1 b := by
  induction a generalizing st with
  | nil =>
    simp only [run, ok.injEq, Prod.mk.injEq, and_true] at h
    rw [h]; rfl
  | cons e a ih =>
    simp only [List.cons_append, run] at h ⊢
    cases he : event limit st e with
    | ub f => rw [he] at h; cases h
    | ok p =>
      obtain ⟨s, x⟩ := p
      rw [he] at h
      simp only [ok_bind] at h ⊢
      split at h
      · rename_i hx
        rw [if_pos hx]
        exact ih h
      · rename_i hx
        simp only [ok.injEq, Prod.mk.injEq] at h
        exact absurd h.2 hx

/-- Names belong to files. -/
def Wf (st : DState) : Prop := (∀ n id, st.names n = some id → id < st.files.length) ∧ ∀ id, st.stream = .file id → id < st.files.length

theorem wf_event {limit : Nat} {st st' : DState} {e : Event} {x : Exit} (hw : Wf st) (h : event limit st e = ok (st', x)) : Wf st' := by
  obtain ⟨w1, w2⟩ := hw
  unfold event at h
  split at h
  · unfold logMsg at h
    split at h
    · simp only [ok.injEq, Prod.mk.injEq] at h
      rw [← h.1]; exact ⟨w1, w2⟩
    · obtain ⟨⟨l, e⟩, -, h⟩ := bind_eq_ok.mp h
      obtain ⟨s, h1, h⟩ := bind_eq_ok.mp h
      simp only [ok.injEq, Prod.mk.injEq] at h
      rw [← h.1]
      unfold write at h1
      split at h1 <;> simp only [ok.injEq, reduceCtorEq] at h1
      · subst h1
        split <;> exact ⟨w1, by first | exact w2 | simp⟩
      · subst h1
        split
        · exact ⟨by simpa using w1, by simp⟩
        · exact ⟨by simpa using w1, by simpa using w2⟩
  · simp only [ok.injEq, Prod.mk.injEq] at h
    rw [← h.1]; exact ⟨w1, w2⟩
  · simp only [ok.injEq] at h
    unfold setFile at h
    split at h
    · split at h
      · rename_i id hid
        simp only [Prod.mk.injEq] at h
        rw [← h.1]
        refine ⟨w1, fun i hi => ?_⟩
        simp only [Stream.file.injEq] at hi
        subst hi
        exact w1 _ _ hid
      · simp only [Prod.mk.injEq] at h
        rw [← h.1]
        refine ⟨fun n id hn => ?_, fun i hi => ?_⟩
        · simp only at hn
          simp only [List.length_append, List.length_singleton]
          split at hn
          · simp only [Option.some.injEq] at hn; omega
          · have := w1 n id hn; omega
        · simp only [Stream.file.injEq] at hi
          simp only [List.length_append, List.length_singleton]
          omega
    · simp only [Prod.mk.injEq] at h
      rw [← h.1]
      exact ⟨w1, by simp⟩
  · split at h <;> simp only [ok.injEq, Prod.mk.injEq, reduceCtorEq] at h <;> (rw [← h.1]; exact ⟨w1, by simp⟩)
  · split at h
    · simp only [ok.injEq, Prod.mk.injEq] at h
      rw [← h.1]; exact ⟨w1, w2⟩
    · rename_i id hid
      simp only [ok.injEq, Prod.mk.injEq] at h
      rw [← h.1]
      refine ⟨fun n i hn => ?_, w2⟩
      simp only at hn
      split at hn
      · simp only [Option.some.injEq] at hn; subst hn; exact w1 _ _ hid
      · split at hn
        · simp at hn
        · exact w1 n i hn

theorem wf_run {limit : Nat} {st st' : DState} {es : List Event} {x : Exit} (hw : Wf st) (h : run limit st es = ok (st', x)) : Wf st' := by
  induction es generalizing st with
  | nil =>
    simp only [run, ok.injEq, Prod.mk.injEq] at h
    rw [← h.1]; exact hw
  | cons e es ih =>
    simp only [run] at h
    obtain ⟨⟨s, y⟩, h1, h⟩ := bind_eq_ok.mp h
    have hs := wf_event hw h1
    simp only at h
    split at h
    · exact ih hs h
    · simp only [ok.injEq, Prod.mk.injEq] at h
      rw [← h.1]; exact hs

theorem wf_init : Wf .init := ⟨by simp [DState.init], by simp [DState.init]⟩

/-- The line of a message. -/
def lineOf (m : Message) : List Byte :=
  m.ts ++ b!" " ++ m.tid ++ b!" " ++ levelName m.level ++ b!" " ++ m.loc ++ b!": " ++ m.text ++ b!"\n"

theorem event_message (limit : Nat) {st : DState} {id : Nat} (hs : st.stream = .file id) (m : Message) (hm : m.Usual) :
    event limit st m.event = ok (if st.level ≤ m.level then { st with files := st.files.modify id (· ++ [lineOf m]) } else st, .returns) := by
  obtain ⟨h0, h4⟩ := hm
  simp only [Message.event, event, logMsg]
  by_cases hl : m.level < st.level
  · rw [if_pos hl, if_neg (by omega)]
  · rw [if_neg hl, if_neg (by rw [hs]; simp), if_pos (by omega)]
    rw [logger_line (lv := st.level) (by omega) h0 (by omega)]
    simp only [ok_bind, write, hs]
    rw [if_neg (by omega)]
    rfl

/-- Messages go to the file that is open. -/
theorem run_messages (limit : Nat) {st : DState} {id : Nat} (hs : st.stream = .file id) (ms : List Message) (hm : ∀ m ∈ ms, m.Usual) :
    run limit st (ms.map Message.event) = ok ({ st with files := st.files.modify id (· ++ shown st.level ms) }, .returns) := by
  induction ms generalizing st with
  | nil =>
    have : st.files.modify id (fun x => x) = st.files := List.modify_id id st.files
    simp [run, shown, this]
  | cons m ms ih =>
    simp only [List.map_cons, run]
    rw [event_message limit hs m (hm m (by simp))]
    simp only [ok_bind, if_true]
    by_cases hl : st.level ≤ m.level
    · rw [if_pos hl, ih (by exact hs) fun x hx => hm x (by simp [hx])]
      simp [shown, hl, lineOf, List.modify_modify_eq, Function.comp_def]
    · rw [if_neg hl, ih hs fun x hx => hm x (by simp [hx])]
      simp [shown, hl]

/-! ### C165 -/

/-- The program sets its log file, writes messages, others rename the file, the program writes more messages. -/
def rotation (f g : List Byte) (pre post : List Message) : List Event :=
  .call (.set_file f) :: pre.map Message.event ++ .rename f g :: post.map Message.event

/-- The same with the log file set again after the renaming. -/
def rotationAgain (f g : List Byte) (pre post : List Message) : List Event :=
  .call (.set_file f) :: pre.map Message.event ++ .rename f g :: .call (.set_file f) :: post.map Message.event

/-- C165 as one would like it: the file under the old name has the messages after the renaming, the file under the new name those before. -/
def C165_statement : Prop :=
  ∀ (limit : Nat) (es : List Event) (st : DState) (f g : List Byte) (pre post : List Message), run limit .init es = ok (st, .returns) →
    st.opened < limit → f ≠ g → (∀ m ∈ pre, m.Usual) → (∀ m ∈ post, m.Usual) →
    ∃ st', run limit st (rotation f g pre post) = ok (st', .returns) ∧ (under st' f).getD [] = shown st.level post ∧
      under st' g = some ((under st f).getD [] ++ shown st.level pre)

theorem setFile_spec {limit : Nat} {st : DState} (hw : Wf st) (ho : st.opened < limit) (f : List Byte) :
    ∃ st1 id, setFile limit st f = (st1, .returns) ∧ st1.stream = .file id ∧ st1.level = st.level ∧ st1.names f = some id ∧
      st1.files[id]? = some ((under st f).getD []) ∧ st1.opened = st.opened + 1 := by
  unfold setFile
  rw [if_pos ho]
  cases h : st.names f with
  | some id =>
    have hi := hw.1 _ _ h
    exact ⟨_, id, rfl, rfl, rfl, h, by simp [under, h, hi], rfl⟩
  | none => exact ⟨_, st.files.length, rfl, rfl, rfl, by simp, by simp [under, h], rfl⟩

/-- State after the log file is set, messages, and the renaming. -/
theorem run_renamed {limit : Nat} {st : DState} (hw : Wf st) (ho : st.opened < limit) {f g : List Byte} (hfg : f ≠ g) {pre : List Message}
    (hp : ∀ m ∈ pre, m.Usual) :
    ∃ st2 id, run limit st (.call (.set_file f) :: pre.map Message.event ++ [.rename f g]) = ok (st2, .returns) ∧ Wf st2 ∧
      st2.stream = .file id ∧ st2.level = st.level ∧ st2.names f = none ∧ st2.names g = some id ∧
      st2.files[id]? = some ((under st f).getD [] ++ shown st.level pre) ∧ st2.opened = st.opened + 1 := by
  obtain ⟨st1, id, h1, hs, hl, hn, hf, hop⟩ := setFile_spec hw ho f
  have key : run limit st (.call (.set_file f) :: pre.map Message.event ++ [.rename f g]) =
      ok ({ st1 with files := st1.files.modify id (· ++ shown st1.level pre),
                     names := fun n => if n = g then some id else if n = f then none else st1.names n }, .returns) := by
    simp only [List.cons_append, run, event, h1, ok_bind, if_true]
    rw [run_append limit (run_messages limit hs pre hp)]
    simp [run, event, hn]
  refine ⟨_, id, key, wf_run hw key, hs, hl, by simp [hfg], by simp, ?_, hop⟩
  simp [hf, hl]

/-- Without a further `log_set_file` every message after the renaming goes to the renamed file, and nothing is under the old name. -/
theorem C165_follows (limit : Nat) (es : List Event) (st : DState) (f g : List Byte) (pre post : List Message)
    (hr : run limit .init es = ok (st, .returns)) (ho : st.opened < limit) (hfg : f ≠ g) (hp : ∀ m ∈ pre, m.Usual) (hq : ∀ m ∈ post, m.Usual) :
    ∃ st', run limit st (rotation f g pre post) = ok (st', .returns) ∧ under st' f = none ∧
      under st' g = some ((under st f).getD [] ++ shown st.level pre ++ shown st.level post) := by
  obtain ⟨st2, id, h2, -, hs, hl, hf, hg, hfi, -⟩ := run_renamed (wf_run wf_init hr) ho hfg hp
  have key := run_messages limit hs post hq
  rw [← run_append limit h2, show (.call (.set_file f) :: pre.map Message.event ++ [.rename f g]) ++ post.map Message.event = rotation f g pre post by
    simp [rotation]] at key
  refine ⟨_, key, ?_, ?_⟩
  · simp [under, hf]
  · simp [under, hg, List.getElem?_modify, hfi, hl]

/-- With the log file set again after the renaming, the messages after it are in a new file under the old name, and the renamed file keeps those before. -/
theorem C165_partial (limit : Nat) (es : List Event) (st : DState) (f g : List Byte) (pre post : List Message)
    (hr : run limit .init es = ok (st, .returns)) (ho : st.opened + 1 < limit) (hfg : f ≠ g) (hp : ∀ m ∈ pre, m.Usual) (hq : ∀ m ∈ post, m.Usual) :
    ∃ st', run limit st (rotationAgain f g pre post) = ok (st', .returns) ∧ under st' f = some (shown st.level post) ∧
      under st' g = some ((under st f).getD [] ++ shown st.level pre) := by
  obtain ⟨st2, id, h2, hw2, hs, hl, hf, hg, hfi, hop⟩ := run_renamed (limit := limit) (wf_run wf_init hr) (by omega) hfg hp
  have hid := hw2.1 _ _ hg
  have h3 : event limit st2 (.call (.set_file f)) = ok ({ st2 with stream := .file st2.files.length, files := st2.files ++ [[]], names := fun n => if n = f then some st2.files.length else st2.names n, opened := st2.opened + 1 }, .returns) := by
    simp only [event, setFile]
    rw [if_pos (by omega)]
    simp only [hf]
  have h4 : run limit st (rotationAgain f g pre post) = run limit
      { st2 with stream := .file st2.files.length, files := st2.files ++ [[]], names := fun n => if n = f then some st2.files.length else st2.names n, opened := st2.opened + 1 }
      (post.map Message.event) := by
    rw [show rotationAgain f g pre post = (.call (.set_file f) :: pre.map Message.event ++ [.rename f g]) ++ .call (.set_file f) :: post.map Message.event by
        simp [rotationAgain], run_append limit h2]
    simp only [run, h3, ok_bind, if_true]
  have key := h4.trans (run_messages limit (id := st2.files.length) rfl post hq)
  refine ⟨_, key, ?_, ?_⟩
  · simp [under, List.getElem?_modify, hl]
  · simp [under, hfg.symm, hg, List.getElem?_modify, hfi, show ¬ st2.files.length = id by omega, List.getElem?_append_left hid]

/-- A message for the examples. -/
def hello : Message := ⟨2, b!"t", b!"1", b!"a.c:1", b!"hello"⟩

theorem C165_refuted : ¬ C165_statement := by
  intro h
  obtain ⟨s1, r1, a1, -⟩ := h 10 [] .init b!"s.log" b!"s.log.1" [] [hello] rfl (by decide) (by decide) (by simp) (by simp [hello, Message.Usual])
  obtain ⟨s2, r2, a2, -⟩ := C165_follows 10 [] .init b!"s.log" b!"s.log.1" [] [hello] rfl (by decide) (by decide) (by simp) (by simp [hello, Message.Usual])
  rw [r1] at r2
  simp only [ok.injEq, Prod.mk.injEq, and_true] at r2
  rw [r2, a2] at a1
  revert a1
  decide

/-- The hypotheses hold for a log file with one message before and one after the renaming, and the lines are not empty. -/
example : run 10 .init [] = ok (DState.init, Exit.returns) ∧ DState.init.opened + 1 < 10 ∧ (b!"s.log" : Str) ≠ b!"s.log.1" ∧ hello.Usual ∧
    shown DState.init.level [hello] = [b!"t 1 INFO  a.c:1: hello\n"] := ⟨rfl, by decide, by decide, by simp [hello, Message.Usual], by decide⟩

/-! ### C166 -/

/-- How often the log file is set. -/
def sets (es : List Event) : Nat := es.countP fun e => match e with | .call (.set_file _) => true | _ => false

/-- Events without the end of the log and without messages that end the program. -/
def Ordinary (es : List Event) : Prop := ∀ e ∈ es, match e with
  | .call (.msg l _ _ _ _) => 0 ≤ l ∧ l ≤ 4
  | .call .close_file => False
  | _ => True

/-- C166 as one would like it: setting the log file does not end the program, however often. -/
def C166_statement : Prop :=
  ∀ (limit : Nat) (es : List Event), 0 < limit → Ordinary es → ∃ st, run limit .init es = ok (st, .returns)

theorem event_ordinary (limit : Nat) {st : DState} (hs : st.stream ≠ .closed) {e : Event} (he : Ordinary [e]) :
    ∃ st' x, event limit st e = ok (st', x) ∧ st'.stream ≠ .closed ∧
      ((x = .returns ∧ st'.opened = st.opened + sets [e] ∧ (sets [e] = 1 → st.opened < limit)) ∨
        x = .failure ∧ sets [e] = 1 ∧ limit ≤ st.opened) := by
  have he := he e (by simp)
  rcases e with ⟨⟨l, ts, tid, loc, text⟩ | l | f | _⟩ | ⟨a, b⟩
  · obtain ⟨h0, h4⟩ := he
    simp only [event, logMsg]
    by_cases hl : l < st.level
    · rw [if_pos hl]
      exact ⟨_, _, rfl, hs, .inl ⟨rfl, by simp [sets], by simp [sets]⟩⟩
    · rw [if_neg hl]
      cases h : st.stream with
      | closed => exact absurd h hs
      | null =>
        simp only [if_true]
        rw [logger_line (lv := st.level) (by omega) h0 (by omega), if_neg (by omega)]
        exact ⟨_, _, rfl, by simp, .inl ⟨rfl, by simp [sets], by simp [sets]⟩⟩
      | stderr =>
        simp only [reduceCtorEq, if_false]
        rw [logger_line (lv := st.level) (by omega) h0 (by omega), if_neg (by omega)]
        simp only [ok_bind, write, h]
        exact ⟨_, _, rfl, by simp, .inl ⟨rfl, by simp [sets], by simp [sets]⟩⟩
      | file id =>
        simp only [reduceCtorEq, if_false]
        rw [logger_line (lv := st.level) (by omega) h0 (by omega), if_neg (by omega)]
        simp only [ok_bind, write, h]
        exact ⟨_, _, rfl, by simp, .inl ⟨rfl, by simp [sets], by simp [sets]⟩⟩
  · exact ⟨_, _, rfl, hs, .inl ⟨rfl, by simp [sets], by simp [sets]⟩⟩
  · simp only [event, setFile]
    by_cases ho : st.opened < limit
    · rw [if_pos ho]
      cases h : st.names f with
      | some id => exact ⟨_, _, rfl, by simp, .inl ⟨rfl, by simp [sets], fun _ => ho⟩⟩
      | none => exact ⟨_, _, rfl, by simp, .inl ⟨rfl, by simp [sets], fun _ => ho⟩⟩
    · rw [if_neg ho]
      exact ⟨_, _, rfl, by simp, .inr ⟨rfl, by simp [sets], by omega⟩⟩
  · exact he.elim
  · simp only [event]
    cases h : st.names a with
    | none => exact ⟨_, _, rfl, hs, .inl ⟨rfl, by simp [sets], by simp [sets]⟩⟩
    | some id => exact ⟨_, _, rfl, hs, .inl ⟨rfl, by simp [sets], by simp [sets]⟩⟩

theorem sets_cons (e : Event) (es : List Event) : sets (e :: es) = sets [e] + sets es := by
  simp only [sets, List.countP_cons, List.countP_nil]
  omega

theorem run_ordinary (limit : Nat) {st : DState} (hs : st.stream ≠ .closed) {es : List Event} (he : Ordinary es) (hle : st.opened ≤ limit) :
    ∃ st', run limit st es = ok (st', if st.opened + sets es ≤ limit then .returns else .failure) := by
  induction es generalizing st with
  | nil => exact ⟨st, by simp [run, sets, hle]⟩
  | cons e es ih =>
    obtain ⟨s1, x, h1, hc, h⟩ := event_ordinary limit hs (e := e) fun y hy => he y (by simp_all)
    rw [sets_cons]
    have h01 : sets [e] ≤ 1 := List.countP_le_length (l := [e])
    rcases h with ⟨rfl, h2, h3⟩ | ⟨rfl, h2, h3⟩
    · obtain ⟨s2, h4⟩ := ih hc (fun y hy => he y (by simp [hy])) (by
        rcases Nat.lt_or_ge (sets [e]) 1 with hh | hh
        · omega
        · have := h3 (by omega); omega)
      refine ⟨s2, ?_⟩
      simp only [run, h1, ok_bind, if_true]
      rw [h4, h2, Nat.add_assoc]
    · refine ⟨s1, ?_⟩
      rw [if_neg (by omega)]
      simp [run, h1]

/-- Exactly when the log file is set more often than streams can be open, the program ends with failure; otherwise it goes on. -/
theorem C166_exact (limit : Nat) (es : List Event) (he : Ordinary es) :
    ∃ st, run limit .init es = ok (st, if sets es ≤ limit then .returns else .failure) := by
  simpa [DState.init] using run_ordinary limit (st := .init) (by simp [DState.init]) he (by simp [DState.init])

/-- As long as the log file is set no more often than streams can be open, the program goes on. -/
theorem C166_partial (limit : Nat) (es : List Event) (he : Ordinary es) (hn : sets es ≤ limit) :
    ∃ st, run limit .init es = ok (st, .returns) := by
  obtain ⟨st, h⟩ := C166_exact limit es he
  exact ⟨st, by rw [h, if_pos hn]⟩

theorem C166_refuted : ¬ C166_statement := by
  intro h
  have ho : Ordinary [.call (.set_file b!"a"), .call (.set_file b!"a")] := by simp [Ordinary]
  obtain ⟨s1, h1⟩ := h 1 _ (by decide) ho
  obtain ⟨s2, h2⟩ := C166_exact 1 _ ho
  rw [h1] at h2
  simp [sets] at h2

/-- The hypotheses hold for a program that sets two files and writes a message. -/
example : Ordinary [.call (.set_file b!"a"), hello.event, .call (.set_file b!"b")] ∧
    sets [.call (.set_file b!"a"), hello.event, .call (.set_file b!"b")] ≤ 1020 := by
  constructor
  · simp [Ordinary, hello, Message.event]
  · decide

/-! ### Nothing is lost -/

/-- The lines of all messages that pass the level of their time. -/
def passed (level : Int) : List Event → List (List Byte)
  | [] => []
  | .call (.msg l ts tid loc text) :: es => shown level [⟨l, ts, tid, loc, text⟩] ++ passed level es
  | .call (.set_level l) :: es => passed l es
  | _ :: es => passed level es

/-- What was written is `lines`, each in one place, in order. -/
def Holds (st : DState) (lines : List (List Byte)) : Prop :=
  (st.err ++ st.files.flatten).Perm lines ∧ st.err.Sublist lines ∧ ∀ l ∈ st.files, l.Sublist lines

theorem flatten_modify (fs : List (List Str)) (id : Nat) (h : id < fs.length) (x : List Str) :
    ((fs.modify id (· ++ x)).flatten).Perm (fs.flatten ++ x) := by
  induction fs generalizing id with
  | nil => simp at h
  | cons a fs ih =>
    cases id with
    | zero =>
      simp only [List.modify_zero_cons, List.flatten_cons, List.append_assoc]
      exact List.Perm.append_left a List.perm_append_comm
    | succ id =>
      simp only [List.modify_succ_cons, List.flatten_cons, List.append_assoc]
      exact List.Perm.append_left a (ih id (by simpa using h))

theorem holds_err {st : DState} {lines : List Str} (h : Holds st lines) (x : List Str) :
    Holds { st with stream := .stderr, err := st.err ++ x } (lines ++ x) := by
  obtain ⟨h1, h2, h3⟩ := h
  refine ⟨?_, h2.append (List.Sublist.refl x), fun l hl => (h3 l hl).trans (List.sublist_append_left ..)⟩
  refine List.Perm.trans ?_ (h1.append_right x)
  simp only [List.append_assoc]
  exact List.Perm.append_left _ List.perm_append_comm

theorem holds_file {st : DState} {lines : List Str} (h : Holds st lines) {id : Nat} (hi : id < st.files.length) (x : List Str) :
    Holds { st with files := st.files.modify id (· ++ x) } (lines ++ x) := by
  obtain ⟨h1, h2, h3⟩ := h
  refine ⟨?_, h2.trans (List.sublist_append_left ..), fun l hl => ?_⟩
  · refine List.Perm.trans (List.Perm.append_left _ (flatten_modify _ _ hi x)) ?_
    rw [← List.append_assoc]
    exact h1.append_right x
  · obtain ⟨i, hi', rfl⟩ := List.getElem_of_mem hl
    simp only [List.length_modify] at hi'
    rw [List.getElem_modify]
    split
    · exact (h3 _ (List.getElem_mem hi')).append (List.Sublist.refl x)
    · exact (h3 _ (List.getElem_mem hi')).trans (List.sublist_append_left ..)

theorem run_holds {limit : Nat} {st st' : DState} {es : List Event} {lines : List Str} (hw : Wf st) (hs : st.stream ≠ .closed) (he : Ordinary es)
    (hh : Holds st lines) (h : run limit st es = ok (st', .returns)) : Holds st' (lines ++ passed st.level es) := by
  induction es generalizing st lines with
  | nil =>
    simp only [run, ok.injEq, Prod.mk.injEq, and_true] at h
    subst h
    simpa [passed] using hh
  | cons e es ih =>
    have he1 := he e (by simp)
    have he2 : Ordinary es := fun y hy => he y (by simp [hy])
    obtain ⟨s1, x, h1, hc, -⟩ := event_ordinary limit hs (e := e) fun y hy => he y (by simp_all)
    have hw1 := wf_event hw h1
    simp only [run, h1, ok_bind] at h
    have hx : x = .returns := by
      by_contra hx
      simp only [hx, if_false, ok.injEq, Prod.mk.injEq] at h
      exact h.2.elim
    subst hx
    simp only [if_true] at h
    have go : ∀ ls, Holds s1 (lines ++ ls) → ls ++ passed s1.level es = passed st.level (e :: es) →
        Holds st' (lines ++ passed st.level (e :: es)) := fun ls a b => by
      have := ih hw1 hc he2 a h
      rwa [List.append_assoc, b] at this
    rcases e with ⟨⟨l, ts, tid, loc, text⟩ | l | f | _⟩ | ⟨a, b⟩
    · obtain ⟨h0, h4⟩ := he1
      simp only [event, logMsg] at h1
      by_cases hl : l < st.level
      · rw [if_pos hl] at h1
        simp only [ok.injEq, Prod.mk.injEq, and_true] at h1
        subst h1
        exact go [] (by simpa using hh) (by simp [passed, shown, show ¬ st.level ≤ l by omega])
      · rw [if_neg hl] at h1
        have hsh : ∀ lv, lv = st.level → [lineOf ⟨l, ts, tid, loc, text⟩] ++ passed lv es = passed st.level (.call (.msg l ts tid loc text) :: es) := by
          rintro lv rfl
          simp [passed, shown, lineOf, show st.level ≤ l by omega]
        cases hst : st.stream with
        | closed => exact absurd hst hs
        | null =>
          rw [if_pos hst] at h1
          rw [logger_line (lv := st.level) (by omega) h0 (by omega), if_neg (by omega)] at h1
          simp only [ok_bind, write, ok.injEq, Prod.mk.injEq, and_true] at h1
          subst h1
          exact go [lineOf ⟨l, ts, tid, loc, text⟩] (holds_err hh _) (hsh _ rfl)
        | stderr =>
          rw [if_neg (by rw [hst]; simp)] at h1
          rw [logger_line (lv := st.level) (by omega) h0 (by omega), if_neg (by omega)] at h1
          simp only [ok_bind, write, hst, ok.injEq, Prod.mk.injEq, and_true] at h1
          subst h1
          exact go [lineOf ⟨l, ts, tid, loc, text⟩] (holds_err hh _) (hsh _ rfl)
        | file id =>
          rw [if_neg (by rw [hst]; simp)] at h1
          rw [logger_line (lv := st.level) (by omega) h0 (by omega), if_neg (by omega)] at h1
          simp only [ok_bind, write, hst, ok.injEq, Prod.mk.injEq, and_true] at h1
          subst h1
          exact go [lineOf ⟨l, ts, tid, loc, text⟩] (holds_file hh (hw.2 _ hst) _) (hsh _ rfl)
    · simp only [event, ok.injEq, Prod.mk.injEq, and_true] at h1
      subst h1
      exact go [] (by simpa [Holds] using hh) (by simp [passed])
    · simp only [event, ok.injEq, setFile] at h1
      split at h1
      · split at h1 <;> simp only [Prod.mk.injEq, and_true] at h1 <;> subst h1
        · exact go [] (by simpa [Holds] using hh) (by simp [passed])
        · refine go [] ?_ (by simp [passed])
          obtain ⟨a1, a2, a3⟩ := hh
          refine ⟨by simpa using a1, by simpa using a2, fun l hl => ?_⟩
          simp only [List.mem_append, List.mem_singleton] at hl
          rcases hl with hl | rfl
          · simpa using a3 l hl
          · exact List.nil_sublist _
      · simp at h1
    · exact he1.elim
    · simp only [event] at h1
      split at h1 <;> simp only [ok.injEq, Prod.mk.injEq, and_true] at h1 <;> subst h1
      · exact go [] (by simpa using hh) (by simp [passed])
      · exact go [] (by simpa [Holds] using hh) (by simp [passed])

/-- Whatever the program sets and others rename, each message that passes the level is in exactly one place, and each place has its messages in order. -/
theorem C165_kept (limit : Nat) (es : List Event) (st : DState) (he : Ordinary es) (h : run limit .init es = ok (st, .returns)) :
    (st.err ++ st.files.flatten).Perm (passed 2 es) ∧ st.err.Sublist (passed 2 es) ∧ ∀ l ∈ st.files, l.Sublist (passed 2 es) := by
  have := run_holds (lines := []) wf_init (by simp [DState.init]) he ⟨by simp [DState.init], by simp [DState.init], by simp [DState.init]⟩ h
  simpa [DState.init, LOG_INFO, Holds] using this

/-- The hypotheses hold for a program whose file is renamed between two messages. -/
example : let es := [hello.event, .call (.set_file b!"s.log"), hello.event, .rename b!"s.log" b!"s.log.1", hello.event]
    Ordinary es ∧ (∃ st, run 10 .init es = ok (st, .returns)) ∧ (passed 2 es).length = 3 := by
  intro es
  have ho : Ordinary es := by simp [es, Ordinary, hello, Message.event]
  exact ⟨ho, C166_partial 10 es ho (by decide), by decide⟩

end Wayuu.LogRotate
