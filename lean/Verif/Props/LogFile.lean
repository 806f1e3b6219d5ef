import Verif.Model.LogFile
import Verif.Props.Log
/-
Property C90 (log.c, the destination of messages).
-/
namespace Wayuu.LogFile
open C

/-! ### What is expected, from the calls alone -/

/-- The file named by the last `log_set_file`. -/
def lastFile (before : List Call) : Option Str :=
  (before.filterMap (fun c => match c with | .set_file f => some f | _ => none)).getLast?

/-- The level of the last `log_set_level`, at first INFO. -/
def lastLevel (before : List Call) : Int :=
  (before.filterMap (fun c => match c with | .set_level l => some l | _ => none)).getLast?.getD 2

/-- The names of the levels in a line. -/
def levelName (l : Int) : Str :=
  if l = 0 then b!"TRACE" else if l = 1 then b!"DEBUG" else if l = 2 then b!"INFO " else if l = 3 then b!"WARN " else if l = 4 then b!"ERROR" else b!"FATAL"

/-- The line of the call number `i`, if it is a message that passes the level and goes to `dest` (a file, or stderr for `none`). -/
def lineTo (dest : Option Str) (cs : List Call) (i : Nat) : Option Str :=
  match cs[i]? with
  | some (.msg l ts tid loc text) =>
    if lastFile (cs.take i) = dest ∧ lastLevel (cs.take i) ≤ l then
      some (ts ++ b!" " ++ tid ++ b!" " ++ levelName l ++ b!" " ++ loc ++ b!": " ++ text ++ b!"\n")
    else none
  | _ => none

/-- The lines for a destination, in the order of the calls. -/
def linesTo (dest : Option Str) (cs : List Call) : List Str := (List.range cs.length).filterMap (lineTo dest cs)

/-- Levels 0 to 5 are used, and the files can be opened. -/
def Sensible (canOpen : Str → Bool) : Call → Prop
  | .msg l .. => 0 ≤ l ∧ l ≤ 4
  | .set_level l => 0 ≤ l ∧ l ≤ 5
  | .set_file f => canOpen f = true
  | .close_file => True

/-- C90: whatever the sequence of calls (levels in range, files that can be opened, no fatal messages), each message that passes the level
is appended to the file last set, or goes to stderr before that; nothing else is written. -/
def C90_statement : Prop :=
  ∀ (canOpen : Str → Bool) (cs : List Call), (∀ c ∈ cs, Sensible canOpen c) →
    ∃ st, calls canOpen .init cs = ok (st, .returns) ∧ st.err = linesTo none cs ∧ ∀ f, st.files f = linesTo (some f) cs

/-- C90 is false: `log_close_file` leaves the pointer to the closed stream in place, and the next message uses it. -/
theorem C90_refuted : ¬ C90_statement := by
  intro h
  obtain ⟨st, h, -⟩ := h (fun _ => true) [.set_file b!"a.log", .close_file, .msg 2 [] [] [] []] (by
    intro c hc
    simp only [List.mem_cons, List.not_mem_nil, or_false] at hc
    rcases hc with rfl | rfl | rfl
    · rfl
    · trivial
    · show (0 : Int) ≤ 2 ∧ (2 : Int) ≤ 4
      decide)
  cases h

/-! ### Without `log_close_file` -/

theorem calls_snoc (canOpen : Str → Bool) (st : LState) (cs : List Call) (c : Call) :
    calls canOpen st (cs ++ [c]) = (do
      let (st, e) ← calls canOpen st cs
      if e = .returns then call canOpen st c else ok (st, e)) := by
  induction cs generalizing st with
  | nil =>
    show (do let (st, e) ← call canOpen st c; if e = .returns then ok (st, .returns) else ok (st, e)) = call canOpen st c
    cases call canOpen st c with
    | ub f => rfl
    | ok r =>
      obtain ⟨st', e⟩ := r
      cases e <;> rfl
  | cons d cs ih =>
    simp only [List.cons_append, calls]
    cases call canOpen st d with
    | ub f => rfl
    | ok r =>
      obtain ⟨st', e⟩ := r
      cases e with
      | returns => exact ih st'
      | failure => rfl
      | success => rfl

theorem lineTo_snoc (dest : Option Str) (cs : List Call) (c : Call) (i : Nat) (hi : i < cs.length) :
    lineTo dest (cs ++ [c]) i = lineTo dest cs i := by
  unfold lineTo
  rw [List.getElem?_append_left hi, List.take_append_of_le_length (by omega)]

theorem linesTo_snoc (dest : Option Str) (cs : List Call) (c : Call) :
    linesTo dest (cs ++ [c]) = linesTo dest cs ++ (lineTo dest (cs ++ [c]) cs.length).toList := by
  unfold linesTo
  rw [List.length_append, List.length_singleton, List.range_succ, List.filterMap_append]
  congr 1
  · apply List.filterMap_congr
    intro i hi
    exact lineTo_snoc dest cs c i (List.mem_range.mp hi)

/-- The variables after calls that did not close the file. -/
def Follows (cs : List Call) (st : LState) : Prop :=
  st.level = lastLevel cs ∧ st.err = linesTo none cs ∧ (∀ f, st.files f = linesTo (some f) cs) ∧
  (match lastFile cs with
    | some f => st.stream = .file f
    | none => st.stream = .null ∨ st.stream = .stderr)

theorem lastFile_snoc (cs : List Call) (c : Call) :
    lastFile (cs ++ [c]) = (match c with | .set_file f => some f | _ => lastFile cs) := by
  unfold lastFile
  cases c <;> simp [List.filterMap_append]

theorem lastLevel_snoc (cs : List Call) (c : Call) :
    lastLevel (cs ++ [c]) = (match c with | .set_level l => l | _ => lastLevel cs) := by
  unfold lastLevel
  cases c <;> simp [List.filterMap_append]

theorem lineTo_last (dest : Option Str) (cs : List Call) (l : Int) (ts tid loc text : Str) :
    lineTo dest (cs ++ [.msg l ts tid loc text]) cs.length =
      if lastFile cs = dest ∧ lastLevel cs ≤ l then
        some (ts ++ b!" " ++ tid ++ b!" " ++ levelName l ++ b!" " ++ loc ++ b!": " ++ text ++ b!"\n")
      else none := by
  unfold lineTo
  simp

theorem lineTo_other (dest : Option Str) (cs : List Call) (c : Call) (h : ∀ l ts tid loc text, c ≠ .msg l ts tid loc text) :
    lineTo dest (cs ++ [c]) cs.length = none := by
  unfold lineTo
  rw [List.getElem?_append_right (by omega)]
  simp only [Nat.sub_self, List.getElem?_cons_zero]
  cases c with
  | msg l ts tid loc text => exact absurd rfl (h l ts tid loc text)
  | _ => rfl

theorem logger_line {lv l : Int} (h : lv ≤ l) (h0 : 0 ≤ l) (h5 : l ≤ 5) (ts tid loc text : Str) :
    logger ⟨lv, []⟩ l ts tid loc text =
      ok (⟨lv, [ts ++ b!" " ++ tid ++ b!" " ++ levelName l ++ b!" " ++ loc ++ b!": " ++ text ++ b!"\n"]⟩, if l = 5 then .failure else .returns) := by
  have : l = 0 ∨ l = 1 ∨ l = 2 ∨ l = 3 ∨ l = 4 ∨ l = 5 := by omega
  unfold logger
  rw [if_neg (by show ¬ l < lv; omega), if_neg (by omega)]
  rcases this with rfl | rfl | rfl | rfl | rfl | rfl <;> rfl

theorem follows_msg {cs : List Call} {st : LState} (h : Follows cs st) {l : Int} (h0 : 0 ≤ l) (h5 : l ≤ 5) (ts tid loc text : Str) :
    ∃ st', logMsg st l ts tid loc text = ok (st', if l = 5 ∧ lastLevel cs ≤ l then .failure else .returns) ∧
      Follows (cs ++ [.msg l ts tid loc text]) st' := by
  obtain ⟨k1, k2, k3, k4⟩ := h
  unfold logMsg
  by_cases hl : l < st.level
  · rw [if_pos hl]
    have hn : ¬ lastLevel cs ≤ l := by omega
    refine ⟨st, by rw [if_neg (by simp [hn])], ?_⟩
    refine ⟨by rw [lastLevel_snoc]; exact k1, ?_, fun f => ?_, by rw [lastFile_snoc]; exact k4⟩
    · rw [linesTo_snoc, lineTo_last, if_neg (by simp [hn]), k2]; simp
    · rw [linesTo_snoc, lineTo_last, if_neg (by simp [hn]), k3]; simp
  · rw [if_neg hl]
    have hn : lastLevel cs ≤ l := by omega
    have e : (if l = 5 ∧ lastLevel cs ≤ l then Exit.failure else .returns) = if l = 5 then .failure else .returns := by simp [hn]
    rw [e]
    cases hf : lastFile cs with
    | some f =>
      rw [hf] at k4
      dsimp only at k4
      have hne : ¬ st.stream = .null := by rw [k4]; simp
      rw [if_neg hne]
      dsimp only
      rw [logger_line (by omega) h0 h5]
      simp only [write, k4, ok_bind]
      refine ⟨_, rfl, ?_⟩
      refine ⟨by rw [lastLevel_snoc]; exact k1, ?_, fun g => ?_, by rw [lastFile_snoc]; simp only [hf]⟩
      · rw [linesTo_snoc, lineTo_last, hf, if_neg (by simp), k2]; simp
      · rw [linesTo_snoc, lineTo_last, hf]
        by_cases hg : g = f
        · subst hg; simp [hn, k3]
        · have : ¬ f = g := fun h => hg h.symm
          simp [hg, this, k3]
    | none =>
      rw [hf] at k4
      dsimp only at k4
      have key : ∀ st1 : LState, st1.stream = .stderr → st1.level = st.level → st1.err = st.err → st1.files = st.files →
          ∃ st', (do
              let (l', e) ← logger ⟨st1.level, []⟩ l ts tid loc text
              let st' ← write st1 l'.text
              ok (st', e) : C (LState × Exit)) = ok (st', if l = 5 then .failure else .returns) ∧
            Follows (cs ++ [.msg l ts tid loc text]) st' := by
        intro st1 s1 s2 s3 s4
        rw [logger_line (by omega) h0 h5]
        simp only [write, s1, ok_bind]
        refine ⟨_, rfl, by rw [lastLevel_snoc]; exact s2.trans k1, ?_, fun g => ?_, by rw [lastFile_snoc]; simp only [hf]; exact Or.inr trivial⟩
        · rw [linesTo_snoc, lineTo_last, hf, if_pos ⟨rfl, hn⟩]
          simp [s3, k2]
        · rw [linesTo_snoc, lineTo_last, hf, if_neg (by simp)]
          simp [s4, k3]
      by_cases hs : st.stream = .null
      · rw [if_pos hs]
        exact key _ rfl rfl rfl rfl
      · rw [if_neg hs]
        exact key st (k4.resolve_left hs) rfl rfl rfl

theorem follows_calls (canOpen : Str → Bool) (cs : List Call) (h : ∀ c ∈ cs, Sensible canOpen c) (hc : .close_file ∉ cs) :
    ∃ st, calls canOpen .init cs = ok (st, .returns) ∧ Follows cs st := by
  induction cs using List.reverseRecOn with
  | nil => exact ⟨.init, rfl, rfl, rfl, fun _ => rfl, Or.inl rfl⟩
  | append_singleton cs c ih =>
    obtain ⟨st, h1, h2⟩ := ih (fun x hx => h x (by simp [hx])) (fun hx => hc (by simp [hx]))
    have hs := h c (by simp)
    rw [calls_snoc, h1]
    simp only [ok_bind, if_true]
    have hcopy := h2
    obtain ⟨k1, k2, k3, k4⟩ := h2
    cases c with
    | msg l ts tid loc text =>
      obtain ⟨st', e1, e2⟩ := follows_msg hcopy hs.1 (by have := hs.2; omega) ts tid loc text
      refine ⟨st', ?_, e2⟩
      rw [show call canOpen st (.msg l ts tid loc text) = logMsg st l ts tid loc text from rfl, e1, if_neg (by have := hs.2; omega)]
    | set_level l =>
      refine ⟨_, rfl, by rw [lastLevel_snoc], ?_, fun f => ?_, by rw [lastFile_snoc]; exact k4⟩
      · rw [linesTo_snoc, lineTo_other _ _ _ (by simp)]; simp [k2]
      · rw [linesTo_snoc, lineTo_other _ _ _ (by simp)]; simp [k3]
    | set_file f =>
      have hs : canOpen f = true := hs
      refine ⟨{ st with stream := .file f }, by simp [call, hs], by rw [lastLevel_snoc]; exact k1, ?_, fun g => ?_, by rw [lastFile_snoc]⟩
      · rw [linesTo_snoc, lineTo_other _ _ _ (by simp)]; simp [k2]
      · rw [linesTo_snoc, lineTo_other _ _ _ (by simp)]; simp [k3]
    | close_file => exact absurd (by simp) hc

/-- C90 for programs that do not call `log_close_file` before their end. -/
theorem C90_partial (canOpen : Str → Bool) (cs : List Call) (h : ∀ c ∈ cs, Sensible canOpen c) (hc : .close_file ∉ cs) :
    ∃ st, calls canOpen .init cs = ok (st, .returns) ∧ st.err = linesTo none cs ∧ ∀ f, st.files f = linesTo (some f) cs := by
  obtain ⟨st, h1, -, h2, h3, -⟩ := follows_calls canOpen cs h hc
  exact ⟨st, h1, h2, h3⟩

theorem calls_append (canOpen : Str → Bool) (st : LState) (as bs : List Call) :
    calls canOpen st (as ++ bs) = (do
      let (st, e) ← calls canOpen st as
      if e = .returns then calls canOpen st bs else ok (st, e)) := by
  induction as generalizing st with
  | nil => rfl
  | cons d as ih =>
    simp only [List.cons_append, calls]
    cases call canOpen st d with
    | ub f => rfl
    | ok r =>
      obtain ⟨st', e⟩ := r
      cases e with
      | returns => exact ih st'
      | failure => rfl
      | success => rfl

theorem lastLevel_le {canOpen : Str → Bool} {cs : List Call} (h : ∀ c ∈ cs, Sensible canOpen c) : lastLevel cs ≤ 5 := by
  induction cs using List.reverseRecOn with
  | nil => decide
  | append_singleton cs c ih =>
    rw [lastLevel_snoc]
    have := ih (fun x hx => h x (by simp [hx]))
    have hs := h c (by simp)
    cases c with
    | set_level l => exact hs.2
    | _ => exact this

/-- C90, the last message: a fatal message is written like the others, and the calls after it are not made. -/
theorem C90_fatal (canOpen : Str → Bool) (cs rest : List Call) (ts tid loc text : Str) (h : ∀ c ∈ cs, Sensible canOpen c) (hc : .close_file ∉ cs) :
    ∃ st, calls canOpen .init (cs ++ .msg 5 ts tid loc text :: rest) = ok (st, .failure) ∧
      st.err = linesTo none (cs ++ [.msg 5 ts tid loc text]) ∧ ∀ f, st.files f = linesTo (some f) (cs ++ [.msg 5 ts tid loc text]) := by
  obtain ⟨st, h1, h2⟩ := follows_calls canOpen cs h hc
  obtain ⟨st', e1, -, e2, e3, -⟩ := follows_msg h2 (l := 5) (by decide) (by decide) ts tid loc text
  refine ⟨st', ?_, e2, e3⟩
  rw [if_pos ⟨rfl, lastLevel_le h⟩] at e1
  rw [calls_append, h1]
  simp only [ok_bind, if_true, calls, call, e1]
  rfl

/-- C90, a file that cannot be opened ends the program, with a line on stderr. -/
theorem C90_unopened (canOpen : Str → Bool) (cs rest : List Call) (f : Str) (h : ∀ c ∈ cs, Sensible canOpen c) (hc : .close_file ∉ cs)
    (hf : canOpen f = false) :
    ∃ st line, calls canOpen .init (cs ++ .set_file f :: rest) = ok (st, .failure) ∧ st.err = linesTo none cs ++ [line] ∧
      ∀ g, st.files g = linesTo (some g) cs := by
  obtain ⟨st, h1, -, h2, h3, -⟩ := follows_calls canOpen cs h hc
  refine ⟨{ st with stream := .null, err := st.err ++ [b!"ERROR SETTING LOG FILE: " ++ f ++ b!"\n"] }, _, ?_, by rw [← h2], h3⟩
  rw [calls_append, h1]
  simp only [ok_bind, if_true, calls, call, hf]
  rfl

/-- C90, how it fails: after `log_close_file` the next message that passes the level uses a closed stream, and so does a second
`log_close_file`; a `log_close_file` before any message or file is given a null pointer. -/
theorem C90_closed (canOpen : Str → Bool) (cs : List Call) (st : LState) (hr : calls canOpen .init (cs ++ [.close_file]) = ok (st, .returns)) :
    (∀ l ts tid loc text, st.level ≤ l → 0 ≤ l → l ≤ 5 →
      calls canOpen .init (cs ++ [.close_file, .msg l ts tid loc text]) = ub .badFree) ∧
    calls canOpen .init (cs ++ [.close_file, .close_file]) = ub .badFree ∧ calls canOpen .init [.close_file] = ub .null := by
  have hs : st.stream = .closed := by
    rw [calls_snoc] at hr
    cases hc : calls canOpen .init cs with
    | ub f => rw [hc] at hr; cases hr
    | ok r =>
      obtain ⟨s, e⟩ := r
      rw [hc] at hr
      simp only [ok_bind] at hr
      split at hr
      · unfold call at hr
        dsimp only at hr
        split at hr
        · cases hr
        · cases hr
        · cases hr; rfl
      · rename_i he
        cases hr
        exact absurd rfl he
  have split : ∀ c, calls canOpen .init (cs ++ [.close_file, c]) = call canOpen st c := by
    intro c
    have := calls_snoc canOpen .init (cs ++ [.close_file]) c
    rw [List.append_assoc] at this
    rw [show ([.close_file, c] : List Call) = [.close_file] ++ [c] from rfl, this, hr]
    rfl
  refine ⟨fun l ts tid loc text h h0 h5 => ?_, ?_, rfl⟩
  · rw [split]
    show logMsg st l ts tid loc text = _
    unfold logMsg
    rw [if_neg (by omega), if_neg (by rw [hs]; simp)]
    dsimp only
    rw [logger_line h h0 h5]
    simp [write, hs]
  · rw [split]
    simp [call, hs]

/-- A program that logs to stderr, then to one file, with debug messages on, then to another. -/
def sampleCalls : List Call :=
  [.msg 2 b!"t" b!"1" b!"m" b!"one", .set_file b!"a", .msg 1 b!"t" b!"1" b!"m" b!"two", .set_level 1, .msg 1 b!"t" b!"1" b!"m" b!"three",
    .set_file b!"b", .msg 3 b!"t" b!"1" b!"m" b!"four"]

example : (∀ c ∈ sampleCalls, Sensible (fun _ => true) c) ∧ .close_file ∉ sampleCalls := by
  refine ⟨?_, by decide⟩
  intro c hc
  simp only [sampleCalls, List.mem_cons, List.not_mem_nil, or_false] at hc
  rcases hc with rfl | rfl | rfl | rfl | rfl | rfl | rfl <;> simp [Sensible]
example : linesTo none sampleCalls = [b!"t 1 INFO  m: one\n"] ∧ linesTo (some b!"a") sampleCalls = [b!"t 1 DEBUG m: three\n"] ∧
    linesTo (some b!"b") sampleCalls = [b!"t 1 WARN  m: four\n"] := by decide +kernel

end Wayuu.LogFile
