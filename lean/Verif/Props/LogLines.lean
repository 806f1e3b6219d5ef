import Verif.Lemmas.Appends
import Verif.Lemmas.LogBound
import Verif.Props.Static
/-
C76, C77: lines of the logs when several threads write to them.
-/
namespace Wayuu
open C Spec Appends

/-! ### C76: the server log -/

/-- The calls of one thread that writes these messages. -/
def logCalls (level : Int) : List Msg → C (List (List Str))
  | [] => ok []
  | m :: ms => do
    let p ← logPieces level m
    let ps ← logCalls level ms
    ok (p :: ps)

/-- Whatever the schedule, what threads log reads as whole lines, those of each thread in order. -/
def C76_statement : Prop :=
  ∀ (level : Int) (msgs : List (List Msg)) (calls : List (List (List Str))) (sched : List Nat) (s : ASt),
    msgs.mapM (logCalls level) = ok calls → run (start calls) sched = some s → (∀ w ∈ s.writers, left w = []) →
    ∃ order rest, Taken (calls.map (·.map List.flatten)) order rest ∧ s.out = order.flatten

def msgA : Msg := ⟨2, b!"01-01-26 00:00:00", b!"7", b!"ws.c:accept_request:211", b!"a"⟩
def msgB : Msg := ⟨2, b!"01-01-26 00:00:00", b!"8", b!"ws.c:accept_request:211", b!"b"⟩

/-- Two threads, one message each. -/
def callsAB : List (List (List Str)) :=
  [[[b!"01-01-26 00:00:00 7 INFO  ws.c:accept_request:211: ", b!"a", b!"\n"]],
   [[b!"01-01-26 00:00:00 8 INFO  ws.c:accept_request:211: ", b!"b", b!"\n"]]]

example : [[msgA], [msgB]].mapM (logCalls 0) = ok callsAB := by decide +kernel

/-- The threads take turns: both prefixes, both texts, both line ends. -/
theorem C76_refuted : ¬ C76_statement := by
  intro h
  obtain ⟨order, rest, ht, ho⟩ := h 0 [[msgA], [msgB]] callsAB [0, 1, 0, 1, 0, 1, 0, 1]
    ((run (start callsAB) [0, 1, 0, 1, 0, 1, 0, 1]).getD ⟨[], []⟩) (by decide +kernel) (by decide +kernel) (by decide +kernel)
  have hp := Appends.Taken.perm ht
  rcases List.eq_nil_or_concat order with rfl | ⟨pre, l, rfl⟩
  · revert ho; decide +kernel
  · have hl : l ∈ ((callsAB.map (·.map List.flatten)).flatten) := hp.subset (by simp)
    have hs : l <:+ ((run (start callsAB) [0, 1, 0, 1, 0, 1, 0, 1]).getD ⟨[], []⟩).out := ⟨pre.flatten, by rw [ho]; simp⟩
    revert hl hs
    have : ∀ l ∈ ((callsAB.map (·.map List.flatten)).flatten),
        ¬ l <:+ ((run (start callsAB) [0, 1, 0, 1, 0, 1, 0, 1]).getD ⟨[], []⟩).out := by decide +kernel
    exact fun hl hs => this l hl hs

/-- As long as no thread writes while another is between the three parts of a message, the log reads as whole lines,
then the beginning of the one in progress. -/
theorem C76_partial {calls : List (List (List Str))} {sched : List Nat} {s : ASt} (ha : Apart (start calls) sched)
    (h : run (start calls) sched = some s) :
    ∃ order, Taken (calls.map (·.map List.flatten)) order (s.writers.map left) ∧
      ((s.out = order.flatten ∧ ∀ w ∈ s.writers, ¬ Mid w) ∨
       ∃ (i : Nat) (w : Writer), s.writers[i]? = some w ∧ Mid w ∧ s.out = order.flatten ++ (w.call.take w.pos).flatten) := by
  obtain ⟨order, ht, ho⟩ := inv_run sched ha (inv_start calls) h
  refine ⟨order, ht, ?_⟩
  rcases ho with ho | ⟨i, w, hw, hm, -, ho⟩
  · exact Or.inl ho
  · exact Or.inr ⟨i, w, hw, hm, ho⟩

/-- Nothing is lost, whatever the schedule: the log consists of whole pieces, those of each thread in order. -/
theorem C76_kept {calls : List (List (List Str))} {sched : List Nat} {s : ASt} (h : run (start calls) sched = some s) :
    ∃ order, Taken (calls.map List.flatten) order (s.writers.map leftPieces) ∧ s.out = order.flatten := by
  refine pieces_run sched (order := []) ?_ rfl h
  have : (start calls).writers.map leftPieces = calls.map List.flatten := by
    simp [start, leftPieces, Function.comp_def]
  rw [this]
  exact .start

example (s : ASt) (h : run (start callsAB) [1, 0, 1, 0, 0, 1, 1, 0] = some s) :
    ∃ order, Taken (callsAB.map List.flatten) order (s.writers.map leftPieces) ∧ s.out = order.flatten := C76_kept h

example : (run (start callsAB) [1, 0, 1, 0, 0, 1, 1, 0]).isSome = true := by decide +kernel

/-- The parts of a message make up the line a single thread would have written. -/
theorem C76_line (st : LogSt) (m : Msg) :
    (∀ ps, logPieces st.level m = ok ps → ∃ e, logger st m.level m.ts m.tid m.loc m.text =
      ok ({ st with text := st.text ++ (if ps = [] then [] else [ps.flatten]) }, e)) ∧
    ∀ f, logPieces st.level m = ub f → logger st m.level m.ts m.tid m.loc m.text = ub f := by
  unfold logPieces logger
  refine ⟨fun ps h => ?_, fun f h => ?_⟩
  · split at h
    · rename_i hc
      cases h
      exact ⟨.returns, by rw [if_pos hc]; simp⟩
    · rename_i hc
      rw [if_neg hc]
      split at h
      · cases h
      · rename_i hn
        rw [if_neg hn]
        split at h
        · cases h
        · rename_i name he
          cases h
          rw [he]
          dsimp only
          split
          · exact ⟨.failure, by simp⟩
          · exact ⟨.returns, by simp⟩
  · split at h
    · cases h
    · rename_i hc
      rw [if_neg hc]
      split at h
      · rename_i hn
        cases h
        rw [if_pos hn]
      · rename_i hn
        rw [if_neg hn]
        split at h
        · rename_i he
          cases h
          rw [he]
        · cases h

/-- A schedule of two messages by two threads that keeps them apart. -/
example : Apart (start callsAB) [1, 1, 1, 1, 0, 0, 0, 0] ∧
    (run (start callsAB) [1, 1, 1, 1, 0, 0, 0, 0]).map (·.out) =
      some b!"01-01-26 00:00:00 8 INFO  ws.c:accept_request:211: b\n01-01-26 00:00:00 7 INFO  ws.c:accept_request:211: a\n" :=
  ⟨apart_of_check _ (by decide +kernel), by decide +kernel⟩

/-! ### C77: the access log -/

theorem accessWrites_short {l : Str} (h0 : l ≠ []) (hl : l.length ≤ 2000) : accessWrites l = [l] := by
  unfold accessWrites
  obtain ⟨c, cs, rfl⟩ := List.exists_cons_of_ne_nil h0
  simp only [List.length_cons, writes, reduceCtorEq, if_false]
  have h1 : (c :: cs).drop STDIO_BUFFER = [] := List.drop_eq_nil_of_le (by simp [STDIO_BUFFER] at hl ⊢; omega)
  rw [h1, List.take_of_length_le (by simp [STDIO_BUFFER] at hl ⊢; omega)]
  cases cs with
  | nil => rfl
  | cons d ds => simp [writes]

/-- The lines one thread adds to the access log in serving requests, one after the other. -/
inductive AccessLines (env : Env) : List Str → Prop
  | nil : AccessLines env []
  | request {ls ms st st' socket peer ev} : AccessLines env ls → accept_request env st socket peer = ok (st', ev) →
      st'.log = st.log ++ ms → AccessLines env (ls ++ ms)

theorem AccessLines.short {env : Env} (hc : Clock env) {k : Nat} (hu : UserLogs env k) {ls : List Str}
    (h : AccessLines env ls) : ∀ l ∈ ls, l ≠ [] ∧ l.length ≤ 2000 := by
  induction h with
  | nil => simp
  | request _ ha hl ih =>
    obtain ⟨ms', e, -, hs⟩ := accept_request_logs hc hu ha
    rw [hl] at e
    have := List.append_cancel_left e
    subst this
    intro l hm
    rcases List.mem_append.mp hm with hm | hm
    · exact ih l hm
    · exact hs l hm

/-- Any number of threads serve any requests, and write their lines in any order of steps: at any time the access log
is a sequence of whole lines, those of each thread in order. -/
theorem C77_lines {env : Env} (hc : Clock env) {k : Nat} (hu : UserLogs env k) {lines : List (List Str)}
    (hl : ∀ ls ∈ lines, AccessLines env ls) {sched : List Nat} {s : ASt}
    (h : run (start (lines.map (·.map accessWrites))) sched = some s) :
    ∃ order, Taken lines order (s.writers.map left) ∧ s.out = order.flatten := by
  have hw : ∀ ls ∈ lines, ls.map accessWrites = ls.map fun l => [l] := fun ls hm =>
    List.map_congr_left fun l hml => accessWrites_short ((hl ls hm).short hc hu l hml).1 ((hl ls hm).short hc hu l hml).2
  rw [List.map_congr_left hw] at h
  have hs : Single (start (lines.map fun ls => ls.map fun l => [l])) := by
    intro w hm
    simp only [start, List.mem_map] at hm
    obtain ⟨c, ⟨ls, -, rfl⟩, rfl⟩ := hm
    simp
  obtain ⟨order, ht, ho⟩ := inv_run sched (single_apart sched hs) (inv_start _) h
  have e : (lines.map fun ls => ls.map fun l => [l]).map (·.map List.flatten) = lines := by
    simp [Function.comp_def]
  rw [e] at ht
  refine ⟨order, ht, ?_⟩
  rcases ho with ⟨ho, -⟩ | ⟨i, w, hw, hm, -, -⟩
  · exact ho
  · exfalso
    have := (single_run sched hs h w (List.mem_of_getElem? hw)).1
    unfold Mid at hm
    omega

/-- Each request adds at most one line to the access log, and `2 * k` more if a filter or handler adds up to `k`. Every
line is handed to the operating system in a single `write`. -/
theorem C77_short {env : Env} (hc : Clock env) {k : Nat} (hu : UserLogs env k) {st st' : St} {socket : Nat} {peer : Str}
    {ev : List Event} (h : accept_request env st socket peer = ok (st', ev)) :
    ∃ ls, st'.log = st.log ++ ls ∧ ls.length ≤ 2 * k + 1 ∧ ∀ l ∈ ls, accessWrites l = [l] := by
  obtain ⟨ls, e, hl, hs⟩ := accept_request_logs hc hu h
  exact ⟨ls, e, hl, fun l hm => accessWrites_short (hs l hm).1 (hs l hm).2⟩

/-- Handlers and filters made of the response helpers meet the condition on user code. -/
theorem C77_helpers {env : Env} (hc : Clock env) (st st' : St) :
    (∀ status msg, send_http_status env st status msg = ok st' → Logs 1 st st') ∧
    (bad_request env st = ok st' → Logs 1 st st') ∧
    (∀ d, http_print_str st d = ok st' → Logs 0 st st') ∧
    (∀ f n, direct_file env st f = ok (n, st') → Logs 1 st st') :=
  ⟨fun _ _ => send_http_status_logs hc, bad_request_logs hc, fun _ => http_print_str_logs,
    fun _ _ h => (direct_file_logs hc h).elim (fun x => x.2.mono (by omega)) (·.2)⟩

theorem sampleEnv_logs : UserLogs sampleEnv 0 := by
  refine ⟨?_, ?_⟩
  · intro id st st' h
    simp only [sampleEnv, ok.injEq] at h
    rw [h]; exact Logs.refl _
  · intro id st st' b h
    simp only [sampleEnv, ok.injEq, Prod.mk.injEq] at h
    rw [h.1]; exact Logs.refl _

/-- A thread that serves two requests. -/
example : Clock sampleEnv ∧ UserLogs sampleEnv 0 ∧ ∃ a b, AccessLines sampleEnv ([] ++ [a] ++ [b]) := by
  refine ⟨⟨by decide, by decide⟩, sampleEnv_logs, ?_⟩
  have e1 : (accept_request sampleEnv (docsSt b!"/a.txt") 7 b!"10.0.0.1").bind (fun x => ok x.1.log.length) = ok 1 := by
    decide +kernel
  cases h1 : accept_request sampleEnv (docsSt b!"/a.txt") 7 b!"10.0.0.1" with
  | ub f => rw [h1] at e1; cases e1
  | ok x =>
    rw [h1] at e1
    simp only [C.bind, ok.injEq] at e1
    obtain ⟨l, hl⟩ := List.length_eq_one_iff.mp e1
    exact ⟨l, l, .request (.request .nil h1 (by rw [hl]; rfl)) h1 (by rw [hl]; rfl)⟩

end Wayuu
