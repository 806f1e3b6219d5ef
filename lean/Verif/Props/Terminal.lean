import Verif.Model.Terminal
import Verif.Spec.Terminal
import Verif.Props.Getopt
/-
Property C158 (main.c:33-105: what is shown on the terminal).
-/
namespace Wayuu
open C Spec

/-- The line about a root folder. -/
def rootLine (ts tid a : Str) : Str :=
  ts ++ b!" " ++ tid ++ b!" " ++ b!"INFO " ++ b!" " ++ b!"main.c:main:88" ++ b!": " ++ (b!"WAYUU ROOT now: " ++ a) ++ b!"\n"

/-- The line about a root folder that is not there. -/
def noRootLine (ts tid a : Str) : Str :=
  ts ++ b!" " ++ tid ++ b!" " ++ b!"FATAL" ++ b!" " ++ b!"main.c:main:91" ++ b!": " ++
    (b!"Unable to start, root directory doesn't exist: " ++ a) ++ b!"\n"

/-- The state after an option. -/
def Term.after (fs : FS) (ts tid : Str) (t : Term) : Opt → Term
  | .d => { t with log := { t.log with level := 1 } }
  | .h => t.print print_usage
  | .v => t.print b!"1.5.0\n"
  | .missing => t.print b!"option needs a value\n"
  | .unknown x => t.print (b!"unknown option: " ++ [x] ++ b!"\n")
  | .r a => { t with log := { t.log with stream := .stderr, err := t.log.err ++ [rootLine ts tid a] ++
      (if is_dir fs a then [] else [noRootLine ts tid a]) } }
  | _ => t

/-- States the option loop goes through. -/
def Early (c : Cfg) (t : Term) : Prop :=
  t.log.level = c.logLevel ∧ c.logLevel ≤ 2 ∧ (t.log.stream = .null ∨ t.log.stream = .stderr)

theorem early_after {fs : FS} {ts tid : Str} {c : Cfg} {t : Term} (h : Early c t) (o : Opt) : Early (c.set o) (t.after fs ts tid o) := by
  obtain ⟨h1, h2, h3⟩ := h
  cases o with
  | d => exact ⟨rfl, by show (1 : Int) ≤ 2; decide, h3⟩
  | r a => exact ⟨h1, h2, Or.inr rfl⟩
  | _ => exact ⟨h1, h2, h3⟩

theorem logger_info {level : Int} {ts tid loc msg : Str} (h : level ≤ 2) : logger ⟨level, []⟩ LOG_INFO ts tid loc msg =
    ok (⟨level, [ts ++ b!" " ++ tid ++ b!" " ++ b!"INFO " ++ b!" " ++ loc ++ b!": " ++ msg ++ b!"\n"]⟩, .returns) := by
  unfold logger
  rw [if_neg (by show ¬ (2 : Int) < level; omega)]
  rfl

theorem logger_fatal {level : Int} {ts tid loc msg : Str} (h : level ≤ 2) : logger ⟨level, []⟩ LOG_FATAL ts tid loc msg =
    ok (⟨level, [ts ++ b!" " ++ tid ++ b!" " ++ b!"FATAL" ++ b!" " ++ loc ++ b!": " ++ msg ++ b!"\n"]⟩, .failure) := by
  unfold logger
  rw [if_neg (by show ¬ (5 : Int) < level; omega)]
  rfl

theorem log_root {t : Term} {ts tid a : Str} (hl : t.log.level ≤ 2) (hs : t.log.stream = .null ∨ t.log.stream = .stderr) :
    LogFile.logMsg t.log LOG_INFO ts tid b!"main.c:main:88" (b!"WAYUU ROOT now: " ++ a) =
      ok ({ t.log with stream := .stderr, err := t.log.err ++ [rootLine ts tid a] }, .returns) := by
  obtain ⟨out, ⟨level, stream, err, files⟩⟩ := t
  simp only at hl hs
  unfold LogFile.logMsg
  rw [if_neg (by show ¬ (2 : Int) < level; omega)]
  rcases hs with rfl | rfl <;> simp only [if_true, if_false, reduceCtorEq, logger_info hl, ok_bind, LogFile.write] <;> rfl

theorem log_no_root {t : Term} {ts tid a : Str} (hl : t.log.level ≤ 2) (hs : t.log.stream = .stderr) :
    LogFile.logMsg t.log LOG_FATAL ts tid b!"main.c:main:91" (b!"Unable to start, root directory doesn't exist: " ++ a) =
      ok ({ t.log with err := t.log.err ++ [noRootLine ts tid a] }, .failure) := by
  obtain ⟨out, ⟨level, stream, err, files⟩⟩ := t
  simp only at hl hs
  unfold LogFile.logMsg
  rw [if_neg (by show ¬ (5 : Int) < level; omega)]
  subst hs
  simp only [if_false, reduceCtorEq, logger_fatal hl, ok_bind, LogFile.write]
  rfl

theorem optLoopT_cons {fs : FS} {ts : Nat → Str} {tid : Str} {o : Opt} {os : List Opt} {c : Cfg} {t : Term} (h : Early c t) :
    optLoopT fs ts tid (o :: os) c t = (match optEnd fs o with
      | none => optLoopT fs ts tid os (c.set o) (t.after fs (ts os.length) tid o)
      | some e => e.bind fun s => ok (t.after fs (ts os.length) tid o, s)) := by
  obtain ⟨h1, h2, h3⟩ := h
  cases o with
  | d => rfl
  | f => rfl
  | h => rfl
  | v => rfl
  | missing => rfl
  | unknown c => rfl
  | p a => rfl
  | b a =>
    simp only [optLoopT, optEnd]
    by_cases h : a.length < 24
    · rw [fmtInto_ok (by omega)]
      simp [h, Cfg.set, Term.after]
    · rw [fmtInto_over (by omega)]
      simp [h, C.bind]
  | r a =>
    simp only [optLoopT, optEnd]
    by_cases h : a.length < 256
    · rw [fmtInto_ok (by show a.length + 1 ≤ 256; omega)]
      simp only [ok_bind, log_root (a := a) (ts := ts os.length) (tid := tid) (h1 ▸ h2) h3]
      cases hd : is_dir fs a with
      | true => simp [h, hd, Cfg.set, Term.after]
      | false =>
        have := log_no_root (t := { t with log := { t.log with stream := .stderr, err := t.log.err ++ [rootLine (ts os.length) tid a] } })
          (a := a) (ts := ts os.length) (tid := tid) (h1 ▸ h2) rfl
        simp only at this
        simp only [this, h, Bool.not_false, if_true, ok_bind, reduceCtorEq, if_false, Bool.false_eq_true]
        simp [C.bind, Term.after, hd]
    · rw [fmtInto_over (by show 256 < a.length + 1; omega)]
      simp [h, C.bind]

/-- The loop with its output comes to the same end as the one of C61. -/
theorem terminal_start (fs : FS) (ts : Nat → Str) (tid : Str) (argv : List Str) :
    program fs argv = (terminal fs ts tid argv).bind fun r => ok r.2 := by
  unfold program main terminal
  rw [defaultCfg_eq]
  simp only [ok_bind]
  have key : ∀ (opts : List Opt) (c : Cfg) (t : Term), Early c t →
      optLoop fs opts c = (optLoopT fs ts tid opts c t).bind fun r => ok r.2 := by
    intro opts
    induction opts with
    | nil => intro c t _; rfl
    | cons o os ih =>
      intro c t h
      rw [optLoop_cons (by have := h.2.1; omega), optLoopT_cons h]
      cases optEnd fs o with
      | none => exact ih _ _ (early_after h o)
      | some e => cases e <;> rfl
  exact key _ _ _ ⟨rfl, by decide, Or.inl rfl⟩

/-- The state after options that let the loop go on. -/
theorem optLoopT_fold {fs : FS} {ts : Nat → Str} {tid : Str} (opts rest : List Opt) (c : Cfg) (t : Term) (h : Early c t)
    (hf : ∀ o ∈ opts, Fine fs o) : ∃ c' t', optLoopT fs ts tid (opts ++ rest) c t = optLoopT fs ts tid rest c' t' ∧ Early c' t' ∧
      t'.out = t.out ++ (opts.map fun o => if o = .missing then b!"option needs a value\n" else []).flatten ∧
      t'.log.files = t.log.files ∧ ∃ more, t'.log.err = t.log.err ++ more ∧ RootLines more (opts.filterMap rootOf) := by
  induction opts generalizing c t with
  | nil => exact ⟨c, t, rfl, h, by simp, rfl, [], by simp, .nil⟩
  | cons o os ih =>
    have ho := (fine_iff fs o).mp (hf o (by simp))
    rw [List.cons_append, optLoopT_cons h, ho]
    obtain ⟨c', t', e1, e2, e3, e4, more, e5, e6⟩ := ih (c.set o) (t.after fs (ts (os ++ rest).length) tid o) (early_after h o)
      (fun x hx => hf x (by simp [hx]))
    refine ⟨c', t', e1, e2, ?_, ?_, ?_⟩
    · rw [e3]
      cases o <;> simp [Term.after, Term.print, optEnd] at ho ⊢
    · rw [e4]
      cases o <;> rfl
    · cases o with
      | r a =>
        have hd : is_dir fs a = true := is_dir_iff.mpr ((hf (.r a) (by simp)).2.2.2.2 a rfl).2
        refine ⟨rootLine (ts (os ++ rest).length) tid a :: more, ?_, ?_⟩
        · rw [e5]
          simp [Term.after, hd]
        · have : rootLine (ts (os ++ rest).length) tid a = (ts (os ++ rest).length ++ b!" " ++ tid ++ b!" " ++ b!"INFO " ++ b!" " ++
              b!"main.c:main:88") ++ b!": WAYUU ROOT now: " ++ a ++ b!"\n" := by
            unfold rootLine
            simp only [List.append_assoc]
            rfl
          rw [this]
          exact .cons _ a e6
      | _ => exact ⟨more, e5, e6⟩

/-- C158: whoever asks for the version or for help, somewhere on the command line, is shown it, and nothing is started. -/
def C158_statement : Prop :=
  ∀ (fs : FS) (ts : Nat → Str) (tid : Str) (argv : List Str), b!"-h" ∈ argv ∨ b!"-v" ∈ argv →
    ∃ t, terminal fs ts tid argv = ok (t, .exit .success) ∧ (b!"-v" ∉ argv → t.out = asText usageLines) ∧
      (b!"-h" ∉ argv → t.out = b!"1.5.0\n")

/-- C158 is false: `wayuu -p -v` starts the server on port 0. -/
theorem C158_refuted : ¬ C158_statement := by
  intro h
  obtain ⟨t, h1, -⟩ := h ⟨fun _ => none, fun _ => true, fun _ => true⟩ (fun _ => []) [] [b!"-p", b!"-v"] (Or.inr (by decide))
  have h2 := terminal_start ⟨fun _ => none, fun _ => true, fun _ => true⟩ (fun _ => []) [] [b!"-p", b!"-v"]
  rw [h1] at h2
  revert h2
  show ¬ (program _ _ = ok (.exit .success))
  decide +kernel

theorem usage_text : print_usage = asText usageLines := by decide +kernel

theorem words_opts {ws more : List Str} {opts os : List Opt} {cs rest : Str} {x : Byte} {o : Opt} (hw : Written ws opts) (hcs : Flags cs os)
    (hx : Flag x o) : getopt .none (ws ++ (45 :: (cs ++ x :: rest)) :: more) =
      (opts ++ os) ++ o :: ((cluster rest).1 ++ getopt (cluster rest).2 more) := by
  rw [written_getopt hw, getopt_word (flags_append_head hcs (flag_ne_dash hx) rest), flags_cluster hcs, flag_cluster hx]
  simp

theorem written_no_missing {ws : List Str} {opts : List Opt} (h : Written ws opts) : Opt.missing ∉ opts := by
  have hF : ∀ {cs os}, Flags cs os → Opt.missing ∉ os := by
    intro cs os h
    induction h with
    | nil => simp
    | cons hf _ ih =>
      rcases hf with ⟨-, rfl⟩ | ⟨-, rfl⟩ | ⟨-, rfl⟩ | ⟨-, rfl⟩ <;> simpa using ih
  have hV : ∀ {c a o}, Valued c a o → o ≠ Opt.missing := by
    rintro c a o (⟨-, rfl⟩ | ⟨-, rfl⟩ | ⟨-, rfl⟩) <;> simp
  induction h with
  | nil => simp
  | flags hf _ ih => simp [hF hf, ih]
  | attached hf hv _ _ ih => simp [hF hf, ih, (hV hv).symm]
  | separate hf hv _ ih => simp [hF hf, ih, (hV hv).symm]

theorem flags_no_missing {cs : Str} {os : List Opt} (h : Flags cs os) : Opt.missing ∉ os := by
  cases h with
  | nil => simp
  | cons hf hfs => exact by simpa using written_no_missing (.flags (.cons hf hfs) .nil)

theorem no_missing_out {opts : List Opt} (h : Opt.missing ∉ opts) :
    (opts.map fun o => if o = .missing then b!"option needs a value\n" else []).flatten = [] := by
  induction opts with
  | nil => rfl
  | cons o os ih =>
    simp only [List.mem_cons, not_or] at h
    rw [List.map_cons, if_neg (fun e => h.1 e.symm), List.flatten_cons, ih h.2]
    rfl

/-- C158, what holds: if what comes before on the command line follows the usage and can be carried out, the version or the usage
is shown, once and nothing else on standard output; nothing is started and no log file is written, whatever follows. (The log has a line
for each root folder named before, on standard error.) -/
theorem C158_partial (fs : FS) (ts : Nat → Str) (tid : Str) (ws more : List Str) (opts os : List Opt) (cs rest : Str) (x : Byte) (o : Opt)
    (hw : Written ws opts) (hcs : Flags cs os) (hx : Flag x o) (hov : o = .h ∨ o = .v) (hf : ∀ p ∈ opts ++ os, Fine fs p) :
    ∃ t, terminal fs ts tid (ws ++ (45 :: (cs ++ x :: rest)) :: more) = ok (t, .exit .success) ∧
      (o = .v → t.out = b!"1.5.0\n") ∧ (o = .h → t.out = asText usageLines) ∧
      RootLines t.log.err ((opts ++ os).filterMap rootOf) ∧ ∀ f, t.log.files f = [] := by
  unfold terminal
  rw [defaultCfg_eq, words_opts hw hcs hx]
  simp only [ok_bind]
  obtain ⟨c', t', e1, e2, e3, e4, m, e5, e6⟩ := optLoopT_fold (ts := ts) (tid := tid) (opts ++ os)
    (o :: ((cluster rest).1 ++ getopt (cluster rest).2 more)) startCfg .init ⟨rfl, by decide, Or.inl rfl⟩ hf
  rw [no_missing_out (by simp [written_no_missing hw, flags_no_missing hcs])] at e3
  rw [e1]
  have e5' : t'.log.err = m := e5
  have e3' : t'.out = [] := e3
  have e4' : t'.log.files = fun _ => [] := e4
  rcases hov with rfl | rfl
  · refine ⟨t'.print print_usage, by rw [optLoopT_cons e2]; rfl, (fun h => by cases h), fun _ => ?_, ?_, ?_⟩
    · show t'.out ++ _ = _
      rw [e3', usage_text]
      rfl
    · show RootLines t'.log.err _
      rw [e5']
      exact e6
    · intro f
      show t'.log.files f = _
      rw [e4']
  · refine ⟨t'.print b!"1.5.0\n", by rw [optLoopT_cons e2]; rfl, fun _ => ?_, (fun h => by cases h), ?_, ?_⟩
    · show t'.out ++ _ = _
      rw [e3']
      rfl
    · show RootLines t'.log.err _
      rw [e5']
      exact e6
    · intro f
      show t'.log.files f = _
      rw [e4']

/-- C158, unknown options: the letter is named and the program ends with an error. -/
theorem C158_unknown (fs : FS) (ts : Nat → Str) (tid : Str) (ws more : List Str) (opts os : List Opt) (cs rest : Str) (x : Byte)
    (hw : Written ws opts) (hcs : Flags cs os) (hx : NoOption x) (hdash : cs = [] → x ≠ 45) (hf : ∀ p ∈ opts ++ os, Fine fs p) :
    ∃ t, terminal fs ts tid (ws ++ (45 :: (cs ++ x :: rest)) :: more) = ok (t, .exit .failure) ∧
      t.out = b!"unknown option: " ++ [x] ++ b!"\n" := by
  have hhead : ∃ d ds, cs ++ x :: rest = d :: ds ∧ d ≠ 45 := by
    cases hcs with
    | nil => exact ⟨x, rest, rfl, hdash rfl⟩
    | cons hc _ => exact ⟨_, _, rfl, flag_ne_dash hc⟩
  obtain ⟨m, need, hm⟩ := noOption_cluster hx rest
  have e : getopt .none (ws ++ (45 :: (cs ++ x :: rest)) :: more) = (opts ++ os) ++ .unknown x :: (m ++ getopt need more) := by
    rw [written_getopt hw, getopt_word hhead, flags_cluster hcs, hm]
    simp
  unfold terminal
  rw [defaultCfg_eq, e]
  simp only [ok_bind]
  obtain ⟨c', t', e1, e2, e3, -⟩ := optLoopT_fold (ts := ts) (tid := tid) (opts ++ os)
    (.unknown x :: (m ++ getopt need more)) startCfg .init ⟨rfl, by decide, Or.inl rfl⟩ hf
  rw [no_missing_out (by simp [written_no_missing hw, flags_no_missing hcs])] at e3
  rw [e1]
  refine ⟨_, by rw [optLoopT_cons e2]; rfl, ?_⟩
  show t'.out ++ _ = _
  rw [show t'.out = [] from e3]
  rfl

/-- C158, a start: nothing is shown on standard output if the command line follows the usage. -/
theorem C158_quiet (fs : FS) (ts : Nat → Str) (tid : Str) (argv : List Str) (opts : List Opt) (hw : Written argv opts)
    (hf : ∀ p ∈ opts, Fine fs p) :
    ∃ t c, terminal fs ts tid argv = ok (t, .launch c) ∧ t.out = [] ∧ RootLines t.log.err (opts.filterMap rootOf) := by
  unfold terminal
  have h := written_getopt (more := []) hw
  simp only [List.append_nil, getopt] at h
  rw [defaultCfg_eq, h]
  simp only [ok_bind]
  obtain ⟨c', t', e1, e2, e3, -, m, e5, e6⟩ := optLoopT_fold (ts := ts) (tid := tid) opts [] startCfg .init ⟨rfl, by decide, Or.inl rfl⟩ hf
  rw [List.append_nil] at e1
  rw [no_missing_out (written_no_missing hw)] at e3
  refine ⟨t', c', e1, e3, ?_⟩
  rw [e5]
  exact e6

/-- C158, the usage: it explains the options there are and no others, except that it leaves out -h. -/
theorem C158_usage (c : Byte) : Explains usageLines c ↔ ¬ NoOption c ∧ c ≠ 'h'.toUInt8 := by
  have h1 : Explains usageLines c ↔ c = 'd'.toUInt8 ∨ c = 'b'.toUInt8 ∨ c = 'p'.toUInt8 ∨ c = 'r'.toUInt8 ∨ c = 'f'.toUInt8 ∨ c = 'v'.toUInt8 := by
    unfold Explains usageLines
    constructor
    · rintro ⟨rest, h⟩
      simp only [List.mem_cons, List.not_mem_nil, or_false] at h
      rcases h with h | h | h | h | h | h | h | h
      · injection h with h _; exact absurd h (by decide)
      · injection h with h _; exact absurd h (by decide)
      all_goals
        injection h with _ h
        injection h with h _
        subst h
        decide
    · rintro (rfl | rfl | rfl | rfl | rfl | rfl)
      · exact ⟨b!"        : Enabled DEBUG mode", by decide +kernel⟩
      · exact ⟨b!"ip_addr : Bind to IP address. Default: \"0.0.0.0\"", by decide +kernel⟩
      · exact ⟨b!"port    : Bind to TCP port. Default: 4443", by decide +kernel⟩
      · exact ⟨b!"root    : Use root as the root folder for WAYUU. Default: /etc/wayuu", by decide +kernel⟩
      · exact ⟨b!"        : HTTP mode", by decide +kernel⟩
      · exact ⟨b!"        : Print version and exits ", by decide +kernel⟩
  rw [h1]
  constructor
  · rintro (rfl | rfl | rfl | rfl | rfl | rfl)
    · exact ⟨fun h => (h [] .d).1 (Or.inl ⟨rfl, rfl⟩), by decide⟩
    · exact ⟨fun h => (h [] (.b [])).2 (Or.inl ⟨rfl, rfl⟩), by decide⟩
    · exact ⟨fun h => (h [] (.p [])).2 (Or.inr (Or.inl ⟨rfl, rfl⟩)), by decide⟩
    · exact ⟨fun h => (h [] (.r [])).2 (Or.inr (Or.inr ⟨rfl, rfl⟩)), by decide⟩
    · exact ⟨fun h => (h [] .f).1 (Or.inr (Or.inl ⟨rfl, rfl⟩)), by decide⟩
    · exact ⟨fun h => (h [] .v).1 (Or.inr (Or.inr (Or.inr ⟨rfl, rfl⟩))), by decide⟩
  · rintro ⟨h, hh⟩
    by_contra hc
    simp only [not_or] at hc
    apply h
    intro a o
    constructor
    · rintro (⟨e, -⟩ | ⟨e, -⟩ | ⟨e, -⟩ | ⟨e, -⟩)
      · exact hc.1 e
      · exact hc.2.2.2.2.1 e
      · exact hh e
      · exact hc.2.2.2.2.2 e
    · rintro (⟨e, -⟩ | ⟨e, -⟩ | ⟨e, -⟩)
      · exact hc.2.1 e
      · exact hc.2.2.1 e
      · exact hc.2.2.2.1 e

/-- `wayuu -r /srv -dv -p 80` -/
example : ∃ t, terminal srvFs (fun _ => b!"t") b!"1" ([b!"-r", b!"/srv"] ++ (45 :: (b!"d" ++ 'v'.toUInt8 :: [])) :: [b!"-p", b!"80"]) =
    ok (t, .exit .success) ∧ t.out = b!"1.5.0\n" ∧ RootLines t.log.err [b!"/srv"] := by
  obtain ⟨t, h1, h2, -, h3, -⟩ := C158_partial srvFs (fun _ => b!"t") b!"1" [b!"-r", b!"/srv"] [b!"-p", b!"80"] [.r b!"/srv"] [.d] b!"d" []
    'v'.toUInt8 .v (.separate (cs := []) .nil (Or.inr (Or.inr ⟨rfl, rfl⟩)) .nil) (.cons (Or.inl ⟨rfl, rfl⟩) .nil)
    (Or.inr (Or.inr (Or.inr ⟨rfl, rfl⟩))) (Or.inr rfl) (by
      intro p hp
      rw [fine_iff]
      simp only [List.cons_append, List.nil_append, List.mem_cons, List.not_mem_nil, or_false] at hp
      rcases hp with rfl | rfl <;> decide +kernel)
  exact ⟨t, h1, h2 rfl, h3⟩

end Wayuu
