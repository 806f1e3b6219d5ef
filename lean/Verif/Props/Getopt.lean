import Verif.Model.Getopt
import Verif.Spec.Getopt
import Verif.Props.Main
/-
Property C89 (main.c:61 and getopt).
-/
namespace Wayuu
open C Spec

theorem flag_cluster {c : Byte} {o : Opt} (h : Flag c o) (rest : Str) : cluster (c :: rest) = (o :: (cluster rest).1, (cluster rest).2) := by
  rcases h with ⟨rfl, rfl⟩ | ⟨rfl, rfl⟩ | ⟨rfl, rfl⟩ | ⟨rfl, rfl⟩ <;> rfl

theorem flags_cluster {cs : Str} {os : List Opt} (h : Flags cs os) (rest : Str) :
    cluster (cs ++ rest) = (os ++ (cluster rest).1, (cluster rest).2) := by
  induction h with
  | nil => rfl
  | cons hf _ ih => rw [List.cons_append, flag_cluster hf, ih]; rfl

theorem flag_ne_dash {c : Byte} {o : Opt} (h : Flag c o) : c ≠ 45 := by
  rcases h with ⟨rfl, -⟩ | ⟨rfl, -⟩ | ⟨rfl, -⟩ | ⟨rfl, -⟩ <;> decide

theorem valued_ne_dash {c : Byte} {a : Str} {o : Opt} (h : Valued c a o) : c ≠ 45 := by
  rcases h with ⟨rfl, -⟩ | ⟨rfl, -⟩ | ⟨rfl, -⟩ <;> decide

/-- A word of options, as `getopt` takes it. -/
theorem getopt_word {w : Str} {ws : List Str} (h : ∃ c cs, w = c :: cs ∧ c ≠ 45) :
    getopt .none ((45 :: w) :: ws) = (cluster w).1 ++ getopt (cluster w).2 ws := by
  obtain ⟨c, cs, rfl, hc⟩ := h
  rw [getopt, if_neg (by intro h; injection h with _ h; injection h with h _; exact hc h)]

theorem flags_append_head {cs : Str} {os : List Opt} (h : Flags cs os) {c : Byte} (hc : c ≠ 45) (rest : Str) :
    ∃ d ds, cs ++ c :: rest = d :: ds ∧ d ≠ 45 := by
  cases h with
  | nil => exact ⟨c, rest, rfl, hc⟩
  | cons hf _ => exact ⟨_, _, rfl, flag_ne_dash hf⟩

theorem valued_attached {c : Byte} {a : Str} {o : Opt} (h : Valued c a o) (ha : a ≠ []) : cluster (c :: a) = ([o], .none) := by
  cases a with
  | nil => exact absurd rfl ha
  | cons x a => rcases h with ⟨rfl, rfl⟩ | ⟨rfl, rfl⟩ | ⟨rfl, rfl⟩ <;> rfl

theorem dash_byte : ('-'.toUInt8 : Byte) = 45 := rfl

theorem written_getopt {argv more : List Str} {opts : List Opt} (h : Written argv opts) :
    getopt .none (argv ++ more) = opts ++ getopt .none more := by
  induction h with
  | nil => rfl
  | @flags c cs os ws os' hf _ ih =>
    have h1 := flags_cluster hf []
    rw [List.append_nil] at h1
    cases hf with
    | cons hf1 hf2 =>
      rw [List.cons_append, dash_byte, getopt_word ⟨_, _, rfl, flag_ne_dash hf1⟩, h1]
      simp [cluster, ih]
  | @attached cs os c a o ws os' hf hv ha _ ih =>
    rw [List.cons_append, dash_byte, getopt_word (flags_append_head hf (valued_ne_dash hv) a), flags_cluster hf, valued_attached hv ha, ih]
    simp
  | @separate cs os c a o ws os' hf hv _ ih =>
    rw [List.cons_append, dash_byte, getopt_word (flags_append_head hf (valued_ne_dash hv) []), flags_cluster hf]
    rcases hv with ⟨rfl, rfl⟩ | ⟨rfl, rfl⟩ | ⟨rfl, rfl⟩
    · rw [show cluster ['b'.toUInt8] = ([], .b) from rfl]
      simp [getopt, ih]
    · rw [show cluster ['p'.toUInt8] = ([], .p) from rfl]
      simp [getopt, ih]
    · rw [show cluster ['r'.toUInt8] = ([], .r) from rfl]
      simp [getopt, ih]

/-- C89: the program starts the server only if the command line follows the usage, and then it does what `C61` says about the options
written. -/
def C89_statement : Prop :=
  ∀ (fs : FS) (argv : List Str) (c : Cfg), program fs argv = ok (.launch c) →
    ∃ opts, Written argv opts ∧ main fs opts = ok (.launch c)

/-- C89 is false: `wayuu -p` starts the server on the default port. -/
theorem C89_refuted : ¬ C89_statement := by
  intro h
  obtain ⟨opts, hw, -⟩ := h ⟨fun _ => none, fun _ => true, fun _ => true⟩ [b!"-p"] startCfg (by decide +kernel)
  generalize hargv : [b!"-p"] = argv at hw
  cases hw with
  | nil => cases hargv
  | flags hf _ =>
    cases hargv
    cases hf with
    | cons hf _ =>
      rcases hf with ⟨h, -⟩ | ⟨h, -⟩ | ⟨h, -⟩ | ⟨h, -⟩ <;> revert h <;> decide
  | @attached cs os c a o ws more hf hv ha _ =>
    simp only [List.cons.injEq] at hargv
    have := congrArg List.length hargv.1.2
    cases a with
    | nil => exact ha rfl
    | cons x a =>
      simp at this
      omega
  | separate hf hv _ => simp at hargv

/-- C89, what holds of command lines that follow the usage: the options take effect in the order written, however they are spread over
words. -/
theorem C89_partial (fs : FS) (argv : List Str) (opts : List Opt) (h : Written argv opts) :
    program fs argv = main fs opts ∧ ((∃ c, program fs argv = ok (.launch c)) ↔ ∀ o ∈ opts, Fine fs o) := by
  have e : program fs argv = main fs opts := by
    have := written_getopt (more := []) h
    simp only [List.append_nil, getopt] at this
    unfold program
    rw [this]
  exact ⟨e, by rw [e]; exact C61_launch fs opts⟩

example : program srvFs [b!"-df", b!"-p80", b!"-r", b!"/srv"] = main srvFs [.d, .f, .p b!"80", .r b!"/srv"] :=
  (C89_partial srvFs _ _ (.flags (.cons (Or.inl ⟨rfl, rfl⟩) (.cons (Or.inr (Or.inl ⟨rfl, rfl⟩)) .nil))
    (.attached (cs := []) .nil (Or.inr (Or.inl ⟨rfl, rfl⟩)) (by decide)
      (.separate (cs := []) .nil (Or.inr (Or.inr ⟨rfl, rfl⟩)) .nil)))).1

/-- A letter that is no option. -/
def NoOption (x : Byte) : Prop := ∀ a o, ¬ Flag x o ∧ ¬ Valued x a o

theorem noOption_cluster {x : Byte} (h : NoOption x) (rest : Str) : ∃ more need, cluster (x :: rest) = (.unknown x :: more, need) := by
  have h1 := fun o => (h [] o).1
  have h2 := fun o => (h [] o).2
  have b1 : x ≠ 98 := fun e => h2 (.b []) (Or.inl ⟨e, rfl⟩)
  have b2 : x ≠ 112 := fun e => h2 (.p []) (Or.inr (Or.inl ⟨e, rfl⟩))
  have b3 : x ≠ 114 := fun e => h2 (.r []) (Or.inr (Or.inr ⟨e, rfl⟩))
  have b4 : x ≠ 104 := fun e => h1 .h (Or.inr (Or.inr (Or.inl ⟨e, rfl⟩)))
  have b5 : x ≠ 100 := fun e => h1 .d (Or.inl ⟨e, rfl⟩)
  have b6 : x ≠ 102 := fun e => h1 .f (Or.inr (Or.inl ⟨e, rfl⟩))
  have b7 : x ≠ 118 := fun e => h1 .v (Or.inr (Or.inr (Or.inr ⟨e, rfl⟩)))
  refine ⟨(cluster rest).1, (cluster rest).2, ?_⟩
  conv_lhs => unfold cluster
  simp only [b1, b2, b3, b4, b5, b6, b7, if_false]

/-- C89, unknown options: the server does not start, whatever follows; and the program ends with an error if what comes
before is fine. -/
theorem C89_unknown_partial (fs : FS) (ws more : List Str) (opts os : List Opt) (cs rest : Str) (x : Byte) (hw : Written ws opts)
    (hcs : Flags cs os) (hx : NoOption x) (hdash : cs = [] → x ≠ 45) :
    (∀ c, program fs (ws ++ (45 :: (cs ++ x :: rest)) :: more) ≠ ok (.launch c)) ∧
    ((∀ o ∈ opts ++ os, Fine fs o) → program fs (ws ++ (45 :: (cs ++ x :: rest)) :: more) = ok (.exit .failure)) := by
  have hhead : ∃ d ds, cs ++ x :: rest = d :: ds ∧ d ≠ 45 := by
    cases hcs with
    | nil => exact ⟨x, rest, rfl, hdash rfl⟩
    | cons hf _ => exact ⟨_, _, rfl, flag_ne_dash hf⟩
  obtain ⟨m, need, hm⟩ := noOption_cluster hx rest
  have e : getopt .none (ws ++ (45 :: (cs ++ x :: rest)) :: more) = (opts ++ os) ++ .unknown x :: (m ++ getopt need more) := by
    rw [written_getopt hw, getopt_word hhead, flags_cluster hcs, hm]
    simp
  unfold program
  rw [e]
  constructor
  · intro c hc
    have := (C61_launch fs _).mp ⟨c, hc⟩ (.unknown x) (by simp)
    exact this.2.2.1 x rfl
  · intro hf
    exact (C61_exit fs (opts ++ os) _ (.unknown x) hf).2.1 x rfl

/-- C89, what is passed over instead of being turned down: words that are no options, everything after `--`, and an option at the end
of the line whose value is missing. -/
theorem C89_tolerated (fs : FS) (ws : List Str) (opts : List Opt) (hw : Written ws opts) :
    (∀ w more, (w.head? ≠ some 45 ∨ w = [45]) → program fs (ws ++ w :: more) = program fs (ws ++ more)) ∧
    (∀ more, program fs (ws ++ b!"--" :: more) = program fs ws) ∧
    (∀ cs os c, Flags cs os → (∃ a o, Valued c a o) → program fs (ws ++ [45 :: (cs ++ [c])]) = main fs (opts ++ os)) := by
  refine ⟨?_, ?_, ?_⟩
  · intro w more h
    unfold program
    rw [written_getopt hw, written_getopt hw]
    have : getopt .none (w :: more) = getopt .none more := by
      match w, h with
      | [], _ => rfl
      | [x], h =>
        by_cases hx : x = 45
        · subst hx; rfl
        · rw [getopt, if_neg (by intro h; cases h)]
          intro c cs h
          cases h
      | x :: y :: w, h =>
        have hx : x ≠ 45 := by
          rcases h with h | h
          · simpa using h
          · cases h
        rw [getopt, if_neg (by intro h; injection h with h _; exact hx h)]
        intro c cs h
        injection h with h _
        exact hx h
    rw [this]
  · intro more
    unfold program
    have h1 := written_getopt (more := []) hw
    rw [List.append_nil] at h1
    rw [written_getopt hw, h1]
    rfl
  · rintro cs os c hcs ⟨a, o, hv⟩
    unfold program
    rw [written_getopt hw, getopt_word (flags_append_head hcs (valued_ne_dash hv) []), flags_cluster hcs]
    have e : ∃ need, need ≠ .none ∧ cluster [c] = ([], need) := by
      rcases hv with ⟨rfl, -⟩ | ⟨rfl, -⟩ | ⟨rfl, -⟩
      · exact ⟨.b, by decide, rfl⟩
      · exact ⟨.p, by decide, rfl⟩
      · exact ⟨.r, by decide, rfl⟩
    obtain ⟨need, hn, e⟩ := e
    rw [e]
    have e2 : getopt need [] = [.missing] := by cases need <;> first | rfl | exact absurd rfl hn
    rw [e2]
    show main fs (opts ++ ((os ++ []) ++ [.missing])) = _
    rw [List.append_nil, ← List.append_assoc]
    have key : ∀ (l : List Opt) (c : Cfg), c.logLevel ≤ 5 → optLoop fs (l ++ [.missing]) c = optLoop fs l c := by
      intro l
      induction l with
      | nil => intro c _; rfl
      | cons o l ih =>
        intro c hl
        rw [List.cons_append, optLoop_cons hl, optLoop_cons hl]
        cases optEnd fs o with
        | none => exact ih _ (set_level c o hl)
        | some e => rfl
    unfold main
    rw [defaultCfg_eq]
    exact key _ startCfg (by decide)

/-- `-df -p80 -r /srv` -/
example : Written [b!"-df", b!"-p80", b!"-r", b!"/srv"] [.d, .f, .p b!"80", .r b!"/srv"] :=
  .flags (.cons (Or.inl ⟨rfl, rfl⟩) (.cons (Or.inr (Or.inl ⟨rfl, rfl⟩)) .nil))
    (.attached (cs := []) .nil (Or.inr (Or.inl ⟨rfl, rfl⟩)) (by decide)
      (.separate (cs := []) .nil (Or.inr (Or.inr ⟨rfl, rfl⟩)) .nil))
example : program srvFs [b!"-df", b!"-p80", b!"-r", b!"/srv"] =
    ok (.launch { startCfg with wsRoot := b!"/srv", port := 80, ssl := false, logLevel := 1 }) := by decide +kernel
example : program srvFs [b!"-fx", b!"-p80"] = ok (.exit .failure) := by decide +kernel
example : program srvFs [b!"extra", b!"-f", b!"--", b!"-p80"] = ok (.launch { startCfg with ssl := false }) := by decide +kernel
example : NoOption 120 := by
  intro a o
  constructor
  · rintro (⟨h, -⟩ | ⟨h, -⟩ | ⟨h, -⟩ | ⟨h, -⟩) <;> revert h <;> decide
  · rintro (⟨h, -⟩ | ⟨h, -⟩ | ⟨h, -⟩) <;> revert h <;> decide

end Wayuu
