import Verif.Spec.Main
import Verif.Lemmas.Headers2
/-
Property C61 (main.c).
-/
namespace Wayuu
open C Spec

/-- The effect of an option on the configuration. -/
def Cfg.set (c : Cfg) : Opt → Cfg
  | .d => { c with logLevel := LOG_DEBUG }
  | .f => { c with ssl := false }
  | .b a => { c with bindAddr := a }
  | .p a => { c with port := atoi a }
  | .r a => { c with wsRoot := a }
  | _ => c

/-- How the option loop goes on after an option: on to the next one, or to an end. -/
def optEnd (fs : FS) : Opt → Option (C Start)
  | .h => some (ok (.exit .success))
  | .v => some (ok (.exit .success))
  | .unknown _ => some (ok (.exit .failure))
  | .b a => if a.length < 24 then none else some (ub .oob)
  | .r a => if a.length < 256 then (if is_dir fs a then none else some (ok (.exit .failure))) else some (ub .oob)
  | _ => none

theorem optLoop_cons {fs : FS} {o : Opt} {os : List Opt} {c : Cfg} (hl : c.logLevel ≤ 5) :
    optLoop fs (o :: os) c = (match optEnd fs o with
      | none => optLoop fs os (c.set o)
      | some e => e) := by
  cases o with
  | d => rfl
  | f => rfl
  | h => rfl
  | v => rfl
  | missing => rfl
  | unknown c => rfl
  | p a => rfl
  | b a =>
    simp only [optLoop, optEnd]
    by_cases h : a.length < 24
    · rw [fmtInto_ok (by omega)]
      simp [h, Cfg.set]
    · rw [fmtInto_over (by omega)]
      simp [h]
  | r a =>
    simp only [optLoop, optEnd]
    by_cases h : a.length < 256
    · rw [fmtInto_ok (by show a.length + 1 ≤ 256; omega)]
      cases hd : is_dir fs a with
      | true => simp [h, hd, Cfg.set]
      | false =>
        have : logger ⟨c.logLevel, []⟩ LOG_FATAL [] [] [] [] = ok (⟨c.logLevel, [b!"  FATAL : \n"]⟩, .failure) := by
          unfold logger
          rw [if_neg (by show ¬ (5 : Int) < c.logLevel; omega)]
          rfl
        simp [h, hd, this]
    · rw [fmtInto_over (by show 256 < a.length + 1; omega)]
      simp [h]

theorem set_level (c : Cfg) (o : Opt) (h : c.logLevel ≤ 5) : (c.set o).logLevel ≤ 5 := by
  cases o <;> simp [Cfg.set, h]
  decide

theorem optLoop_fold {fs : FS} (opts rest : List Opt) (c : Cfg) (hl : c.logLevel ≤ 5) (h : ∀ o ∈ opts, optEnd fs o = none) :
    optLoop fs (opts ++ rest) c = optLoop fs rest (opts.foldl Cfg.set c) ∧ (opts.foldl Cfg.set c).logLevel ≤ 5 := by
  induction opts generalizing c with
  | nil => exact ⟨rfl, hl⟩
  | cons o os ih =>
    rw [List.cons_append, optLoop_cons hl, h o (by simp)]
    exact ih (c.set o) (set_level c o hl) (fun x hx => h x (by simp [hx]))

/-- The configuration before any option. -/
def startCfg : Cfg :=
  { port := 4443, wsRoot := b!"/etc/wayuu", staticRoot := b!"/etc/wayuu/www", wwwIndex := b!"/index.html",
    favicon := b!"/favicon.ico", bindAddr := b!"127.0.0.1", ssl := true, logLevel := 2 }

theorem defaultCfg_eq : defaultCfg = ok startCfg := by decide +kernel

theorem lastOf_fold {α : Type} (sel : Opt → Option α) (get : Cfg → α) (hget : ∀ c o, get (c.set o) = (sel o).getD (get c))
    (opts : List Opt) (c : Cfg) : LastOf sel opts (get c) (get (opts.foldl Cfg.set c)) := by
  induction opts generalizing c with
  | nil => exact Or.inr ⟨rfl, by simp⟩
  | cons o os ih =>
    rw [List.foldl_cons]
    rcases ih (c.set o) with ⟨a, x, b, h1, h2, h3⟩ | ⟨h1, h2⟩
    · exact Or.inl ⟨o :: a, x, b, by simp [h1], h2, h3⟩
    · rw [hget] at h1
      cases ho : sel o with
      | none => exact Or.inr ⟨by rw [h1, ho]; rfl, by simpa [ho] using h2⟩
      | some v => exact Or.inl ⟨[], o, os, rfl, by rw [h1, ho]; rfl, h2⟩

/-- Options with which the server starts: none of -h, -v and unknown ones, arguments that fit, existing root folders. -/
def Fine (fs : FS) (o : Opt) : Prop :=
  o ≠ .h ∧ o ≠ .v ∧ (∀ x, o ≠ .unknown x) ∧ (∀ a, o = .b a → a.length < 24) ∧ ∀ a, o = .r a → a.length < 256 ∧ fs.lookup a = some .dir

theorem is_dir_iff {fs : FS} {path : Str} : is_dir fs path = true ↔ fs.lookup path = some .dir := by
  unfold is_dir
  split
  · rename_i h; simp [h]
  · rename_i h
    simp only [Bool.false_eq_true, false_iff]
    exact h

theorem fine_iff (fs : FS) (o : Opt) : Fine fs o ↔ optEnd fs o = none := by
  unfold Fine
  cases o with
  | b a => simp [optEnd]
  | r a =>
    simp only [optEnd, ne_eq, reduceCtorEq, not_false_eq_true, false_implies, implies_true, Opt.r.injEq, true_and, forall_eq']
    rw [← is_dir_iff]
    by_cases h : a.length < 256
    · cases is_dir fs a <;> simp [h]
    · simp [h]
  | _ => simp [optEnd]

/-- C61, start: the server starts iff all options are fine. -/
theorem C61_launch (fs : FS) (opts : List Opt) : (∃ c, main fs opts = ok (.launch c)) ↔ ∀ o ∈ opts, Fine fs o := by
  unfold main
  rw [defaultCfg_eq]
  show (∃ c, optLoop fs opts startCfg = _) ↔ _
  have key : ∀ (opts : List Opt) (c : Cfg), c.logLevel ≤ 5 → ((∃ c', optLoop fs opts c = ok (.launch c')) ↔ ∀ o ∈ opts, Fine fs o) := by
    intro opts
    induction opts with
    | nil => intro c _; simp [optLoop]
    | cons o os ih =>
      intro c hl
      rw [optLoop_cons hl]
      have hf := fine_iff fs o
      cases ho : optEnd fs o with
      | none =>
        simp only [List.mem_cons, forall_eq_or_imp, ih _ (set_level c o hl), hf, ho, true_and]
      | some e =>
        have : ¬ Fine fs o := by rw [hf, ho]; simp
        have he : ∀ c', e ≠ ok (.launch c') := by
          intro c' h
          subst h
          cases o <;> simp [optEnd] at ho
          all_goals (repeat' split at ho) <;> simp at ho
        simp only [List.mem_cons, forall_eq_or_imp, this, false_and, iff_false, not_exists]
        exact he
  exact key opts startCfg (by decide)

/-- C61, other endings: the first option that is not fine decides. -/
theorem C61_exit (fs : FS) (opts rest : List Opt) (o : Opt) (hf : ∀ x ∈ opts, Fine fs x) :
    (o = .h ∨ o = .v → main fs (opts ++ o :: rest) = ok (.exit .success)) ∧
    (∀ x, o = .unknown x → main fs (opts ++ o :: rest) = ok (.exit .failure)) ∧
    (∀ a, o = .r a → a.length < 256 → fs.lookup a ≠ some .dir → main fs (opts ++ o :: rest) = ok (.exit .failure)) ∧
    (∀ a, o = .r a → 256 ≤ a.length → main fs (opts ++ o :: rest) = ub .oob) ∧
    (∀ a, o = .b a → 24 ≤ a.length → main fs (opts ++ o :: rest) = ub .oob) := by
  have key : ∀ e, optEnd fs o = some e → main fs (opts ++ o :: rest) = e := by
    intro e he
    unfold main
    rw [defaultCfg_eq]
    show optLoop fs (opts ++ o :: rest) startCfg = e
    obtain ⟨h1, h2⟩ := optLoop_fold (fs := fs) opts (o :: rest) startCfg (by decide) (fun x hx => (fine_iff fs x).mp (hf x hx))
    rw [h1, optLoop_cons h2, he]
  refine ⟨?_, ?_, ?_, ?_, ?_⟩
  · rintro (rfl | rfl) <;> exact key _ rfl
  · rintro x rfl; exact key _ rfl
  · rintro a rfl ha hd
    apply key
    have : is_dir fs a = false := by rw [← Bool.not_eq_true, is_dir_iff]; exact hd
    simp [optEnd, ha, this]
  · rintro a rfl ha
    apply key
    simp [optEnd, show ¬ a.length < 256 by omega]
  · rintro a rfl ha
    apply key
    simp [optEnd, show ¬ a.length < 24 by omega]

example : main ⟨fun _ => none, fun _ => true, fun _ => true⟩ [.v, .p b!"80"] = ok (.exit .success) :=
  (C61_exit _ [] [.p b!"80"] .v (by simp)).1 (Or.inr rfl)

/-- C61 in full: the documented meaning of the options and the documented defaults. -/
def C61_statement : Prop :=
  ∀ (fs : FS) (opts : List Opt) (c : Cfg), main fs opts = ok (.launch c) →
    LastOf addrOf opts b!"0.0.0.0" c.bindAddr ∧
    (∃ text, LastOf portOf opts b!"4443" text ∧
      (text ≠ [] → (∀ x ∈ text, digit x) → decimal text < 65536 → boundPort c = decimal text)) ∧
    (c.ssl = true ↔ Opt.f ∉ opts) ∧ (c.logLevel = 1 ↔ Opt.d ∈ opts) ∧ (c.logLevel = 2 ↔ Opt.d ∉ opts) ∧
    ∃ root, LastOf rootOf opts b!"/etc/wayuu" root ∧ c.staticRoot = root ++ b!"/www" ∧
      certPath c = ok (root ++ b!"/ssl/cert.pem") ∧ keyPath c = ok (root ++ b!"/ssl/key.pem") ∧ c.wsRoot = root

/-- C61 is false: without options the server listens on 127.0.0.1 only. -/
theorem C61_refuted : ¬ C61_statement := by
  intro h
  obtain ⟨h1, -⟩ := h ⟨fun _ => none, fun _ => true, fun _ => true⟩ [] startCfg (by decide +kernel)
  rcases h1 with ⟨a, o, b, h1, -⟩ | ⟨h1, -⟩
  · simp at h1
  · revert h1; decide

/-- C61, static content: always read from /etc/wayuu/www, whatever the options. -/
theorem C61_static (fs : FS) (opts : List Opt) (c : Cfg) (h : main fs opts = ok (.launch c)) :
    c.staticRoot = b!"/etc/wayuu/www" ∧ c.wwwIndex = b!"/index.html" ∧ c.favicon = b!"/favicon.ico" := by
  have hf := (C61_launch fs opts).mp ⟨c, h⟩
  unfold main at h
  rw [defaultCfg_eq] at h
  change optLoop fs opts startCfg = _ at h
  obtain ⟨h1, -⟩ := optLoop_fold (fs := fs) opts [] startCfg (by decide) (fun x hx => (fine_iff fs x).mp (hf x hx))
  rw [List.append_nil, h] at h1
  simp only [optLoop, ok.injEq, Start.launch.injEq] at h1
  have key : ∀ (opts : List Opt) (c : Cfg), (opts.foldl Cfg.set c).staticRoot = c.staticRoot ∧
      (opts.foldl Cfg.set c).wwwIndex = c.wwwIndex ∧ (opts.foldl Cfg.set c).favicon = c.favicon := by
    intro opts
    induction opts with
    | nil => intro c; exact ⟨rfl, rfl, rfl⟩
    | cons o os ih =>
      intro c
      obtain ⟨e1, e2, e3⟩ := ih (c.set o)
      rw [List.foldl_cons, e1, e2, e3]
      cases o <;> exact ⟨rfl, rfl, rfl⟩
  rw [h1]
  exact key opts startCfg

/-- C61, what holds: the options set address, port, plain HTTP, debug level, and the root for certificates, addresses and
limits (`C46_filter` and `C48_rules` say how those are read under a root of less than 256 bytes); the last one counts. Missing: the default address is 127.0.0.1, and `-r` does not move the static content (`C61_static`). -/
theorem C61_partial (fs : FS) (opts : List Opt) (c : Cfg) (h : main fs opts = ok (.launch c)) :
    LastOf addrOf opts b!"127.0.0.1" c.bindAddr ∧
    (∃ text, LastOf portOf opts b!"4443" text ∧
      (text ≠ [] → (∀ x ∈ text, digit x) → decimal text < 65536 → boundPort c = decimal text)) ∧
    (c.ssl = true ↔ Opt.f ∉ opts) ∧ (c.logLevel = 1 ↔ Opt.d ∈ opts) ∧ (c.logLevel = 2 ↔ Opt.d ∉ opts) ∧
    ∃ root, LastOf rootOf opts b!"/etc/wayuu" root ∧ root.length < 256 ∧ (Opt.r root ∈ opts → fs.lookup root = some .dir) ∧
      certPath c = ok (root ++ b!"/ssl/cert.pem") ∧ keyPath c = ok (root ++ b!"/ssl/key.pem") ∧ c.wsRoot = root := by
  have hf := (C61_launch fs opts).mp ⟨c, h⟩
  unfold main at h
  rw [defaultCfg_eq] at h
  change optLoop fs opts startCfg = _ at h
  obtain ⟨h1, -⟩ := optLoop_fold (fs := fs) opts [] startCfg (by decide) (fun x hx => (fine_iff fs x).mp (hf x hx))
  rw [List.append_nil, h] at h1
  simp only [optLoop, ok.injEq, Start.launch.injEq] at h1
  have hroot : LastOf rootOf opts b!"/etc/wayuu" c.wsRoot := by
    rw [h1]
    exact lastOf_fold rootOf (·.wsRoot) (fun c o => by cases o <;> rfl) opts startCfg
  have hlen : c.wsRoot.length < 256 := by
    rcases hroot with ⟨a, o, b, rfl, h2, -⟩ | ⟨h2, -⟩
    · cases o <;> simp [rootOf] at h2
      subst h2
      exact ((hf _ (by simp)).2.2.2.2 _ rfl).1
    · rw [h2]; decide
  refine ⟨?_, ?_, ?_, ?_, ?_, c.wsRoot, hroot, hlen, ?_, ?_, ?_, rfl⟩
  · rw [h1]
    exact lastOf_fold addrOf (·.bindAddr) (fun c o => by cases o <;> rfl) opts startCfg
  · -- the port as a string
    have key : ∃ text, LastOf portOf opts b!"4443" text ∧ c.port = atoi text := by
      have := lastOf_fold (fun o => (portOf o).map atoi) (·.port) (fun c o => by cases o <;> rfl) opts startCfg
      rw [← h1] at this
      rcases this with ⟨a, o, b, e1, e2, e3⟩ | ⟨e1, e2⟩
      · cases o <;> simp [portOf] at e2
        rename_i arg
        exact ⟨arg, Or.inl ⟨a, .p arg, b, e1, rfl, fun x hx => by simpa using e3 x hx⟩, e2.symm⟩
      · exact ⟨b!"4443", Or.inr ⟨rfl, fun x hx => by simpa using e2 x hx⟩, by rw [e1]; decide +kernel⟩
    obtain ⟨text, k1, k2⟩ := key
    refine ⟨text, k1, fun hne hd hlt => ?_⟩
    have hdw : ∀ x, digit x → ws x = false := by
      have : ∀ n : Fin 256, digit (UInt8.ofNat n) → ws (UInt8.ofNat n) = false := by unfold digit; decide +kernel
      intro x hx
      simpa using this ⟨x.toNat, x.toNat_lt⟩ (by simpa using hx)
    have hst : IsStrip text text := by
      refine ⟨[], [], by simp, by simp, by simp, fun x hx => ?_, fun x hx => ?_⟩
      · exact hdw x (hd x (List.mem_of_head? hx))
      · exact hdw x (hd x (List.mem_of_getLast? hx))
    have := atoi_digits hst hne hd (by omega)
    unfold boundPort
    rw [k2, this]
    omega
  · have := lastOf_fold (fun o => if o = Opt.f then some false else none) (·.ssl) (fun c o => by cases o <;> rfl) opts startCfg
    rw [← h1] at this
    rcases this with ⟨a, o, b, e1, e2, -⟩ | ⟨e1, e2⟩
    · dsimp only at e2
      split at e2
      · rename_i ho
        simp only [Option.some.injEq] at e2
        subst ho
        simp [← e2, e1]
      · simp at e2
    · have : c.ssl = true := e1
      simp only [this, true_iff]
      intro hm
      have := e2 _ hm
      simp at this
  · have := lastOf_fold (fun o => if o = Opt.d then some (1 : Int) else none) (·.logLevel) (fun c o => by cases o <;> rfl) opts startCfg
    rw [← h1] at this
    rcases this with ⟨a, o, b, e1, e2, -⟩ | ⟨e1, e2⟩
    · dsimp only at e2
      split at e2
      · rename_i ho
        simp only [Option.some.injEq] at e2
        subst ho
        simp [← e2, e1]
      · simp at e2
    · have : c.logLevel = 2 := e1
      simp only [this]
      constructor
      · intro h; cases h
      · intro hm
        have := e2 _ hm
        simp at this
  · have := lastOf_fold (fun o => if o = Opt.d then some (1 : Int) else none) (·.logLevel) (fun c o => by cases o <;> rfl) opts startCfg
    rw [← h1] at this
    rcases this with ⟨a, o, b, e1, e2, -⟩ | ⟨e1, e2⟩
    · dsimp only at e2
      split at e2
      · rename_i ho
        simp only [Option.some.injEq] at e2
        subst ho
        simp [← e2, e1]
      · simp at e2
    · have : c.logLevel = 2 := e1
      simp only [this, true_iff]
      intro hm
      have := e2 _ hm
      simp at this
  · intro hm
    exact ((hf _ hm).2.2.2.2 _ rfl).2
  · exact fmtInto_ok (by simp [ROOT_PATH_MAX]; omega)
  · exact fmtInto_ok (by simp [ROOT_PATH_MAX]; omega)

/-- A tree with one directory. -/
def srvFs : FS := ⟨fun p => if p = [b!"srv"] then some .dir else none, fun _ => true, fun _ => true⟩

example : main srvFs [.r b!"/srv", .p b!"80", .f, .p b!"8080", .d] =
    ok (.launch { startCfg with wsRoot := b!"/srv", port := 8080, ssl := false, logLevel := 1 }) := by decide +kernel
example : main srvFs [.f, .r b!"/none", .p b!"80"] = ok (.exit .failure) := by decide +kernel
example : LastOf portOf [.p b!"80", .f, .p b!"8080", .d] b!"4443" b!"8080" :=
  Or.inl ⟨[.p b!"80", .f], .p b!"8080", [.d], rfl, rfl, by decide⟩
example : ∀ o ∈ [Opt.r b!"/srv", .p b!"80", .f], Fine srvFs o := by
  intro o ho
  rw [fine_iff]
  revert ho
  simp only [List.mem_cons, List.not_mem_nil, or_false]
  rintro (rfl | rfl | rfl) <;> decide +kernel

end Wayuu
