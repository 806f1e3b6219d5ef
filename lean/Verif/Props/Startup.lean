import Verif.Props.Listen
import Verif.Props.Limits
import Verif.Spec.Startup
/-
C96: the server starts exactly if what it needs is there.
-/
namespace Wayuu.Startup
open Wayuu C Spec Listen

theorem say_ok {st : LogSt} {level : Int} (h0 : 0 ≤ level) (h1 : level < 5) (msg : Str) : ∃ t, say st level msg = ok (⟨st.level, st.text ++ t⟩, .returns) ∧
    (st.level ≤ level → ∃ x y, t = [x ++ msg ++ y]) := by
  unfold say logger
  by_cases h : level < st.level
  · refine ⟨[], by rw [if_pos h]; simp, fun h' => by omega⟩
  · rw [if_neg h, if_neg (by omega)]
    obtain ⟨n, rfl⟩ : ∃ n : Nat, level = n := ⟨level.toNat, by omega⟩
    have hn : n < level_names.length := by simp [level_names]; omega
    rw [Int.toNat_natCast, List.getElem?_eq_getElem hn]
    simp only
    rw [if_neg (by simp only [LOG_FATAL]; omega)]
    exact ⟨_, rfl, fun _ => ⟨[] ++ b!" " ++ [] ++ b!" " ++ level_names[n] ++ b!" " ++ [] ++ b!": ", b!"\n", rfl⟩⟩

theorem say_fatal {st : LogSt} (h : st.level ≤ 5) (msg : Str) :
    ∃ x y, say st LOG_FATAL msg = ok (⟨st.level, st.text ++ [x ++ msg ++ y]⟩, .failure) := by
  unfold say logger
  rw [if_neg (by simp only [LOG_FATAL]; omega)]
  exact ⟨[] ++ b!" " ++ [] ++ b!" " ++ b!"FATAL" ++ b!" " ++ [] ++ b!": ", b!"\n", rfl⟩

theorem loads_iff (fs : FS) (path : Str) (good : Str → Bool) : loads fs path good = true ↔ Readable fs path good := by
  unfold loads Readable
  cases h : fs.openRead path <;> simp

theorem createdir_ready (fs : FS) : (check_createdir fs FILE_DOWNLOAD_TMP_DIR).1 = true ↔ FolderReady fs := by
  unfold FolderReady check_createdir
  have e : FILE_DOWNLOAD_TMP_DIR = b!"/tmp/wayuu" := rfl
  have hd : is_dir fs b!"/tmp/wayuu" = true ↔ fs.lookup b!"/tmp/wayuu" = some .dir := by
    unfold is_dir
    cases fs.lookup b!"/tmp/wayuu" with
    | none => simp
    | some n => cases n <;> simp
  rw [e, ← hd]
  by_cases h : is_dir fs b!"/tmp/wayuu" = true
  · simp [h]
  · rw [if_neg h]
    cases hm : fs.mkdir b!"/tmp/wayuu" <;> simp [h]

theorem createdir_tree {fs fs' : FS} (h : WithFolder fs fs') : check_createdir fs FILE_DOWNLOAD_TMP_DIR = (true, fs') := by
  unfold check_createdir
  have e : FILE_DOWNLOAD_TMP_DIR = b!"/tmp/wayuu" := rfl
  have hd : is_dir fs b!"/tmp/wayuu" = true ↔ fs.lookup b!"/tmp/wayuu" = some .dir := by
    unfold is_dir
    cases fs.lookup b!"/tmp/wayuu" with
    | none => simp
    | some n => cases n <;> simp
  rw [e]
  rcases h with ⟨h1, rfl⟩ | ⟨h1, h2⟩
  · rw [if_pos (hd.mpr h1)]
  · rw [if_neg (fun h => h1 (hd.mp h)), h2]

/-- The settings `main` arrives at. -/
structure Set (fs : FS) (opts : List Opt) (root : List Byte) (addr port : Nat) : Prop where
  fine : ∀ o ∈ opts, Fine fs o
  root : LastOf rootOf opts b!"/etc/wayuu" root
  addr : ∃ ta, LastOf addrOf opts b!"127.0.0.1" ta ∧ Dotted ta addr
  port : ∃ tp, LastOf portOf opts b!"4443" tp ∧ PortText tp port

theorem settings {fs : FS} {opts : List Opt} {root : List Byte} {addr port : Nat} (h : Set fs opts root addr port) :
    ∃ c, main fs opts = ok (.launch c) ∧ c.port = port ∧ port < 65536 ∧ 0 < port ∧ inet_addr c.bindAddr = addr ∧ c.wsRoot = root ∧
      root.length < 256 ∧ (c.ssl = true ↔ Opt.f ∉ opts) ∧ c.logLevel ≤ 2 ∧ certPath c = ok (root ++ b!"/ssl/cert.pem") ∧
      keyPath c = ok (root ++ b!"/ssl/key.pem") := by
  obtain ⟨ta, ha, ha'⟩ := h.addr
  obtain ⟨tp, hp, ⟨p1, p2, -, p4⟩, p5, p6⟩ := h.port
  obtain ⟨c, h1, h2, h3, -⟩ := main_cfg h.fine ha hp
  obtain ⟨-, -, hs, hd, hd', root', r1, r2, -, r4, r5, r6⟩ := C61_partial fs opts c h1
  have e : root' = root := lastOf_unique r1 h.root
  subst e
  refine ⟨c, h1, ?_, p6, p5, ?_, r6, r2, hs, ?_, r4, r5⟩
  · rw [h3, atoi_port p1 p2 (by omega), p4]
  · rw [h2]; exact inet_addr_dotted ha'
  · by_cases h' : Opt.d ∈ opts
    · rw [hd.mpr h']; decide
    · rw [hd'.mpr h']; decide

/-- The rules in the tree, in the sense of C48. -/
def Rules (fs : FS) (root : List Byte) (rules : List PathLimit) : Prop :=
  (fs.openRead (root ++ b!"/etc/limits") = none ∧ rules = []) ∨
    ∃ content lines found, fs.openRead (root ++ b!"/etc/limits") = some content ∧ FileLines content lines ∧ PathsFit lines ∧
      List.Forall₂ LineRule lines found ∧ rules = (found.filterMap (fun r => r)).take 64

theorem rules_load {fs : FS} {root : List Byte} {rules : List PathLimit} (hr : root.length < 256) (h : Rules fs root rules) :
    load_limits fs root = ok rules := by
  obtain ⟨k1, k2, -⟩ := C48_rules fs root hr
  rcases h with ⟨h1, rfl⟩ | ⟨content, lines, found, h1, h2, h3, h4, rfl⟩
  · exact k1 h1
  · exact k2 content lines found h1 h2 h3 h4

/-- `sslSetup` on a tree. -/
theorem sslSetup_good {w : Sys} {fs : FS} {c : Cfg} {root : List Byte} (st : LogSt) (h1 : certPath c = ok (root ++ b!"/ssl/cert.pem"))
    (h2 : keyPath c = ok (root ++ b!"/ssl/key.pem"))
    (h : c.ssl = true → w.context = true ∧ Readable fs (root ++ b!"/ssl/cert.pem") w.certOk ∧ Readable fs (root ++ b!"/ssl/key.pem") w.keyOk) :
    sslSetup w fs c st = ok (st, true) := by
  unfold sslSetup
  split
  · rename_i hs
    obtain ⟨k1, k2, k3⟩ := h hs
    rw [← loads_iff] at k2 k3
    simp [k1, configure_context, h1, h2, k2, k3]
  · rfl

theorem check_good (st : LogSt) (level : Int) (msg : Str) : check true st level msg = ok (st, .returns) := rfl

theorem check_bad (st : LogSt) (level : Int) (msg : Str) : check false st level msg = say st level msg := rfl

theorem check_error (b : Bool) (st : LogSt) (msg : Str) : ∃ t, check b st LOG_ERROR msg = ok (⟨st.level, st.text ++ t⟩, .returns) := by
  cases b
  · obtain ⟨t, h, -⟩ := say_ok (st := st) (level := LOG_ERROR) (by decide) (by decide) msg
    exact ⟨t, h⟩
  · exact ⟨[], by simp [check_good]⟩

theorem serve_good {w : Sys} {fs : FS} {c : Cfg} {port : Nat} (rules : List PathLimit) (st : LogSt) (hp : c.port = port)
    (h1 : port < 65536) (h0 : 0 < port) (hs : w.socket = true) (hb : w.os.bind (inet_addr c.bindAddr) port = true)
    (hl : w.listens = true) :
    ∃ st', serve w fs c rules st = ok (st', .accepting (inet_addr c.bindAddr) port c.ssl rules fs (pool w)) ∧
      (st.level ≤ LOG_INFO → ∃ x y, st'.text.getLast? = some (x ++ (b!"WAYUU WS running on port " ++ fmtNat port) ++ y)) := by
  unfold serve
  have e : ((port : Int) % 65536).toNat = port := by omega
  have e2 : fmtInt (port : Int) = fmtNat port := by
    unfold fmtInt
    rw [if_neg (by omega)]
    simp
  obtain ⟨t1, s1, -⟩ := say_ok (st := st) (level := LOG_INFO) (by decide) (by decide) (b!"WAYUU binding to address: " ++ c.bindAddr)
  obtain ⟨t2, s2, -⟩ := say_ok (st := ⟨st.level, st.text ++ t1⟩) (level := LOG_INFO) (by decide) (by decide) (b!"WAYUU starting on port " ++ fmtInt c.port)
  obtain ⟨t, s⟩ := check_error w.reuse ⟨st.level, st.text ++ t1 ++ t2⟩ b!"setsockopt(SO_REUSEADDR) failed"
  obtain ⟨t3, s3, s3'⟩ := say_ok (st := ⟨st.level, st.text ++ t1 ++ t2 ++ t⟩) (level := LOG_INFO) (by decide) (by decide) (b!"WAYUU WS running on port " ++ fmtInt c.port)
  rw [hp] at s2 s3 s3'
  simp only [s1, ok_bind, hp, s2, e, hs, hb, hl, Bool.and_true, Bool.true_and, Bool.not_true, Bool.false_eq_true, check_good, s, if_true,
    if_false, ne_eq, not_true, s3]
  rw [if_neg (show ¬ port = 0 by omega)]
  refine ⟨_, rfl, fun hlev => ?_⟩
  obtain ⟨x, y, rfl⟩ := s3' hlev
  exact ⟨x, y, by simp [e2]⟩

/-- The three calls that end the program if they fail. -/
theorem serve_refused {w : Sys} {fs : FS} {c : Cfg} {port : Nat} (rules : List PathLimit) (st : LogSt) (hp : c.port = port)
    (h1 : port < 65536) (hl : st.level ≤ 5) (root : List Byte) (n : Need)
    (hn : (n = .socket ∧ w.socket = false) ∨ (n = .port ∧ w.socket = true ∧ w.os.bind (inet_addr c.bindAddr) port = false) ∨
      (n = .listen ∧ w.socket = true ∧ w.os.bind (inet_addr c.bindAddr) port = true ∧ w.listens = false)) :
    ∃ st', serve w fs c rules st = ok (st', .exit .failure) ∧ ∃ line ∈ st'.text, NamesNeed root port line n := by
  unfold serve
  have e : ((port : Int) % 65536).toNat = port := by omega
  have e2 : fmtInt (port : Int) = fmtNat port := by
    unfold fmtInt
    rw [if_neg (by omega)]
    simp
  have ne : Exit.failure ≠ Exit.returns := by decide
  obtain ⟨t1, s1, -⟩ := say_ok (st := st) (level := LOG_INFO) (by decide) (by decide) (b!"WAYUU binding to address: " ++ c.bindAddr)
  obtain ⟨t2, s2, -⟩ := say_ok (st := ⟨st.level, st.text ++ t1⟩) (level := LOG_INFO) (by decide) (by decide) (b!"WAYUU starting on port " ++ fmtInt c.port)
  obtain ⟨t, s⟩ := check_error w.reuse ⟨st.level, st.text ++ t1 ++ t2⟩ b!"setsockopt(SO_REUSEADDR) failed"
  rw [hp] at s2
  rcases hn with ⟨rfl, k1⟩ | ⟨rfl, k1, k2⟩ | ⟨rfl, k1, k2, k3⟩
  · obtain ⟨x, y, s3⟩ := say_fatal (st := st) hl b!"Unable to obtain socket handle"
    simp only [k1, check_bad, s3, ok_bind, if_pos ne]
    exact ⟨_, rfl, _, List.mem_append_right _ (List.mem_singleton.mpr rfl), x ++ b!"Unable to ", b!" handle" ++ y, by simp [List.append_assoc]⟩
  · obtain ⟨x, y, s3⟩ := say_fatal (st := ⟨st.level, st.text ++ t1 ++ t2 ++ t⟩) hl (b!"Unable to bind to port " ++ fmtInt c.port)
    rw [hp] at s3
    simp only [s1, ok_bind, hp, s2, e, k1, k2, Bool.true_and, check_good, s, check_bad, ne_eq, not_true, if_false, s3]
    rw [if_pos (show ¬ Exit.failure = Exit.returns from ne)]
    refine ⟨_, rfl, _, List.mem_append_right _ (List.mem_singleton.mpr rfl), _, fmtNat_text port, x ++ b!"Unable to ", y, ?_⟩
    rw [e2]
    simp [List.append_assoc]
  · obtain ⟨x, y, s3⟩ := say_fatal (st := ⟨st.level, st.text ++ t1 ++ t2 ++ t⟩) hl b!"Error while listening to socket"
    simp only [s1, ok_bind, hp, s2, e, k1, k2, k3, Bool.true_and, check_good, s, check_bad, ne_eq, not_true, if_false, s3]
    rw [if_pos (show ¬ Exit.failure = Exit.returns from ne)]
    exact ⟨_, rfl, _, List.mem_append_right _ (List.mem_singleton.mpr rfl), x ++ b!"Error while ", y, by simp [List.append_assoc]⟩

/-- C96, the way up: if everything is there the server accepts connections, at the address and port and with the rules
it was given. -/
theorem C96_up (w : Sys) {fs fs' : FS} {opts : List Opt} {root : List Byte} {addr port : Nat} {rules : List PathLimit}
    (h : Set fs opts root addr port) (hf : WithFolder fs fs') (hr : Rules fs' root rules)
    (hm : ∀ n ∈ needs (decide (Opt.f ∉ opts)), Met w fs fs' root addr port n) :
    ∃ st, run w fs opts = ok (st, .accepting addr port (decide (Opt.f ∉ opts)) rules fs' (pool w)) ∧
      ∃ line t, st.text.getLast? = some line ∧ NatText t port ∧ WordIn (b!"running on port " ++ t) line := by
  obtain ⟨c, h1, h2, h3, h4, h5, h6, h7, h8, h9, h10, h11⟩ := settings h
  have hssl : c.ssl = decide (Opt.f ∉ opts) := by
    cases hc : c.ssl <;> simp [hc] at h8 ⊢ <;> exact h8
  rw [← hssl] at hm ⊢
  have hlog : Met w fs fs' root addr port .log := hm _ (by unfold needs; split <;> simp)
  have hport : Met w fs fs' root addr port .port := hm _ (by unfold needs; split <;> simp)
  have hsock : Met w fs fs' root addr port .socket := hm _ (by unfold needs; split <;> simp)
  have hlist : Met w fs fs' root addr port .listen := hm _ (by unfold needs; split <;> simp)
  unfold run
  rw [h1]
  show ∃ st, launch w fs c = _ ∧ _
  have ha : w.append WAYUU_LOGFILE = true := hlog
  unfold launch ws_launch
  rw [createdir_tree hf]
  simp only [ha, Bool.not_true, Bool.false_eq_true, if_false]
  rw [sslSetup_good _ h10 h11 (fun hs => ?_)]
  · simp only [ok_bind, Bool.not_true, Bool.false_eq_true, if_false]
    rw [h6, rules_load h7 hr]
    simp only [ok_bind]
    rw [← h5] at hport ⊢
    obtain ⟨st, k1, k2⟩ := serve_good (fs := fs') rules ⟨c.logLevel, []⟩ h2 h3 h4 hsock hport hlist
    obtain ⟨x, y, k2⟩ := k2 (by show c.logLevel ≤ 2; omega)
    exact ⟨st, k1, _, _, k2, fmtNat_text port, x ++ b!"WAYUU WS ", y, by simp [List.append_assoc]⟩
  · rw [hs] at hm
    exact ⟨hm .context (by simp [needs]), hm .cert (by simp [needs]), hm .key (by simp [needs])⟩

/-- Which of the last three calls fails. -/
theorem last_three (w : Sys) (fs fs' : FS) (root : List Byte) (addr port : Nat) (ssl : Bool) {before after : List Need} {n : Need}
    (hn : needs ssl = before ++ n :: after) (hm : ∀ m ∈ before, Met w fs fs' root addr port m)
    (hno : ¬ Met w fs fs' root addr port n) (h : n = .socket ∨ n = .port ∨ n = .listen) :
    (n = .socket ∧ w.socket = false) ∨ (n = .port ∧ w.socket = true ∧ w.os.bind addr port = false) ∨
      (n = .listen ∧ w.socket = true ∧ w.os.bind addr port = true ∧ w.listens = false) := by
  have key : ∀ (l before after : List Need) (n : Need), l = before ++ n :: after → l.Nodup →
      ∀ m, l.idxOf m < l.idxOf n → m ∈ before := by
    intro l before after n hl hd m h
    subst hl
    have hnb : n ∉ before := by
      intro hb
      rw [List.nodup_append] at hd
      exact hd.2.2 n hb n (by simp) rfl
    rw [List.idxOf_append_of_notMem hnb] at h
    simp only [List.idxOf_cons_self, Nat.add_zero] at h
    by_contra hc
    rw [List.idxOf_append_of_notMem hc] at h
    omega
  have hd : (needs ssl).Nodup := by cases ssl <;> decide
  rcases h with rfl | rfl | rfl
  · exact Or.inl ⟨rfl, by simpa [Met] using hno⟩
  · have h1 := hm .socket (key _ _ _ _ hn hd _ (by cases ssl <;> decide))
    exact Or.inr (Or.inl ⟨rfl, h1, by simpa [Met] using hno⟩)
  · have h1 := hm .socket (key _ _ _ _ hn hd _ (by cases ssl <;> decide))
    have h2 := hm .port (key _ _ _ _ hn hd _ (by cases ssl <;> decide))
    exact Or.inr (Or.inr ⟨rfl, h1, h2, by simpa [Met] using hno⟩)

/-- C96, the way down: if something is missing, the program ends with a failure status before any client is accepted,
and a line in the log (or on the terminal) names the first thing that is missing. -/
theorem C96_down (w : Sys) {fs fs' : FS} {opts : List Opt} {root : List Byte} {addr port : Nat} {rules : List PathLimit}
    {before after : List Need} {n : Need}
    (h : Set fs opts root addr port) (hf : FolderReady fs → WithFolder fs fs') (hr : Rules fs' root rules)
    (hn : needs (decide (Opt.f ∉ opts)) = before ++ n :: after)
    (hm : ∀ m ∈ before, Met w fs fs' root addr port m) (hno : ¬ Met w fs fs' root addr port n) :
    ∃ st, run w fs opts = ok (st, .exit .failure) ∧ ∃ line ∈ st.text, NamesNeed root port line n := by
  obtain ⟨c, h1, h2, h3, h4, h5, h6, h7, h8, h9, h10, h11⟩ := settings h
  have hssl : c.ssl = decide (Opt.f ∉ opts) := by
    cases hc : c.ssl <;> simp [hc] at h8 ⊢ <;> exact h8
  rw [← hssl] at hn
  unfold run
  rw [h1]
  show ∃ st, launch w fs c = _ ∧ _
  by_cases hlog : Met w fs fs' root addr port .log
  swap
  · -- the log file
    have e : n = .log := by
      rcases before with _ | ⟨b, before⟩
      · unfold needs at hn
        split at hn <;> simp at hn <;> exact hn.1.symm
      · have : b = .log := by
          unfold needs at hn
          split at hn <;> simp at hn <;> exact hn.1.symm
        exact absurd (this ▸ hm b (by simp)) hlog
    subst e
    have ha : w.append WAYUU_LOGFILE = false := by
      cases hh : w.append WAYUU_LOGFILE
      · rfl
      · exact absurd hh hno
    unfold launch
    rw [ha]
    exact ⟨_, rfl, _, List.mem_singleton.mpr rfl, b!"ERROR SETTING LOG FILE: ", b!"\n", rfl⟩
  have ha : w.append WAYUU_LOGFILE = true := hlog
  have hn0 : n ≠ .log := fun e => hno (e ▸ hlog)
  by_cases hfold : FolderReady fs
  swap
  · -- the folder
    have e : n = .folder := by
      have hfold : ¬ Met w fs fs' root addr port .folder := hfold
      rcases before with _ | ⟨b, before⟩
      · unfold needs at hn
        split at hn <;> simp at hn <;> exact absurd hn.1.symm hn0
      · rcases before with _ | ⟨b', before⟩
        · unfold needs at hn
          split at hn <;> simp at hn <;> exact hn.2.1.symm
        · have : b' = .folder := by
            unfold needs at hn
            split at hn <;> simp at hn <;> exact hn.2.1.symm
          exact absurd (this ▸ hm b' (by simp)) hfold
    subst e
    have hc : (check_createdir fs FILE_DOWNLOAD_TMP_DIR).1 = false := by
      cases hh : (check_createdir fs FILE_DOWNLOAD_TMP_DIR).1
      · rfl
      · exact absurd ((createdir_ready fs).mp hh) hfold
    unfold launch ws_launch
    obtain ⟨x, y, hs⟩ := say_fatal (st := ⟨c.logLevel, []⟩) (by show c.logLevel ≤ 5; omega) (b!"Cannot create path " ++ FILE_DOWNLOAD_TMP_DIR)
    generalize hg : check_createdir fs FILE_DOWNLOAD_TMP_DIR = g at hc
    obtain ⟨g1, g2⟩ := g
    simp only at hc
    subst hc
    simp only [ha, Bool.not_true, Bool.false_eq_true, if_false, Bool.not_false, if_true, hs, ok_bind]
    exact ⟨_, rfl, _, by simp; rfl, x ++ b!"Cannot create path ", y, by simp [FILE_DOWNLOAD_TMP_DIR]⟩
  have hn1 : n ≠ .folder := fun e => hno (e ▸ hfold)
  unfold launch ws_launch
  rw [createdir_tree (hf hfold)]
  simp only [ha, Bool.not_true, Bool.false_eq_true, if_false]
  have hlev : (⟨c.logLevel, []⟩ : LogSt).level ≤ LOG_ERROR := by show c.logLevel ≤ 4; omega
  have hm' : ∀ m ∈ before, m ≠ n := fun m hm1 e => hno (e ▸ hm m hm1)
  cases hs : c.ssl
  · -- plain HTTP
    rw [hs] at hn
    have e : n = .socket ∨ n = .port ∨ n = .listen := by
      have : n ∈ needs false := by rw [hn]; simp
      simpa [needs, hn0, hn1] using this
    obtain ⟨st', k1, k2⟩ := serve_refused (w := w) (fs := fs') rules ⟨c.logLevel, []⟩ h2 h3 (by show c.logLevel ≤ 5; omega) root n
      (by rw [h5]; exact last_three w fs fs' root addr port false hn hm hno e)
    rw [sslSetup_good _ h10 h11 (fun hs' => by rw [hs] at hs'; cases hs')]
    simp only [ok_bind, Bool.not_true, Bool.false_eq_true, if_false]
    rw [h6, rules_load h7 hr]
    exact ⟨st', k1, k2⟩
  · rw [hs] at hn
    unfold sslSetup
    rw [if_pos hs]
    by_cases hctx : w.context = true
    swap
    · have e : n = .context := by
        have hctx : ¬ Met w fs fs' root addr port .context := hctx
        have : Need.context ∉ before := fun hh => hctx (hm _ hh)
        rcases before with _ | ⟨b1, _ | ⟨b2, _ | ⟨b3, before⟩⟩⟩ <;> simp [needs] at hn
        · exact absurd hn.1.symm hn0
        · exact absurd hn.2.1.symm hn1
        · exact hn.2.2.1.symm
        · exact absurd (by rw [hn.2.2.1]; simp) this
      subst e
      obtain ⟨t, s1, s2⟩ := say_ok (st := ⟨c.logLevel, []⟩) (level := LOG_ERROR) (by decide) (by decide) b!"Unable to create SSL context"
      obtain ⟨x, y, rfl⟩ := s2 hlev
      simp only [hctx, Bool.not_false, if_true, s1, ok_bind]
      exact ⟨_, rfl, _, by simp; rfl, x ++ b!"Unable to create ", y, by simp⟩
    simp only [hctx, Bool.not_true, Bool.false_eq_true, if_false]
    have hn2 : n ≠ .context := fun e => hno (e ▸ hctx)
    unfold configure_context
    simp only [h10, h11, ok_bind]
    by_cases hcert : Readable fs' (root ++ b!"/ssl/cert.pem") w.certOk
    swap
    · have e : n = .cert := by
        have hcert : ¬ Met w fs fs' root addr port .cert := hcert
        have : Need.cert ∉ before := fun hh => hcert (hm _ hh)
        rcases before with _ | ⟨b1, _ | ⟨b2, _ | ⟨b3, _ | ⟨b4, before⟩⟩⟩⟩ <;> simp [needs] at hn
        · exact absurd hn.1.symm hn0
        · exact absurd hn.2.1.symm hn1
        · exact absurd hn.2.2.1.symm hn2
        · exact hn.2.2.2.1.symm
        · exact absurd (by rw [hn.2.2.2.1]; simp) this
      subst e
      have hl : loads fs' (root ++ b!"/ssl/cert.pem") w.certOk = false := by
        cases hh : loads fs' (root ++ b!"/ssl/cert.pem") w.certOk
        · rfl
        · exact absurd ((loads_iff _ _ _).mp hh) hcert
      obtain ⟨t, s1, s2⟩ := say_ok (st := ⟨c.logLevel, []⟩) (level := LOG_ERROR) (by decide) (by decide) (b!"Failed to use certificate in " ++ (root ++ b!"/ssl/cert.pem"))
      obtain ⟨x, y, rfl⟩ := s2 hlev
      simp only [hl, Bool.not_false, if_true, s1, ok_bind]
      exact ⟨_, rfl, _, by simp; rfl, x ++ b!"Failed to use certificate in ", y, by simp⟩
    have hn3 : n ≠ .cert := fun e => hno (e ▸ hcert)
    have hl := (loads_iff _ _ _).mpr hcert
    simp only [hl, Bool.not_true, Bool.false_eq_true, if_false]
    by_cases hkey : Readable fs' (root ++ b!"/ssl/key.pem") w.keyOk
    swap
    · have e : n = .key := by
        have hkey : ¬ Met w fs fs' root addr port .key := hkey
        have : Need.key ∉ before := fun hh => hkey (hm _ hh)
        rcases before with _ | ⟨b1, _ | ⟨b2, _ | ⟨b3, _ | ⟨b4, _ | ⟨b5, before⟩⟩⟩⟩⟩ <;> simp [needs] at hn
        · exact absurd hn.1.symm hn0
        · exact absurd hn.2.1.symm hn1
        · exact absurd hn.2.2.1.symm hn2
        · exact absurd hn.2.2.2.1.symm hn3
        · exact hn.2.2.2.2.1.symm
        · exact absurd (by rw [hn.2.2.2.2.1]; simp) this
      subst e
      have hl : loads fs' (root ++ b!"/ssl/key.pem") w.keyOk = false := by
        cases hh : loads fs' (root ++ b!"/ssl/key.pem") w.keyOk
        · rfl
        · exact absurd ((loads_iff _ _ _).mp hh) hkey
      obtain ⟨t, s1, s2⟩ := say_ok (st := ⟨c.logLevel, []⟩) (level := LOG_ERROR) (by decide) (by decide) (b!"Failed to open private_key in " ++ (root ++ b!"/ssl/key.pem"))
      obtain ⟨x, y, rfl⟩ := s2 hlev
      simp only [hl, Bool.not_false, if_true, s1, ok_bind]
      exact ⟨_, rfl, _, by simp; rfl, x ++ b!"Failed to open private_key in ", y, by simp⟩
    have hn4 : n ≠ .key := fun e => hno (e ▸ hkey)
    have hl := (loads_iff _ _ _).mpr hkey
    simp only [hl, Bool.not_true, Bool.false_eq_true, if_false, ok_bind]
    have e : n = .socket ∨ n = .port ∨ n = .listen := by
      have : n ∈ needs true := by rw [hn]; simp
      simpa [needs, hn0, hn1, hn2, hn3, hn4] using this
    obtain ⟨st', k1, k2⟩ := serve_refused (w := w) (fs := fs') rules ⟨c.logLevel, []⟩ h2 h3 (by show c.logLevel ≤ 5; omega) root n
      (by rw [h5]; exact last_three w fs fs' root addr port true hn hm hno e)
    rw [h6, rules_load h7 hr]
    exact ⟨st', k1, k2⟩

/-! ### an example -/

/-- A machine with /tmp and a certificate under /srv. -/
def bootFs : FS :=
  ⟨fun p => if p = [b!"tmp"] ∨ p = [b!"srv"] ∨ p = [b!"srv", b!"ssl"] then some .dir
    else if p = [b!"srv", b!"ssl", b!"cert.pem"] then some (.file b!"CERT") else none, fun _ => true, fun _ => true⟩

def bootSys : Sys := ⟨tenOs, fun _ => true, true, fun c => c == b!"CERT", fun c => c == b!"KEY", true, false, true, fun _ => true⟩

def bootOpts : List Opt := [.r b!"/srv", .b b!"10.0.0.7", .p b!"8080"]

theorem bootSet (l : List Opt) (hl : l = [] ∨ l = [.f]) : Set bootFs (bootOpts ++ l) b!"/srv" (10 * 2 ^ 24 + 7) 8080 := by
  have hn : ∀ (sel : Opt → Option (List Byte)), sel .f = none → ∀ x ∈ l, sel x = none := by
    intro sel hs x hx
    rcases hl with rfl | rfl
    · simp at hx
    · simp at hx; rw [hx]; exact hs
  refine ⟨?_, ?_, ⟨b!"10.0.0.7", ?_, dotted_ten⟩, ⟨b!"8080", ?_, ?_⟩⟩
  · intro o ho
    rw [fine_iff]
    revert ho
    rcases hl with rfl | rfl
    · simp only [bootOpts, List.mem_append, List.mem_cons, List.not_mem_nil, or_false]
      rintro (rfl | rfl | rfl) <;> decide +kernel
    · simp only [bootOpts, List.mem_append, List.mem_cons, List.not_mem_nil, or_false]
      rintro ((rfl | rfl | rfl) | rfl) <;> decide +kernel
  · exact Or.inl ⟨[], _, [.b b!"10.0.0.7", .p b!"8080"] ++ l, rfl, rfl, fun x hx => by
      rcases List.mem_append.mp hx with h | h
      · clear hx; revert x; decide
      · exact hn rootOf rfl x h⟩
  · exact Or.inl ⟨[.r b!"/srv"], _, [.p b!"8080"] ++ l, rfl, rfl, fun x hx => by
      rcases List.mem_append.mp hx with h | h
      · clear hx; revert x; decide
      · exact hn addrOf rfl x h⟩
  · exact Or.inl ⟨[.r b!"/srv", .b b!"10.0.0.7"], _, l, rfl, rfl, hn portOf rfl⟩
  · exact ⟨by unfold NatText digit; decide +kernel, by decide, by decide⟩

theorem bootFolder : WithFolder bootFs (bootFs.update [b!"tmp", b!"wayuu"] (some .dir)) :=
  Or.inr ⟨by decide +kernel, by
    have h1 : bootFs.resolve (FS.noTrail b!"/tmp/wayuu") = some [b!"tmp", b!"wayuu"] := by decide +kernel
    unfold FS.mkdir
    rw [h1]
    simp only
    rw [if_pos (by decide +kernel)]⟩

theorem bootRules : Rules (bootFs.update [b!"tmp", b!"wayuu"] (some .dir)) b!"/srv" [] := Or.inl ⟨by decide +kernel, rfl⟩

/-- In plain HTTP it starts … -/
example : ∃ st, run bootSys bootFs (bootOpts ++ [.f]) =
    ok (st, .accepting (10 * 2 ^ 24 + 7) 8080 false [] (bootFs.update [b!"tmp", b!"wayuu"] (some .dir)) (pool bootSys)) ∧
      ∃ line t, st.text.getLast? = some line ∧ NatText t 8080 ∧ WordIn (b!"running on port " ++ t) line :=
  C96_up bootSys (bootSet [.f] (Or.inr rfl)) bootFolder bootRules (by
    have e : decide (Opt.f ∉ bootOpts ++ [.f]) = false := by decide
    rw [e]
    intro n hn
    simp only [needs, Bool.false_eq_true, if_false, List.mem_cons, List.not_mem_nil, or_false] at hn
    rcases hn with rfl | rfl | rfl | rfl | rfl
    · rfl
    · exact Or.inr (by decide +kernel)
    · rfl
    · rfl
    · rfl)

/-- … and otherwise it says that the key is missing. -/
example : ∃ st, run bootSys bootFs (bootOpts ++ []) = ok (st, .exit .failure) ∧
    ∃ line ∈ st.text, WordIn b!"/srv/ssl/key.pem" line :=
  C96_down bootSys (before := [.log, .folder, .context, .cert]) (n := .key) (after := [.socket, .port, .listen]) (bootSet [] (Or.inl rfl))
    (fun _ => bootFolder) bootRules (by decide) (by
      intro n hn
      simp only [List.mem_cons, List.not_mem_nil, or_false] at hn
      rcases hn with rfl | rfl | rfl | rfl
      · rfl
      · exact Or.inr (by decide +kernel)
      · rfl
      · exact ⟨b!"CERT", by decide +kernel, by decide⟩)
    (by
      rintro ⟨content, h1, -⟩
      have : (bootFs.update [b!"tmp", b!"wayuu"] (some .dir)).openRead b!"/srv/ssl/key.pem" = none := by decide +kernel
      rw [show b!"/srv" ++ b!"/ssl/key.pem" = b!"/srv/ssl/key.pem" from rfl, this] at h1
      cases h1)

end Wayuu.Startup
