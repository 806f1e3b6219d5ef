import Verif.Props.Main
import Verif.Model.Listen
import Verif.Spec.Listen
/-
C95: the server listens on the address and port it was given.
-/
namespace Wayuu.Listen
open Wayuu C Spec

/-! ### numbers -/

theorem digitVal_digit {c : Byte} (h : digit c) : isDigit c = true ∧ digitVal c = c.toNat - 48 ∧ digitVal c < 10 := by
  have key : ∀ n : Fin 256, digit (UInt8.ofNat n) → isDigit (UInt8.ofNat n) = true ∧
      digitVal (UInt8.ofNat n) = (UInt8.ofNat n).toNat - 48 ∧ digitVal (UInt8.ofNat n) < 10 := by
    unfold digit; decide +kernel
  have := key ⟨c.toNat, c.toNat_lt⟩
  simpa using this (by simpa using h)

theorem isDigit_iff (c : Byte) : isDigit c = true ↔ digit c := by
  have key : ∀ n : Fin 256, isDigit (UInt8.ofNat n) = true ↔ digit (UInt8.ofNat n) := by unfold digit; decide +kernel
  simpa using key ⟨c.toNat, c.toNat_lt⟩

theorem scan_eq (base : Nat) : ∀ (ds r : Str) (acc : Nat), (∀ c ∈ ds, digitVal c < base) →
    (∀ c ∈ r.head?, ¬ digitVal c < base) →
    scan base (ds ++ r) acc = (ds.foldl (fun n c => base * n + digitVal c) acc, r)
  | [], [], acc, _, _ => rfl
  | [], c :: r, acc, _, h => by
      have h : ¬ digitVal c < base := by simpa using h
      simp [scan, h]
  | c :: ds, r, acc, h, hr => by
      have hc := h c (by simp)
      rw [List.cons_append, scan, if_pos hc, scan_eq base ds r _ (fun x hx => h x (by simp [hx])) hr,
        List.foldl_cons, Nat.mul_comm]

theorem foldl_digits (base : Nat) : ∀ (ds : Str) (acc : Nat), (∀ c ∈ ds, digit c) →
    ds.foldl (fun n c => base * n + digitVal c) acc = ds.foldl (fun n c => base * n + (c.toNat - 48)) acc
  | [], _, _ => rfl
  | c :: ds, acc, h => by
      rw [List.foldl_cons, List.foldl_cons, (digitVal_digit (h c (by simp))).2.1]
      exact foldl_digits base ds _ fun x hx => h x (by simp [hx])

/-- What may follow a part of an address. -/
def PartEnd (r : Str) : Prop := ∀ c ∈ r.head?, c = 46 ∨ isSpace c = true

theorem partEnd_val {r : Str} (h : PartEnd r) : ∀ c ∈ r.head?, digitVal c = 255 ∧ c ≠ 120 ∧ c ≠ 88 := by
  intro c hc
  have key : ∀ n : Fin 256, (UInt8.ofNat n = 46 ∨ isSpace (UInt8.ofNat n) = true) →
      digitVal (UInt8.ofNat n) = 255 ∧ UInt8.ofNat n ≠ 120 ∧ UInt8.ofNat n ≠ 88 := by decide +kernel
  have := key ⟨c.toNat, c.toNat_lt⟩
  simp only [UInt8.ofNat_toNat] at this
  exact this (h c hc)

/-- A text that does not begin with 0 is read in base 10. -/
theorem strtoul0_ten {c : Byte} (t : Str) (h : c ≠ 48) : strtoul0 (c :: t) = scan 10 (c :: t) 0 := by
  unfold strtoul0
  split
  · rename_i heq; injection heq with e1 _; exact absurd e1 h
  · rename_i heq; injection heq with e1 _; exact absurd e1 h
  · rfl

/-- A text that begins with 0 and not with 0x is read in base 8. -/
theorem strtoul0_eight (t : Str) (h : ∀ x ∈ t.head?, x ≠ 120 ∧ x ≠ 88) : strtoul0 (48 :: t) = scan 8 (48 :: t) 0 := by
  unfold strtoul0
  split
  · rename_i x y r heq
    simp only [List.cons.injEq, true_and] at heq
    subst heq
    have := h x (by simp)
    rw [if_neg (by simp [this])]
  · rename_i heq
    simp only [List.cons.injEq, true_and] at heq
    subst heq; rfl
  · rename_i h1 h2
    exact absurd rfl (h2 t)

theorem strtoul0_nat {t r : Str} {n : Nat} (h : NatText t n) (hr : PartEnd r) : strtoul0 (t ++ r) = (n, r) := by
  obtain ⟨hne, hd, hz, hv⟩ := h
  obtain ⟨c, t, rfl⟩ := List.exists_cons_of_ne_nil hne
  by_cases hc : c = 48
  · subst hc
    have ht : t = [] := by
      rcases t with _ | ⟨d, t⟩
      · rfl
      · exact absurd rfl (hz (by simp))
    subst ht
    have hn : n = 0 := by rw [← hv]; decide
    rw [List.cons_append, List.nil_append, strtoul0_eight r (fun x hx => (partEnd_val hr x hx).2)]
    have := scan_eq 8 [48] r 0 (by decide) (fun x hx => by rw [(partEnd_val hr x hx).1]; decide)
    rw [List.cons_append, List.nil_append] at this
    rw [this, hn]
    rfl
  · rw [List.cons_append, strtoul0_ten _ hc, ← List.cons_append,
      scan_eq 10 (c :: t) r 0 (fun x hx => (digitVal_digit (hd x hx)).2.2) (fun x hx => by rw [(partEnd_val hr x hx).1]; decide),
      foldl_digits 10 _ _ hd, ← hv]
    rfl

theorem head_natText {t : Str} {n : Nat} (h : NatText t n) (r : Str) :
    ∃ c u, t ++ r = c :: u ∧ isDigit c = true := by
  obtain ⟨hne, hd, -, -⟩ := h
  obtain ⟨c, t, rfl⟩ := List.exists_cons_of_ne_nil hne
  exact ⟨c, t ++ r, rfl, (digitVal_digit (hd c (by simp))).1⟩

theorem inetLoop_dot {s : Str} (fuel n acc v : Nat) (r : Str) (hs : ∃ c u, s = c :: u ∧ isDigit c = true)
    (h : strtoul0 s = (v, 46 :: r)) (hv : v ≤ 255) (hn : n ≤ 2) :
    inetLoop (fuel + 1) n acc s = inetLoop fuel (n + 1) (acc * 256 + v) r := by
  obtain ⟨c, u, rfl, hc⟩ := hs
  rw [inetLoop]
  simp only [hc, Bool.not_true, Bool.false_eq_true, if_false, h]
  rw [if_neg (by omega), if_neg (by omega)]

theorem inetLoop_last {s : Str} (fuel n acc v : Nat) (hs : ∃ c u, s = c :: u ∧ isDigit c = true)
    (h : strtoul0 s = (v, [])) (hv : v ≤ 256 ^ (4 - n) - 1) (hv' : v ≤ 0xffffffff) :
    inetLoop (fuel + 1) n acc s = some (acc * 256 ^ (4 - n) + v) := by
  obtain ⟨c, u, rfl, hc⟩ := hs
  rw [inetLoop]
  simp only [hc, Bool.not_true, Bool.false_eq_true, if_false, h, true_or, if_true]
  rw [if_neg (by omega), if_neg (by omega)]

theorem partEnd_dot (r : Str) : PartEnd (46 :: r) := by
  intro c hc; left; simpa using hc.symm

theorem partEnd_nil : PartEnd [] := by intro c hc; simp at hc

theorem inet_addr_dotted {t : Str} {a : Nat} (h : Dotted t a) : inet_addr t = a := by
  obtain ⟨t₁, t₂, t₃, t₄, n₁, n₂, n₃, n₄, h₁, h₂, h₃, h₄, b₁, b₂, b₃, b₄, rfl, rfl⟩ := h
  unfold inet_addr
  rw [inetLoop_dot 4 0 0 n₁ _ (head_natText h₁ _) (strtoul0_nat h₁ (partEnd_dot _)) b₁ (by omega),
    inetLoop_dot 3 1 _ n₂ _ (head_natText h₂ _) (strtoul0_nat h₂ (partEnd_dot _)) b₂ (by omega),
    inetLoop_dot 2 2 _ n₃ _ (head_natText h₃ _) (strtoul0_nat h₃ (partEnd_dot _)) b₃ (by omega)]
  have e : t₄ = t₄ ++ [] := by simp
  rw [e, inetLoop_last 1 3 _ n₄ (head_natText h₄ _) (strtoul0_nat h₄ partEnd_nil) (by omega) (by omega)]
  simp only [Option.getD_some]
  omega

/-! ### options -/

theorem lastOf_unique {α : Type} {sel : Opt → Option α} {opts : List Opt} {d v w : α}
    (h : LastOf sel opts d v) (h' : LastOf sel opts d w) : v = w := by
  rcases h with ⟨a, o, b, e, s1, s2⟩ | ⟨e, s⟩ <;> rcases h' with ⟨a', o', b', e', s1', s2'⟩ | ⟨e', s'⟩
  · rw [e] at e'
    rcases List.append_eq_append_iff.mp e' with ⟨m, hm1, hm2⟩ | ⟨m, hm1, hm2⟩
    · rcases m with _ | ⟨x, m⟩
      · simp only [List.nil_append, List.cons.injEq] at hm2
        rw [hm2.1, s1'] at s1
        injection s1 with s1; exact s1.symm
      · simp only [List.cons_append, List.cons.injEq] at hm2
        have := s2 o' (by rw [hm2.2]; simp)
        rw [this] at s1'; cases s1'
    · rcases m with _ | ⟨x, m⟩
      · simp only [List.nil_append, List.cons.injEq] at hm2
        rw [← hm2.1, s1'] at s1
        injection s1 with s1; exact s1.symm
      · simp only [List.cons_append, List.cons.injEq] at hm2
        have := s2' o (by rw [hm2.2]; simp)
        rw [this] at s1; cases s1
  · have := s' o (by rw [e]; simp)
    rw [this] at s1; cases s1
  · have := s o' (by rw [e']; simp)
    rw [this] at s1'; cases s1'
  · rw [e, e']

/-- What `main` passes to `ws_launch`. -/
theorem main_cfg {fs : FS} {opts : List Opt} {ta tp : List Byte} (hf : ∀ o ∈ opts, Fine fs o)
    (ha : LastOf addrOf opts b!"127.0.0.1" ta) (hp : LastOf portOf opts b!"4443" tp) :
    ∃ c, main fs opts = ok (.launch c) ∧ c.bindAddr = ta ∧ c.port = atoi tp ∧ c.logLevel ≤ 5 := by
  obtain ⟨c, h⟩ := (C61_launch fs opts).mpr hf
  have hC := C61_partial fs opts c h
  refine ⟨c, h, lastOf_unique hC.1 ha, ?_, ?_⟩
  · unfold main at h
    rw [defaultCfg_eq] at h
    change optLoop fs opts startCfg = _ at h
    obtain ⟨h1, -⟩ := optLoop_fold (fs := fs) opts [] startCfg (by decide) (fun x hx => (fine_iff fs x).mp (hf x hx))
    rw [List.append_nil, h] at h1
    simp only [optLoop, ok.injEq, Start.launch.injEq] at h1
    have := lastOf_fold (fun o => (portOf o).map atoi) (·.port) (fun c o => by cases o <;> rfl) opts startCfg
    rw [← h1] at this
    refine lastOf_unique this ?_
    rcases hp with ⟨a, o, b, e1, e2, e3⟩ | ⟨e1, e2⟩
    · exact Or.inl ⟨a, o, b, e1, by simp [e2], fun x hx => by simp [e3 x hx]⟩
    · refine Or.inr ⟨?_, fun x hx => by simp [e2 x hx]⟩
      rw [e1]; decide +kernel
  · obtain ⟨-, -, -, hd, hd', -⟩ := hC
    by_cases h' : Opt.d ∈ opts
    · rw [hd.mpr h']; decide
    · rw [hd'.mpr h']; decide

theorem openSocket_eq (os : Os) {lvl : Int} (hl : lvl ≤ 5) (ba : Str) (port : Int) :
    openSocket os lvl ba port = ok (if os.bind (inet_addr ba) (port % 65536).toNat then
      .listening (inet_addr ba) (if (port % 65536).toNat = 0 then os.free else (port % 65536).toNat)
      else .exit .failure) := by
  unfold openSocket
  simp only
  split
  · rfl
  · have : logger ⟨lvl, []⟩ LOG_FATAL [] [] [] [] = ok (⟨lvl, [b!"  FATAL : \n"]⟩, .failure) := by
      unfold logger
      rw [if_neg (by simp only [LOG_FATAL]; omega)]
      rfl
    rw [this]
    rfl

theorem start_eq {fs : FS} {opts : List Opt} {ta tp : List Byte} (os : Os) (hf : ∀ o ∈ opts, Fine fs o)
    (ha : LastOf addrOf opts b!"127.0.0.1" ta) (hp : LastOf portOf opts b!"4443" tp) :
    start os fs opts = ok (if os.bind (inet_addr ta) (atoi tp % 65536).toNat then
      .listening (inet_addr ta) (if (atoi tp % 65536).toNat = 0 then os.free else (atoi tp % 65536).toNat)
      else .exit .failure) := by
  obtain ⟨c, h1, h2, h3, h4⟩ := main_cfg hf ha hp
  unfold start
  rw [h1]
  show openSocket os c.logLevel c.bindAddr c.port = _
  rw [openSocket_eq os h4, h2, h3]

/-- `atoi` of digits, however many. -/
theorem atoi_port {t : List Byte} (hne : t ≠ []) (hd : ∀ x ∈ t, digit x) (hlt : decimal t < 2 ^ 31) :
    atoi t = decimal t := by
  have hdw : ∀ x, digit x → ws x = false := by
    have : ∀ n : Fin 256, digit (UInt8.ofNat n) → ws (UInt8.ofNat n) = false := by unfold digit; decide +kernel
    intro x hx
    simpa using this ⟨x.toNat, x.toNat_lt⟩ (by simpa using hx)
  refine atoi_digits ⟨[], [], by simp, by simp, by simp, fun x hx => ?_, fun x hx => ?_⟩ hne hd hlt
  · exact hdw x (hd x (List.mem_of_head? hx))
  · exact hdw x (hd x (List.mem_of_getLast? hx))

/-! ### C95 -/

/-- C95 in full: whatever the options, an address and a port that are being listened on are those of the last `-b` and
`-p` (or the defaults), written as dotted quad and as a number from 1 to 65535. -/
def C95_statement : Prop :=
  ∀ (os : Os) (fs : FS) (opts : List Opt) (addr port : Nat), start os fs opts = ok (.listening addr port) →
    ∃ ta tp, LastOf addrOf opts b!"127.0.0.1" ta ∧ LastOf portOf opts b!"4443" tp ∧ Dotted ta addr ∧ PortText tp port

/-- C95 is false: `-p 70000` listens on port 4464. -/
theorem C95_refuted : ¬ C95_statement := by
  intro h
  obtain ⟨ta, tp, -, hp, -, ⟨-, -, -, hv⟩, -, -⟩ :=
    h ⟨fun _ _ => true, 0⟩ ⟨fun _ => none, fun _ => true, fun _ => true⟩ [.p b!"70000"] (127 * 2 ^ 24 + 1) 4464 (by decide +kernel)
  have h' : LastOf portOf [.p b!"70000"] b!"4443" b!"70000" := Or.inl ⟨[], _, [], rfl, rfl, by simp⟩
  rw [lastOf_unique hp h'] at hv
  revert hv; decide +kernel

/-- C95, what holds: with an address in dotted decimal and a port from 1 to 65535 the program listens there and nowhere
else, or ends with an error if the operating system refuses. Missing: all other texts, see below. -/
theorem C95_partial (os : Os) {fs : FS} {opts : List Opt} {ta tp : List Byte} {addr port : Nat} (hf : ∀ o ∈ opts, Fine fs o)
    (ha : LastOf addrOf opts b!"127.0.0.1" ta) (hp : LastOf portOf opts b!"4443" tp)
    (ha' : Dotted ta addr) (hp' : PortText tp port) :
    start os fs opts = ok (if os.bind addr port then .listening addr port else .exit .failure) := by
  obtain ⟨⟨h1, h2, -, h4⟩, h5, h6⟩ := hp'
  rw [start_eq os hf ha hp, inet_addr_dotted ha', atoi_port h1 h2 (by omega), h4]
  have e : ((port : Int) % 65536).toNat = port := by omega
  rw [e, if_neg (show ¬ port = 0 by omega)]

/-- C95, ports beyond 65535: the remainder modulo 65536 is used, and 0 means any free port. -/
theorem C95_port (os : Os) {fs : FS} {opts : List Opt} {ta tp : List Byte} {addr : Nat} (hf : ∀ o ∈ opts, Fine fs o)
    (ha : LastOf addrOf opts b!"127.0.0.1" ta) (hp : LastOf portOf opts b!"4443" tp)
    (ha' : Dotted ta addr) (h1 : tp ≠ []) (h2 : ∀ x ∈ tp, digit x) (h3 : decimal tp < 2 ^ 31) :
    start os fs opts = ok (if os.bind addr (decimal tp % 65536) then
      .listening addr (if decimal tp % 65536 = 0 then os.free else decimal tp % 65536) else .exit .failure) := by
  rw [start_eq os hf ha hp, inet_addr_dotted ha', atoi_port h1 h2 h3]
  have e : ((decimal tp : Int) % 65536).toNat = decimal tp % 65536 := by omega
  rw [e]

/-- C95, a port that is not a number: the program listens on whatever port is free. -/
theorem C95_word (os : Os) {fs : FS} {opts : List Opt} {ta tp : List Byte} {addr : Nat} (hf : ∀ o ∈ opts, Fine fs o)
    (ha : LastOf addrOf opts b!"127.0.0.1" ta) (hp : LastOf portOf opts b!"4443" tp)
    (ha' : Dotted ta addr) (h1 : ∀ x ∈ tp.head?, ¬ digit x ∧ ws x = false ∧ x ≠ 43 ∧ x ≠ 45) :
    start os fs opts = ok (if os.bind addr 0 then .listening addr os.free else .exit .failure) := by
  have : atoi tp = 0 := by
    rcases tp with _ | ⟨c, t⟩
    · decide
    · obtain ⟨k1, k2, k3, k4⟩ := h1 c (by simp)
      have hs : isSpace c = false := by rw [isSpace_eq_ws]; exact k2
      have hd : isDigit c = false := by
        have := isDigit_iff c
        cases h : isDigit c
        · rfl
        · exact absurd (this.mp h) k1
      unfold atoi
      simp only [List.dropWhile, hs]
      split
      · rename_i heq; simp at heq; exact absurd heq.1 k4
      · rename_i heq; simp at heq; exact absurd heq.1 k3
      · simp only [digitsVal, hd, Bool.false_eq_true, if_false]
        decide
  rw [start_eq os hf ha hp, inet_addr_dotted ha', this]
  rfl

/-- C95, names: an address that does not begin with a digit, like `localhost`, stands for 255.255.255.255, which no
client can connect to; the program ends only if the operating system refuses that. -/
theorem C95_name (os : Os) {fs : FS} {opts : List Opt} {ta tp : List Byte} {port : Nat} (hf : ∀ o ∈ opts, Fine fs o)
    (ha : LastOf addrOf opts b!"127.0.0.1" ta) (hp : LastOf portOf opts b!"4443" tp) (hp' : PortText tp port)
    (hn : ∀ x ∈ ta.head?, ¬ digit x) :
    start os fs opts = ok (if os.bind (2 ^ 32 - 1) port then .listening (2 ^ 32 - 1) port else .exit .failure) := by
  have : inet_addr ta = 2 ^ 32 - 1 := by
    rcases ta with _ | ⟨c, t⟩
    · rfl
    · have hd : isDigit c = false := by
        have := isDigit_iff c
        cases h : isDigit c
        · rfl
        · exact absurd (this.mp h) (hn c (by simp))
      unfold inet_addr
      rw [inetLoop]
      simp [hd]
  obtain ⟨⟨h1, h2, -, h4⟩, h5, h6⟩ := hp'
  rw [start_eq os hf ha hp, this, atoi_port h1 h2 (by omega), h4]
  have e : ((port : Int) % 65536).toNat = port := by omega
  rw [e, if_neg (show ¬ port = 0 by omega)]

/-- C95, zeros in front: `-b 0ds.b.c.d` has the first part read in base 8. -/
theorem C95_octal (os : Os) {fs : FS} {opts : List Opt} {ds t₂ t₃ t₄ tp : List Byte} {n₂ n₃ n₄ port : Nat} (hf : ∀ o ∈ opts, Fine fs o)
    (ha : LastOf addrOf opts b!"127.0.0.1" (48 :: ds ++ 46 :: (t₂ ++ 46 :: (t₃ ++ 46 :: t₄))))
    (hp : LastOf portOf opts b!"4443" tp) (hp' : PortText tp port)
    (hd : ∀ x ∈ ds, 48 ≤ x.toNat ∧ x.toNat ≤ 55) (hv : octal ds ≤ 255)
    (h₂ : NatText t₂ n₂) (h₃ : NatText t₃ n₃) (h₄ : NatText t₄ n₄) (b₂ : n₂ ≤ 255) (b₃ : n₃ ≤ 255) (b₄ : n₄ ≤ 255) :
    start os fs opts =
      ok (if os.bind (octal ds * 2 ^ 24 + n₂ * 2 ^ 16 + n₃ * 2 ^ 8 + n₄) port then
        .listening (octal ds * 2 ^ 24 + n₂ * 2 ^ 16 + n₃ * 2 ^ 8 + n₄) port else .exit .failure) := by
  have hdd : ∀ x ∈ 48 :: ds, digit x := by
    intro x hx
    rcases List.mem_cons.mp hx with rfl | hx
    · exact ⟨by decide, by decide⟩
    · have := hd x hx
      exact ⟨by omega, by omega⟩
  have hst : ∀ r, PartEnd r → strtoul0 (48 :: ds ++ r) = (octal ds, r) := by
    intro r hr
    rw [List.cons_append, strtoul0_eight]
    · rw [← List.cons_append, scan_eq 8 (48 :: ds) r 0]
      · rw [foldl_digits 8 _ _ hdd]
        rfl
      · intro x hx
        rcases List.mem_cons.mp hx with rfl | hx
        · decide
        · have h1 := hd x hx
          have h2 := (digitVal_digit (hdd x (by simp [hx]))).2.1
          omega
      · intro x hx; rw [(partEnd_val hr x hx).1]; decide
    · intro x hx
      rcases ds with _ | ⟨d, ds⟩
      · exact (partEnd_val hr x hx).2
      · simp only [List.cons_append, List.head?_cons, Option.mem_some_iff] at hx
        subst hx
        have h1 := hd d (by simp)
        constructor <;> rintro rfl <;> revert h1 <;> decide
  have : inet_addr (48 :: ds ++ 46 :: (t₂ ++ 46 :: (t₃ ++ 46 :: t₄))) =
      octal ds * 2 ^ 24 + n₂ * 2 ^ 16 + n₃ * 2 ^ 8 + n₄ := by
    unfold inet_addr
    have hh : ∀ r, ∃ c u, 48 :: ds ++ r = c :: u ∧ isDigit c = true := fun r => ⟨48, ds ++ r, rfl, rfl⟩
    rw [inetLoop_dot 4 0 0 (octal ds) _ (hh _) (hst _ (partEnd_dot _)) hv (by omega),
      inetLoop_dot 3 1 _ n₂ _ (head_natText h₂ _) (strtoul0_nat h₂ (partEnd_dot _)) b₂ (by omega),
      inetLoop_dot 2 2 _ n₃ _ (head_natText h₃ _) (strtoul0_nat h₃ (partEnd_dot _)) b₃ (by omega)]
    have e : t₄ = t₄ ++ [] := by simp
    rw [e, inetLoop_last 1 3 _ n₄ (head_natText h₄ _) (strtoul0_nat h₄ partEnd_nil) (by omega) (by omega)]
    simp only [Option.getD_some]
    omega
  obtain ⟨⟨h1, h2, -, h4⟩, h5, h6⟩ := hp'
  rw [start_eq os hf ha hp, this, atoi_port h1 h2 (by omega), h4]
  have e : ((port : Int) % 65536).toNat = port := by omega
  rw [e, if_neg (show ¬ port = 0 by omega)]

theorem inetLoop_white {s : Str} (fuel n acc v : Nat) (w : Byte) (r : Str) (hs : ∃ c u, s = c :: u ∧ isDigit c = true)
    (h : strtoul0 s = (v, w :: r)) (hw : ws w = true) (hv : v ≤ 256 ^ (4 - n) - 1) (hv' : v ≤ 0xffffffff) :
    inetLoop (fuel + 1) n acc s = some (acc * 256 ^ (4 - n) + v) := by
  obtain ⟨c, u, rfl, hc⟩ := hs
  have h46 : w ≠ 46 := by rintro rfl; revert hw; decide
  have hsp : isSpace w = true := by rw [isSpace_eq_ws]; exact hw
  rw [inetLoop]
  simp only [hc, Bool.not_true, Bool.false_eq_true, if_false, h]
  rw [if_neg (by omega)]
  split
  · rename_i heq
    simp only [List.cons.injEq] at heq
    exact absurd heq.1 h46
  · rw [if_pos (Or.inr ⟨w, by simp, hsp⟩), if_neg (by omega)]

/-- C95, more text: what follows a blank after the address is ignored. -/
theorem C95_blank (os : Os) {fs : FS} {opts : List Opt} {t more tp : List Byte} {w : Byte} {addr port : Nat} (hf : ∀ o ∈ opts, Fine fs o)
    (ha : LastOf addrOf opts b!"127.0.0.1" (t ++ w :: more)) (hw : White w) (hp : LastOf portOf opts b!"4443" tp)
    (ha' : Dotted t addr) (hp' : PortText tp port) :
    start os fs opts = ok (if os.bind addr port then .listening addr port else .exit .failure) := by
  have hws : ws w = true := by
    have key : ∀ n : Fin 256, White (UInt8.ofNat n) → ws (UInt8.ofNat n) = true := by unfold White; decide +kernel
    simpa using key ⟨w.toNat, w.toNat_lt⟩ (by simpa using hw)
  have hend : PartEnd (w :: more) := by
    intro c hc; right; simp at hc; subst hc; rw [isSpace_eq_ws]; exact hws
  have : inet_addr (t ++ w :: more) = addr := by
    obtain ⟨t₁, t₂, t₃, t₄, n₁, n₂, n₃, n₄, h₁, h₂, h₃, h₄, b₁, b₂, b₃, b₄, rfl, rfl⟩ := ha'
    unfold inet_addr
    rw [show (t₁ ++ 46 :: (t₂ ++ 46 :: (t₃ ++ 46 :: t₄))) ++ w :: more =
      t₁ ++ 46 :: (t₂ ++ 46 :: (t₃ ++ 46 :: (t₄ ++ w :: more))) by simp,
      inetLoop_dot 4 0 0 n₁ _ (head_natText h₁ _) (strtoul0_nat h₁ (partEnd_dot _)) b₁ (by omega),
      inetLoop_dot 3 1 _ n₂ _ (head_natText h₂ _) (strtoul0_nat h₂ (partEnd_dot _)) b₂ (by omega),
      inetLoop_dot 2 2 _ n₃ _ (head_natText h₃ _) (strtoul0_nat h₃ (partEnd_dot _)) b₃ (by omega),
      inetLoop_white 1 3 _ n₄ w more (head_natText h₄ _) (strtoul0_nat h₄ hend) hws (by omega) (by omega)]
    simp only [Option.getD_some]
    omega
  obtain ⟨⟨h1, h2, -, h4⟩, h5, h6⟩ := hp'
  rw [start_eq os hf ha hp, this, atoi_port h1 h2 (by omega), h4]
  have e : ((port : Int) % 65536).toNat = port := by omega
  rw [e, if_neg (show ¬ port = 0 by omega)]

/-- Numbers separated by dots. -/
def dots (init : List (Str × Nat)) (last : Str) : Str := init.flatMap (fun p => p.1 ++ [46]) ++ last

theorem inetLoop_dots {last : Str} {v : Nat} (hl : NatText last v) : ∀ (init : List (Str × Nat)) (n acc : Nat), n ≤ 3 →
    (∀ p ∈ init, NatText p.1 p.2) →
    inetLoop (5 - n) n acc (dots init last) =
      if n + init.length ≤ 3 ∧ (∀ p ∈ init, p.2 ≤ 255) ∧ v < 256 ^ (4 - (n + init.length)) then
        some (init.foldl (fun a p => a * 256 + p.2) acc * 256 ^ (4 - (n + init.length)) + v)
      else none := by
  intro init
  induction init with
  | nil =>
    intro n acc hn _
    have hhead : ∃ c u, dots [] last = c :: u ∧ isDigit c = true := by
      have := head_natText hl []
      simpa [dots] using this
    have hstr : strtoul0 (dots [] last) = (v, []) := by
      have := strtoul0_nat hl partEnd_nil
      simpa [dots] using this
    rw [show 5 - n = (4 - n) + 1 by omega]
    have hpow : 256 ^ (4 - n) ≤ 256 ^ 4 := Nat.pow_le_pow_right (by omega) (by omega)
    by_cases h : v < 256 ^ (4 - n)
    · rw [if_pos ⟨by simpa using hn, by simp, by simpa using h⟩]
      rw [inetLoop_last (4 - n) n acc v hhead hstr (by omega) (by omega)]
      simp
    · rw [if_neg (fun h' => h (by simpa using h'.2.2))]
      obtain ⟨c, u, hs, hc⟩ := hhead
      rw [hs] at hstr ⊢
      rw [inetLoop]
      simp only [hc, Bool.not_true, Bool.false_eq_true, if_false, hstr, true_or, if_true]
      split
      · rfl
      · have hp : 0 < 256 ^ (4 - n) := Nat.pow_pos (by omega)
        rw [if_pos (by omega)]
  | cons p init ih =>
    intro n acc hn hi
    have hp := hi p (by simp)
    have he : dots (p :: init) last = p.1 ++ 46 :: dots init last := by simp [dots]
    have hhead := head_natText hp (46 :: dots init last)
    have hstr : strtoul0 (p.1 ++ 46 :: dots init last) = (p.2, 46 :: dots init last) := strtoul0_nat hp (partEnd_dot _)
    rw [he, show 5 - n = (4 - n) + 1 by omega]
    by_cases h : n ≤ 2 ∧ p.2 ≤ 255
    · rw [inetLoop_dot (4 - n) n acc p.2 _ hhead hstr h.2 h.1, show 4 - n = 5 - (n + 1) by omega,
        ih (n + 1) _ (by omega) (fun q hq => hi q (by simp [hq]))]
      have e : n + 1 + init.length = n + (p :: init).length := by simp; omega
      rw [e]
      have : (∀ q ∈ p :: init, q.2 ≤ 255) ↔ ∀ q ∈ init, q.2 ≤ 255 := by simp [h.2]
      simp only [this, List.foldl_cons]
    · rw [if_neg (by
        rintro ⟨h1, h2, -⟩
        exact h ⟨by simp at h1; omega, h2 p (by simp)⟩)]
      obtain ⟨c, u, hs, hc⟩ := hhead
      rw [hs] at hstr ⊢
      rw [inetLoop]
      simp only [hc, Bool.not_true, Bool.false_eq_true, if_false, hstr]
      split
      · rfl
      · rw [if_pos (by omega)]

theorem start_port (os : Os) {fs : FS} {opts : List Opt} {ta tp : List Byte} {addr port : Nat} (hf : ∀ o ∈ opts, Fine fs o)
    (ha : LastOf addrOf opts b!"127.0.0.1" ta) (hp : LastOf portOf opts b!"4443" tp) (hp' : PortText tp port) (h : inet_addr ta = addr) :
    start os fs opts = ok (if os.bind addr port then .listening addr port else .exit .failure) := by
  obtain ⟨⟨h1, h2, -, h4⟩, h5, h6⟩ := hp'
  rw [start_eq os hf ha hp, h, atoi_port h1 h2 (by omega), h4]
  have e : ((port : Int) % 65536).toNat = port := by omega
  rw [e, if_neg (show ¬ port = 0 by omega)]

/-- C95, fewer parts: of one, two or three numbers the last one fills the rest of the address, so that 10.7 is 10.0.0.7. -/
theorem C95_parts (os : Os) {fs : FS} {opts : List Opt} {init : List (List Byte × Nat)} {last tp : List Byte} {v port : Nat}
    (hf : ∀ o ∈ opts, Fine fs o) (ha : LastOf addrOf opts b!"127.0.0.1" (init.flatMap (fun p => p.1 ++ [46]) ++ last))
    (hp : LastOf portOf opts b!"4443" tp) (hp' : PortText tp port) (hi : ∀ p ∈ init, NatText p.1 p.2) (hl : NatText last v)
    (hn : init.length ≤ 3) (hb : ∀ p ∈ init, p.2 ≤ 255) (hv : v < 256 ^ (4 - init.length)) (addr : Nat)
    (hadr : addr = init.foldl (fun a p => a * 256 + p.2) 0 * 256 ^ (4 - init.length) + v) :
    start os fs opts = ok (if os.bind addr port then .listening addr port else .exit .failure) := by
  refine start_port os hf ha hp hp' ?_
  have := inetLoop_dots hl init 0 0 (by omega) hi
  rw [if_pos ⟨by omega, hb, by simpa using hv⟩] at this
  unfold inet_addr
  unfold dots at this
  rw [this, hadr]
  simp

/-- C95, other numbers: more than four of them, one above 255 before a dot, or a last one that is too large, stand for
255.255.255.255 as names do. -/
theorem C95_range (os : Os) {fs : FS} {opts : List Opt} {init : List (List Byte × Nat)} {last tp : List Byte} {v port : Nat}
    (hf : ∀ o ∈ opts, Fine fs o) (ha : LastOf addrOf opts b!"127.0.0.1" (init.flatMap (fun p => p.1 ++ [46]) ++ last))
    (hp : LastOf portOf opts b!"4443" tp) (hp' : PortText tp port) (hi : ∀ p ∈ init, NatText p.1 p.2) (hl : NatText last v)
    (hn : 3 < init.length ∨ (∃ p ∈ init, 255 < p.2) ∨ 256 ^ (4 - init.length) ≤ v) :
    start os fs opts = ok (if os.bind (2 ^ 32 - 1) port then .listening (2 ^ 32 - 1) port else .exit .failure) := by
  refine start_port os hf ha hp hp' ?_
  have := inetLoop_dots hl init 0 0 (by omega) hi
  rw [if_neg (by
    rintro ⟨h1, h2, h3⟩
    rcases hn with h | ⟨p, hp, h⟩ | h
    · omega
    · exact absurd (h2 p hp) (by omega)
    · simp only [Nat.zero_add] at h3; omega)] at this
  unfold inet_addr
  unfold dots at this
  rw [this]
  rfl

/-- C95, a program of one's own that has silenced even fatal messages (`log_set_level(6)`): if the address and port are
refused, `ws_launch` goes on and listens on all addresses and some other port. -/
theorem C95_silent (os : Os) {lvl : Int} (hl : 5 < lvl) {ba : List Byte} {addr port : Nat} (ha : Dotted ba addr) (hp : port < 65536)
    (hb : os.bind addr port = false) : openSocket os lvl ba port = ok (.listening 0 os.free) := by
  unfold openSocket
  have e : ((port : Int) % 65536).toNat = port := by omega
  simp only [inet_addr_dotted ha, e, hb, Bool.false_eq_true, if_false]
  have : logger ⟨lvl, []⟩ LOG_FATAL [] [] [] [] = ok (⟨lvl, []⟩, .returns) := by
    unfold logger
    rw [if_pos (by simp only [LOG_FATAL]; omega)]
  rw [this]
  rfl

theorem dotted_ten : Dotted b!"10.0.0.7" (10 * 2 ^ 24 + 7) :=
  ⟨b!"10", b!"0", b!"0", b!"7", 10, 0, 0, 7, by unfold NatText digit; decide, by unfold NatText digit; decide,
    by unfold NatText digit; decide, by unfold NatText digit; decide, by decide, by decide, by decide, by decide, rfl, by decide⟩

/-- the machine has the address 10.0.0.7 and all its ports are free -/
def tenOs : Os := ⟨fun a _ => a == 10 * 2 ^ 24 + 7 || a == 8 * 2 ^ 24 + 7, 40000⟩

theorem fine_bp (fs : FS) (a p : List Byte) (h : a.length < 24) : ∀ o ∈ [Opt.b a, Opt.p p, Opt.f], Fine fs o := by
  intro o ho
  rw [fine_iff]
  simp only [List.mem_cons, List.not_mem_nil, or_false] at ho
  rcases ho with rfl | rfl | rfl <;> simp [optEnd, h]

example (fs : FS) : start tenOs fs [.b b!"10.0.0.7", .p b!"8080", .f] = ok (.listening (10 * 2 ^ 24 + 7) 8080) := by
  have := C95_partial tenOs (fine_bp fs b!"10.0.0.7" b!"8080" (by decide)) (Or.inl ⟨[], _, _, rfl, rfl, by simp [addrOf]⟩)
    (Or.inl ⟨[.b b!"10.0.0.7"], _, _, rfl, rfl, by simp [portOf]⟩) dotted_ten (port := 8080)
    ⟨by unfold NatText digit; decide +kernel, by decide, by decide⟩
  exact this

example (fs : FS) : start tenOs fs [.b b!"10.0.0.7", .p b!"131072", .f] = ok (.listening (10 * 2 ^ 24 + 7) 40000) := by
  have := C95_port tenOs (fine_bp fs b!"10.0.0.7" b!"131072" (by decide)) (Or.inl ⟨[], _, _, rfl, rfl, by simp [addrOf]⟩)
    (Or.inl ⟨[.b b!"10.0.0.7"], _, _, rfl, rfl, by simp [portOf]⟩) dotted_ten (by decide) (by unfold digit; decide) (by decide +kernel)
  exact this

example (fs : FS) : start tenOs fs [.b b!"10.0.0.7", .p b!"http", .f] = ok (.listening (10 * 2 ^ 24 + 7) 40000) := by
  have := C95_word tenOs (fine_bp fs b!"10.0.0.7" b!"http" (by decide)) (Or.inl ⟨[], _, _, rfl, rfl, by simp [addrOf]⟩)
    (Or.inl ⟨[.b b!"10.0.0.7"], _, _, rfl, rfl, by simp [portOf]⟩) dotted_ten (by unfold digit; decide)
  exact this

example (fs : FS) : start tenOs fs [.b b!"localhost", .p b!"8080", .f] = ok (.exit .failure) := by
  have := C95_name tenOs (fine_bp fs b!"localhost" b!"8080" (by decide)) (Or.inl ⟨[], _, _, rfl, rfl, by simp [addrOf]⟩)
    (Or.inl ⟨[.b b!"localhost"], _, _, rfl, rfl, by simp [portOf]⟩) (port := 8080)
    ⟨by unfold NatText digit; decide +kernel, by decide, by decide⟩ (by unfold digit; decide)
  exact this

example (fs : FS) : start tenOs fs [.b b!"010.0.0.7", .p b!"8080", .f] = ok (.listening (8 * 2 ^ 24 + 7) 8080) := by
  have := C95_octal tenOs (ds := b!"10") (t₂ := b!"0") (t₃ := b!"0") (t₄ := b!"7") (n₂ := 0) (n₃ := 0) (n₄ := 7)
    (fine_bp fs b!"010.0.0.7" b!"8080" (by decide)) (Or.inl ⟨[], _, _, rfl, rfl, by simp [addrOf]⟩)
    (Or.inl ⟨[.b b!"010.0.0.7"], _, _, rfl, rfl, by simp [portOf]⟩) (port := 8080)
    ⟨by unfold NatText digit; decide +kernel, by decide, by decide⟩ (by decide) (by decide) (by unfold NatText digit; decide)
    (by unfold NatText digit; decide) (by unfold NatText digit; decide) (by decide) (by decide) (by decide)
  exact this

example : openSocket ⟨fun _ _ => false, 40000⟩ 6 b!"10.0.0.7" 80 = ok (.listening 0 40000) :=
  C95_silent _ (by decide) dotted_ten (by decide) rfl

example (fs : FS) : start tenOs fs [.b b!"10.0.0.7 x", .p b!"8080", .f] = ok (.listening (10 * 2 ^ 24 + 7) 8080) := by
  have := C95_blank tenOs (fine_bp fs b!"10.0.0.7 x" b!"8080" (by decide)) (t := b!"10.0.0.7") (w := 32) (more := b!"x")
    (Or.inl ⟨[], _, _, rfl, rfl, by simp [addrOf]⟩) (Or.inl rfl)
    (Or.inl ⟨[.b b!"10.0.0.7 x"], _, _, rfl, rfl, by simp [portOf]⟩) dotted_ten (port := 8080)
    ⟨by unfold NatText digit; decide +kernel, by decide, by decide⟩
  exact this

example (fs : FS) : start tenOs fs [.b b!"10.7", .p b!"8080", .f] = ok (.listening (10 * 2 ^ 24 + 7) 8080) := by
  have := C95_parts tenOs (fine_bp fs b!"10.7" b!"8080" (by decide)) (init := [(b!"10", 10)]) (last := b!"7") (v := 7)
    (Or.inl ⟨[], _, _, rfl, rfl, by simp [addrOf]⟩)
    (Or.inl ⟨[.b b!"10.7"], _, _, rfl, rfl, by simp [portOf]⟩) (port := 8080) ⟨by unfold NatText digit; decide +kernel, by decide, by decide⟩
    (by simp only [List.mem_singleton, forall_eq]; unfold NatText digit; decide) (by unfold NatText digit; decide)
    (by decide) (by decide) (by decide) _ rfl
  exact this

example (fs : FS) : start tenOs fs [.b b!"10.0.700.7", .p b!"8080", .f] = ok (.exit .failure) := by
  have := C95_range tenOs (fine_bp fs b!"10.0.700.7" b!"8080" (by decide)) (init := [(b!"10", 10), (b!"0", 0), (b!"700", 700)]) (last := b!"7") (v := 7)
    (Or.inl ⟨[], _, _, rfl, rfl, by simp [addrOf]⟩)
    (Or.inl ⟨[.b b!"10.0.700.7"], _, _, rfl, rfl, by simp [portOf]⟩) (port := 8080) ⟨by unfold NatText digit; decide +kernel, by decide, by decide⟩
    (by unfold NatText digit; decide +kernel) (by unfold NatText digit; decide) (Or.inr (Or.inl ⟨_, by simp; right; right; rfl, by decide⟩))
  exact this

end Wayuu.Listen
