import Verif.Props.Listen
/-
C95, exactly: which address any text stands for.
-/
namespace Wayuu.Listen
open Wayuu C Spec

theorem digitVal_hex (c : Byte) : (digitVal c < 16 ↔ (hexVal c).isSome = true) ∧ ((hexVal c).isSome = true → digitVal c = (hexVal c).getD 0) := by
  have key : ∀ n : Fin 256, (digitVal (UInt8.ofNat n) < 16 ↔ (hexVal (UInt8.ofNat n)).isSome = true) ∧
      ((hexVal (UInt8.ofNat n)).isSome = true → digitVal (UInt8.ofNat n) = (hexVal (UInt8.ofNat n)).getD 0) := by decide +kernel
  simpa using key ⟨c.toNat, c.toNat_lt⟩

theorem digitVal_oct (c : Byte) : (digitVal c < 8 ↔ 48 ≤ c.toNat ∧ c.toNat ≤ 55) ∧ (digitVal c < 10 ↔ digit c) := by
  have key : ∀ n : Fin 256, (digitVal (UInt8.ofNat n) < 8 ↔ 48 ≤ (UInt8.ofNat n).toNat ∧ (UInt8.ofNat n).toNat ≤ 55) ∧
      (digitVal (UInt8.ofNat n) < 10 ↔ digit (UInt8.ofNat n)) := by unfold digit; decide +kernel
  simpa using key ⟨c.toNat, c.toNat_lt⟩

theorem foldl_hex : ∀ (ds : Str) (acc : Nat), (∀ c ∈ ds, (hexVal c).isSome = true) →
    ds.foldl (fun n c => 16 * n + digitVal c) acc = ds.foldl (fun n c => 16 * n + (hexVal c).getD 0) acc
  | [], _, _ => rfl
  | c :: ds, acc, h => by
      rw [List.foldl_cons, List.foldl_cons, (digitVal_hex c).2 (h c (by simp))]
      exact foldl_hex ds _ fun x hx => h x (by simp [hx])

theorem head_cnumber {t : Str} {n : Nat} (h : CNumber t n) (r : Str) : ∃ c u, t ++ r = c :: u ∧ isDigit c = true := by
  rcases h with h | ⟨ds, rfl, -, -⟩ | ⟨x, ds, rfl, -⟩
  · exact head_natText h r
  · exact ⟨48, ds ++ r, rfl, rfl⟩
  · exact ⟨48, x :: ds ++ r, rfl, rfl⟩

theorem strtoul0_cnumber {t r : Str} {n : Nat} (h : CNumber t n) (hr : PartEnd r) : strtoul0 (t ++ r) = (n, r) := by
  rcases h with h | ⟨ds, rfl, hd, rfl⟩ | ⟨x, ds, rfl, hx, hne, hd, rfl⟩
  · exact strtoul0_nat h hr
  · have hdd : ∀ x ∈ 48 :: ds, digit x := by
      intro x hx
      rcases List.mem_cons.mp hx with rfl | hx
      · exact ⟨by decide, by decide⟩
      · have := hd x hx
        exact ⟨by omega, by omega⟩
    rw [List.cons_append, strtoul0_eight]
    · rw [← List.cons_append, scan_eq 8 (48 :: ds) r 0]
      · rw [foldl_digits 8 _ _ hdd]
        rfl
      · intro x hx
        rcases List.mem_cons.mp hx with rfl | hx
        · decide
        · exact (digitVal_oct x).1.mpr (hd x hx)
      · intro x hx; rw [(partEnd_val hr x hx).1]; decide
    · intro x hx
      rcases ds with _ | ⟨d, ds⟩
      · exact (partEnd_val hr x hx).2
      · simp only [List.cons_append, List.head?_cons, Option.mem_some_iff] at hx
        subst hx
        have h1 := hd d (by simp)
        constructor <;> rintro rfl <;> revert h1 <;> decide
  · obtain ⟨d, ds, rfl⟩ := List.exists_cons_of_ne_nil hne
    have h1 : digitVal d < 16 := (digitVal_hex d).1.mpr (hd d (by simp))
    have e : strtoul0 (48 :: x :: d :: ds ++ r) = scan 16 (d :: ds ++ r) 0 := by
      simp only [List.cons_append, strtoul0]
      rw [if_pos ⟨hx, h1⟩]
    rw [e, scan_eq 16 (d :: ds) r 0 (fun c hc => (digitVal_hex c).1.mpr (hd c hc))
      (fun c hc => by rw [(partEnd_val hr c hc).1]; decide), foldl_hex _ _ hd]
    rfl

/-- What `scan` takes: digits of the base. -/
theorem scan_split (base : Nat) : ∀ (s : Str) (acc : Nat), ∃ ds r, s = ds ++ r ∧ (∀ c ∈ ds, digitVal c < base) ∧
    (∀ c ∈ r.head?, ¬ digitVal c < base)
  | [], _ => ⟨[], [], rfl, by simp, by simp⟩
  | c :: s, acc => by
      by_cases h : digitVal c < base
      · obtain ⟨ds, r, h1, h2, h3⟩ := scan_split base s acc
        refine ⟨c :: ds, r, by rw [h1]; rfl, ?_, h3⟩
        intro x hx
        rcases List.mem_cons.mp hx with rfl | hx
        · exact h
        · exact h2 x hx
      · exact ⟨[], c :: s, rfl, by simp, by simpa using h⟩

/-- What `strtoul` takes is a number. -/
theorem strtoul0_split {c : Byte} {u r : Str} {v : Nat} (hc : isDigit c = true) (h : strtoul0 (c :: u) = (v, r)) :
    ∃ t, c :: u = t ++ r ∧ CNumber t v := by
  by_cases h0 : c = 48
  · subst h0
    -- octal, unless 0x and a hexadecimal digit
    have oct : strtoul0 (48 :: u) = scan 8 (48 :: u) 0 → ∃ t, 48 :: u = t ++ r ∧ CNumber t v := by
      intro e
      obtain ⟨ds, r', h1, h2, h3⟩ := scan_split 8 u 0
      have := scan_eq 8 (48 :: ds) r' 0 (by
        intro x hx
        rcases List.mem_cons.mp hx with rfl | hx
        · decide
        · exact h2 x hx) h3
      rw [e, h1, ← List.cons_append, this] at h
      simp only [Prod.mk.injEq] at h
      obtain ⟨hv, rfl⟩ := h
      have ho : ∀ x ∈ ds, 48 ≤ x.toNat ∧ x.toNat ≤ 55 := fun x hx => (digitVal_oct x).1.mp (h2 x hx)
      refine ⟨48 :: ds, by rw [h1]; rfl, Or.inr (Or.inl ⟨ds, rfl, ho, ?_⟩)⟩
      rw [← hv, foldl_digits 8]
      · rfl
      · intro x hx
        rcases List.mem_cons.mp hx with rfl | hx
        · exact ⟨by decide, by decide⟩
        · have := ho x hx
          exact ⟨by omega, by omega⟩
    rcases u with _ | ⟨x, _ | ⟨d, u⟩⟩
    · exact oct rfl
    · exact oct rfl
    · by_cases hx : (x = 120 ∨ x = 88) ∧ digitVal d < 16
      · have e : strtoul0 (48 :: x :: d :: u) = scan 16 (d :: u) 0 := by simp only [strtoul0]; rw [if_pos hx]
        obtain ⟨ds, r', h1, h2, h3⟩ := scan_split 16 u 0
        have hall : ∀ y ∈ d :: ds, digitVal y < 16 := by
          intro y hy
          rcases List.mem_cons.mp hy with rfl | hy
          · exact hx.2
          · exact h2 y hy
        have := scan_eq 16 (d :: ds) r' 0 hall h3
        rw [e, h1, ← List.cons_append, this] at h
        simp only [Prod.mk.injEq] at h
        obtain ⟨hv, rfl⟩ := h
        have ho : ∀ y ∈ d :: ds, (hexVal y).isSome = true := fun y hy => (digitVal_hex y).1.mp (hall y hy)
        refine ⟨48 :: x :: d :: ds, by rw [h1]; rfl, Or.inr (Or.inr ⟨x, d :: ds, rfl, hx.1, by simp, ho, ?_⟩)⟩
        rw [← hv, foldl_hex _ _ ho]
        rfl
      · exact oct (by simp only [strtoul0]; rw [if_neg hx])
  · obtain ⟨ds, r', h1, h2, h3⟩ := scan_split 10 u 0
    have hc' : digit c := (isDigit_iff c).mp hc
    have hall : ∀ y ∈ c :: ds, digitVal y < 10 := by
      intro y hy
      rcases List.mem_cons.mp hy with rfl | hy
      · exact (digitVal_digit hc').2.2
      · exact h2 y hy
    have hdig : ∀ y ∈ c :: ds, digit y := fun y hy => (digitVal_oct y).2.mp (hall y hy)
    have := scan_eq 10 (c :: ds) r' 0 hall h3
    rw [strtoul0_ten _ h0, h1, ← List.cons_append, this] at h
    simp only [Prod.mk.injEq] at h
    obtain ⟨hv, rfl⟩ := h
    refine ⟨c :: ds, by rw [h1]; rfl, Or.inl ⟨by simp, hdig, fun _ => by simpa using h0, ?_⟩⟩
    rw [← hv, foldl_digits 10 _ _ hdig]
    rfl

theorem white_isSpace (c : Byte) : White c ↔ isSpace c = true := by
  have key : ∀ n : Fin 256, White (UInt8.ofNat n) ↔ isSpace (UInt8.ofNat n) = true := by unfold White; decide +kernel
  simpa using key ⟨c.toNat, c.toNat_lt⟩

theorem inetLoop_addr {last tail : Str} {v : Nat} (hl : CNumber last v) (ht : ∀ c ∈ tail.head?, White c) :
    ∀ (init : List (Str × Nat)) (n acc : Nat), n + init.length ≤ 3 → (∀ p ∈ init, CNumber p.1 p.2 ∧ p.2 ≤ 255) →
    v < 256 ^ (4 - (n + init.length)) →
    inetLoop (5 - n) n acc (dots init last ++ tail) =
      some (init.foldl (fun a p => a * 256 + p.2) acc * 256 ^ (4 - (n + init.length)) + v) := by
  intro init
  induction init with
  | nil =>
    intro n acc hn _ hv
    have he : dots [] last ++ tail = last ++ tail := by simp [dots]
    have hend : PartEnd tail := fun c hc => Or.inr ((white_isSpace c).mp (ht c hc))
    have hpow : 256 ^ (4 - n) ≤ 256 ^ 4 := Nat.pow_le_pow_right (by omega) (by omega)
    simp only [List.length_nil, Nat.add_zero] at hv hn
    rw [he, show 5 - n = (4 - n) + 1 by omega]
    have hs := strtoul0_cnumber hl hend
    rcases tail with _ | ⟨w, tail⟩
    · rw [inetLoop_last (4 - n) n acc v (head_cnumber hl []) hs (by omega) (by omega)]
      simp
    · have hw : ws w = true := by rw [← isSpace_eq_ws]; exact (white_isSpace w).mp (ht w (by simp))
      rw [inetLoop_white (4 - n) n acc v w tail (head_cnumber hl _) hs hw (by omega) (by omega)]
      simp
  | cons p init ih =>
    intro n acc hn hi hv
    have hp := hi p (by simp)
    have he : dots (p :: init) last ++ tail = p.1 ++ 46 :: (dots init last ++ tail) := by simp [dots]
    have e : n + 1 + init.length = n + (p :: init).length := by simp; omega
    rw [he, show 5 - n = (4 - n) + 1 by omega, inetLoop_dot (4 - n) n acc p.2 _ (head_cnumber hp.1 _)
      (strtoul0_cnumber hp.1 (partEnd_dot _)) hp.2 (by simp at hn; omega), show 4 - n = 5 - (n + 1) by omega,
      ih (n + 1) _ (by rw [e]; exact hn) (fun q hq => hi q (by simp [hq])) (by rw [e]; exact hv), e, List.foldl_cons]

theorem inetLoop_split : ∀ (fuel n acc a : Nat) (s : Str), n ≤ 3 → inetLoop fuel n acc s = some a →
    ∃ (init : List (Str × Nat)) (last : Str) (v : Nat) (tail : Str), s = dots init last ++ tail ∧
      (∀ c ∈ tail.head?, White c) ∧ n + init.length ≤ 3 ∧ (∀ p ∈ init, CNumber p.1 p.2 ∧ p.2 ≤ 255) ∧ CNumber last v ∧
      v < 256 ^ (4 - (n + init.length)) ∧
      a = init.foldl (fun a p => a * 256 + p.2) acc * 256 ^ (4 - (n + init.length)) + v
  | 0, n, acc, a, s, _, h => by simp [inetLoop] at h
  | fuel + 1, n, acc, a, [], _, h => by simp [inetLoop] at h
  | fuel + 1, n, acc, a, c :: u, hn, h => by
      rw [inetLoop] at h
      by_cases hc : isDigit c = true
      · simp only [hc, Bool.not_true, Bool.false_eq_true, if_false] at h
        obtain ⟨v, r, hs⟩ : ∃ v r, strtoul0 (c :: u) = (v, r) := ⟨_, _, rfl⟩
        obtain ⟨t, ht, hnum⟩ := strtoul0_split hc hs
        simp only [hs] at h
        split at h
        · exact absurd h (by simp)
        · split at h
          · rename_i r'
            split at h
            · exact absurd h (by simp)
            · rename_i hb
              obtain ⟨init, last, w, tail, h1, h2, h3, h4, h5, h6, h7⟩ := inetLoop_split fuel (n + 1) _ a r' (by omega) h
              have e : n + 1 + init.length = n + ((t, v) :: init).length := by simp; omega
              rw [e] at h3 h6 h7
              refine ⟨(t, v) :: init, last, w, tail, ?_, h2, h3, ?_, h5, h6, h7⟩
              · rw [ht, h1]; simp [dots]
              · intro p hp
                rcases List.mem_cons.mp hp with rfl | hp
                · exact ⟨hnum, by simp only; omega⟩
                · exact h4 p hp
          · split at h
            · rename_i hsp
              split at h
              · exact absurd h (by simp)
              · rename_i hv
                have hpos : 0 < 256 ^ (4 - n) := Nat.pow_pos (by omega)
                refine ⟨[], t, v, r, by simpa [dots] using ht, ?_, by simpa using hn, by simp, hnum, by simp; omega, by simpa using h.symm⟩
                intro x hx
                rcases hsp with rfl | ⟨y, hy, hyw⟩
                · simp at hx
                · rw [white_isSpace]
                  have : x = y := by
                    have := Option.mem_unique hx hy
                    exact this
                  rw [this]; exact hyw
            · exact absurd h (by simp)
      · simp only [Bool.not_eq_true] at hc
        simp [hc] at h

/-- What `inet_addr` makes of any text. -/
theorem inet_addr_exact (s : Str) :
    (∀ a, AddrText s a → inet_addr s = a) ∧ ((¬ ∃ a, AddrText s a) → inet_addr s = 2 ^ 32 - 1) := by
  constructor
  · rintro a ⟨init, last, v, tail, rfl, h1, h2, h3, h4, h5, rfl⟩
    have := inetLoop_addr h4 h1 init 0 0 (by omega) h3 (by simpa using h5)
    unfold inet_addr
    unfold dots at this
    rw [this]
    simp
  · intro h
    unfold inet_addr
    cases hl : inetLoop 5 0 0 s with
    | none => rfl
    | some a =>
      obtain ⟨init, last, v, tail, h1, h2, h3, h4, h5, h6, h7⟩ := inetLoop_split 5 0 0 a s (by omega) hl
      refine absurd ⟨a, init, last, v, tail, h1, h2, by omega, h4, h5, by simpa using h6, by simpa using h7⟩ h

/-- C95, exactly: for every text given as the address, the server listens on the address it stands for if it stands for
one, and otherwise on 255.255.255.255 (that is, it does not start). -/
theorem C95_exact (os : Os) {fs : FS} {opts : List Opt} {ta tp : List Byte} {port : Nat} (hf : ∀ o ∈ opts, Fine fs o)
    (ha : LastOf addrOf opts b!"127.0.0.1" ta) (hp : LastOf portOf opts b!"4443" tp) (hp' : PortText tp port) :
    (∀ a, AddrText ta a → start os fs opts = ok (if os.bind a port then .listening a port else .exit .failure)) ∧
    ((¬ ∃ a, AddrText ta a) →
      start os fs opts = ok (if os.bind (2 ^ 32 - 1) port then .listening (2 ^ 32 - 1) port else .exit .failure)) :=
  ⟨fun a h => start_port os hf ha hp hp' ((inet_addr_exact ta).1 a h), fun h => start_port os hf ha hp hp' ((inet_addr_exact ta).2 h)⟩

/-- 0x0A.7 is 10.0.0.7 -/
theorem addr_hex : AddrText b!"0x0A.7 or so" (10 * 2 ^ 24 + 7) :=
  ⟨[(b!"0x0A", 10)], b!"7", 7, b!" or so", by decide, by unfold White; decide, by decide, by
    intro p hp
    simp only [List.mem_cons, List.not_mem_nil, or_false] at hp
    subst hp
    exact ⟨Or.inr (Or.inr ⟨120, b!"0A", rfl, by decide, by decide, by decide, by decide⟩), by decide⟩,
    Or.inl (by unfold NatText digit; decide), by decide, by decide⟩

example (fs : FS) : start tenOs fs [.b b!"0x0A.7 or so", .p b!"8080", .f] = ok (.listening (10 * 2 ^ 24 + 7) 8080) := by
  have := (C95_exact tenOs (fine_bp fs b!"0x0A.7 or so" b!"8080" (by decide)) (Or.inl ⟨[], _, _, rfl, rfl, by simp [addrOf]⟩)
    (Or.inl ⟨[.b b!"0x0A.7 or so"], _, _, rfl, rfl, by simp [portOf]⟩) (port := 8080)
    ⟨by unfold NatText digit; decide +kernel, by decide, by decide⟩).1 _ addr_hex
  exact this

/-- 10.0.0.256 is no address -/
example (fs : FS) : start tenOs fs [.b b!"10.0.0.256", .p b!"8080", .f] = ok (.exit .failure) := by
  have := (C95_exact tenOs (fine_bp fs b!"10.0.0.256" b!"8080" (by decide)) (Or.inl ⟨[], _, _, rfl, rfl, by simp [addrOf]⟩)
    (Or.inl ⟨[.b b!"10.0.0.256"], _, _, rfl, rfl, by simp [portOf]⟩) (port := 8080)
    ⟨by unfold NatText digit; decide +kernel, by decide, by decide⟩).2 (by
      rintro ⟨a, h⟩
      obtain ⟨init, last, v, tail, h0, h1, h2, h3, h4, h5, -⟩ := h
      have := inetLoop_addr h4 h1 init 0 0 (by omega) h3 (by simpa using h5)
      unfold dots at this
      rw [← h0] at this
      have e : inetLoop (5 - 0) 0 0 b!"10.0.0.256" = none := by decide +kernel
      rw [e] at this
      exact absurd this (by simp))
  exact this

end Wayuu.Listen
