import Verif.Lemmas.Steps
import Verif.Lemmas.LogBound
import Verif.Lemmas.Terminates
/-
How many steps the parts of reading a body take.
-/
namespace Wayuu.Steps
open C

theorem bind_ok {α β : Type} {x : T α} {f : α → T β} {b : β} {m : Nat} (h : (x >>= f) = (ok (b, m) : C _)) :
    ∃ a m1 m2, x = (ok (a, m1) : C _) ∧ f a = (ok (b, m2) : C _) ∧ m = m1 + m2 := by
  change C.bind x (fun p => C.bind (f p.1) (fun q => ok (q.1, p.2 + q.2))) = ok (b, m) at h
  cases x with
  | ub e => cases h
  | ok p =>
    obtain ⟨a, m1⟩ := p
    change C.bind (f a) (fun q => ok (q.1, m1 + q.2)) = ok (b, m) at h
    cases hf : f a with
    | ub e => rw [hf] at h; cases h
    | ok q =>
      rw [hf] at h
      obtain ⟨c, m2⟩ := q
      change ok (c, m1 + m2) = ok (b, m) at h
      simp only [ok.injEq, Prod.mk.injEq] at h
      exact ⟨a, m1, m2, rfl, by rw [hf, h.1], h.2.symm⟩

theorem pure_ok {α : Type} {a b : α} {m : Nat} (h : (pure a : T α) = (ok (b, m) : C _)) : a = b ∧ m = 0 := by
  change (ok (a, 0) : C _) = ok (b, m) at h
  simp only [ok.injEq, Prod.mk.injEq] at h
  exact ⟨h.1, h.2.symm⟩

theorem tick_ok {n m : Nat} {u : Unit} (h : tick n = (ok (u, m) : C _)) : m = n := by
  change (ok ((), n) : C _) = ok (u, m) at h
  simp only [ok.injEq, Prod.mk.injEq] at h
  exact h.2.symm

theorem lift_ok {α : Type} {x : C α} {a : α} {m : Nat} (h : lift x = (ok (a, m) : C _)) : m = 0 ∧ x = ok a := by
  change C.bind x (fun a => ok (a, 0)) = ok (a, m) at h
  cases x with
  | ub e => cases h
  | ok b =>
    change (ok (b, 0) : C _) = ok (a, m) at h
    simp only [ok.injEq, Prod.mk.injEq] at h
    exact ⟨h.2.symm, by rw [h.1]⟩

theorem erase_ok {α : Type} {x : T α} {a : α} {m : Nat} (h : x = (ok (a, m) : C _)) : erase x = ok a := by
  rw [h]; rfl

theorem strlen_cost {b : Buf} {s : Str} {m : Nat} (h : strlen b = (ok (s, m) : C _)) : cstr b = ok s ∧ m = s.length + 1 ∧ m ≤ b.length := by
  have e := erase_ok h
  rw [erase_strlen] at e
  unfold strlen at h
  obtain ⟨s', m1, m2, h1, h, _⟩ := bind_ok h
  obtain ⟨u, m3, m4, h2, h, _⟩ := bind_ok h
  obtain ⟨_, h1⟩ := lift_ok h1
  obtain ⟨rfl, rfl⟩ := pure_ok h
  have := tick_ok h2
  have := cstr_length e
  exact ⟨e, by omega, by omega⟩

theorem strAt_length {b : Buf} {i : Nat} {s : Str} (h : strAt b i = ok s) : i + s.length < b.length := by
  unfold strAt at h
  split at h
  · have := cstr_length h
    rw [List.length_drop] at this
    omega
  · cases h

theorem strlenAt_cost {b : Buf} {i : Nat} {s : Str} {m : Nat} (h : strlenAt b i = (ok (s, m) : C _)) :
    strAt b i = ok s ∧ m ≤ b.length ∧ s.length < b.length := by
  have e := erase_ok h
  rw [erase_strlenAt] at e
  unfold strlenAt at h
  obtain ⟨s', m1, m2, h1, h, _⟩ := bind_ok h
  obtain ⟨u, m3, m4, h2, h, _⟩ := bind_ok h
  obtain ⟨_, h1⟩ := lift_ok h1
  obtain ⟨rfl, rfl⟩ := pure_ok h
  have := tick_ok h2
  have := strAt_length e
  exact ⟨e, by omega, by omega⟩

theorem zeroed_cost {n m : Nat} {b : Buf} (h : zeroed n = (ok (b, m) : C _)) : m = n ∧ b.length = n := by
  unfold zeroed at h
  obtain ⟨u, m3, m4, h2, h, _⟩ := bind_ok h
  obtain ⟨rfl, rfl⟩ := pure_ok h
  have := tick_ok h2
  exact ⟨by omega, by simp [calloc]⟩

theorem copyCells_length {d s b : Buf} {i j n : Nat} (h : copyCells d i s j n = ok b) :
    b.length = d.length ∧ i + n ≤ d.length ∧ j + n ≤ s.length := by
  unfold copyCells at h
  split at h
  · rename_i hc
    cases h
    refine ⟨?_, hc⟩
    simp only [List.length_append, List.length_take, List.length_drop]
    omega
  · cases h

theorem memcpyI_length {d s b : Buf} {i : Nat} {n : Int} (h : Wayuu.memcpyI d s i n = ok b) :
    b.length = d.length ∧ 0 ≤ n ∧ n.toNat ≤ d.length ∧ i + n.toNat ≤ s.length := by
  unfold Wayuu.memcpyI at h
  split at h
  · cases h
  · obtain ⟨h1, h2, h3⟩ := copyCells_length h
    exact ⟨h1, by omega, by omega, h3⟩

theorem memcpyI_cost {d s b : Buf} {i m : Nat} {n : Int} (h : memcpyI d s i n = (ok (b, m) : C _)) :
    m = n.toNat ∧ b.length = d.length ∧ 0 ≤ n ∧ n.toNat ≤ d.length ∧ i + n.toNat ≤ s.length := by
  have e := erase_ok h
  rw [erase_memcpyI] at e
  unfold memcpyI at h
  obtain ⟨s', m1, m2, h1, h, _⟩ := bind_ok h
  obtain ⟨u, m3, m4, h2, h, _⟩ := bind_ok h
  obtain ⟨_, h1⟩ := lift_ok h1
  obtain ⟨rfl, rfl⟩ := pure_ok h
  have := tick_ok h2
  exact ⟨by omega, memcpyI_length e⟩

theorem strcpyAt_length {d b : Buf} {i : Nat} {s : Str} (h : strcpyAt d i s = ok b) : b.length = d.length ∧ i + s.length < d.length := by
  unfold strcpyAt at h
  refine ⟨length_writeAt h, ?_⟩
  unfold writeAt at h
  split at h
  · rename_i hc
    simp at hc
    omega
  · cases h

theorem appendStr_cost {d b : Buf} {s : Str} {m : Nat} (h : appendStr d s = (ok (b, m) : C _)) :
    m ≤ 2 * d.length ∧ b.length = d.length := by
  unfold appendStr at h
  obtain ⟨s', m1, m2, h1, h, _⟩ := bind_ok h
  obtain ⟨u, m3, m4, h2, h, _⟩ := bind_ok h
  obtain ⟨_, h⟩ := lift_ok h
  have := tick_ok h2
  obtain ⟨e1, e2⟩ := strcpyAt_length h
  have := strlen_cost h1
  exact ⟨by omega, e1⟩

theorem chopLoop_cost {b : Buf} : ∀ {n i m : Nat} {b' : Buf}, chopLoop b n i = (ok (b', m) : C _) → m ≤ n ∧ b'.length = b.length
  | 0, i, m, b', h => by
    obtain ⟨rfl, rfl⟩ := pure_ok h
    exact ⟨Nat.le_refl _, rfl⟩
  | n + 1, i, m, b', h => by
    unfold chopLoop at h
    obtain ⟨c, m1, m2, h1, h, _⟩ := bind_ok h
    obtain ⟨u, m3, m4, h2, h, _⟩ := bind_ok h
    obtain ⟨_, -⟩ := lift_ok h1
    have := tick_ok h2
    split at h
    · obtain ⟨_, h⟩ := lift_ok h
      exact ⟨by omega, store_length h⟩
    · have := chopLoop_cost h
      exact ⟨by omega, this.2⟩

theorem chop_cost {b b' : Buf} {m : Nat} (h : chop_string b = (ok (b', m) : C _)) : m ≤ 2 * b.length ∧ b'.length = b.length := by
  unfold chop_string at h
  obtain ⟨s, m1, m2, h1, h, _⟩ := bind_ok h
  have := strlen_cost h1
  have := chopLoop_cost h
  exact ⟨by omega, this.2⟩

theorem trimLeftScan_cost {b : Buf} : ∀ {n i m r : Nat}, trimLeftScan b n i = (ok (r, m) : C _) → m ≤ n
  | 0, i, m, r, h => by
    obtain ⟨rfl, rfl⟩ := pure_ok h
    exact Nat.le_refl _
  | n + 1, i, m, r, h => by
    unfold trimLeftScan at h
    obtain ⟨c, m1, m2, h1, h, _⟩ := bind_ok h
    obtain ⟨u, m3, m4, h2, h, _⟩ := bind_ok h
    obtain ⟨_, -⟩ := lift_ok h1
    have := tick_ok h2
    split at h
    · have := trimLeftScan_cost h
      omega
    · obtain ⟨-, rfl⟩ := pure_ok h
      omega

theorem trimRightScan_cost {b : Buf} : ∀ {n m r : Nat}, trimRightScan b n = (ok (r, m) : C _) → m ≤ n
  | 0, m, r, h => by
    obtain ⟨rfl, rfl⟩ := pure_ok h
    exact Nat.le_refl _
  | n + 1, m, r, h => by
    unfold trimRightScan at h
    obtain ⟨c, m1, m2, h1, h, _⟩ := bind_ok h
    obtain ⟨u, m3, m4, h2, h, _⟩ := bind_ok h
    obtain ⟨_, -⟩ := lift_ok h1
    have := tick_ok h2
    split at h
    · have := trimRightScan_cost h
      omega
    · obtain ⟨-, rfl⟩ := pure_ok h
      omega

theorem trimShift_cost {b b' : Buf} {i m : Nat} (h : trimShift b i = (ok (b', m) : C _)) : m ≤ 3 * b.length ∧ b'.length = b.length := by
  unfold trimShift at h
  split at h
  · obtain ⟨s, m1, m2, h1, h, _⟩ := bind_ok h
    obtain ⟨u, m3, m4, h2, h, _⟩ := bind_ok h
    obtain ⟨c, m5, m6, h3, h, _⟩ := bind_ok h
    obtain ⟨t, m7, m8, h4, h, _⟩ := bind_ok h
    obtain ⟨_, h3⟩ := lift_ok h3
    obtain ⟨_, h⟩ := lift_ok h
    have := tick_ok h2
    have a1 := strlenAt_cost h1
    have a2 := strlenAt_cost h4
    have a3 := copyCells_length h3
    have a4 := store_length h
    omega
  · obtain ⟨rfl, rfl⟩ := pure_ok h
    exact ⟨by omega, rfl⟩

theorem trim_cost {b b' : Buf} {m : Nat} (h : trim b = (ok (b', m) : C _)) : m ≤ 7 * b.length ∧ b'.length = b.length := by
  unfold trim at h
  obtain ⟨s, m1, m2, h1, h, _⟩ := bind_ok h
  obtain ⟨i, m3, m4, h2, h, _⟩ := bind_ok h
  obtain ⟨c, m5, m6, h3, h, _⟩ := bind_ok h
  obtain ⟨t, m7, m8, h4, h, _⟩ := bind_ok h
  obtain ⟨e, m9, m10, h5, h, _⟩ := bind_ok h
  obtain ⟨_, h⟩ := lift_ok h
  have a1 := strlen_cost h1
  have a2 := trimLeftScan_cost h2
  have a3 := trimShift_cost h3
  have a4 := strlen_cost h4
  have a5 := trimRightScan_cost h5
  have a6 := store_length h
  omega

theorem matchAt_cost {hay : Buf} : ∀ {s : Str} {i m : Nat} {r : Bool}, matchAt hay i s = (ok (r, m) : C _) → m ≤ s.length
  | [], i, m, r, h => by
    obtain ⟨rfl, rfl⟩ := pure_ok h
    exact Nat.le_refl _
  | c :: s, i, m, r, h => by
    unfold matchAt at h
    obtain ⟨c, m1, m2, h1, h, _⟩ := bind_ok h
    obtain ⟨u, m3, m4, h2, h, _⟩ := bind_ok h
    obtain ⟨_, -⟩ := lift_ok h1
    have := tick_ok h2
    rw [List.length_cons]
    split at h
    · obtain ⟨-, rfl⟩ := pure_ok h
      omega
    · have := matchAt_cost h
      omega

theorem findLoop_cost {hay : Buf} {s : Str} : ∀ {n i m : Nat} {r : Int}, findLoop hay s n i = (ok (r, m) : C _) → m ≤ s.length * n
  | 0, i, m, r, h => by
    obtain ⟨rfl, rfl⟩ := pure_ok h
    exact Nat.zero_le _
  | n + 1, i, m, r, h => by
    unfold findLoop at h
    obtain ⟨c, m1, m2, h1, h, _⟩ := bind_ok h
    have := matchAt_cost h1
    rw [Nat.mul_succ]
    split at h
    · obtain ⟨-, rfl⟩ := pure_ok h
      omega
    · have := findLoop_cost h
      omega

theorem find_cost {hay : Buf} {s : Str} {i n m : Nat} {r : Int} (h : text_find_after hay s i n = (ok (r, m) : C _)) :
    m ≤ s.length * n ∧ Wayuu.text_find_after hay s i n = ok r := by
  have e := erase_ok h
  rw [erase_find] at e
  have a := findLoop_cost h
  exact ⟨a.trans (Nat.mul_le_mul_left _ (by omega)), e⟩

theorem md5sum_cost {d : List Byte → List Byte} {e : Nat} {o b r : Buf} {i m : Nat} {n : Int}
    (h : md5sum d e o b i n = (ok (r, m) : C _)) : m ≤ n.toNat + o.length ∧ r.length = o.length := by
  unfold md5sum at h
  obtain ⟨c, m1, m2, h1, h, _⟩ := bind_ok h
  obtain ⟨u, m3, m4, h2, h, _⟩ := bind_ok h
  obtain ⟨_, h1⟩ := lift_ok h1
  obtain ⟨rfl, rfl⟩ := pure_ok h
  have := tick_ok h2
  unfold Wayuu.md5sum at h1
  obtain ⟨_, -, h1⟩ := bind_eq_ok.mp h1
  obtain ⟨_, -, h1⟩ := bind_eq_ok.mp h1
  obtain ⟨_, -, h1⟩ := bind_eq_ok.mp h1
  obtain ⟨_, h3, h1⟩ := bind_eq_ok.mp h1
  have a1 := copyCells_length h3
  have a2 := store_length h1
  omega

theorem write_file_cost {fs fs' : FS} {f : Str} {b : Buf} {i m : Nat} {n : Int}
    (h : write_file fs f b i n = (ok (fs', m) : C _)) : m ≤ b.length + n.toNat := by
  unfold write_file at h
  obtain ⟨s, m1, m2, h1, h, _⟩ := bind_ok h
  obtain ⟨_, m3, m4, h2, h, _⟩ := bind_ok h
  obtain ⟨u, m5, m6, h3, h, _⟩ := bind_ok h
  obtain ⟨_, h1⟩ := lift_ok h1
  obtain ⟨_, h2⟩ := lift_ok h2
  obtain ⟨rfl, rfl⟩ := pure_ok h
  have := tick_ok h3
  have := strAt_length h1
  omega

theorem save_cost {env : Env} {fs fs' : FS} {t t' : Buf} {f : Str} {a : Nat} {d : Buf} {n : Nat} {l : Int} {m : Nat}
    (h : save_tmp_file env fs t f a d n l = (ok ((t', fs'), m) : C _)) (hl : l.toNat ≤ d.length) :
    m ≤ 2000 + 3 * d.length + 2 * t.length ∧ t'.length = t.length := by
  unfold save_tmp_file at h
  obtain ⟨s, m1, m2, h1, h, _⟩ := bind_ok h
  obtain ⟨orig, m3, m4, h2, h, _⟩ := bind_ok h
  obtain ⟨_, m5, m6, h3, h, _⟩ := bind_ok h
  obtain ⟨orig2, m7, m8, h4, h, _⟩ := bind_ok h
  obtain ⟨orig3, m9, m10, h5, h, _⟩ := bind_ok h
  obtain ⟨md5, m11, m12, h6, h, _⟩ := bind_ok h
  obtain ⟨md5s, m13, m14, h7, h, _⟩ := bind_ok h
  obtain ⟨file, m15, m16, h8, h, _⟩ := bind_ok h
  obtain ⟨_, m17, m18, h9, h, _⟩ := bind_ok h
  obtain ⟨path, m19, m20, h10, h, _⟩ := bind_ok h
  obtain ⟨_, m21, m22, h11, h, _⟩ := bind_ok h
  obtain ⟨fs2, m23, m24, h12, h, _⟩ := bind_ok h
  obtain ⟨_, m25, m26, h13, h, _⟩ := bind_ok h
  obtain ⟨t2, m27, m28, h14, h, _⟩ := bind_ok h
  obtain ⟨e, rfl⟩ := pure_ok h
  obtain ⟨_, -⟩ := lift_ok h1
  obtain ⟨_, h2⟩ := lift_ok h2
  have b3 := tick_ok h3
  obtain ⟨_, h4⟩ := lift_ok h4
  have b5 := chop_cost h5
  have b6 := md5sum_cost h6
  have b7 := strlen_cost h7
  obtain ⟨_, h8⟩ := lift_ok h8
  have b9 := tick_ok h9
  obtain ⟨_, h10⟩ := lift_ok h10
  have b11 := tick_ok h11
  have b12 := write_file_cost h12
  obtain ⟨_, -⟩ := lift_ok h13
  have b14 := appendStr_cost h14
  have c2 := length_writeAt h2
  have c4 := store_length h4
  have c8 := (fmtInto_eq_ok.mp h8)
  have c10 := (fmtInto_eq_ok.mp h10)
  have hm : (malloc MAX_ORIG_FILENAME).length = 256 := by simp [malloc]
  have hm36 : (malloc 36).length = 36 := by simp [malloc]
  have hd : FILE_DOWNLOAD_TMP_DIR.length = 10 := by decide
  rw [Prod.mk.injEq] at e
  have e1 := congrArg List.length e.1
  obtain ⟨c8, rfl⟩ := c8
  obtain ⟨c10, rfl⟩ := c10
  rw [hd] at c10
  have : (MAX_ORIG_FILENAME : Nat) = 256 := rfl
  omega

theorem part_cost {env : Env} {fs fs' : FS} {t t' d : Buf} {l : Int} {m : Nat}
    (h : part_parse env fs t d l = (ok ((t', fs'), m) : C _)) (hl : l.toNat ≤ d.length) :
    m ≤ 2010 + 45 * d.length + 5 * t.length ∧ t'.length = t.length := by
  unfold part_parse at h
  obtain ⟨s, m1, m2, h1, h, _⟩ := bind_ok h
  obtain ⟨st, m3, m4, h2, h, _⟩ := bind_ok h
  have a1 := strlen_cost h1
  have a2 := (find_cost h2).1
  have n1 : (b!"form-data; name=\"").length = 17 := rfl
  rw [n1] at a2
  split at h
  · obtain ⟨e, _⟩ := pure_ok h
    rw [Prod.mk.injEq] at e
    have := congrArg List.length e.1
    omega
  obtain ⟨tl, m5, m6, h3, h, _⟩ := bind_ok h
  have a3 := strlenAt_cost h3
  split at h
  · obtain ⟨e, _⟩ := pure_ok h
    rw [Prod.mk.injEq] at e
    have := congrArg List.length e.1
    omega
  split at h
  · cases h
  obtain ⟨fd, m7, m8, h4, h, _⟩ := bind_ok h
  obtain ⟨fd2, m9, m10, h5, h, _⟩ := bind_ok h
  obtain ⟨fd3, m11, m12, h6, h, _⟩ := bind_ok h
  obtain ⟨fd4, m13, m14, h7, h, _⟩ := bind_ok h
  obtain ⟨ds, m15, m16, h8, h, _⟩ := bind_ok h
  obtain ⟨tf, m17, m18, h9, h, _⟩ := bind_ok h
  have a4 := zeroed_cost h4
  have a5 := memcpyI_cost h5
  obtain ⟨_, h6⟩ := lift_ok h6
  have a6 := storeI_length h6
  have a7 := chop_cost h7
  have a8 := (find_cost h8).1
  have n8 : (b!"\r\n\r\n").length = 4 := rfl
  rw [n8] at a8
  have a9 := strlen_cost h9
  dsimp only at h
  split at h
  all_goals
    obtain ⟨t2, m19, m20, h10, h, _⟩ := bind_ok h
    obtain ⟨_, m33, m34, h17, h, _⟩ := bind_ok h
    have a17 := tick_ok h17
    obtain ⟨sf, m21, m22, h11, h, _⟩ := bind_ok h
    have a11 := (find_cost h11).1
    have n11 : (b!"; filename=\"").length = 12 := rfl
    rw [n11] at a11
    have a10 : m19 ≤ 2 * t.length ∧ t2.length = t.length := by
      first
        | exact appendStr_cost h10
        | (obtain ⟨rfl, _⟩ := pure_ok h10
           exact ⟨by omega, rfl⟩)
    split at h
    · split at h
      · obtain ⟨f, m23, m24, h12, h, _⟩ := bind_ok h
        obtain ⟨_, h12⟩ := lift_ok h12
        have a12 := save_cost h hl
        omega
      · obtain ⟨v, m23, m24, h12, h, _⟩ := bind_ok h
        obtain ⟨v2, m25, m26, h13, h, _⟩ := bind_ok h
        obtain ⟨f, m27, m28, h14, h, _⟩ := bind_ok h
        obtain ⟨v3, m29, m30, h15, h, _⟩ := bind_ok h
        obtain ⟨t3, m31, m32, h16, h, _⟩ := bind_ok h
        obtain ⟨_, h14⟩ := lift_ok h14
        obtain ⟨_, h15⟩ := lift_ok h15
        obtain ⟨e, _⟩ := pure_ok h
        rw [Prod.mk.injEq] at e
        have e1 := congrArg List.length e.1
        have b1 := zeroed_cost h12
        have b2 := memcpyI_cost h13
        have b3 := appendStr_cost h16
        omega
    · obtain ⟨e, _⟩ := pure_ok h
      rw [Prod.mk.injEq] at e
      have := congrArg List.length e.1
      omega

/-- What one round may cost when the boundary has `B` bytes and the blocks `L` bytes. -/
def roundCost (B L : Nat) : Nat := (3 * B + 2100) * L

theorem round_le {B L a b c d e : Nat} (hL : 1 ≤ L) (ha : a ≤ B * L) (hb : b ≤ B * L) (hc : c = B + 1) (hd : d ≤ 2010 + 50 * L)
    (he : e ≤ 8 * L) : a + b + c + d + e ≤ roundCost B L := by
  unfold roundCost
  have : (3 * B + 2100) * L = 3 * (B * L) + 2100 * L := by rw [Nat.add_mul, Nat.mul_assoc]
  have : B ≤ B * L := Nat.le_mul_of_pos_right _ hL
  omega

theorem parts_cost {env : Env} {form : Buf} {B : Str} {N : Nat} :
    ∀ {n ptr : Nat} {p t t' : Buf} {fs fs' : FS} {m : Nat},
      partsLoop env form B N n ptr p t fs = (ok ((t', fs'), m) : C _) → p.length = N + 1 → t.length = N + 1 →
      m ≤ (n : Nat) * roundCost B.length (N + 1) ∧ t'.length = t.length
  | 0, ptr, p, t, t', fs, fs', m, h, hp, ht => by
    obtain ⟨e, _⟩ := pure_ok h
    rw [Prod.mk.injEq] at e
    have := congrArg List.length e.1
    omega
  | n + 1, ptr, p, t, t', fs, fs', m, h, hp, ht => by
    have stop : ∀ {k : Nat}, (pure (t, fs) : T (Buf × FS)) = (ok ((t', fs'), k) : C _) → k = 0 ∧ t'.length = t.length := by
      intro k h
      obtain ⟨e, hk⟩ := pure_ok h
      rw [Prod.mk.injEq] at e
      exact ⟨hk, (congrArg List.length e.1).symm⟩
    rw [Nat.succ_mul]
    unfold partsLoop at h
    split at h
    · have := stop h
      omega
    obtain ⟨ps, m1, m2, h1, h, _⟩ := bind_ok h
    have a1 := (find_cost h1).1
    have B1 : B.length * N ≤ B.length * (N + 1) := Nat.mul_le_mul_left _ (by omega)
    have B2 : B.length * (N + 1) ≤ roundCost B.length (N + 1) := by
      have := @round_le B.length (N + 1) (B.length * (N + 1)) 0 _ 0 0 (by omega) (by omega) (by omega) rfl (by omega) (by omega)
      omega
    split at h
    · have := stop h
      omega
    obtain ⟨pe, m3, m4, h2, h, _⟩ := bind_ok h
    have a2 := (find_cost h2).1
    have B3 : 2 * (B.length * (N + 1)) ≤ roundCost B.length (N + 1) := by
      have := @round_le B.length (N + 1) (B.length * (N + 1)) (B.length * (N + 1)) _ 0 0 (by omega) (by omega) (by omega) rfl (by omega) (by omega)
      omega
    split at h
    · have := stop h
      omega
    obtain ⟨u, m5, m6, h3, h, _⟩ := bind_ok h
    obtain ⟨p2, m7, m8, h4, h, _⟩ := bind_ok h
    obtain ⟨⟨t2, fs2⟩, m9, m10, h5, h, _⟩ := bind_ok h
    obtain ⟨p3, m11, m12, h6, h, _⟩ := bind_ok h
    have a3 := tick_ok h3
    have a4 := memcpyI_cost h4
    have a5 := part_cost h5 (by omega)
    have a6 := trim_cost h6
    have a7 := parts_cost h (by omega) (by omega)
    have := @round_le B.length (N + 1) m1 m3 m5 m9 (m7 + m11) (by omega) (by omega) (by omega) a3 (by omega) (by omega)
    omega

theorem multipart_cost {env : Env} {fs fs' : FS} {form f' : Buf} {B : Str} {N m : Nat}
    (h : multipart_parse env fs form B N = (ok ((f', fs'), m) : C _)) :
    m ≤ (3 * B.length + 2103) * ((N + 1) * (N + 1)) := by
  unfold multipart_parse at h
  obtain ⟨p, m1, m2, h1, h, _⟩ := bind_ok h
  obtain ⟨t, m3, m4, h2, h, _⟩ := bind_ok h
  obtain ⟨⟨t2, fs2⟩, m5, m6, h3, h, _⟩ := bind_ok h
  obtain ⟨tx, m7, m8, h4, h, _⟩ := bind_ok h
  obtain ⟨f2, m9, m10, h5, h, _⟩ := bind_ok h
  obtain ⟨_, h5⟩ := lift_ok h5
  obtain ⟨_, _⟩ := pure_ok h
  have a1 := zeroed_cost h1
  have a2 := zeroed_cost h2
  have a3 := parts_cost h3 (by omega) (by omega)
  have a4 := strlen_cost h4
  have e1 : (N + 1) * roundCost B.length (N + 1) = (3 * B.length + 2100) * ((N + 1) * (N + 1)) := by
    unfold roundCost
    rw [Nat.mul_left_comm]
  have e2 : (3 * B.length + 2103) * ((N + 1) * (N + 1)) = (3 * B.length + 2100) * ((N + 1) * (N + 1)) + 3 * ((N + 1) * (N + 1)) := by
    rw [← Nat.add_mul]
  have e3 : N + 1 ≤ (N + 1) * (N + 1) := Nat.le_mul_of_pos_right _ (by omega)
  omega

theorem bodyLoop_cost : ∀ {n i m : Nat} {inp inp' : List Byte} {c : Byte} {f f' : Buf},
    bodyLoop n inp c f i = (ok ((f', inp'), m) : C _) → m = n ∧ f'.length = f.length
  | 0, i, m, inp, inp', c, f, f', h => by
    obtain ⟨e, _⟩ := pure_ok h
    rw [Prod.mk.injEq] at e
    exact ⟨by omega, by rw [e.1]⟩
  | n + 1, i, m, inp, inp', c, f, f', h => by
    unfold bodyLoop at h
    obtain ⟨u, m1, m2, h1, h, _⟩ := bind_ok h
    obtain ⟨f1, m3, m4, h2, h, _⟩ := bind_ok h
    obtain ⟨f2, m5, m6, h3, h, _⟩ := bind_ok h
    obtain ⟨_, h2⟩ := lift_ok h2
    obtain ⟨_, h3⟩ := lift_ok h3
    have a1 := tick_ok h1
    have a2 := store_length h2
    have a3 := store_length h3
    have a4 := bodyLoop_cost h
    omega

theorem readForm_cost {env : Env} {st st' : St} {cl : Int} {B : Str} {m : Nat} (h : readForm env st cl B = (ok (st', m) : C _)) :
    cl.toNat ≤ m ∧ (B.length < 2 → m = cl.toNat) ∧ m ≤ (3 * B.length + 2104) * ((cl.toNat + 1) * (cl.toNat + 1)) := by
  have e3 : cl.toNat + 1 ≤ (cl.toNat + 1) * (cl.toNat + 1) := Nat.le_mul_of_pos_right _ (by omega)
  have e2 : (3 * B.length + 2104) * ((cl.toNat + 1) * (cl.toNat + 1)) =
      (3 * B.length + 2103) * ((cl.toNat + 1) * (cl.toNat + 1)) + (cl.toNat + 1) * (cl.toNat + 1) := by
    rw [← Nat.succ_mul]
  unfold readForm at h
  split at h
  · obtain ⟨⟨f, inp⟩, m1, m2, h1, h, _⟩ := bind_ok h
    have a1 := bodyLoop_cost h1
    dsimp only at h
    split at h
    · obtain ⟨⟨f2, fs2⟩, m3, m4, h2, h, _⟩ := bind_ok h
      obtain ⟨_, _⟩ := pure_ok h
      have a2 := multipart_cost h2
      exact ⟨by omega, by omega, by omega⟩
    · obtain ⟨⟨f2, fs2⟩, m3, m4, h2, h, _⟩ := bind_ok h
      obtain ⟨_, _⟩ := pure_ok h
      obtain ⟨_, _⟩ := pure_ok h2
      exact ⟨by omega, by omega, by omega⟩
  · obtain ⟨_, _⟩ := pure_ok h
    exact ⟨by omega, by omega, by omega⟩

end Wayuu.Steps
