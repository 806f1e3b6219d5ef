import Verif.Lemmas.Multipart2
import Verif.Lemmas.Headers
/-
save_tmp_file (ws.c).
-/
namespace Wayuu
open C Spec

theorem orig_eq {s : Str} (hs : NulFree s) : ∃ q : Buf, (do
      let o ← strncpyAt (malloc MAX_ORIG_FILENAME) 0 s MAX_ORIG_FILENAME
      let o ← o.store (MAX_ORIG_FILENAME - 1) 0
      chop_string o) = ok (((s.take 255).takeWhile keeps).map some ++ some 0 :: q) := by
  have h1 : strncpyAt (malloc MAX_ORIG_FILENAME) 0 s MAX_ORIG_FILENAME =
      ok ((s.take 256 ++ List.replicate (256 - s.length) 0).map some) := by
    exact strncpy_full (by simp)
  rw [h1]
  simp only [ok_bind]
  have h2 : Buf.store ((s.take 256 ++ List.replicate (256 - s.length) 0).map some) (MAX_ORIG_FILENAME - 1) 0 =
      ok ((s.take 255).map some ++ some 0 :: List.replicate (255 - s.length) (some 0)) := by
    rw [show MAX_ORIG_FILENAME - 1 = 255 from rfl]
    by_cases h : s.length ≤ 255
    · have : (s.take 256 ++ List.replicate (256 - s.length) 0).map some =
          (s.map some ++ List.replicate (255 - s.length) (some (0 : Byte))) ++ some 0 :: [] := by
        rw [List.take_of_length_le (by omega), show 256 - s.length = (255 - s.length) + 1 by omega, List.replicate_succ']
        simp
      rw [this, store_append_cons (by simp; omega), List.take_of_length_le h]
      congr 1
      rw [List.append_assoc]
      congr 1
      have := List.replicate_succ' (n := 255 - s.length) (a := some (0 : Byte))
      rw [← this]
      rfl
    · have e : s.take 256 = s.take 255 ++ [s[255]] := by
        rw [List.take_succ_eq_append_getElem (by omega)]
      have : (s.take 256 ++ List.replicate (256 - s.length) 0).map some = (s.take 255).map some ++ some s[255] :: [] := by
        rw [show 256 - s.length = 0 by omega, e, List.replicate_zero, List.append_nil, List.map_append]
        rfl
      rw [this, store_append_cons (by simp; omega), show 255 - s.length = 0 by omega]
      rfl
  rw [h2]
  simp only [ok_bind]
  obtain ⟨q, h3, -⟩ := chop_eq (s.take 255) (hs.take 255) (List.replicate (255 - s.length) (some 0))
  exact ⟨_, h3⟩

/-- The destination of 36 bytes is too small from a maximum digest size of 18 on. -/
theorem md5sum_over (md5 : List Byte → List Byte) (h16 : ∀ x, (md5 x).length = 16) (evpMax : Nat)
    (hmax : 18 ≤ evpMax) (before : Buf) (bytes : List Byte) (after : Buf) :
    md5sum md5 evpMax (malloc 36) (before ++ (bytes.map some ++ after)) before.length bytes.length = ub .oob := by
  have hd := h16 bytes
  have hstore : Buf.store (malloc (evpMax * 2 + 1)) 0 0 = ok ((malloc (evpMax * 2 + 1)).set 0 (some 0)) :=
    store_ok (by simp)
  have hfeed := md5Feed_eq bytes.length before bytes after (Nat.le_refl _)
  obtain ⟨q, h1, h2, -⟩ := md5Hex_eq (md5 bytes) [] ((malloc (evpMax * 2 + 1)).set 0 (some 0)) 0 rfl
    (by simp [hd]; omega) ⟨_, rfl⟩
  rw [List.nil_append] at h1 h2
  unfold md5sum
  rw [hstore]
  simp only [ok_bind, Int.toNat_natCast]
  rw [hfeed]
  simp only [ok_bind]
  rw [h1]
  simp only [ok_bind]
  unfold copyCells
  by_cases h : evpMax = 18
  · subst h
    rw [if_pos (by simp at h2 ⊢; omega)]
    simp only [ok_bind]
    unfold Buf.store
    rw [if_neg (by simp at h2 ⊢; omega)]
  · rw [if_neg (by simp; omega)]
    rfl

/-- What is done with the content of a part that carries a file. -/
theorem save_eq (env : Env) (fs : FS) (T : Buf) (name : Str) {k : Nat} {text e head content : List Byte}
    (hlen : text.length = head.length + content.length + 2)
    (hk : k ≤ (untilNul (text ++ e)).length) :
    ∃ q : Buf, save_tmp_file env fs T name k ((text ++ e).map some ++ [some 0]) head.length text.length = (do
      let md5 ← md5sum env.digest env.evpMax (malloc 36) ((text ++ e).map some ++ [some 0]) head.length content.length
      let md5 ← cstr md5
      let tmpfile ← fmtInto 256 (env.tid ++ b!"-" ++ md5)
      let tmpfilepath ← fmtInto (FILE_DOWNLOAD_TMP_DIR.length + 264) (FILE_DOWNLOAD_TMP_DIR ++ b!"/" ++ tmpfile)
      let fs ← write_file (if !is_dir fs FILE_DOWNLOAD_TMP_DIR then (check_createdir fs FILE_DOWNLOAD_TMP_DIR).2 else fs) tmpfilepath
        ((text ++ e).map some ++ [some 0]) head.length content.length
      let orig ← cstr ((((untilNul (text ++ e)).drop k).take 255 |>.takeWhile keeps).map some ++ some 0 :: q)
      let tmpfields ← appendStr T (name ++ b!"=" ++ orig ++ b!"&tmpfile=" ++ tmpfile)
      ok (tmpfields, fs)) := by
  obtain ⟨rr, hrr⟩ := untilNul_split (text ++ e)
  have hD : (text ++ e).map some ++ [some 0] = (untilNul (text ++ e)).map some ++ some 0 :: rr.map some := by
    have := congrArg (List.map some) hrr
    simpa using this
  obtain ⟨q, hq⟩ := orig_eq ((nulFree_untilNul (text ++ e)).drop k)
  refine ⟨q, ?_⟩
  unfold save_tmp_file
  have hs : strAt ((text ++ e).map some ++ [some 0]) k = ok ((untilNul (text ++ e)).drop k) := by
    rw [hD]
    exact strAt_str hk (nulFree_untilNul _) _
  rw [hs]
  simp only [ok_bind]
  obtain ⟨o1, e1, hq⟩ := bind_eq_ok.mp hq
  obtain ⟨o2, e2, e3⟩ := bind_eq_ok.mp hq
  rw [e1]
  simp only [ok_bind]
  rw [e2]
  simp only [ok_bind]
  rw [e3]
  simp only [ok_bind]
  rw [show (text.length : Int) - (head.length : Int) - 2 = (content.length : Int) by omega]

theorem fileMark_found {text e : List Byte} (h : fileMark <:+: untilNul text) :
    ∃ k : Nat, text_find_after ((text ++ e).map some ++ [some 0]) fileMark 0 (untilNul (text ++ e)).length = ok (((k + 12 : Nat)) : Int) ∧
      k + 12 ≤ (untilNul (text ++ e)).length ∧ FirstOcc (untilNul (text ++ e)) fileMark 0 (untilNul (text ++ e)).length k := by
  obtain ⟨rr, hrr⟩ := untilNul_split (text ++ e)
  have hD : (text ++ e).map some ++ [some 0] = (untilNul (text ++ e)).map some ++ some 0 :: rr.map some := by
    have := congrArg (List.map some) hrr
    simpa using this
  have hpre : untilNul text <+: untilNul (text ++ e) := by
    unfold untilNul
    by_cases hall : ∀ c ∈ text, (c != 0) = true
    · rw [List.takeWhile_eq_self_iff.mpr hall, List.takeWhile_append_of_pos hall]
      exact List.prefix_append _ _
    · rw [List.takeWhile_append]
      rw [if_neg]
      · exact List.prefix_refl _
      · intro hl
        apply hall
        rw [← List.takeWhile_eq_self_iff]
        exact (List.takeWhile_prefix _).eq_of_length hl
  obtain ⟨a, b, hab⟩ := h.trans hpre.isInfix
  rcases findLoop_spec (untilNul (text ++ e)) (rr.map some) fileMark (by decide) (untilNul (text ++ e)).length 0 (by omega) with
    ⟨k, e1, e2⟩ | ⟨e1, e2⟩
  · refine ⟨k, ?_, ?_, by simpa using e2⟩
    · unfold text_find_after
      rw [hD, Nat.sub_zero, e1]
      simp
    · have := e2.2.2.1.length_le
      have h3 := e2.2.1
      simp at this h3
      omega
  · have hl : a.length < (untilNul (text ++ e)).length := by rw [← hab]; simp
    exact absurd ⟨b, by rw [← hab, List.append_assoc, List.drop_left]⟩ (e2 a.length (by omega) (by omega))

/-- A part that is taken for a file. -/
def Marked (text : List Byte) : Prop := ∃ x name rest content, PartShape text x name rest content ∧ fileMark <:+: untilNul text

theorem part_marked (env : Env) (fs : FS) (h16 : ∀ x, (env.digest x).length = 16) (hmax : 18 ≤ env.evpMax) {text : List Byte}
    (hm : Marked text) (e : List Byte) {f : Str} {r : Buf} (hf : NulFree f) (hr : 1 ≤ r.length) :
    part_parse env fs (f.map some ++ some 0 :: r) ((text ++ e).map some ++ [some 0]) text.length = ub .oob := by
  obtain ⟨x, name, rest, content, hs, hmk⟩ := hm
  obtain ⟨r1, -, -, h3⟩ := part_parse_eq env fs hs e hf hr
  obtain ⟨k, k1, k2, -⟩ := fileMark_found (e := e) hmk
  rw [h3, k1]
  simp only [ok_bind]
  unfold part_tail
  rw [if_pos (by omega), Int.toNat_natCast, Int.toNat_natCast]
  have hl := hs.length
  have htx : text ++ e = (x ++ nameMark ++ name ++ rest ++ blankLine) ++ content ++ (b!"\r\n" ++ e) := by
    rw [hs.eq]; simp
  obtain ⟨q, hq⟩ := save_eq env fs ((amp f).map some ++ some 0 :: r1) name (k := k + 12) (head := x ++ nameMark ++ name ++ rest ++ blankLine)
    (content := content) (by rw [hl]; simp; omega) k2
  rw [hq]
  have hmd := md5sum_over env.digest h16 env.evpMax hmax ((x ++ nameMark ++ name ++ rest ++ blankLine).map some) content
    ((b!"\r\n" ++ e).map some ++ [some 0])
  rw [List.length_map] at hmd
  have hD : (text ++ e).map some ++ [some 0] = (x ++ nameMark ++ name ++ rest ++ blankLine).map some ++
      (content.map some ++ ((b!"\r\n" ++ e).map some ++ [some 0])) := by
    rw [htx]; simp
  rw [hD, hmd]
  rfl

theorem Marked.last {text : List Byte} (h : Marked text) : text.getLast? = some 10 := by
  obtain ⟨x, name, rest, content, hs, -⟩ := h
  obtain ⟨t, ht⟩ := hs.last
  rw [ht]; simp

theorem partsLoop_marked (env : Env) (fs : FS) (h16 : ∀ x, (env.digest x).length = 16) (hmax : 18 ≤ env.evpMax) {delim : List Byte}
    (hd : Delimiter delim) {body : List Byte} {α : Type} {P : α → List Byte → Prop}
    (hP : ∀ i t, P i t → (∃ p, Plain p t) ∨ Marked t) {items : List α} {tail : List Byte} (hp : Parts P delim items tail)
    (hm : ∃ i ∈ items, ∀ t, P i t → Marked t) (fuel : Nat) (hfuel : items.length < fuel) {z a d : List Byte} {f : Str} {r : Buf}
    (h : At delim body z a tail d f r) :
    partsLoop env (body.map some ++ [some 0]) delim body.length fuel z.length (d.map some ++ [some 0])
      (f.map some ++ some 0 :: r) fs = ub .oob := by
  induction hp generalizing fuel z a d f r with
  | last => simp at hm
  | part i items text tail hpi hnt hps ih =>
    cases fuel with
    | zero => simp at hfuel
    | succ fuel =>
      have hlen : body.length = z.length + a.length + delim.length + (text.length + delim.length + tail.length) := by
        rw [h.eq]; simp; omega
      have h2 : 2 ≤ delim.length := by simpa using hd.1.length_le
      have stop : Marked text → partsLoop env (body.map some ++ [some 0]) delim body.length (fuel + 1) z.length (d.map some ++ [some 0])
          (f.map some ++ some 0 :: r) fs = ub .oob := by
        intro hmk
        rw [partsLoop_begin env fs hd fuel z a text tail h.eq h.line h.none hmk.last hnt d h.len]
        rw [part_marked env fs h16 hmax hmk _ h.nul (by have := h.room; have := h.used; omega)]
        rfl
      rcases hP i text hpi with ⟨p, hpl⟩ | hmk
      · by_cases hc : Marked text
        · exact stop hc
        · obtain ⟨j, hj, hjm⟩ := hm
          obtain ⟨z', a', d', r', h', e⟩ := partsLoop_step env fs hd h fuel hpl hnt
          rw [e]
          refine ih ?_ fuel (by simp at hfuel; omega) h'
          rcases List.mem_cons.mp hj with rfl | hj
          · exact absurd (hjm text hpi) hc
          · exact ⟨j, hj, hjm⟩
      · exact stop hmk

end Wayuu
