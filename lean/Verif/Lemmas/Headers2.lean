import Verif.Lemmas.Headers
import Verif.Spec.Headers
/-
The header section, field by field.
-/
namespace Wayuu
open C Spec

theorem nextBuf_spec {bs : List Byte} (hb : LineBuf bs) :
    LineBuf (nextBuf bs) ∧ (startswith (untilNul bs) b!"X-Real-IP:" = true → untilNul (nextBuf bs) = strip (untilNul bs)) := by
  by_cases hx : startswith (untilNul bs) b!"X-Real-IP:" = true
  · obtain ⟨bs', hb', -, he2, he⟩ := hdrLengthIP_eq hb (h := ⟨bs.map some, [], [], none, [], 0, [], []⟩) rfl
    have hnb : bs' = nextBuf bs := by
      unfold nextBuf
      rw [hdrLengthIP_split] at he
      rw [if_pos hx]
      rw [if_neg (by rw [not_startswith_of_get hx (q := b!"Content-Length:") (i := 0) (by decide) (by decide) (by decide)]; simp)] at he
      simp only [ok_bind] at he
      rw [if_pos hx] at he
      obtain ⟨b, hbt, he⟩ := bind_eq_ok.mp he
      obtain ⟨sx, -, he⟩ := bind_eq_ok.mp he
      simp only [ok.injEq, HdrSt.mk.injEq] at he
      rw [hbt]
      simp only
      rw [he.1, map_getD_map_some]
    rw [← hnb]
    exact ⟨hb', he2⟩
  · unfold nextBuf
    rw [if_neg hx]
    exact ⟨hb, fun h => absurd h hx⟩

theorem LineBuf.step {a : Head} (h : LineBuf a.bs) {line : List Byte} (hl : line.length ≤ 1023) : LineBuf (a.step line).bs :=
  (nextBuf_spec (bs := (a.load line).bs) (h.load hl)).1

theorem LineBuf.foldl {lines : List (List Byte)} {a : Head} (h : LineBuf a.bs) (hl : ∀ l ∈ lines, l.length ≤ 1023) :
    LineBuf (lines.foldl Head.step a).bs := by
  induction lines generalizing a with
  | nil => exact h
  | cons l lines ih => exact ih (h.step (hl l (by simp))) (fun l' h' => hl l' (by simp [h']))

theorem _root_.Wayuu.Spec.Section.length_le {input rest : List Byte} {lines : List (List Byte)}
    (h : Section input lines rest) : ∀ l ∈ lines, l.length ≤ 1023 := by
  induction h with
  | eof => simp
  | blank => simp
  | line _ line _ lines _ hl _ _ _ _ ih =>
    intro l h
    rcases List.mem_cons.mp h with rfl | h
    · exact hl.2.1
    · exact ih l h

theorem beforeNul_eq {line text : List Byte} (h : BeforeNul line text) : text = untilNul line :=
  beforeNul_unique h (untilNul_before line)

/-! ### headers -/

def headerPair (text : Str) : Str × Str := (strip (text.takeWhile (· != 58)), strip ((text.dropWhile (· != 58)).drop 1))

theorem foldl_headers (lines : List (List Byte)) (a : Head) (h20 : a.headers.length ≤ 20) :
    (lines.foldl Head.step a).headers = a.headers ++
      ((lines.filter (fun l => decide ((58 : Byte) ∈ untilNul l))).map (fun l => headerRec (untilNul l))).take
        (20 - a.headers.length) := by
  induction lines generalizing a with
  | nil => simp
  | cons l lines ih =>
    have e : (a.step l).headers = nextHeaders a.headers (untilNul l) := by
      show nextHeaders a.headers (untilNul (a.load l).bs) = _
      rw [untilNul_load]
    rw [List.foldl_cons]
    by_cases hc : (58 : Byte) ∈ untilNul l
    · rw [List.filter_cons_of_pos (by simpa using hc), List.map_cons]
      by_cases hlt : a.headers.length < 20
      · have e' : (a.step l).headers = a.headers ++ [headerRec (untilNul l)] := by
          rw [e, nextHeaders, if_pos ⟨hlt, hc⟩]
        rw [ih _ (by rw [e', List.length_append, List.length_singleton]; omega), e', List.length_append, List.length_singleton,
          List.append_assoc]
        rw [show 20 - a.headers.length = (20 - (a.headers.length + 1)) + 1 by omega, List.take_succ_cons]
        rfl
      · have e' : (a.step l).headers = a.headers := by
          rw [e, nextHeaders, if_neg (fun h => hlt h.1)]
        rw [ih _ (by rw [e']; exact h20), e', show 20 - a.headers.length = 0 by omega]
        simp
    · rw [List.filter_cons_of_neg (by simpa using hc)]
      have e' : (a.step l).headers = a.headers := by
        rw [e, nextHeaders, if_neg (fun h => hc h.2)]
      rw [ih _ (by rw [e']; exact h20), e']

theorem headerLine_iff {text name value : Str} :
    HeaderLine text name value ↔ (58 : Byte) ∈ text ∧ headerPair text = (name, value) := by
  constructor
  · rintro ⟨a, b, rfl, ha, h1, h2⟩
    have hne : ∀ c ∈ a, (c != 58) = true := by
      intro c hc
      have : c ≠ 58 := fun e => ha (e ▸ hc)
      simpa using this
    have e1 : (a ++ 58 :: b).takeWhile (· != 58) = a := by
      rw [takeWhile_prefix_append hne]; simp
    have e2 : (a ++ 58 :: b).dropWhile (· != 58) = 58 :: b := by
      rw [List.dropWhile_append_of_pos (fun c hc => hne c hc)]; simp
    refine ⟨by simp, ?_⟩
    unfold headerPair
    rw [e1, e2, ← isStrip_eq h1]
    simp [← isStrip_eq h2]
  · rintro ⟨hc, h⟩
    refine ⟨_, _, (first_split hc).symm, ?_, ?_, ?_⟩
    · intro h
      have := List.mem_takeWhile_imp h
      simp at this
    · have := congrArg Prod.fst h
      simp only [headerPair] at this
      rw [← this]; exact isStrip_strip _
    · have := congrArg Prod.snd h
      simp only [headerPair] at this
      rw [← this]; exact isStrip_strip _

theorem named_eq {lines : List (List Byte)} {hs : List (Str × Str)} (h : Named lines hs) :
    hs = (lines.filter (fun l => decide ((58 : Byte) ∈ untilNul l))).map (fun l => headerPair (untilNul l)) := by
  induction h with
  | nil => rfl
  | header line text name value lines hs hb hh _ ih =>
    have := beforeNul_eq hb
    subst this
    obtain ⟨h1, h2⟩ := headerLine_iff.mp hh
    rw [List.filter_cons_of_pos (by simpa using h1), List.map_cons, h2, ← ih]
  | other line text lines hs hb hc _ ih =>
    have := beforeNul_eq hb
    subst this
    rw [List.filter_cons_of_neg (by simpa using hc), ← ih]

theorem named_exists (lines : List (List Byte)) : ∃ hs, Named lines hs := by
  induction lines with
  | nil => exact ⟨[], .nil⟩
  | cons l lines ih =>
    obtain ⟨hs, ih⟩ := ih
    by_cases hc : (58 : Byte) ∈ untilNul l
    · exact ⟨_, .header l _ _ _ _ _ (untilNul_before l) (headerLine_iff.mpr ⟨hc, rfl⟩) ih⟩
    · exact ⟨_, .other l _ _ _ (untilNul_before l) hc ih⟩

theorem headers_nulFree {lines : List (List Byte)} {hs : List (Str × Str)} (hn : Named lines hs) :
    ∀ p ∈ hs, NulFree p.1 ∧ NulFree p.2 := by
  intro p hp
  rw [named_eq hn] at hp
  obtain ⟨l, -, rfl⟩ := List.mem_map.mp hp
  have hnf := nulFree_untilNul l
  exact ⟨nulFree_strip (hnf.sublist (List.takeWhile_sublist _)), nulFree_strip ((hnf.sublist (List.dropWhile_sublist _)).drop 1)⟩

theorem headers_stored {lines : List (List Byte)} {hs : List (Str × Str)} (hn : Named lines hs) (m : Nat) :
    List.Forall₂ (fun (h : Header) (p : Str × Str) =>
      strncpyAt (calloc HTTP_MAX_HEADER_NAME) 0 p.1 HTTP_MAX_HEADER_NAME = ok h.name ∧
      strncpyAt (calloc HTTP_MAX_HEADER_VALUE) 0 p.2 HTTP_MAX_HEADER_VALUE = ok h.value)
      (((lines.filter (fun l => decide ((58 : Byte) ∈ untilNul l))).map (fun l => headerRec (untilNul l))).take m)
      (hs.take m) := by
  have e := named_eq hn
  subst e
  clear hn
  generalize (lines.filter (fun l => decide ((58 : Byte) ∈ untilNul l))) = ls at *
  rw [← List.map_take, ← List.map_take]
  generalize ls.take m = ks at *
  induction ks with
  | nil => exact .nil
  | cons k ks ih => exact .cons ⟨calloc_strncpy_pad .., calloc_strncpy_pad ..⟩ ih

/-! ### overruns -/

theorem strcasestr_iff (h n rest : Str) : (∃ r, strcasestr h n = some r ∧ r.drop n.length = rest ∧ n.length ≤ r.length) ↔
    AfterCase h n rest := by
  induction h with
  | nil =>
    unfold strcasestr
    constructor
    · rintro ⟨r, hr, h1, h2⟩
      split at hr
      · rename_i hs
        cases hr
        have hn : n = [] := List.length_eq_zero_iff.mp (by simpa using h2)
        subst hn
        exact ⟨[], [], by simpa using h1, rfl, by simp⟩
      · cases hr
    · rintro ⟨p, m, he, hm, -⟩
      have hml := congrArg List.length hm
      simp at hml
      have : p = [] ∧ m = [] ∧ rest = [] := by
        simpa [and_assoc] using he.symm
      obtain ⟨rfl, rfl, rfl⟩ := this
      have hn : n = [] := List.length_eq_zero_iff.mp (by simpa using hml.symm)
      subst hn
      exact ⟨[], by simp [strncaseEq], rfl, by simp⟩
  | cons c t ih =>
    unfold strcasestr
    by_cases hs : strncaseEq (c :: t) n n.length = true
    · rw [if_pos hs]
      have hp : CasePrefix n (c :: t) := (strncaseEq_iff _ _).mp hs
      constructor
      · rintro ⟨r, hr, h1, h2⟩
        cases hr
        obtain ⟨x, y, hxy, hx⟩ := hp
        have hxl := congrArg List.length hx
        simp at hxl
        refine ⟨[], x, ?_, hx, by simp⟩
        rw [← h1, hxy]
        rw [List.drop_append_of_le_length (by omega), List.drop_eq_nil_of_le (by omega)]; simp
      · rintro ⟨p, m, he, hm, hno⟩
        have hml := congrArg List.length hm
        simp at hml
        cases p with
        | nil =>
          refine ⟨c :: t, rfl, ?_, ?_⟩
          · rw [he, List.nil_append, List.drop_append_of_le_length (by omega), List.drop_eq_nil_of_le (by omega)]; simp
          · rw [he]; simp; omega
        | cons x p => exact absurd hp (hno 0 (by simp))
    · rw [if_neg hs]
      have hp : ¬ CasePrefix n (c :: t) := fun h => hs ((strncaseEq_iff _ _).mpr h)
      simp only
      rw [ih]
      constructor
      · rintro ⟨p, m, he, hm, hno⟩
        refine ⟨c :: p, m, by rw [he]; simp, hm, ?_⟩
        intro i hi
        cases i with
        | zero => exact hp
        | succ i => exact hno i (by simpa using hi)
      · rintro ⟨p, m, he, hm, hno⟩
        cases p with
        | nil => exact absurd ⟨m, rest, he, hm⟩ hp
        | cons x p =>
          simp only [List.cons_append, List.cons.injEq] at he
          refine ⟨p, m, he.2, hm, ?_⟩
          intro i hi
          exact hno (i + 1) (by simpa using hi)

theorem strcasestr_length {h n r : Str} (hr : strcasestr h n = some r) : n.length ≤ r.length := by
  induction h with
  | nil =>
    unfold strcasestr at hr
    split at hr
    · rename_i hs; cases hr; exact length_of_startswith (p := n) hs
    · cases hr
  | cons c h ih =>
    unfold strcasestr at hr
    split at hr
    · rename_i hs; cases hr; exact length_of_startswith (p := n) hs
    · exact ih hr

theorem lineSafe_iff (text : Str) : lineSafe text = false ↔ Overrun text := by
  have h1 : boundaryFits text = false ↔ (CasePrefix b!"Content-Type: multipart/form-data" text ∧
      ∃ rest, AfterCase text b!"boundary=" rest ∧ 98 ≤ rest.length) := by
    unfold boundaryFits
    rw [← startswith_iff]
    by_cases hm : startswith text b!"Content-Type: multipart/form-data" = true
    · rw [if_pos hm]
      cases hr : strcasestr text b!"boundary=" with
      | none =>
        simp only [Bool.true_eq_false, false_iff]
        rintro ⟨-, rest, ha, -⟩
        obtain ⟨r, h, -⟩ := (strcasestr_iff _ _ _).mpr ha
        rw [hr] at h; cases h
      | some r =>
        simp only [decide_eq_false_iff_not]
        constructor
        · intro h
          exact ⟨hm, _, (strcasestr_iff _ _ _).mp ⟨r, hr, rfl, strcasestr_length hr⟩, by show 98 ≤ (r.drop 9).length; omega⟩
        · rintro ⟨-, rest, ha, hlen⟩
          obtain ⟨r', h, h2, -⟩ := (strcasestr_iff _ _ _).mpr ha
          rw [hr] at h
          cases h
          have : (r.drop 9) = rest := h2
          rw [this]
          omega
    · rw [if_neg hm]
      simp only [Bool.true_eq_false, false_iff]
      exact fun h => hm h.1
  have h2 : (if isSess text then decide (text.length < 74) else true) = false ↔
      ((CasePrefix b!"X-Session:" text ∨ CasePrefix b!"Authorization:" text) ∧ 74 ≤ text.length) := by
    rw [← startswith_iff, ← startswith_iff, ← Bool.or_eq_true]
    change _ ↔ isSess text = true ∧ _
    by_cases hi : isSess text = true
    · rw [if_pos hi]
      simp [hi]
    · rw [if_neg hi]
      simp [hi]
  unfold lineSafe Overrun
  rw [Bool.and_eq_false_iff, h1, h2]

theorem lineSafe_true_iff (text : Str) : lineSafe text = true ↔ ¬ Overrun text := by
  rw [← lineSafe_iff]; simp

/-! ### session -/

theorem fieldLine_startswith {name text : Str} : (∃ v, FieldLine name text v) ↔ startswith text (name ++ [58]) = true := by
  rw [startswith_iff]
  have l58 : lower 58 = 58 := by decide
  constructor
  · rintro ⟨v, n, b, rfl, hn, -⟩
    refine ⟨n ++ [58], b, by simp, ?_⟩
    unfold CaseEq at *
    rw [List.map_append, List.map_append, hn]
  · rintro ⟨a, b, rfl, ha⟩
    unfold CaseEq at ha
    rw [List.map_append] at ha
    obtain ⟨n, m, rfl, h1, h2⟩ := List.map_eq_append_iff.mp ha
    obtain ⟨c, rfl, hc⟩ : ∃ c, m = [c] ∧ lower c = 58 := by
      have hml := congrArg List.length h2
      rw [List.length_map] at hml
      obtain ⟨c, rfl⟩ := List.length_eq_one_iff.mp hml
      simp [l58] at h2
      exact ⟨c, rfl, h2⟩
    have : c = 58 := by
      have key : ∀ n : Fin 256, lower (UInt8.ofNat n.val) = 58 → UInt8.ofNat n.val = 58 := by decide +kernel
      have := key ⟨c.toNat, c.toNat_lt⟩
      simp at this
      exact this hc
    subst this
    exact ⟨strip b, n, b, by simp, h1, isStrip_strip b⟩

theorem fieldLine_drop {name text v : Str} (h : FieldLine name text v) : strip (text.drop (name.length + 1)) = v := by
  obtain ⟨n, b, rfl, hn, hb⟩ := h
  have hl := congrArg List.length hn
  simp only [List.length_map] at hl
  rw [show n ++ 58 :: b = (n ++ [58]) ++ b by simp, drop_at (by simp; omega)]
  exact (isStrip_eq hb).symm

theorem step_sess (a : Head) (line : List Byte) (ha : LineBuf a.bs) (hl : line.length ≤ 1023)
    (hau : ∀ v, ¬ FieldLine b!"Authorization" (untilNul line) v) :
    (∀ v, FieldLine b!"X-Session" (untilNul line) v → (a.step line).sess = v) ∧
    ((∀ v, ¬ FieldLine b!"X-Session" (untilNul line) v) → ¬ CasePrefix b!"Cookie:" (untilNul line) →
      (a.step line).sess = a.sess) := by
  have hau' : startswith (untilNul line) b!"Authorization:" = false := by
    by_contra h
    rw [Bool.not_eq_false] at h
    obtain ⟨v, hv⟩ := (fieldLine_startswith (name := b!"Authorization")).mpr h
    exact hau v hv
  have e : (a.step line).sess = nextSession a.sess (loadLine a.bs line) := rfl
  have hb := ha.load hl
  rw [e]
  unfold nextSession
  simp only [untilNul_loadLine, isSess, hau', Bool.or_false]
  constructor
  · intro v hv
    have hs : startswith (untilNul line) b!"X-Session:" = true := (fieldLine_startswith (name := b!"X-Session")).mp ⟨v, hv⟩
    rw [if_pos hs, hb.tail (by rw [untilNul_loadLine]; exact length_of_startswith hs), untilNul_loadLine]
    exact fieldLine_drop hv
  · intro h1 h2
    rw [if_neg (fun h => by
      obtain ⟨v, hv⟩ := (fieldLine_startswith (name := b!"X-Session")).mpr h
      exact h1 v hv), if_neg (fun h => h2 ((startswith_iff _ _).mp h.1))]

theorem foldl_sess {lines : List (List Byte)} {s : Str} (h : SessionOf lines s) (a : Head) (ha : LineBuf a.bs)
    (hs : a.sess = []) (hl : ∀ l ∈ lines, l.length ≤ 1023)
    (hau : ∀ l ∈ lines, ∀ t, BeforeNul l t → (∀ v, ¬ FieldLine b!"Authorization" t v) ∧ ¬ CasePrefix b!"Cookie:" t) :
    (lines.foldl Head.step a).sess = s := by
  induction h with
  | none => exact hs
  | token lines s line text v _ hb hv ih =>
    rw [List.foldl_append]
    have hb' := LineBuf.foldl (lines := lines) ha (fun l h => hl l (by simp [h]))
    have e := beforeNul_eq hb
    have hline := hau line (by simp) text hb
    subst e
    rcases hv with hv | hv
    · exact (step_sess _ line hb' (hl line (by simp)) hline.1).1 v hv
    · exact absurd hv (hline.1 v)
  | cookie lines line text t v _ hb ht _ _ =>
    exfalso
    apply (hau line (by simp) text hb).2
    exact ⟨b!"Cookie:", b!" WSSESSION=" ++ t, by rw [ht]; rfl, rfl⟩
  | kept lines s line text _ hb h1 _ ih =>
    rw [List.foldl_append]
    have hb' := LineBuf.foldl (lines := lines) ha (fun l h => hl l (by simp [h]))
    have e := beforeNul_eq hb
    have hline := hau line (by simp) text hb
    subst e
    have := (step_sess _ line hb' (hl line (by simp)) hline.1).2 (fun v => (h1 v).1) hline.2
    rw [List.foldl_cons, List.foldl_nil, this]
    exact ih (fun l h => hl l (by simp [h])) (fun l h => hau l (by simp [h]))

/-! ### content length -/

theorem digitsVal_eq (ds r : Str) (n : Nat) (hd : ∀ c ∈ ds, digit c) (hr : ∀ c, r.head? = some c → ¬ digit c) :
    digitsVal (ds ++ r) n = ds.foldl (fun n c => 10 * n + (c.toNat - 48)) n := by
  have hdig : ∀ c : Byte, isDigit c = true ↔ digit c := by
    intro c
    have key : ∀ n : Fin 256, isDigit (UInt8.ofNat n.val) = true ↔ (48 ≤ (UInt8.ofNat n.val).toNat ∧ (UInt8.ofNat n.val).toNat ≤ 57) := by
      decide +kernel
    have := key ⟨c.toNat, c.toNat_lt⟩
    simpa [digit] using this
  induction ds generalizing n with
  | nil =>
    cases r with
    | nil => rfl
    | cons c r =>
      have : isDigit c = false := by
        have h := hr c rfl
        rw [← hdig] at h
        simpa using h
      simp [digitsVal, this]
  | cons c ds ih =>
    have : isDigit c = true := (hdig c).mpr (hd c (by simp))
    simp only [List.cons_append, digitsVal, this, if_true, List.foldl_cons]
    rw [ih _ (fun d h => hd d (by simp [h])), Nat.mul_comm]

theorem atoi_digits {s v : Str} (h : IsStrip s v) (hne : v ≠ []) (hd : ∀ c ∈ v, digit c) (hlt : decimal v < 2 ^ 31) :
    atoi s = decimal v := by
  obtain ⟨l, r, rfl, hl, hr, -, -⟩ := h
  obtain ⟨c, v, rfl⟩ := List.exists_cons_of_ne_nil hne
  have hc := hd c (by simp)
  have hsp : ∀ c : Byte, digit c → isSpace c = false ∧ c ≠ 45 ∧ c ≠ 43 := by
    intro c
    have key : ∀ n : Fin 256, 48 ≤ (UInt8.ofNat n.val).toNat ∧ (UInt8.ofNat n.val).toNat ≤ 57 →
      isSpace (UInt8.ofNat n.val) = false ∧ UInt8.ofNat n.val ≠ 45 ∧ UInt8.ofNat n.val ≠ 43 := by decide +kernel
    have := key ⟨c.toNat, c.toNat_lt⟩
    simpa [digit] using this
  have hdw : (l ++ c :: v ++ r).dropWhile isSpace = c :: v ++ r := by
    rw [List.append_assoc, List.dropWhile_append_of_pos (fun d h => by rw [isSpace_eq_ws]; exact hl d h)]
    simp [(hsp c hc).1]
  have hval : digitsVal (c :: v ++ r) 0 = decimal (c :: v) := by
    rw [digitsVal_eq _ _ _ hd]
    · rfl
    · intro d h hdd
      have h1 := hr d (List.mem_of_mem_head? h)
      rw [← isSpace_eq_ws, (hsp d hdd).1] at h1
      cases h1
  unfold atoi
  rw [hdw]
  dsimp only
  have h1 := (hsp c hc).2.1
  have h2 := (hsp c hc).2.2
  rw [List.cons_append] at hval ⊢
  split
  · rename_i heq; simp at heq; exact absurd heq.1 h1
  · rename_i heq; simp at heq; exact absurd heq.1 h2
  simp only [Bool.false_eq_true, if_false, hval]
  generalize decimal (c :: v) = m at hlt
  unfold toInt32
  have e : max (-(2 ^ 63 : Int)) (min (2 ^ 63 - 1) (m : Int)) = m := by omega
  rw [e]
  exact Int.bmod_eq_of_le (by omega) (by omega)

theorem step_clen (a : Head) (line : List Byte) (ha : LineBuf a.bs) (hl : line.length ≤ 1023) :
    (∀ v, FieldLine b!"Content-Length" (untilNul line) v → CasePrefix b!"Content-Length: " (untilNul line) →
      v ≠ [] → (∀ c ∈ v, digit c) → decimal v < 2 ^ 31 → (a.step line).clen = decimal v) ∧
    ((∀ v, ¬ FieldLine b!"Content-Length" (untilNul line) v) → (a.step line).clen = a.clen) := by
  have e : (a.step line).clen = nextLength a.clen (loadLine a.bs line) := rfl
  have hb := ha.load hl
  rw [e]
  unfold nextLength
  simp only [untilNul_loadLine]
  constructor
  · intro v hv hsp hne hd hlt
    have hs : startswith (untilNul line) b!"Content-Length:" = true :=
      (fieldLine_startswith (name := b!"Content-Length")).mp ⟨v, hv⟩
    have hs2 : startswith (untilNul line) b!"Content-Length: " = true := (startswith_iff _ _).mpr hsp
    rw [if_pos hs, hb.tail (by rw [untilNul_loadLine]; exact length_of_startswith hs2), untilNul_loadLine]
    obtain ⟨n, b, ht, hn, hst⟩ := hv
    have hnl := congrArg List.length hn
    simp only [List.length_map] at hnl
    have hnl : n.length = 14 := hnl
    have hlen := length_of_startswith hs2
    have h15 := casePrefix_get hsp (i := 15) (by decide)
    rw [ht] at h15 hlen ⊢
    cases b with
    | nil => simp [hnl] at hlen
    | cons w b =>
      rw [List.getElem?_append_right (by omega), hnl] at h15
      simp at h15
      have hw : lower w = 32 := h15
      have : w = 32 := by
        have key : ∀ n : Fin 256, lower (UInt8.ofNat n.val) = 32 → UInt8.ofNat n.val = 32 := by decide +kernel
        have := key ⟨w.toNat, w.toNat_lt⟩
        simp at this
        exact this hw
      subst this
      rw [show n ++ 58 :: 32 :: b = (n ++ [58, 32]) ++ b by simp, drop_at (by simp; omega)]
      apply atoi_digits _ hne hd hlt
      obtain ⟨l, r, h1, h2, h3, h4, h5⟩ := hst
      cases l with
      | nil =>
        exfalso
        obtain ⟨c, v', rfl⟩ := List.exists_cons_of_ne_nil hne
        simp at h1
        have := hd c (by simp)
        rw [← h1.1] at this
        exact absurd this (by unfold digit; decide)
      | cons x l =>
        simp at h1
        exact ⟨l, r, by simpa using h1.2, fun c h => h2 c (by simp [h]), h3, h4, h5⟩
  · intro h
    rw [if_neg]
    intro hs
    obtain ⟨v, hv⟩ := (fieldLine_startswith (name := b!"Content-Length")).mpr hs
    exact h v hv

theorem foldl_clen {lines : List (List Byte)} {o : Option Nat} (h : LengthOf lines o) (a : Head) (ha : LineBuf a.bs)
    (hs : a.clen = -1) (hl : ∀ l ∈ lines, l.length ≤ 1023) (hlt : ∀ n, o = some n → n < 2 ^ 31)
    (hsp : ∀ l ∈ lines, ∀ t, BeforeNul l t → CasePrefix b!"Content-Length:" t → CasePrefix b!"Content-Length: " t) :
    (lines.foldl Head.step a).clen = match o with
      | none => -1
      | some n => (n : Int) := by
  induction h with
  | none => exact hs
  | field lines n line text v _ hb hv hne hd ih =>
    rw [List.foldl_append]
    have hb' := LineBuf.foldl (lines := lines) ha (fun l h => hl l (by simp [h]))
    have e := beforeNul_eq hb
    have hline := hsp line (by simp) text hb
    subst e
    exact (step_clen _ line hb' (hl line (by simp))).1 v hv
      (hline ((startswith_iff _ _).mp ((fieldLine_startswith (name := b!"Content-Length")).mp ⟨v, hv⟩))) hne hd (hlt _ rfl)
  | other lines o line text _ hb h1 ih =>
    rw [List.foldl_append]
    have hb' := LineBuf.foldl (lines := lines) ha (fun l h => hl l (by simp [h]))
    have e := beforeNul_eq hb
    subst e
    have := (step_clen _ line hb' (hl line (by simp))).2 h1
    rw [List.foldl_cons, List.foldl_nil, this]
    exact ih (fun l h => hl l (by simp [h])) hlt (fun l h => hsp l (by simp [h]))

/-! ### address -/

theorem foldl_ip_length (lines : List (List Byte)) (a : Head) (h : a.ip.length ≤ 24) :
    (lines.foldl Head.step a).ip.length ≤ 24 := by
  induction lines generalizing a with
  | nil => exact h
  | cons l lines ih =>
    apply ih
    show (nextIP a.ip _).length ≤ 24
    unfold nextIP
    split
    · simp; omega
    · exact h

theorem foldl_ip_same (lines : List (List Byte)) (a : Head)
    (h : ∀ l ∈ lines, ¬ CasePrefix b!"X-Real-IP:" (untilNul l)) : (lines.foldl Head.step a).ip = a.ip := by
  induction lines generalizing a with
  | nil => rfl
  | cons l lines ih =>
    rw [List.foldl_cons, ih _ (fun l' h' => h l' (by simp [h']))]
    show nextIP a.ip (loadLine a.bs l) = a.ip
    unfold nextIP
    rw [if_neg]
    rw [untilNul_loadLine, startswith_iff]
    exact h l (by simp)

theorem foldl_boundary_same (lines : List (List Byte)) (a : Head)
    (h : ∀ l ∈ lines, ¬ CasePrefix b!"Content-Type: multipart/form-data" (untilNul l)) :
    (lines.foldl Head.step a).boundary = a.boundary := by
  induction lines generalizing a with
  | nil => rfl
  | cons l lines ih =>
    rw [List.foldl_cons, ih _ (fun l' h' => h l' (by simp [h']))]
    show nextBoundary a.boundary (untilNul (loadLine a.bs l)) = a.boundary
    unfold nextBoundary
    rw [if_neg]
    rw [untilNul_loadLine, startswith_iff]
    exact h l (by simp)

/-! ### the body -/

theorem bodyLoop_eq (n : Nat) (body rest : List Byte) (c : Byte) (p : List Byte) (hn : body.length = n) (r : Buf)
    (hr : r.length = n + 1) :
    bodyLoop n (body ++ rest) c (p.map some ++ r) p.length =
      ok (if n = 0 then p.map some ++ r else (p ++ body).map some ++ [some 0], rest) := by
  induction n generalizing body c p r with
  | zero =>
    have := List.length_eq_zero_iff.mp hn
    subst this
    simp [bodyLoop]
  | succ n ih =>
    obtain ⟨x, body, rfl⟩ := List.exists_cons_of_ne_nil (l := body) (by rintro rfl; simp at hn)
    obtain ⟨y, z, r, rfl⟩ : ∃ y z r', r = y :: z :: r' := by
      match r, hr with
      | y :: z :: r', _ => exact ⟨y, z, r', rfl⟩
    simp only [List.cons_append, bodyLoop]
    rw [store_append_cons (by simp)]
    simp only [ok_bind]
    rw [show p.map some ++ some x :: z :: r = (p ++ [x]).map some ++ z :: r by simp, store_append_cons (by simp)]
    simp only [ok_bind]
    have := ih body x (p ++ [x]) (by simpa using hn) (some 0 :: r) (by simpa using hr)
    rw [List.length_append, List.length_singleton] at this
    rw [this]
    by_cases h0 : n = 0
    · subst h0
      have hb := List.length_eq_zero_iff.mp (show body.length = 0 by simpa using hn)
      subst hb
      have hr' := List.length_eq_zero_iff.mp (show r.length = 0 by simpa using hr)
      subst hr'
      simp
    · simp [h0]

theorem readForm_plain (env : Env) (st : St) (n : Nat) (hn : 0 < n) (boundary : Str) (hb : boundary.length < 2)
    (hlen : n ≤ st.input.length) :
    readForm env st n boundary = ok { st with
      input := st.input.drop n, req := { st.req with form := (st.input.take n).map some ++ [some 0] } } := by
  unfold readForm
  rw [if_pos (by omega)]
  have := bodyLoop_eq n (st.input.take n) (st.input.drop n) 0 [] (by simp; omega) (malloc (n + 1)) (by simp)
  rw [List.take_append_drop, if_neg (by omega)] at this
  simp only [Int.toNat_natCast]
  simp only [List.map_nil, List.nil_append, List.length_nil] at this
  rw [this]
  simp only [ok_bind]
  rw [if_neg (by omega)]

end Wayuu
