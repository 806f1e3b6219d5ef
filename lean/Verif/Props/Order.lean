import Verif.Props.Headers
import Verif.Spec.Order
/-
C108: the order of header lines.
-/
namespace Wayuu
open C Spec

/-- What a handler can tell about two header sections: the body to come and its length, the multipart boundary, the address, the
session, and the value of every header. -/
def SameFields (h h' : HdrSt) : Prop :=
  h'.input = h.input ∧ h'.content_length = h.content_length ∧ h'.boundary = h.boundary ∧ h'.IP = h.IP ∧
    cstr h'.session = cstr h.session ∧
    ∀ (req req' : Req) (name : Str), req.headers = h.headers → req.n_headers = h.headers.length →
      req'.headers = h'.headers → req'.n_headers = h'.headers.length → (∀ c ∈ name, c ≠ 0) →
      http_get_header req' name = http_get_header req name

/-- C108 in full: header lines of different names (at most 20, with names under 64 and values under 256 bytes) may come in any order. -/
def C108_statement : Prop :=
  ∀ (bs input input' rest : List Byte) (lines lines' : List (List Byte)) (hs : List (Str × Str)) (ip : Str) (h : HdrSt),
    bs.length = 1024 → bs.getLast? = some 0 → Section input lines rest → Section input' lines' rest → lines'.Perm lines →
    (∀ l ∈ lines, WholeLine l) → Named lines hs → DistinctNames hs → lines.length ≤ 20 →
    (∀ p ∈ hs, p.1.length < 64 ∧ p.2.length < 256) → parseHeaders (bs.map some) input ip = ok h →
    ∃ h', parseHeaders (bs.map some) input' ip = ok h' ∧ SameFields h h'

/-! ### a value that one line decides -/

theorem foldl_one {α : Type} (f : Head → α) (P : List Byte → Prop) [DecidablePred P] (g : List Byte → α) (v0 : α)
    (ok : List Byte → Prop)
    (hno : ∀ (a : Head) (l : List Byte), LineBuf a.bs → l.length ≤ 1023 → ok l → ¬ P l → f (a.step l) = f a)
    (hyes : ∀ (a : Head) (l : List Byte), LineBuf a.bs → l.length ≤ 1023 → ok l → P l → f a = v0 → f (a.step l) = g l)
    (lines : List (List Byte)) (a : Head) (ha : LineBuf a.bs) (hl : ∀ l ∈ lines, l.length ≤ 1023) (hok : ∀ l ∈ lines, ok l)
    (hone : lines.Pairwise (fun l l' => ¬ (P l ∧ P l'))) (h0 : f a = v0) :
    f (lines.foldl Head.step a) = ((lines.find? (fun l => decide (P l))).map g).getD v0 := by
  have keep : ∀ (lines : List (List Byte)) (a : Head), LineBuf a.bs → (∀ l ∈ lines, l.length ≤ 1023) → (∀ l ∈ lines, ok l) →
      (∀ l ∈ lines, ¬ P l) → f (lines.foldl Head.step a) = f a := by
    intro lines
    induction lines with
    | nil => intros; rfl
    | cons l lines ih =>
      intro a ha hl hok hp
      rw [List.foldl_cons, ih _ (ha.step (hl l (by simp))) (fun l' h => hl l' (by simp [h])) (fun l' h => hok l' (by simp [h]))
        (fun l' h => hp l' (by simp [h])), hno a l ha (hl l (by simp)) (hok l (by simp)) (hp l (by simp))]
  induction lines generalizing a with
  | nil => exact h0
  | cons l lines ih =>
    rw [List.pairwise_cons] at hone
    rw [List.foldl_cons]
    by_cases hp : P l
    · rw [keep lines _ (ha.step (hl l (by simp))) (fun l' h => hl l' (by simp [h])) (fun l' h => hok l' (by simp [h]))
        (fun l' h hp' => hone.1 l' h ⟨hp, hp'⟩), hyes a l ha (hl l (by simp)) (hok l (by simp)) hp h0]
      simp [hp]
    · rw [ih _ (ha.step (hl l (by simp))) (fun l' h => hl l' (by simp [h])) (fun l' h => hok l' (by simp [h])) hone.2
        (by rw [hno a l ha (hl l (by simp)) (hok l (by simp)) hp]; exact h0)]
      simp [hp]

/-- The only match does not depend on the order. -/
theorem find_perm {α : Type} (p : α → Bool) {l l' : List α} (h : l'.Perm l) (hone : l.Pairwise (fun x y => ¬ (p x ∧ p y))) :
    l'.find? p = l.find? p := by
  have hone' : l'.Pairwise (fun x y => ¬ (p x ∧ p y)) :=
    h.symm.pairwise hone (fun hxy hyx => hxy ⟨hyx.2, hyx.1⟩)
  induction h with
  | nil => rfl
  | cons x h ih =>
    rw [List.pairwise_cons] at hone hone'
    simp only [List.find?_cons]
    rw [ih hone.2 hone'.2]
  | swap x y l =>
    rw [List.pairwise_cons, List.pairwise_cons] at hone
    have := hone.1 y (by simp)
    simp only [List.find?_cons]
    cases hx : p x <;> cases hy : p y <;> simp_all
  | trans h1 h2 ih1 ih2 =>
    have hm := h2.symm.pairwise hone (fun hxy hyx => hxy ⟨hyx.2, hyx.1⟩)
    rw [ih1 hm hone', ih2 hone hm]

/-! ### the fields -/

theorem untilNul_whole {l : List Byte} (h : WholeLine l) : untilNul l = l :=
  (beforeNul_eq ⟨fun _ hc h0 => h.2.1 (h0 ▸ hc), Or.inl rfl⟩).symm

theorem lower_ten {c : Byte} (h : lower 10 = lower c) : c = 10 := by
  have key : ∀ n : Fin 256, lower 10 = lower (UInt8.ofNat n.val) → UInt8.ofNat n.val = 10 := by decide +kernel
  have := key ⟨c.toNat, c.toNat_lt⟩
  simp at this
  exact this h

/-- A whole line is longer than the name it begins with. -/
theorem whole_longer {l p : List Byte} (h : WholeLine l) (hp : startswith l p = true) (hlast : p.getLast? ≠ some 10) :
    p.length + 1 ≤ l.length := by
  obtain ⟨n, b, rfl, hn⟩ := (startswith_iff _ _).mp hp
  have hlen : n.length = p.length := by have := congrArg List.length hn; simpa using this
  cases b with
  | nil =>
    exfalso
    have h1 := h.1
    rw [List.append_nil] at h1
    have h2 : (n.map lower).getLast? = (p.map lower).getLast? := congrArg List.getLast? hn
    rw [List.getLast?_map, List.getLast?_map, h1] at h2
    cases hq : p.getLast? with
    | none => rw [hq] at h2; simp at h2
    | some c =>
      rw [hq] at h2 hlast
      simp only [Option.map_some, Option.some.injEq] at h2
      exact hlast (by rw [lower_ten h2])
  | cons c b => simp; omega

theorem fold_clen (bs : List Byte) (ip : Str) (hb : LineBuf bs) (lines : List (List Byte)) (hl : ∀ l ∈ lines, l.length ≤ 1023)
    (hw : ∀ l ∈ lines, WholeLine l)
    (hone : lines.Pairwise (fun l l' => ¬ (startswith l b!"Content-Length:" = true ∧ startswith l' b!"Content-Length:" = true))) :
    (lines.foldl Head.step (.init bs ip)).clen =
      ((lines.find? (fun l => decide (startswith l b!"Content-Length:" = true))).map (fun l => atoi (l.drop 16))).getD (-1) := by
  refine foldl_one Head.clen (fun l => startswith l b!"Content-Length:" = true) (fun l => atoi (l.drop 16)) (-1) WholeLine
    ?_ ?_ lines _ (hb.load (line := [65]) (by decide)) hl hw hone rfl
  · intro a l _ _ hok hp
    show nextLength a.clen (loadLine a.bs l) = a.clen
    unfold nextLength
    rw [untilNul_loadLine, untilNul_whole hok, if_neg hp]
  · intro a l ha hll hok hp _
    show nextLength a.clen (loadLine a.bs l) = _
    unfold nextLength
    have := whole_longer hok hp (by decide)
    rw [untilNul_loadLine, untilNul_whole hok, if_pos hp, (ha.load hll).tail (by rw [untilNul_loadLine, untilNul_whole hok]; exact this),
      untilNul_loadLine, untilNul_whole hok]

theorem fold_ip (bs : List Byte) (ip : Str) (hb : LineBuf bs) (lines : List (List Byte)) (hl : ∀ l ∈ lines, l.length ≤ 1023)
    (hw : ∀ l ∈ lines, WholeLine l ∧ (startswith l b!"X-Real-IP:" = true → 11 ≤ (strip l).length))
    (hone : lines.Pairwise (fun l l' => ¬ (startswith l b!"X-Real-IP:" = true ∧ startswith l' b!"X-Real-IP:" = true))) :
    (lines.foldl Head.step (.init bs ip)).ip =
      ((lines.find? (fun l => decide (startswith l b!"X-Real-IP:" = true))).map (fun l => ((strip l).drop 11).take 24)).getD ip := by
  refine foldl_one Head.ip (fun l => startswith l b!"X-Real-IP:" = true) (fun l => ((strip l).drop 11).take 24) ip
    (fun l => WholeLine l ∧ (startswith l b!"X-Real-IP:" = true → 11 ≤ (strip l).length))
    ?_ ?_ lines _ (hb.load (line := [65]) (by decide)) hl hw hone rfl
  · intro a l _ _ hok hp
    show nextIP a.ip (loadLine a.bs l) = a.ip
    unfold nextIP
    rw [untilNul_loadLine, untilNul_whole hok.1, if_neg hp]
  · intro a l ha hll hok hp _
    show nextIP a.ip (loadLine a.bs l) = _
    unfold nextIP
    have hb' := nextBuf_spec (ha.load hll)
    have hx : startswith (untilNul (loadLine a.bs l)) b!"X-Real-IP:" = true := by
      rw [untilNul_loadLine, untilNul_whole hok.1]; exact hp
    have hu := hb'.2 hx
    rw [if_pos hx, hb'.1.tail (by rw [hu, untilNul_loadLine, untilNul_whole hok.1]; exact hok.2 hp), hu, untilNul_loadLine,
      untilNul_whole hok.1]

theorem fold_boundary (bs : List Byte) (ip : Str) (hb : LineBuf bs) (lines : List (List Byte)) (hl : ∀ l ∈ lines, l.length ≤ 1023)
    (hw : ∀ l ∈ lines, WholeLine l)
    (hone : lines.Pairwise (fun l l' => ¬ (startswith l b!"Content-Type:" = true ∧ startswith l' b!"Content-Type:" = true))) :
    (lines.foldl Head.step (.init bs ip)).boundary =
      ((lines.find? (fun l => decide (startswith l b!"Content-Type:" = true))).map (fun l => nextBoundary [] l)).getD [] := by
  have hpre : ∀ l, startswith l b!"Content-Type: multipart/form-data" = true → startswith l b!"Content-Type:" = true := by
    intro l h
    obtain ⟨n, b, rfl, hn⟩ := (startswith_iff _ _).mp h
    refine (startswith_iff _ _).mpr ⟨n.take 13, n.drop 13 ++ b, by simp [← List.append_assoc], ?_⟩
    show (n.take 13).map lower = _
    have hn : n.map lower = _ := hn
    rw [List.map_take, hn]; rfl
  refine foldl_one Head.boundary (fun l => startswith l b!"Content-Type:" = true) (fun l => nextBoundary [] l) [] WholeLine
    ?_ ?_ lines _ (hb.load (line := [65]) (by decide)) hl hw hone rfl
  · intro a l _ _ hok hp
    show nextBoundary a.boundary (untilNul (loadLine a.bs l)) = a.boundary
    unfold nextBoundary
    rw [untilNul_loadLine, untilNul_whole hok, if_neg (fun h => hp (hpre l h))]
  · intro a l ha hll hok hp h0
    show nextBoundary a.boundary (untilNul (loadLine a.bs l)) = _
    rw [untilNul_loadLine, untilNul_whole hok, h0]

theorem sessionLine_iff (l : List Byte) : SessionLine l ↔ (isSess l || startswith l b!"Cookie:") = true := by
  unfold SessionLine isSess
  rw [Bool.or_eq_true, Bool.or_eq_true, startswith_iff, startswith_iff, startswith_iff]
  tauto

instance (l : List Byte) : Decidable (SessionLine l) := decidable_of_iff _ (sessionLine_iff l).symm

theorem fold_session (bs : List Byte) (ip : Str) (hb : LineBuf bs) (lines : List (List Byte)) (hl : ∀ l ∈ lines, l.length ≤ 1023)
    (hw : ∀ l ∈ lines, WholeLine l ∧ (startswith l b!"Cookie:" = true → 18 ≤ l.length))
    (hone : lines.Pairwise (fun l l' => ¬ (SessionLine l ∧ SessionLine l'))) :
    (lines.foldl Head.step (.init bs ip)).sess =
      ((lines.find? (fun l => decide (SessionLine l))).map (fun l => if isSess l then strip (l.drop 10)
        else if (l.drop 18).length < 64 then l.drop 18 else [])).getD [] := by
  refine foldl_one Head.sess SessionLine (fun l => if isSess l then strip (l.drop 10)
        else if (l.drop 18).length < 64 then l.drop 18 else []) []
    (fun l => WholeLine l ∧ (startswith l b!"Cookie:" = true → 18 ≤ l.length))
    ?_ ?_ lines _ (hb.load (line := [65]) (by decide)) hl hw hone rfl
  · intro a l _ _ hok hp
    rw [sessionLine_iff, Bool.or_eq_true, not_or] at hp
    show nextSession a.sess (loadLine a.bs l) = a.sess
    unfold nextSession
    simp only [untilNul_loadLine, untilNul_whole hok.1]
    rw [if_neg hp.1, if_neg (fun h => hp.2 h.1)]
  · intro a l ha hll hok hp h0
    show nextSession a.sess (loadLine a.bs l) = _
    unfold nextSession
    have ht : ∀ k, k ≤ l.length → tailAt (loadLine a.bs l) k = l.drop k := by
      intro k hk
      rw [(ha.load hll).tail (by rw [untilNul_loadLine, untilNul_whole hok.1]; exact hk), untilNul_loadLine, untilNul_whole hok.1]
    simp only [untilNul_loadLine, untilNul_whole hok.1, h0, true_and]
    by_cases hi : isSess l = true
    · rw [if_pos hi, if_pos hi, ht 10 (isSess_length hi)]
    · rw [sessionLine_iff, Bool.or_eq_true] at hp
      have hc := hp.resolve_left hi
      rw [if_neg hi, if_neg hi, ht 18 (hok.2 hc)]
      simp only [hc, true_and]

/-! ### names -/

theorem lower_special {c d : Byte} (h : lower c = lower d) (hd : d ≠ 58 ∧ ws d = false) : c ≠ 58 ∧ ws c = false := by
  have key : ∀ n : Fin 256, UInt8.ofNat n.val = 58 ∨ ws (UInt8.ofNat n.val) = true →
      ∀ m : Fin 256, lower (UInt8.ofNat n.val) = lower (UInt8.ofNat m.val) → UInt8.ofNat m.val = UInt8.ofNat n.val := by decide +kernel
  by_contra hc
  have hc : c = 58 ∨ ws c = true := by
    by_cases h1 : c = 58
    · exact Or.inl h1
    · exact Or.inr (by cases hw : ws c <;> simp_all)
  have := key ⟨c.toNat, c.toNat_lt⟩
  simp only [UInt8.ofNat_toNat] at this
  have := this hc ⟨d.toNat, d.toNat_lt⟩
  simp only [UInt8.ofNat_toNat] at this
  have := this h
  subst this
  rcases hc with hc | hc
  · exact hd.1 hc
  · rw [hd.2] at hc; cases hc

/-- The name that a line is stored under, for the lines the server itself looks for. -/
theorem name_of_start {l name : List Byte} (hn : ∀ c ∈ name, c ≠ 58 ∧ ws c = false) (h : startswith l (name ++ [58]) = true) :
    CaseEq (headerPair l).1 name := by
  obtain ⟨v, m, b, rfl, hm, -⟩ := fieldLine_startswith.mpr h
  have hm' : ∀ c ∈ m, c ≠ 58 ∧ ws c = false := by
    intro c hc
    have h1 : lower c ∈ name.map lower := by
      rw [← (hm : m.map lower = name.map lower)]; exact List.mem_map_of_mem hc
    obtain ⟨d, hd, he⟩ := List.mem_map.mp h1
    exact lower_special he.symm (hn d hd)
  have e1 : (m ++ 58 :: b).takeWhile (· != 58) = m := by
    rw [takeWhile_prefix_append (fun c hc => by simpa using (hm' c hc).1)]; simp
  have e2 : (headerPair (m ++ 58 :: b)).1 = m := by
    show strip ((m ++ 58 :: b).takeWhile (· != 58)) = m
    rw [e1]
    exact (isStrip_eq ⟨[], [], by simp, by simp, by simp, fun c hc => (hm' c (List.mem_of_mem_head? (by simpa using hc))).2,
      fun c hc => (hm' c (List.mem_of_getLast? hc)).2⟩).symm
  rw [e2]; exact hm

theorem pairs_of {lines : List (List Byte)} {hs : List (Str × Str)} (hw : ∀ l ∈ lines, WholeLine l) (hn : Named lines hs) :
    hs = lines.map headerPair := by
  rw [named_eq hn, List.filter_eq_self.mpr (fun l hl => by rw [untilNul_whole (hw l hl)]; simpa using (hw l hl).2.2)]
  exact List.map_congr_left (fun l hl => by rw [untilNul_whole (hw l hl)])

/-- At most one line for each of the names. -/
theorem once_of {lines : List (List Byte)} (hd : DistinctNames (lines.map headerPair)) {name : List Byte}
    (hn : ∀ c ∈ name, c ≠ 58 ∧ ws c = false) :
    lines.Pairwise (fun l l' => ¬ (startswith l (name ++ [58]) = true ∧ startswith l' (name ++ [58]) = true)) := by
  unfold DistinctNames at hd
  rw [List.pairwise_map] at hd
  refine hd.imp (fun hne h => hne ?_)
  exact (name_of_start hn h.1 : _ = _).trans (name_of_start hn h.2 : _ = _).symm

theorem named_whole {lines : List (List Byte)} (hw : ∀ l ∈ lines, WholeLine l) : Named lines (lines.map headerPair) := by
  obtain ⟨hs, h⟩ := named_exists lines
  rw [pairs_of hw h] at h
  exact h

theorem lookups_perm {hs hs' : List (Str × Str)} (h : hs'.Perm hs) (hd : DistinctNames hs) (name : Str) :
    headerValue hs' name = headerValue hs name := by
  unfold headerValue
  rw [find_perm _ h]
  refine List.Pairwise.imp (fun hne hh => hne ?_) hd
  simp only [decide_eq_true_eq] at hh
  rw [hh.1, hh.2]
  rfl

/-- C108, what holds: at most one line for the session (`X-Session`, `Authorization`, `Cookie`; a `Cookie` line of 18 bytes or
more), and a value in the `X-Real-IP` line if there is one. Missing: the rest (see `C108_last` and `C108_stale`). -/
theorem C108_partial (bs input input' rest : List Byte) (lines lines' : List (List Byte)) (hs : List (Str × Str)) (ip : Str) (h : HdrSt)
    (hb : bs.length = 1024) (hz : bs.getLast? = some 0) (hsec : Section input lines rest) (hsec' : Section input' lines' rest)
    (hperm : lines'.Perm lines) (hw : ∀ l ∈ lines, WholeLine l) (hn : Named lines hs) (hd : DistinctNames hs)
    (h20 : lines.length ≤ 20) (hfit : ∀ p ∈ hs, p.1.length < 64 ∧ p.2.length < 256)
    (hone : lines.Pairwise (fun l l' => ¬ (SessionLine l ∧ SessionLine l')))
    (hcookie : ∀ l ∈ lines, CasePrefix b!"Cookie:" l → 18 ≤ l.length)
    (hreal : ∀ l ∈ lines, ∀ v, FieldLine b!"X-Real-IP" l v → v ≠ [])
    (hok : parseHeaders (bs.map some) input ip = ok h) :
    ∃ h', parseHeaders (bs.map some) input' ip = ok h' ∧ SameFields h h' := by
  have hbuf := lineBuf_of hb hz
  have hw' : ∀ l ∈ lines', WholeLine l := fun l hl => hw l (hperm.subset hl)
  have hlen := hsec.length_le
  have hlen' := hsec'.length_le
  have e := pairs_of hw hn
  subst e
  have hn' := named_whole hw'
  have hd' : DistinctNames (lines'.map headerPair) :=
    (hperm.map headerPair).symm.pairwise hd (fun h1 h2 => h1 h2.symm)
  have hone' : lines'.Pairwise (fun l l' => ¬ (SessionLine l ∧ SessionLine l')) :=
    hperm.symm.pairwise hone (fun h1 h2 => h1 ⟨h2.2, h2.1⟩)
  have hreal1 : ∀ l ∈ lines, startswith l b!"X-Real-IP:" = true → 11 ≤ (strip l).length := by
    intro l hl hx
    obtain ⟨v, hv⟩ := (fieldLine_startswith (name := b!"X-Real-IP")).mpr hx
    have hne := hreal l hl v hv
    obtain ⟨m, b, rfl, hm, l1, r1, rfl, k1, k2, k3, k4⟩ := hv
    have hml : m.length = 9 := by have := congrArg List.length (hm : m.map lower = _); simpa using this
    have hst : strip (m ++ 58 :: (l1 ++ v ++ r1)) = m ++ 58 :: (l1 ++ v) := by
      refine (isStrip_eq ⟨[], r1, by simp, by simp, k2, ?_, ?_⟩).symm
      · intro c hc
        cases m with
        | nil => simp at hml
        | cons x m =>
          simp at hc
          subst hc
          have : lower x = lower 88 := by
            have := congrArg List.head? (hm : (x :: m).map lower = _)
            simpa using this
          exact (lower_special this (by decide)).2
      · intro c hc
        refine k4 c ?_
        obtain ⟨v', x, rfl⟩ := List.eq_nil_or_concat v |>.resolve_left hne
        rw [show m ++ 58 :: (l1 ++ v'.concat x) = (m ++ 58 :: (l1 ++ v')) ++ [x] by simp, List.getLast?_concat] at hc
        simpa using hc
    rw [hst]
    have : 0 < v.length := List.length_pos_iff.mpr hne
    simp; omega
  obtain ⟨last, h1, -, -, h2, -, h3, h4, h5, h6⟩ := parse_fields hbuf hsec hok
  have hsafe : ∀ l ∈ lines, lineSafe (untilNul l) = true := by
    by_contra hns
    have := (parseHeaders_eq (ip := ip) hbuf hsec).1 (by simpa using hns)
    rw [hok] at this; cases this
  obtain ⟨h', last', g0, g1, g'⟩ := (parseHeaders_eq (ip := ip) hbuf hsec').2 (fun l hl => hsafe l (hperm.subset hl))
  obtain ⟨-, -, g2, -, g3, g4, g5, g6⟩ := g'
  refine ⟨h', g0, by rw [g1, h1], ?_, ?_, ?_, ?_, ?_⟩
  · rw [g4, h4]
    show (lines'.foldl Head.step (.init bs ip)).clen = (lines.foldl Head.step (.init bs ip)).clen
    have o := once_of hd (name := b!"Content-Length") (by decide)
    rw [fold_clen bs ip hbuf lines hlen hw o, fold_clen bs ip hbuf lines' hlen' hw' (once_of hd' (name := b!"Content-Length") (by decide)),
      find_perm _ hperm (o.imp (fun h => by simpa using h))]
  · rw [g3, h3]
    show (lines'.foldl Head.step (.init bs ip)).boundary = (lines.foldl Head.step (.init bs ip)).boundary
    have o := once_of hd (name := b!"Content-Type") (by decide)
    rw [fold_boundary bs ip hbuf lines hlen hw o, fold_boundary bs ip hbuf lines' hlen' hw' (once_of hd' (name := b!"Content-Type") (by decide)),
      find_perm _ hperm (o.imp (fun h => by simpa using h))]
  · rw [g5, h5]
    show (lines'.foldl Head.step (.init bs ip)).ip = (lines.foldl Head.step (.init bs ip)).ip
    have o := once_of hd (name := b!"X-Real-IP") (by decide)
    rw [fold_ip bs ip hbuf lines hlen (fun l hl => ⟨hw l hl, hreal1 l hl⟩) o,
      fold_ip bs ip hbuf lines' hlen' (fun l hl => ⟨hw' l hl, hreal1 l (hperm.subset hl)⟩) (once_of hd' (name := b!"X-Real-IP") (by decide)),
      find_perm _ hperm (o.imp (fun h => by simpa using h))]
  · rw [g6.cstr, h6.cstr]
    show ok (lines'.foldl Head.step (.init bs ip)).sess = ok (lines.foldl Head.step (.init bs ip)).sess
    rw [fold_session bs ip hbuf lines hlen (fun l hl => ⟨hw l hl, fun hc => hcookie l hl ((startswith_iff _ _).mp hc)⟩) hone,
      fold_session bs ip hbuf lines' hlen'
        (fun l hl => ⟨hw' l hl, fun hc => hcookie l (hperm.subset hl) ((startswith_iff _ _).mp hc)⟩) hone',
      find_perm _ hperm (hone.imp (fun h => by simpa using h))]
  · intro req req' name r1 r2 r1' r2' hname
    have eq : ∀ (ls : List (List Byte)), (∀ l ∈ ls, WholeLine l) → ls.length ≤ 20 →
        (ls.foldl Head.step (.init bs ip)).headers =
          ((ls.filter (fun l => decide ((58 : Byte) ∈ untilNul l))).map (fun l => headerRec (untilNul l))).take 20 := by
      intro ls _ _
      rw [foldl_headers _ _ (by show 0 ≤ 20; omega)]
      rfl
    have hl20 : lines'.length ≤ 20 := by rw [hperm.length_eq]; exact h20
    have t1 : (lines.map headerPair).take 20 = lines.map headerPair := List.take_of_length_le (by simpa using h20)
    have t2 : (lines'.map headerPair).take 20 = lines'.map headerPair := List.take_of_length_le (by simpa using hl20)
    have q1 : req.Stored ((lines.map headerPair).take 20) := ⟨by rw [r1, r2], by
      rw [r1, h2]
      refine cast ?_ (headers_stored hn 20)
      rw [← eq lines hw h20]; rfl⟩
    have q2 : req'.Stored ((lines'.map headerPair).take 20) := ⟨by rw [r1', r2'], by
      rw [r1', g2]
      refine cast ?_ (headers_stored hn' 20)
      rw [← eq lines' hw' hl20]; rfl⟩
    rw [t1] at q1
    rw [t2] at q2
    rw [get_header_fits q1 (headers_nulFree hn) hfit hname,
      get_header_fits q2 (headers_nulFree hn') (fun p hp => hfit p ((hperm.map headerPair).subset hp)) hname,
      lookups_perm (hperm.map headerPair) hd]

/-- C108, what happens otherwise: a short `Cookie` line makes a session of what is left of the line before it. -/
theorem C108_stale (bs input rest : List Byte) (pre : List (List Byte)) (l c : List Byte) (ip : Str) (h : HdrSt)
    (hb : bs.length = 1024) (hz : bs.getLast? = some 0) (hsec : Section input (pre ++ [l, c]) rest)
    (hw : ∀ x ∈ pre ++ [l, c], WholeLine x) (hpre : ∀ x ∈ pre ++ [l], ¬ SessionLine x)
    (hl : ¬ CasePrefix b!"X-Real-IP:" l) (hl1 : 18 ≤ l.length) (hl2 : l.length < 82)
    (hc : CasePrefix b!"Cookie:" c) (hc1 : c.length < 18) (hok : parseHeaders (bs.map some) input ip = ok h) :
    cstr h.session = ok (l.drop 18) := by
  obtain ⟨last, -, -, -, -, -, -, -, -, h6⟩ := parse_fields (lineBuf_of hb hz) hsec hok
  have hlen := hsec.length_le
  have hs0 := fold_session bs ip (lineBuf_of hb hz) (pre ++ [l]) (fun x hx => hlen x (by simp at hx ⊢; tauto))
    (fun x hx => ⟨hw x (by simp at hx ⊢; tauto), fun hcx => absurd (Or.inr (Or.inr ((startswith_iff _ _).mp hcx))) (hpre x hx)⟩)
    (List.pairwise_of_forall_mem_list (fun x hx y hy hxy => hpre x hx hxy.1))
  rw [List.find?_eq_none.mpr (fun x hx => by simpa using hpre x hx)] at hs0
  have hs0 : ((pre ++ [l]).foldl Head.step (.init bs ip)).sess = [] := hs0
  rw [h6.cstr]
  show ok ((pre ++ [l, c]).foldl Head.step (.init bs ip)).sess = _
  rw [show pre ++ [l, c] = (pre ++ [l]) ++ [c] by simp, List.foldl_append, List.foldl_cons, List.foldl_nil]
  have hbb : ((pre ++ [l]).foldl Head.step (.init bs ip)).bs =
      loadLine (pre.foldl Head.step (.init bs ip)).bs l := by
    rw [List.foldl_append, List.foldl_cons, List.foldl_nil]
    show nextBuf (loadLine (pre.foldl Head.step (.init bs ip)).bs l) = _
    unfold nextBuf
    rw [untilNul_loadLine, untilNul_whole (hw l (by simp)), if_neg (fun h => hl ((startswith_iff _ _).mp h))]
  congr 1
  show nextSession ((pre ++ [l]).foldl Head.step (.init bs ip)).sess (loadLine ((pre ++ [l]).foldl Head.step (.init bs ip)).bs c) = _
  rw [hs0, hbb]
  have hcs : startswith c b!"Cookie:" = true := (startswith_iff _ _).mpr hc
  have hi : isSess c = false := by
    unfold isSess
    rw [not_startswith_of_get hcs (q := b!"X-Session:") (i := 0) (by decide) (by decide) (by decide),
      not_startswith_of_get hcs (q := b!"Authorization:") (i := 0) (by decide) (by decide) (by decide)]
    rfl
  have ht : tailAt (loadLine (loadLine (pre.foldl Head.step (.init bs ip)).bs l) c) 18 = l.drop 18 := by
    unfold tailAt loadLine
    rw [List.drop_append, List.drop_eq_nil_of_le (by omega), List.nil_append,
      show 18 - c.length = (17 - c.length) + 1 by omega, List.drop_succ_cons, List.drop_drop,
      show c.length + 1 + (17 - c.length) = 18 by omega, List.drop_append_of_le_length hl1]
    exact untilNul_append_zero (fun x hx h0 => (hw l (by simp)).2.1 (h0 ▸ List.mem_of_mem_drop hx)) _
  unfold nextSession
  simp only [untilNul_loadLine, untilNul_whole (hw c (by simp)), hi, Bool.false_eq_true, if_false, ht, hcs, true_and]
  rw [if_pos (by rw [List.length_drop]; omega)]

theorem sess_keep (lines : List (List Byte)) (a : Head) (hw : ∀ l ∈ lines, WholeLine l) (hno : ∀ l ∈ lines, ¬ SessionLine l) :
    (lines.foldl Head.step a).sess = a.sess := by
  induction lines generalizing a with
  | nil => rfl
  | cons l lines ih =>
    rw [List.foldl_cons, ih _ (fun x hx => hw x (by simp [hx])) (fun x hx => hno x (by simp [hx]))]
    have hp := hno l (by simp)
    rw [sessionLine_iff, Bool.or_eq_true, not_or] at hp
    show nextSession a.sess (loadLine a.bs l) = a.sess
    unfold nextSession
    simp only [untilNul_loadLine, untilNul_whole (hw l (by simp))]
    rw [if_neg hp.1, if_neg (fun h => hp.2 h.1)]

/-- C108, what happens otherwise: of several `X-Session` and `Authorization` lines the last one counts, whatever came before it. -/
theorem C108_last (bs input rest : List Byte) (pre post : List (List Byte)) (l : List Byte) (ip : Str) (h : HdrSt)
    (hb : bs.length = 1024) (hz : bs.getLast? = some 0) (hsec : Section input (pre ++ l :: post) rest)
    (hw : ∀ x ∈ pre ++ l :: post, WholeLine x) (hl : CasePrefix b!"X-Session:" l ∨ CasePrefix b!"Authorization:" l)
    (hpost : ∀ x ∈ post, ¬ SessionLine x) (hok : parseHeaders (bs.map some) input ip = ok h) :
    ∃ s, IsStrip (l.drop 10) s ∧ cstr h.session = ok s := by
  obtain ⟨last, -, -, -, -, -, -, -, -, h6⟩ := parse_fields (lineBuf_of hb hz) hsec hok
  have hlen := hsec.length_le
  refine ⟨_, isStrip_strip _, ?_⟩
  rw [h6.cstr]
  show ok ((pre ++ l :: post).foldl Head.step (.init bs ip)).sess = _
  rw [List.foldl_append, List.foldl_cons, sess_keep post _ (fun x hx => hw x (by simp [hx])) hpost]
  congr 1
  have hi : isSess l = true := by
    unfold isSess
    rw [Bool.or_eq_true, startswith_iff, startswith_iff]; exact hl
  have hb' := LineBuf.foldl (lines := pre) (a := .init bs ip) ((lineBuf_of hb hz).load (line := [65]) (by decide))
    (fun x hx => hlen x (by simp [hx]))
  show nextSession _ (loadLine (pre.foldl Head.step (.init bs ip)).bs l) = _
  unfold nextSession
  simp only [untilNul_loadLine, untilNul_whole (hw l (by simp)), hi, if_true]
  rw [(hb'.load (hlen l (by simp))).tail (by rw [untilNul_loadLine, untilNul_whole (hw l (by simp))]; exact isSess_length hi),
    untilNul_loadLine, untilNul_whole (hw l (by simp))]

/-- Two lines of a browser, in either order. -/
def agentLine : List Byte := b!"User-Agent: Mozilla/5.0\r\n"
def shortCookie : List Byte := b!"Cookie: a=b\r\n"

theorem two_lines {l c body : List Byte} (h1 : l.length ≤ 1023 ∧ (10 : Byte) ∉ l.dropLast ∧ l.getLast? = some 10 ∧ l ≠ [10] ∧ l ≠ [13, 10])
    (h2 : c.length ≤ 1023 ∧ (10 : Byte) ∉ c.dropLast ∧ c.getLast? = some 10 ∧ c ≠ [10] ∧ c ≠ [13, 10]) :
    Section (l ++ (c ++ 13 :: 10 :: body)) [l, c] body := by
  refine .line _ l _ _ _ ⟨rfl, h1.1, h1.2.1, Or.inr (Or.inl h1.2.2.1)⟩ ?_ h1.2.2.2.1 h1.2.2.2.2
    (one_line_section h2.1 h2.2.1 h2.2.2.1 h2.2.2.2.1 h2.2.2.2.2 body)
  rintro rfl
  simp at h1

/-- C108 is false: with the `Cookie` line last, the session is the end of the other line; with the `Cookie` line first, there is none. -/
theorem C108_refuted : ¬ C108_statement := by
  intro h
  have s1 : Section (agentLine ++ (shortCookie ++ 13 :: 10 :: [])) [agentLine, shortCookie] [] := two_lines (by decide) (by decide)
  have s2 : Section (shortCookie ++ (agentLine ++ 13 :: 10 :: [])) [shortCookie, agentLine] [] := two_lines (by decide) (by decide)
  have k1 : (parseHeaders ((lineBytes b!"GET / HTTP/1.1\r\n").map some) (agentLine ++ (shortCookie ++ 13 :: 10 :: [])) b!"10.0.0.1").bind
      (fun h => cstr h.session) = ok b!"a/5.0\r\n" := by decide +kernel
  have k2 : (parseHeaders ((lineBytes b!"GET / HTTP/1.1\r\n").map some) (shortCookie ++ (agentLine ++ 13 :: 10 :: [])) b!"10.0.0.1").bind
      (fun h => cstr h.session) = ok [] := by decide +kernel
  cases hp : parseHeaders ((lineBytes b!"GET / HTTP/1.1\r\n").map some) (agentLine ++ (shortCookie ++ 13 :: 10 :: [])) b!"10.0.0.1" with
  | ub f => rw [hp] at k1; cases k1
  | ok x =>
    have hw : ∀ l ∈ [agentLine, shortCookie], WholeLine l := by
      intro l hl
      simp only [List.mem_cons, List.not_mem_nil, or_false] at hl
      rcases hl with rfl | rfl <;> exact ⟨by decide, by decide, by decide⟩
    obtain ⟨h', e, -, -, -, -, hs, -⟩ := h _ _ _ [] _ _ _ b!"10.0.0.1" x (by decide +kernel) (by decide +kernel) s1 s2 (.swap _ _ _) hw
      (named_whole hw) (by
        show [_, _].Pairwise _
        rw [List.pairwise_pair]
        unfold CaseEq
        decide) (by decide) (by decide) hp
    rw [hp] at k1
    rw [e] at k2
    change cstr x.session = _ at k1
    change cstr h'.session = _ at k2
    rw [hs, k1] at k2
    exact absurd k2 (by decide)

/-- The lines of an upload, for C108_partial. -/
def formLines : List (List Byte) :=
  [b!"Host: a\r\n", b!"Content-Length: 3\r\n", b!"X-Real-IP: 10.0.0.9\r\n", b!"Cookie: WSSESSION=tok\r\n",
   b!"Content-Type: multipart/form-data; boundary=xyz\r\n"]

/-- The hypotheses of C108_partial about the lines hold of these. -/
example : (∀ l ∈ formLines, WholeLine l) ∧ DistinctNames (formLines.map headerPair) ∧ formLines.length ≤ 20 ∧
    (∀ p ∈ formLines.map headerPair, p.1.length < 64 ∧ p.2.length < 256) ∧
    formLines.Pairwise (fun l l' => ¬ (SessionLine l ∧ SessionLine l')) ∧
    (∀ l ∈ formLines, startswith l b!"Cookie:" = true → 18 ≤ l.length) ∧
    (∀ l ∈ formLines, startswith l b!"X-Real-IP:" = true → 11 ≤ (strip l).length) := by
  refine ⟨?_, ?_, by decide, by decide, by decide, by decide, by decide⟩
  · intro l hl
    unfold WholeLine
    revert l
    decide
  · unfold DistinctNames CaseEq
    decide

/-- And they are read the same backwards. -/
example : (parseHeaders ((lineBytes b!"POST /api/a HTTP/1.1\r\n").map some) (formLines.flatten ++ b!"\r\nabc") b!"10.0.0.1").bind
      (fun h => ok (h.input, h.content_length, h.boundary, h.IP)) = ok (b!"abc", 3, b!"--xyz", b!"10.0.0.9") ∧
    (parseHeaders ((lineBytes b!"POST /api/a HTTP/1.1\r\n").map some) (formLines.reverse.flatten ++ b!"\r\nabc") b!"10.0.0.1").bind
      (fun h => ok (h.input, h.content_length, h.boundary, h.IP)) = ok (b!"abc", 3, b!"--xyz", b!"10.0.0.9") := by
  constructor <;> decide +kernel

/-- C108_last applies: X-Session is overruled by a later Authorization line. -/
example : (parseHeaders ((lineBytes b!"GET / HTTP/1.1\r\n").map some) b!"X-Session: one\r\nAuthorization:two\r\nHost: a\r\n\r\n" b!"10.0.0.1").bind
      (fun h => cstr h.session) = ok b!"ion:two" ∧
    (parseHeaders ((lineBytes b!"GET / HTTP/1.1\r\n").map some) b!"Authorization:two\r\nX-Session: one\r\nHost: a\r\n\r\n" b!"10.0.0.1").bind
      (fun h => cstr h.session) = ok b!"one" := by
  constructor <;> decide +kernel

/-- C108_stale applies to `agentLine` and `shortCookie`. -/
example : WholeLine agentLine ∧ WholeLine shortCookie ∧ ¬ SessionLine agentLine ∧ ¬ CasePrefix b!"X-Real-IP:" agentLine ∧
    18 ≤ agentLine.length ∧ agentLine.length < 82 ∧ CasePrefix b!"Cookie:" shortCookie ∧ shortCookie.length < 18 :=
  ⟨⟨by decide, by decide, by decide⟩, ⟨by decide, by decide, by decide⟩, by decide,
    fun h => absurd ((startswith_iff _ _).mpr h) (by decide), by decide, by decide, (startswith_iff _ _).mp (by decide), by decide⟩

end Wayuu
