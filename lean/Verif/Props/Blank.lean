import Verif.Props.Order
/-
C109: the blank after the colon of a header line.
-/
namespace Wayuu
open C Spec

/-- C109 in full (RFC 7230, 3.2: the white space is optional): header lines are read the same with and without a blank after the
colon. -/
def C109_statement : Prop :=
  ∀ (bs input input' rest : List Byte) (fs : List (Str × Str)) (ip : Str) (h : HdrSt),
    bs.length = 1024 → bs.getLast? = some 0 → (∀ p ∈ fs, HeaderField p) → Section input (fs.map (fieldLine b!" ")) rest →
    Section input' (fs.map (fieldLine [])) rest → parseHeaders (bs.map some) input ip = ok h →
    ∃ h', parseHeaders (bs.map some) input' ip = ok h' ∧ SameFields h h'

theorem fieldLine_start {gap name : List Byte} {p : Str × Str} (hp : HeaderField p) (hn : ∀ c ∈ name, c ≠ 58) :
    startswith (fieldLine gap p) (name ++ [58]) = true ↔ CaseEq p.1 name := by
  have split : ∀ {a b c d : List Byte}, a ++ 58 :: b = c ++ 58 :: d → (58 : Byte) ∉ a → (58 : Byte) ∉ c → a = c := by
    intro a b c d h ha hc
    induction a generalizing c with
    | nil =>
      cases c with
      | nil => rfl
      | cons x c => simp at h; exact absurd (by simp [h.1]) hc
    | cons y a ih =>
      cases c with
      | nil => simp at h; exact absurd (by simp [h.1]) ha
      | cons x c =>
        simp only [List.cons_append, List.cons.injEq] at h
        rw [h.1, ih h.2 (fun h' => ha (by simp [h'])) (fun h' => hc (by simp [h']))]
  constructor
  · intro h
    obtain ⟨v, m, b, he, hm, -⟩ := fieldLine_startswith.mpr h
    have hmc : (58 : Byte) ∉ m := by
      intro hc
      have h1 : lower 58 ∈ name.map lower := by
        rw [← (hm : m.map lower = name.map lower)]; exact List.mem_map_of_mem hc
      obtain ⟨d, hd, he⟩ := List.mem_map.mp h1
      have : d = 58 := by
        have key : ∀ n : Fin 256, lower (UInt8.ofNat n.val) = lower 58 → UInt8.ofNat n.val = 58 := by decide +kernel
        have := key ⟨d.toNat, d.toNat_lt⟩
        simp at this
        exact this he
      exact hn d hd this
    rw [split he (fun hc => (hp.2.1 58 hc).1 rfl) hmc]
    exact hm
  · intro h
    refine (startswith_iff _ _).mpr ⟨p.1 ++ [58], gap ++ p.2 ++ [13, 10], by simp [fieldLine], ?_⟩
    show (p.1 ++ [58]).map lower = (name ++ [58]).map lower
    rw [List.map_append, List.map_append, (h : p.1.map lower = name.map lower)]

theorem fieldLine_nul {gap : List Byte} {p : Str × Str} (hp : HeaderField p) (hg : (0 : Byte) ∉ gap) : (0 : Byte) ∉ fieldLine gap p := by
  unfold fieldLine
  simp only [List.mem_append, List.mem_cons, not_or, List.not_mem_nil, not_false_eq_true, and_true]
  exact ⟨fun h => (hp.2.1 0 h).2.1 rfl, by decide, ⟨hg, fun h => (hp.2.2.2.1 0 h).2 rfl⟩, by decide⟩

theorem fieldLine_whole {gap : List Byte} {p : Str × Str} (hp : HeaderField p) (hg : (0 : Byte) ∉ gap) : WholeLine (fieldLine gap p) := by
  refine ⟨?_, fieldLine_nul hp hg, by simp [fieldLine]⟩
  rw [show fieldLine gap p = (p.1 ++ 58 :: (gap ++ p.2 ++ [13])) ++ [10] by simp [fieldLine], List.getLast?_concat]

theorem headerPair_field {gap : List Byte} {p : Str × Str} (hp : HeaderField p) (hg : ∀ c ∈ gap, ws c = true) :
    headerPair (fieldLine gap p) = p := by
  have : HeaderLine (fieldLine gap p) p.1 p.2 := by
    refine ⟨p.1, gap ++ p.2 ++ [13, 10], rfl, fun h => (hp.2.1 58 h).1 rfl, ?_, ?_⟩
    · exact ⟨[], [], by simp, by simp, by simp, fun c hc => (hp.2.1 c (List.mem_of_mem_head? (by simpa using hc))).2.2,
        fun c hc => (hp.2.1 c (List.mem_of_getLast? hc)).2.2⟩
    · obtain ⟨l, r, h1, h2, h3, h4, h5⟩ := hp.2.2.2.2
      exact ⟨gap, [13, 10], rfl, hg, by decide, h4, h5⟩
  exact (headerLine_iff.mp this).2

theorem headerRec_field {gap : List Byte} {p : Str × Str} (hp : HeaderField p) (hg : ∀ c ∈ gap, ws c = true) :
    headerRec (fieldLine gap p) = ⟨padTo 64 p.1, padTo 256 p.2⟩ := by
  have h := headerPair_field hp hg
  have h1 := congrArg Prod.fst h
  have h2 := congrArg Prod.snd h
  unfold headerRec
  simp only [headerPair] at h1 h2
  rw [h1, h2]

/-- The lines for which the blank matters. -/
def blankMatters : List (List Byte) := [b!"Content-Length", b!"Content-Type", b!"X-Real-IP", b!"Authorization", b!"Cookie"]

/-- Everything but the line buffer and the (unused) content type. -/
def Head.Like (a b : Head) : Prop :=
  a.headers = b.headers ∧ a.boundary = b.boundary ∧ a.clen = b.clen ∧ a.ip = b.ip ∧ a.sess = b.sess

theorem field_step {a b : Head} (h : a.Like b) (ha : LineBuf a.bs) (hb : LineBuf b.bs) {p : Str × Str} (hp : HeaderField p)
    (hl : (fieldLine b!" " p).length ≤ 1023) (hl' : (fieldLine [] p).length ≤ 1023)
    (hno : ∀ n ∈ blankMatters, ¬ CaseEq p.1 n) :
    (a.step (fieldLine b!" " p)).Like (b.step (fieldLine [] p)) := by
  obtain ⟨h1, h2, h3, h4, h5⟩ := h
  have u1 := untilNul_whole (fieldLine_whole (gap := b!" ") hp (by decide))
  have u2 := untilNul_whole (fieldLine_whole (gap := []) hp (by simp))
  have no : ∀ (gap : List Byte) (n : List Byte), n ∈ blankMatters → startswith (fieldLine gap p) (n ++ [58]) = false := by
    intro gap n hn
    cases hs : startswith (fieldLine gap p) (n ++ [58]) with
    | false => rfl
    | true =>
      have hnc : ∀ m ∈ blankMatters, ∀ c ∈ m, c ≠ 58 := by decide
      exact absurd ((fieldLine_start hp (hnc n hn)).mp hs) (hno n hn)
  have nomp : ∀ gap : List Byte, startswith (fieldLine gap p) b!"Content-Type: multipart/form-data" = false := by
    intro gap
    cases hs : startswith (fieldLine gap p) b!"Content-Type: multipart/form-data" with
    | false => rfl
    | true =>
      obtain ⟨n, b, he, hn⟩ := (startswith_iff _ _).mp hs
      have : startswith (fieldLine gap p) (b!"Content-Type" ++ [58]) = true := by
        rw [he]
        refine (startswith_iff _ _).mpr ⟨n.take 13, n.drop 13 ++ b, by simp [← List.append_assoc], ?_⟩
        show (n.take 13).map lower = _
        rw [List.map_take, (hn : n.map lower = _)]; rfl
      rw [no gap b!"Content-Type" (by decide)] at this
      cases this
  refine ⟨?_, ?_, ?_, ?_, ?_⟩
  · show nextHeaders a.headers (untilNul (loadLine a.bs _)) = nextHeaders b.headers (untilNul (loadLine b.bs _))
    rw [untilNul_loadLine, untilNul_loadLine, u1, u2, h1]
    unfold nextHeaders
    rw [headerRec_field hp (by decide), headerRec_field hp (by simp)]
    simp [fieldLine]
  · show nextBoundary a.boundary (untilNul (loadLine a.bs _)) = nextBoundary b.boundary (untilNul (loadLine b.bs _))
    rw [untilNul_loadLine, untilNul_loadLine, u1, u2, h2]
    unfold nextBoundary
    rw [nomp, nomp]; simp
  · show nextLength a.clen (loadLine a.bs _) = nextLength b.clen (loadLine b.bs _)
    unfold nextLength
    have e1 := no b!" " b!"Content-Length" (by decide)
    have e2 := no [] b!"Content-Length" (by decide)
    rw [untilNul_loadLine, untilNul_loadLine, u1, u2, if_neg (by rw [show b!"Content-Length:" = b!"Content-Length" ++ [58] by decide, e1]; simp),
      if_neg (by rw [show b!"Content-Length:" = b!"Content-Length" ++ [58] by decide, e2]; simp), h3]
  · show nextIP a.ip (loadLine a.bs _) = nextIP b.ip (loadLine b.bs _)
    unfold nextIP
    have e1 := no b!" " b!"X-Real-IP" (by decide)
    have e2 := no [] b!"X-Real-IP" (by decide)
    rw [untilNul_loadLine, untilNul_loadLine, u1, u2, if_neg (by rw [show b!"X-Real-IP:" = b!"X-Real-IP" ++ [58] by decide, e1]; simp),
      if_neg (by rw [show b!"X-Real-IP:" = b!"X-Real-IP" ++ [58] by decide, e2]; simp), h4]
  · show nextSession a.sess (loadLine a.bs _) = nextSession b.sess (loadLine b.bs _)
    unfold nextSession
    have e1 : ∀ gap, startswith (fieldLine gap p) b!"Cookie:" = false := fun gap => no gap b!"Cookie" (by decide)
    have e2 : ∀ gap, isSess (fieldLine gap p) = startswith (fieldLine gap p) (b!"X-Session" ++ [58]) := by
      intro gap
      unfold isSess
      rw [show startswith (fieldLine gap p) b!"Authorization:" = false from no gap b!"Authorization" (by decide), Bool.or_false]
      rfl
    simp only [untilNul_loadLine, u1, u2, e1, e2, h5]
    by_cases hx : CaseEq p.1 b!"X-Session"
    · have hs1 := (fieldLine_start (gap := b!" ") hp (name := b!"X-Session") (by decide)).mpr hx
      have hs2 := (fieldLine_start (gap := []) hp (name := b!"X-Session") (by decide)).mpr hx
      rw [if_pos hs1, if_pos hs2]
      have hpl : p.1.length = 9 := by have := congrArg List.length (hx : p.1.map lower = _); simpa using this
      have t : ∀ (bs gap : List Byte), LineBuf bs → (fieldLine gap p).length ≤ 1023 → untilNul (fieldLine gap p) = fieldLine gap p →
          tailAt (loadLine bs (fieldLine gap p)) 10 = gap ++ p.2 ++ [13, 10] := by
        intro bs gap hbs hlen hu
        rw [(hbs.load hlen).tail (by rw [untilNul_loadLine, hu]; simp [fieldLine]; omega), untilNul_loadLine, hu]
        show (p.1 ++ 58 :: (gap ++ p.2 ++ [13, 10])).drop 10 = _
        rw [show p.1 ++ 58 :: (gap ++ p.2 ++ [13, 10]) = (p.1 ++ [58]) ++ (gap ++ p.2 ++ [13, 10]) by simp, drop_at (by simp; omega)]
      rw [t a.bs b!" " ha hl u1, t b.bs [] hb hl' u2]
      obtain ⟨l, r, k1, k2, k3, k4, k5⟩ := hp.2.2.2.2
      rw [← isStrip_eq (s := b!" " ++ p.2 ++ [13, 10]) (t := p.2) ⟨b!" ", [13, 10], rfl, by decide, by decide, k4, k5⟩,
        ← isStrip_eq (s := [] ++ p.2 ++ [13, 10]) (t := p.2) ⟨[], [13, 10], rfl, by simp, by decide, k4, k5⟩]
    · rw [if_neg (fun h => hx ((fieldLine_start hp (by decide)).mp h)), if_neg (fun h => hx ((fieldLine_start hp (by decide)).mp h))]
      simp

theorem field_foldl (fs : List (Str × Str)) {a b : Head} (h : a.Like b) (ha : LineBuf a.bs) (hb : LineBuf b.bs)
    (hp : ∀ p ∈ fs, HeaderField p) (hl : ∀ p ∈ fs, (fieldLine b!" " p).length ≤ 1023) (hl' : ∀ p ∈ fs, (fieldLine [] p).length ≤ 1023)
    (hno : ∀ p ∈ fs, ∀ n ∈ blankMatters, ¬ CaseEq p.1 n) :
    ((fs.map (fieldLine b!" ")).foldl Head.step a).Like ((fs.map (fieldLine [])).foldl Head.step b) := by
  induction fs generalizing a b with
  | nil => exact h
  | cons p fs ih =>
    rw [List.map_cons, List.map_cons, List.foldl_cons, List.foldl_cons]
    exact ih (field_step h ha hb (hp p (by simp)) (hl p (by simp)) (hl' p (by simp)) (hno p (by simp)))
      (ha.step (hl p (by simp))) (hb.step (hl' p (by simp))) (fun q hq => hp q (by simp [hq])) (fun q hq => hl q (by simp [hq]))
      (fun q hq => hl' q (by simp [hq])) (fun q hq => hno q (by simp [hq]))

/-- Without the blank a line is as safe. -/
theorem field_safe {p : Str × Str} (hp : HeaderField p) (hno : ∀ n ∈ blankMatters, ¬ CaseEq p.1 n)
    (h : lineSafe (fieldLine b!" " p) = true) : lineSafe (fieldLine [] p) = true := by
  rw [lineSafe_true_iff] at h ⊢
  rintro (⟨hc, -⟩ | ⟨hc, hlen⟩)
  · obtain ⟨n, b, he, hn⟩ := hc
    have : startswith (fieldLine [] p) (b!"Content-Type" ++ [58]) = true := by
      rw [he]
      refine (startswith_iff _ _).mpr ⟨n.take 13, n.drop 13 ++ b, by simp [← List.append_assoc], ?_⟩
      show (n.take 13).map lower = _
      rw [List.map_take, (hn : n.map lower = _)]; rfl
    exact hno _ (by decide) ((fieldLine_start hp (by decide)).mp this)
  · refine h (Or.inr ⟨?_, by simp [fieldLine] at hlen ⊢; omega⟩)
    rcases hc with hc | hc
    · have : CaseEq p.1 b!"X-Session" := (fieldLine_start hp (by decide)).mp ((startswith_iff _ _).mpr hc)
      exact Or.inl ((startswith_iff _ _).mp ((fieldLine_start (name := b!"X-Session") hp (by decide)).mpr this))
    · exact absurd ((fieldLine_start (name := b!"Authorization") hp (by decide)).mp ((startswith_iff _ _).mpr hc)) (hno _ (by decide))

/-- C109, what holds: headers other than `Content-Length`, `Content-Type`, `X-Real-IP`, `Authorization` and `Cookie` are read the
same, and stored byte for byte the same. Missing: these five. -/
theorem C109_partial (bs input input' rest : List Byte) (fs : List (Str × Str)) (ip : Str) (h : HdrSt)
    (hb : bs.length = 1024) (hz : bs.getLast? = some 0) (hp : ∀ p ∈ fs, HeaderField p)
    (hsec : Section input (fs.map (fieldLine b!" ")) rest) (hsec' : Section input' (fs.map (fieldLine [])) rest)
    (hno : ∀ p ∈ fs, ∀ n ∈ [b!"Content-Length", b!"Content-Type", b!"X-Real-IP", b!"Authorization", b!"Cookie"], ¬ CaseEq p.1 n)
    (hok : parseHeaders (bs.map some) input ip = ok h) :
    ∃ h', parseHeaders (bs.map some) input' ip = ok h' ∧ SameFields h h' ∧ h'.headers = h.headers := by
  have hbuf := lineBuf_of hb hz
  have hlen : ∀ p ∈ fs, (fieldLine b!" " p).length ≤ 1023 := fun p hp => hsec.length_le _ (List.mem_map_of_mem hp)
  have hlen' : ∀ p ∈ fs, (fieldLine [] p).length ≤ 1023 := fun p hp => hsec'.length_le _ (List.mem_map_of_mem hp)
  obtain ⟨last, h1, -, -, h2, -, h3, h4, h5, h6⟩ := parse_fields hbuf hsec hok
  have hsafe : ∀ l ∈ fs.map (fieldLine b!" "), lineSafe (untilNul l) = true := by
    by_contra hns
    have := (parseHeaders_eq (ip := ip) hbuf hsec).1 (by simpa using hns)
    rw [hok] at this; cases this
  obtain ⟨h', last', g0, g1, g'⟩ := (parseHeaders_eq (ip := ip) hbuf hsec').2 (by
    intro l hl
    obtain ⟨p, hpm, rfl⟩ := List.mem_map.mp hl
    have := hsafe _ (List.mem_map_of_mem hpm)
    rw [untilNul_whole (fieldLine_whole (hp p hpm) (by decide))] at this
    rw [untilNul_whole (fieldLine_whole (hp p hpm) (by simp))]
    exact field_safe (hp p hpm) (hno p hpm) this)
  obtain ⟨-, -, g2, -, g3, g4, g5, g6⟩ := g'
  have hb0 : LineBuf (Head.init bs ip).bs := hbuf.load (line := [65]) (by decide)
  obtain ⟨k1, k2, k3, k4, k5⟩ := field_foldl fs (a := .init bs ip) (b := .init bs ip) ⟨rfl, rfl, rfl, rfl, rfl⟩ hb0 hb0 hp hlen hlen' hno
  have hh : h'.headers = h.headers := by rw [g2, h2]; exact k1.symm
  refine ⟨h', g0, ⟨by rw [g1, h1], by rw [g4, h4]; exact k3.symm, by rw [g3, h3]; exact k2.symm, by rw [g5, h5]; exact k4.symm, ?_, ?_⟩, hh⟩
  · rw [g6.cstr, h6.cstr]
    exact congrArg ok k5.symm
  · intro req req' name r1 r2 r1' r2' _
    unfold http_get_header
    rw [r1, r2, r1', r2', hh]

theorem field_last {bs input rest : List Byte} {pre : List (List Byte)} {line : List Byte} {ip : Str} {h : HdrSt}
    (hb : bs.length = 1024) (hz : bs.getLast? = some 0) (hsec : Section input (pre ++ [line]) rest)
    (hok : parseHeaders (bs.map some) input ip = ok h) :
    ∃ a : Head, LineBuf a.bs ∧ line.length ≤ 1023 ∧ h.content_length = (a.step line).clen ∧ h.IP = (a.step line).ip ∧
      h.boundary = (a.step line).boundary ∧ a = pre.foldl Head.step (.init bs ip) := by
  obtain ⟨last, h1, -, -, h2, -, h3, h4, h5, h6⟩ := parse_fields (lineBuf_of hb hz) hsec hok
  have hlen := hsec.length_le
  refine ⟨_, LineBuf.foldl (lines := pre) ((lineBuf_of hb hz).load (line := [65]) (by decide)) (fun x hx => hlen x (by simp [hx])),
    hlen line (by simp), ?_, ?_, ?_, rfl⟩
  · rw [h4, List.foldl_append]; rfl
  · rw [h5, List.foldl_append]; rfl
  · rw [h3, List.foldl_append]; rfl

/-- C109, what happens without the blank: the first digit of the length is lost. -/
theorem C109_length (bs input rest : List Byte) (pre : List (List Byte)) (n : Str) (d : Byte) (ds : Str) (ip : Str) (h : HdrSt)
    (hb : bs.length = 1024) (hz : bs.getLast? = some 0) (hn : CaseEq n b!"Content-Length") (hp : HeaderField (n, d :: ds))
    (hd : ∀ c ∈ d :: ds, digit c) (hlt : decimal ds < 2 ^ 31)
    (hsec : Section input (pre ++ [fieldLine [] (n, d :: ds)]) rest) (hok : parseHeaders (bs.map some) input ip = ok h) :
    h.content_length = decimal ds := by
  obtain ⟨a, ha, hl, e, -⟩ := field_last hb hz hsec hok
  rw [e]
  show nextLength a.clen (loadLine a.bs _) = _
  have u := untilNul_whole (fieldLine_whole (gap := []) hp (by simp))
  have hnl : n.length = 14 := by have := congrArg List.length (hn : n.map lower = _); simpa using this
  have hs : startswith (fieldLine [] (n, d :: ds)) b!"Content-Length:" = true :=
    (fieldLine_start (gap := []) hp (name := b!"Content-Length") (by decide)).mpr hn
  unfold nextLength
  rw [untilNul_loadLine, u, if_pos hs, (ha.load hl).tail (by rw [untilNul_loadLine, u]; simp [fieldLine]; omega), untilNul_loadLine, u]
  have : (fieldLine [] (n, d :: ds)).drop 16 = ds ++ [13, 10] := by
    show (n ++ 58 :: ([] ++ d :: ds ++ [13, 10])).drop 16 = _
    rw [show n ++ 58 :: ([] ++ d :: ds ++ [13, 10]) = (n ++ [58, d]) ++ (ds ++ [13, 10]) by simp, drop_at (by simp; omega)]
  rw [this]
  by_cases hne : ds = []
  · subst hne; decide
  · have hds : ∀ c ∈ ds, ws c = false := by
      intro c hc
      have := hd c (by simp [hc])
      have key : ∀ n : Fin 256, digit (UInt8.ofNat n.val) → ws (UInt8.ofNat n.val) = false := by
        unfold digit; decide +kernel
      have k := key ⟨c.toNat, c.toNat_lt⟩
      simp only [UInt8.ofNat_toNat] at k
      exact k this
    exact atoi_digits ⟨[], [13, 10], rfl, by simp, by decide, fun c hc => hds c (List.mem_of_mem_head? (by simpa using hc)),
      fun c hc => hds c (List.mem_of_getLast? hc)⟩ hne (fun c hc => hd c (by simp [hc])) hlt

/-- C109, the same for the address behind a proxy. -/
theorem C109_address (bs input rest : List Byte) (pre : List (List Byte)) (n : Str) (d : Byte) (ds : Str) (ip : Str) (h : HdrSt)
    (hb : bs.length = 1024) (hz : bs.getLast? = some 0) (hn : CaseEq n b!"X-Real-IP") (hp : HeaderField (n, d :: ds))
    (hsec : Section input (pre ++ [fieldLine [] (n, d :: ds)]) rest) (hok : parseHeaders (bs.map some) input ip = ok h) :
    h.IP = ds.take 24 := by
  obtain ⟨a, ha, hl, -, e, -⟩ := field_last hb hz hsec hok
  rw [e]
  show nextIP a.ip (loadLine a.bs _) = _
  have u := untilNul_whole (fieldLine_whole (gap := []) hp (by simp))
  have hnl : n.length = 9 := by have := congrArg List.length (hn : n.map lower = _); simpa using this
  have hs := (fieldLine_start (gap := []) hp (name := b!"X-Real-IP") (by decide)).mpr hn
  have hx : startswith (untilNul (loadLine a.bs (fieldLine [] (n, d :: ds)))) b!"X-Real-IP:" = true := by
    rw [untilNul_loadLine, u]; exact hs
  obtain ⟨hb', hst⟩ := nextBuf_spec (ha.load hl)
  have hst := hst hx
  have hstrip : strip (fieldLine [] (n, d :: ds)) = n ++ 58 :: d :: ds := by
    obtain ⟨-, h2, -, -, h5⟩ := hp
    obtain ⟨l, r, -, -, -, -, k5⟩ := h5
    refine (isStrip_eq ⟨[], [13, 10], by simp [fieldLine], by simp, by decide, ?_, ?_⟩).symm
    · intro c hc
      cases n with
      | nil => simp at hnl
      | cons x n => simp at hc; subst hc; exact (h2 x (by simp)).2.2
    · intro c hc
      refine k5 c ?_
      rw [show n ++ 58 :: d :: ds = (n ++ [58]) ++ (d :: ds) by simp, List.getLast?_append_of_ne_nil _ (by simp)] at hc
      exact hc
  unfold nextIP
  rw [if_pos hx, hb'.tail (by rw [hst, untilNul_loadLine, u, hstrip]; simp; omega), hst, untilNul_loadLine, u, hstrip,
    show n ++ 58 :: d :: ds = (n ++ [58, d]) ++ ds by simp, drop_at (by simp; omega)]

/-- C109, uploads: without the blank a form is not recognised as multipart. -/
theorem C109_boundary (bs input rest : List Byte) (n v : Str) (ip : Str) (h : HdrSt)
    (hb : bs.length = 1024) (hz : bs.getLast? = some 0) (hn : CaseEq n b!"Content-Type") (hp : HeaderField (n, v))
    (hsec : Section input [fieldLine [] (n, v)] rest) (hok : parseHeaders (bs.map some) input ip = ok h) :
    h.boundary = [] := by
  obtain ⟨a, ha, hl, -, -, e, ea⟩ := field_last (pre := []) hb hz hsec hok
  rw [e]
  show nextBoundary a.boundary (untilNul (loadLine a.bs _)) = _
  have hnl : n.length = 12 := by have := congrArg List.length (hn : n.map lower = _); simpa using this
  have u := untilNul_whole (fieldLine_whole (gap := []) hp (by simp))
  rw [untilNul_loadLine, u]
  unfold nextBoundary
  rw [if_neg, ea]; · rfl
  intro hs
  obtain ⟨v0, vs, rfl⟩ := List.exists_cons_of_ne_nil hp.2.2.1
  have h13 := casePrefix_get ((startswith_iff _ _).mp hs) (i := 13) (by decide)
  have hws : ws v0 = false := by
    obtain ⟨-, -, -, -, l, r, -, -, -, k4, -⟩ := hp
    exact k4 v0 rfl
  rw [show fieldLine [] (n, v0 :: vs) = (n ++ [58]) ++ v0 :: (vs ++ [13, 10]) by simp [fieldLine],
    List.getElem?_append_right (by simp; omega)] at h13
  simp [hnl] at h13
  have h13 : lower v0 = lower 32 := h13
  exact (lower_special h13.symm ⟨fun h => by rw [h] at h13; revert h13; decide, hws⟩).2 |> fun h => absurd h (by decide)

theorem C109_refuted : ¬ C109_statement := by
  intro h
  have hp : HeaderField (b!"Content-Length", b!"12") :=
    ⟨by decide, by decide, by decide, by decide, [], [], rfl, by simp, by simp, by decide, by decide⟩
  have k1 : (parseHeaders ((lineBytes b!"GET / HTTP/1.1\r\n").map some) b!"Content-Length: 12\r\n\r\n" b!"10.0.0.1").bind
      (fun h => ok h.content_length) = ok 12 := by decide +kernel
  cases hx : parseHeaders ((lineBytes b!"GET / HTTP/1.1\r\n").map some) b!"Content-Length: 12\r\n\r\n" b!"10.0.0.1" with
  | ub f => rw [hx] at k1; cases k1
  | ok x =>
    have s2 : Section b!"Content-Length:12\r\n\r\n" [fieldLine [] (b!"Content-Length", b!"12")] [] :=
      one_line_section (line := b!"Content-Length:12\r\n") (by decide) (by decide) (by decide) (by decide) (by decide) []
    obtain ⟨h', e, -, hs, -⟩ := h _ _ b!"Content-Length:12\r\n\r\n" [] [(b!"Content-Length", b!"12")] b!"10.0.0.1" x (by decide +kernel) (by decide +kernel)
      (by simpa using hp) (one_line_section (line := b!"Content-Length: 12\r\n") (by decide) (by decide) (by decide) (by decide) (by decide) [])
      s2 hx
    have := C109_length _ _ [] [] b!"Content-Length" 49 b!"2" b!"10.0.0.1" h' (by decide +kernel) (by decide +kernel) rfl hp
      (by unfold digit; decide) (by decide) s2 e
    rw [hx] at k1
    injection k1 with k1
    rw [hs, k1] at this
    exact absurd this (by decide)

/-- C109_partial applies. -/
example : (∀ p ∈ [(b!"Host", b!"a"), (b!"x-session", b!"t k"), (b!"Accept", b!"*/*")], HeaderField p) ∧
    ∀ p ∈ [(b!"Host", b!"a"), (b!"x-session", b!"t k"), (b!"Accept", b!"*/*")],
      ∀ n ∈ [b!"Content-Length", b!"Content-Type", b!"X-Real-IP", b!"Authorization", b!"Cookie"], ¬ CaseEq p.1 n := by
  constructor
  · intro p hp
    simp only [List.mem_cons, List.not_mem_nil, or_false] at hp
    rcases hp with rfl | rfl | rfl <;>
      exact ⟨by decide, by decide, by decide, by decide, [], [], rfl, by simp, by simp, by decide, by decide⟩
  · unfold CaseEq; decide
/-- C109_address and C109_boundary apply. -/
example : (parseHeaders ((lineBytes b!"GET / HTTP/1.1\r\n").map some) b!"X-Real-IP:192.0.2.7\r\n\r\n" b!"10.0.0.1").bind
      (fun h => ok h.IP) = ok b!"92.0.2.7" := by decide +kernel
example : (parseHeaders ((lineBytes b!"GET / HTTP/1.1\r\n").map some) b!"Content-Type:multipart/form-data; boundary=x\r\n\r\n" b!"10.0.0.1").bind
      (fun h => ok h.boundary) = ok [] := by decide +kernel

end Wayuu
