import Verif.Lemmas.Headers2
import Verif.Lemmas.Served
import Verif.Spec.Whole
/-
What a request does not look at: what the client sends after it.
-/
namespace Wayuu
open C Spec

/-- The same state, with more to be read. -/
def St.more (e : List Byte) (st : St) : St := { st with input := st.input ++ e }

theorem bind_more {α α' β β' : Type} {g : α → α'} {k : β → β'} {m' : C α'} {m : C α} {f' : α' → C β'} {f : α → C β}
    (h : m' = g <$> m) (hf : ∀ a, f' (g a) = k <$> f a) : (m' >>= f') = k <$> (m >>= f) := by
  subst h
  cases m with
  | ok a => exact hf a
  | ub _ => rfl

theorem bind_same {α β β' : Type} {k : β → β'} {m : C α} {f' : α → C β'} {f : α → C β}
    (hf : ∀ a, f' a = k <$> f a) : (m >>= f') = k <$> (m >>= f) := by
  cases m with
  | ok a => exact hf a
  | ub _ => rfl

theorem http_print_unread (e : List Byte) (st : St) (d : List Byte) (n : Int) :
    http_print (st.more e) d n = St.more e <$> http_print st d n := by
  unfold http_print
  simp only
  split <;> rfl

theorem log_access_unread (e : List Byte) (env : Env) (st : St) (status : Int) :
    log_access env (st.more e) status = St.more e <$> log_access env st status := by
  unfold log_access
  refine bind_same fun r => ?_
  refine bind_same fun u => ?_
  refine bind_same fun _ => ?_
  refine bind_same fun _ => ?_
  unfold appendLog
  split <;> rfl

theorem send_http_status_unread (e : List Byte) (env : Env) (st : St) (status : Int) (m : Str) :
    send_http_status env (st.more e) status m = St.more e <$> send_http_status env st status m := by
  unfold send_http_status
  split
  · rfl
  · refine bind_same fun _ => ?_
    refine bind_same fun _ => ?_
    refine bind_same fun _ => ?_
    refine bind_more (http_print_unread e _ _ _) fun s => ?_
    refine bind_more (http_print_unread e { s with req := { s.req with response_length := _ } } _ _) fun s => ?_
    exact log_access_unread e env { s with req := { s.req with response_length := _ } } _

theorem sessionHeaders_unread (e : List Byte) (st : St) (n : Nat) (s : Str) :
    sessionHeaders (st.more e) n s = (fun x => (x.1, x.2.more e)) <$> sessionHeaders st n s := by
  unfold sessionHeaders
  split
  · refine bind_same fun _ => ?_
    refine bind_more (http_print_unread e _ _ _) fun s => ?_
    rfl
  · rfl

theorem return_headers_unread (e : List Byte) (st : St) (f : Str) :
    return_headers (st.more e) f = (fun x => (x.1, x.2.more e)) <$> return_headers st f := by
  unfold return_headers
  refine bind_same fun _ => ?_
  refine bind_more (http_print_unread e _ _ _) fun s => ?_
  refine bind_same fun _ => ?_
  refine bind_more (http_print_unread e _ _ _) fun s => ?_
  refine bind_same fun _ => ?_
  refine bind_more (sessionHeaders_unread e _ _ _) fun s => ?_
  refine bind_more (http_print_unread e _ _ _) fun s => ?_
  rfl

theorem return_file_unread (e : List Byte) (st : St) (f : Str) :
    return_file (st.more e) f = (fun x => (x.1, x.2.more e)) <$> return_file st f := by
  unfold return_file
  show (match st.fs.openRead f with
    | some _ => _
    | none => _) = _
  cases st.fs.openRead f with
  | some c =>
    dsimp only
    rw [http_print_unread]
    cases http_print st c c.length <;> simp
  | none => rfl

theorem direct_file_unread (e : List Byte) (env : Env) (st : St) (f : Str) :
    direct_file env (st.more e) f = (fun x => (x.1, x.2.more e)) <$> direct_file env st f := by
  unfold direct_file
  by_cases hc : (!is_file st.fs f) = true
  · rw [if_pos hc]
    exact (if_pos hc).trans rfl
  · rw [if_neg hc]
    refine (if_neg hc).trans ?_
    refine bind_more (return_headers_unread e _ _) fun s => ?_
    refine bind_more (return_file_unread e _ _) fun x => ?_
    refine bind_same fun _ => ?_
    refine bind_more (log_access_unread e env { x.2 with req := { x.2.req with response_length := _ } } _) fun s => ?_
    rfl

theorem handle_static_routes_unread (e : List Byte) (env : Env) (st : St) :
    handle_static_routes env (st.more e) = St.more e <$> handle_static_routes env st := by
  unfold handle_static_routes
  refine bind_same fun p => ?_
  refine bind_same fun _ => ?_
  refine bind_more (direct_file_unread e env { st with req := { st.req with path := p } } _) fun x => ?_
  dsimp only
  split
  · refine bind_same fun _ => ?_
    exact bind_more (direct_file_unread e env _ _) fun x => (map_ok _ _).symm
  · rfl

/-- User code does not read what the client sends after its request. -/
def UserReadsNothing (env : Env) : Prop :=
  (∀ e id st, env.handle id (st.more e) = St.more e <$> env.handle id st) ∧
  ∀ e id st, env.filt id (st.more e) = (fun x => (x.1.more e, x.2)) <$> env.filt id st

theorem router_unread (e : List Byte) {env : Env} (hu : UserReadsNothing env) (st : St) :
    router_handle_request env (st.more e) = (fun x => (x.1.more e, x.2)) <$> router_handle_request env st := by
  unfold router_handle_request
  refine bind_same fun _ => ?_
  refine bind_same fun x => ?_
  obtain ⟨hd, fl, form⟩ := x
  dsimp only
  cases hd with
  | none =>
    unfold reject_routing_request bad_request
    exact bind_more (g := St.more e) (send_http_status_unread e env { st with req := { st.req with form := form } } _ _) fun s =>
      (map_ok _ _).symm
  | some hd =>
    cases fl with
    | none =>
      exact bind_more (g := St.more e) (hu.1 e _ { st with req := { st.req with form := form } }) fun s => (map_ok _ _).symm
    | some f =>
      refine bind_more (hu.2 e _ { st with req := { st.req with form := form } }) fun x => ?_
      dsimp only
      split
      · rfl
      · exact bind_more (g := St.more e) (hu.1 e _ _) fun s => (map_ok _ _).symm

theorem bodyLoop_unread (e : List Byte) (n : Nat) (inp : List Byte) (c : Byte) (form : Buf) (i : Nat) (h : n ≤ inp.length) :
    bodyLoop n (inp ++ e) c form i = (fun x => (x.1, x.2 ++ e)) <$> bodyLoop n inp c form i := by
  induction n generalizing inp c form i with
  | zero => rfl
  | succ n ih =>
    cases inp with
    | nil => simp at h
    | cons x r =>
      simp only [List.length_cons] at h
      unfold bodyLoop
      dsimp only [List.cons_append]
      refine bind_same fun _ => ?_
      refine bind_same fun _ => ?_
      exact ih r _ _ _ (by omega)

theorem readForm_unread (e : List Byte) (env : Env) (st : St) (n : Int) (b : Str) (h : n ≤ st.input.length) :
    readForm env (st.more e) n b = St.more e <$> readForm env st n b := by
  unfold readForm
  split
  · refine bind_more (bodyLoop_unread e _ _ _ _ _ (by omega)) fun x => ?_
    dsimp only
    split
    · exact bind_same fun _ => rfl
    · rfl
  · rfl

theorem dispatch_unread (e : List Byte) {env : Env} (hu : UserReadsNothing env) (st : St) (url b : Str) (n : Int)
    (h : n ≤ st.input.length) :
    dispatch env (st.more e) url n b = (fun x => (x.1.more e, x.2)) <$> dispatch env st url n b := by
  unfold dispatch
  refine bind_same fun x => ?_
  obtain ⟨path, query⟩ := x
  dsimp only
  split
  · by_cases hm : strcaseEq st.req.method b!"GET" = true
    · rw [if_pos hm]
      refine (if_pos hm).trans ?_
      exact bind_more (g := St.more e) (k := fun (x : St × List Event) => (x.1.more e, x.2))
        (f := fun s => ok (s, [])) (f' := fun s => ok (s, []))
        (handle_static_routes_unread e env { st with req := { st.req with query_string := query, path := path } }) fun s => rfl
    · rw [if_neg hm]
      refine (if_neg hm).trans ?_
      exact bind_more (g := St.more e) (k := fun (x : St × List Event) => (x.1.more e, x.2))
        (f := fun s => ok (s, [])) (f' := fun s => ok (s, []))
        (send_http_status_unread e env { st with req := { st.req with query_string := query, path := path } } _ _) fun s => rfl
  · refine bind_same fun p => ?_
    unfold handle_api_request
    refine bind_more (readForm_unread e env { st with req := { st.req with query_string := query, path := p } } _ _ h) fun s => ?_
    exact router_unread e hu s

/-! ### the header section -/

/-- The same values, with more to be read. -/
def HdrSt.more (e : List Byte) (h : HdrSt) : HdrSt := { h with input := h.input ++ e }

theorem hdrContentType_unread (e : List Byte) (h : HdrSt) (line : Str) :
    hdrContentType (h.more e) line = HdrSt.more e <$> hdrContentType h line := by
  unfold hdrContentType
  by_cases h1 : startswith line b!"Content-Type:" = true
  · simp only [h1, if_true, HdrSt.more]
    refine bind_same fun s => ?_
    refine bind_same fun ct => ?_
    simp only [ok_bind]
    split
    · split
      · refine bind_same fun _ => ?_
        exact bind_same fun _ => rfl
      · rfl
    · rfl
  · simp only [h1, if_false, HdrSt.more, ok_bind, Bool.false_eq_true]
    split
    · split
      · refine bind_same fun _ => ?_
        exact bind_same fun _ => rfl
      · rfl
    · rfl

theorem hdrLengthIP_unread (e : List Byte) (h : HdrSt) (line : Str) :
    hdrLengthIP (h.more e) line = HdrSt.more e <$> hdrLengthIP h line := by
  unfold hdrLengthIP
  by_cases h1 : startswith line b!"Content-Length:" = true
  · simp only [h1, if_true, HdrSt.more]
    refine bind_same fun s => ?_
    simp only [ok_bind]
    split
    · refine bind_same fun _ => ?_
      exact bind_same fun _ => rfl
    · rfl
  · simp only [h1, if_false, HdrSt.more, ok_bind, Bool.false_eq_true]
    split
    · refine bind_same fun _ => ?_
      exact bind_same fun _ => rfl
    · rfl

theorem hdrSession_unread (e : List Byte) (h : HdrSt) : hdrSession (h.more e) = HdrSt.more e <$> hdrSession h := by
  unfold hdrSession
  refine bind_same fun line => ?_
  refine bind_same fun b => ?_
  cases b
  · simp only [if_false, HdrSt.more, ok_bind, Bool.false_eq_true]
    split
    · refine bind_same fun _ => ?_
      split
      · refine bind_same fun _ => ?_
        split
        · exact bind_same fun _ => rfl
        · rfl
      · rfl
    · rfl
  · simp only [if_true, HdrSt.more]
    refine bind_same fun _ => ?_
    refine bind_same fun _ => ?_
    refine bind_same fun _ => ?_
    simp only [ok_bind]
    split
    · refine bind_same fun _ => ?_
      split
      · refine bind_same fun _ => ?_
        split
        · exact bind_same fun _ => rfl
        · rfl
      · rfl
    · rfl

theorem headerStep_unread (e : List Byte) (h : HdrSt) : headerStep (h.more e) = HdrSt.more e <$> headerStep h := by
  unfold headerStep
  refine bind_same fun _ => ?_
  refine bind_same fun hs => ?_
  refine bind_more (hdrContentType_unread e { h with headers := hs } _) fun _ => ?_
  refine bind_more (hdrLengthIP_unread e _ _) fun _ => ?_
  exact hdrSession_unread e _

theorem terminated_unread {input line rest : List Byte} (h : LineOf input 1023 line rest)
    (ht : line.length = 1023 ∨ line.getLast? = some 10) (e : List Byte) : LineOf (input ++ e) 1023 line (rest ++ e) := by
  refine ⟨by rw [h.1]; simp, h.2.1, h.2.2.1, ?_⟩
  rcases ht with h | h
  · exact Or.inl h
  · exact Or.inr (Or.inl h)

theorem _root_.Wayuu.Spec.Whole.section {input rest : List Byte} {lines : List (List Byte)} (h : Whole input lines rest) :
    Section input lines rest := by
  induction h with
  | blank input line rest h1 h2 => exact .blank _ _ _ h1 h2
  | line input line rest lines rest' h1 h2 h3 h4 _ ih => exact .line _ _ _ _ _ h1 h2 h3 h4 ih

theorem _root_.Wayuu.Spec.Whole.ne_nil {input rest : List Byte} {lines : List (List Byte)} (h : Whole input lines rest) :
    input ≠ [] := by
  cases h with
  | blank _ line _ h1 h2 =>
    rw [h1.1]
    rcases h2 with rfl | rfl <;> simp
  | line _ line rest lines _ h1 h2 =>
    rw [h1.1]
    simp [h2]

theorem _root_.Wayuu.Spec.LineOf.terminated {input line rest : List Byte} (h : LineOf input 1023 line rest) (hr : rest ≠ []) :
    line.length = 1023 ∨ line.getLast? = some 10 := by
  rcases h.2.2.2 with h | h | h
  · exact Or.inl h
  · exact Or.inr h
  · exact absurd h hr

theorem fetchLoop_unread {input rest : List Byte} {lines : List (List Byte)} (hs : Whole input lines rest) (e : List Byte) :
    ∀ {n m : Nat} {a : Head} {h : HdrSt}, a.Is h → h.input = input → input.length < n → (input ++ e).length < m →
      fetchLoop m (h.more e) = HdrSt.more e <$> fetchLoop n h := by
  induction hs with
  | blank input line rest hl hb =>
    intro n m a h ha hi hn hm
    have ht : line.getLast? = some 10 := by rcases hb with rfl | rfl <;> rfl
    obtain ⟨line', rest', hl', hg⟩ := get_line_buf ha.1 input
    obtain ⟨rfl, rfl⟩ := lineOf_unique hl hl'
    obtain ⟨line', rest', hl', hg'⟩ := get_line_buf ha.1 (input ++ e)
    obtain ⟨rfl, rfl⟩ := lineOf_unique (terminated_unread hl (Or.inr ht) e) hl'
    obtain ⟨n, rfl⟩ : ∃ k, n = k + 1 := ⟨n - 1, by omega⟩
    obtain ⟨m, rfl⟩ : ∃ k, m = k + 1 := ⟨m - 1, by omega⟩
    have hstop : ¬ (0 < line.length ∧ untilNul line ≠ b!"\n" ∧ untilNul line ≠ b!"\r\n") := by
      rw [blank_iff hl]
      rintro ⟨-, h2, h3⟩
      rcases hb with h | h
      · exact h2 h
      · exact h3 h
    unfold fetchLoop
    rw [show (h.more e).input = input ++ e by rw [← hi]; rfl, show (h.more e).buf = h.buf from rfl, hi, ha.2.1, hg, hg']
    simp only [ok_bind]
    unfold headerLoop
    simp only [cstr_loadLine ha.1 hl.2.1, ok_bind]
    rw [if_neg hstop, if_neg hstop]
    rfl
  | line input line rest lines rest1 hl hne h1 h2 hw ih =>
    intro n m a h ha hi hn hm
    obtain ⟨line', rest', hl', hg⟩ := get_line_buf ha.1 input
    obtain ⟨rfl, rfl⟩ := lineOf_unique hl hl'
    obtain ⟨line', rest', hl', hg'⟩ := get_line_buf ha.1 (input ++ e)
    obtain ⟨rfl, rfl⟩ := lineOf_unique (terminated_unread hl (hl.terminated hw.ne_nil) e) hl'
    obtain ⟨n, rfl⟩ : ∃ k, n = k + 1 := ⟨n - 1, by omega⟩
    obtain ⟨m, rfl⟩ : ∃ k, m = k + 1 := ⟨m - 1, by omega⟩
    have hlen : input.length = line.length + rest.length := by rw [hl.1, List.length_append]
    have hpos : 0 < line.length := List.length_pos_of_ne_nil hne
    have hgo := (blank_iff hl).mpr ⟨hne, h1, h2⟩
    have hload := ha.load (rest := rest) hl.2.1
    have hstep := headerStep_eq hload
    unfold fetchLoop
    rw [show (h.more e).input = input ++ e by rw [← hi]; rfl, show (h.more e).buf = h.buf from rfl, hi, ha.2.1, hg, hg']
    simp only [ok_bind]
    conv_lhs => unfold headerLoop
    conv_rhs => unfold headerLoop
    simp only [cstr_loadLine ha.1 hl.2.1, ok_bind]
    rw [if_pos hgo, if_pos hgo]
    have hm' := headerStep_unread e { h with buf := (loadLine a.bs line).map some, input := rest }
    rw [untilNul_load] at hstep
    cases hsafe : lineSafe (untilNul line) with
    | false =>
      rw [hstep.1 hsafe] at hm' ⊢
      exact (congrArg (fun x : C HdrSt => x.bind _) hm').trans rfl
    | true =>
      obtain ⟨h', e1, e2, e3⟩ := hstep.2 hsafe
      rw [e1] at hm' ⊢
      refine (congrArg (fun x : C HdrSt => x.bind _) hm').trans ?_
      have : (rest ++ e).length < m := by simp only [List.length_append] at hm ⊢; omega
      exact ih (n := n) (m := m) e3 e2 (by omega) this

theorem decimal_tail (c : Byte) (v : List Byte) : decimal v ≤ decimal (c :: v) := by
  have key : ∀ (v : List Byte) (m n : Nat), m ≤ n →
      v.foldl (fun n c => 10 * n + (c.toNat - 48)) m ≤ v.foldl (fun n c => 10 * n + (c.toNat - 48)) n := by
    intro v
    induction v with
    | nil => intro m n h; exact h
    | cons d v ih => intro m n h; exact ih _ _ (by simp only; omega)
  exact key v _ _ (by omega)

theorem atoi_blank {s : Str} (h : ∀ c ∈ s, ws c = true) : atoi s = 0 := by
  have hd : s.dropWhile isSpace = [] := by
    rw [List.dropWhile_eq_nil_iff]
    intro c hc
    rw [isSpace_eq_ws]
    exact h c hc
  unfold atoi
  rw [hd]
  rfl

/-- Never more is read than the line says, with or without a blank after the colon. -/
theorem step_clen_le (a : Head) (line v : List Byte) (ha : LineBuf a.bs) (hl : line.length ≤ 1023)
    (hv : FieldLine b!"Content-Length" (untilNul line) v) (hne : v ≠ []) (hd : ∀ c ∈ v, digit c) (hlt : decimal v < 2 ^ 31) :
    (a.step line).clen ≤ decimal v := by
  have e : (a.step line).clen = nextLength a.clen (loadLine a.bs line) := rfl
  have hb := ha.load hl
  rw [e]
  unfold nextLength
  simp only [untilNul_loadLine]
  have hs : startswith (untilNul line) b!"Content-Length:" = true :=
    (fieldLine_startswith (name := b!"Content-Length")).mp ⟨v, hv⟩
  obtain ⟨n, b, ht, hn, hst⟩ := hv
  have hnl := congrArg List.length hn
  simp only [List.length_map] at hnl
  have hnl : n.length = 14 := hnl
  obtain ⟨l, r, h1, h2, h3, h4, h5⟩ := hst
  have hnw : ∀ c : Byte, digit c → ws c = false := by
    intro c
    have key : ∀ n : Fin 256, 48 ≤ (UInt8.ofNat n.val).toNat ∧ (UInt8.ofNat n.val).toNat ≤ 57 →
      ws (UInt8.ofNat n.val) = false := by decide +kernel
    have := key ⟨c.toNat, c.toNat_lt⟩
    simpa [digit] using this
  have hbl : 1 ≤ b.length := by
    rw [h1]
    have := List.length_pos_of_ne_nil hne
    simp
    omega
  rw [if_pos hs, hb.tail (by rw [untilNul_loadLine, ht]; simp [hnl]; omega), untilNul_loadLine, ht]
  cases l with
  | cons x l =>
    rw [h1, show n ++ 58 :: (x :: l ++ v ++ r) = (n ++ [58, x]) ++ (l ++ v ++ r) by simp, drop_at (by simp; omega)]
    rw [atoi_digits ⟨l, r, rfl, fun c h => h2 c (by simp [h]), h3, h4, h5⟩ hne hd hlt]
    exact Int.le_refl _
  | nil =>
    obtain ⟨c, v, rfl⟩ := List.exists_cons_of_ne_nil hne
    rw [h1, show n ++ 58 :: ([] ++ c :: v ++ r) = (n ++ [58, c]) ++ (v ++ r) by simp, drop_at (by simp; omega)]
    by_cases h0 : v = []
    · subst h0
      rw [List.nil_append, atoi_blank h3]
      omega
    · have hle := decimal_tail c v
      have hst : IsStrip (v ++ r) v := ⟨[], r, rfl, by simp, h3, fun d hd' => hnw d (hd d (by simp [List.mem_of_mem_head? hd'])),
        fun d hd' => hnw d (hd d (by simp [List.mem_of_getLast? hd']))⟩
      rw [atoi_digits hst h0 (fun d hd' => hd d (by simp [hd'])) (by omega)]
      omega

theorem foldl_clen_le {lines : List (List Byte)} {o : Option Nat} (h : LengthOf lines o) (a : Head) (ha : LineBuf a.bs)
    (hs : a.clen = -1) (hl : ∀ l ∈ lines, l.length ≤ 1023) (hlt : o.getD 0 < 2 ^ 31) :
    (lines.foldl Head.step a).clen ≤ (o.getD 0 : Nat) := by
  induction h with
  | none => rw [List.foldl_nil, hs]; simp
  | field lines n line text v _ hb hv hne hd ih =>
    rw [List.foldl_append]
    have hb' := LineBuf.foldl (lines := lines) ha (fun l h => hl l (by simp [h]))
    have e := beforeNul_eq hb
    subst e
    exact step_clen_le _ line v hb' (hl line (by simp)) hv hne hd hlt
  | other lines o line text _ hb h1 ih =>
    rw [List.foldl_append]
    have hb' := LineBuf.foldl (lines := lines) ha (fun l h => hl l (by simp [h]))
    have e := beforeNul_eq hb
    subst e
    have := (step_clen _ line hb' (hl line (by simp))).2 h1
    rw [List.foldl_cons, List.foldl_nil, this]
    exact ih (fun l h => hl l (by simp [h])) hlt

theorem parseHeaders_unread {bs input rest : List Byte} {lines : List (List Byte)} {ip : Str} (hb : LineBuf bs)
    (hs : Whole input lines rest) (e : List Byte) :
    parseHeaders (bs.map some) (input ++ e) ip = HdrSt.more e <$> parseHeaders (bs.map some) input ip := by
  have hun : ∀ input, parseHeaders (bs.map some) input ip = fetchLoop (input.length + 1)
      { buf := (loadLine bs [65]).map some, input := input, headers := [], content_type := none, boundary := [],
        content_length := -1, IP := ip, session := calloc 64 } := by
    intro input
    obtain ⟨hlen, -⟩ := hb
    match bs, hlen with
    | x :: y :: t, _ => rfl
  rw [hun, hun]
  exact fetchLoop_unread hs e (a := .init bs ip) (h :=
      { buf := (loadLine bs [65]).map some, input := input, headers := [], content_type := none, boundary := [],
        content_length := -1, IP := ip, session := calloc 64 })
    ⟨hb.load (line := [65]) (by decide), rfl, rfl, rfl, rfl, rfl, rfl, sessBuf_calloc⟩ rfl (by omega) (by omega)

theorem readRequestLine_unread {input line rest : List Byte} (hl : LineOf input 1023 line rest)
    (ht : line.length = 1023 ∨ line.getLast? = some 10) (e : List Byte) :
    readRequestLine (input ++ e) = (fun x => (x.1, x.2.1 ++ e, x.2.2)) <$> readRequestLine input := by
  obtain ⟨line', rest', hl', hg⟩ := get_line_first input
  obtain ⟨rfl, rfl⟩ := lineOf_unique hl hl'
  obtain ⟨line', rest', hl', hg'⟩ := get_line_first (input ++ e)
  obtain ⟨rfl, rfl⟩ := lineOf_unique (terminated_unread hl ht e) hl'
  unfold readRequestLine
  rw [hg, hg']
  simp only [ok_bind]
  refine bind_same fun _ => ?_
  refine bind_same fun _ => ?_
  refine bind_same fun _ => ?_
  refine bind_same fun _ => ?_
  rfl

theorem readRequestLine_buf {input line rest rest' : List Byte} {buf : Buf} {x : Str × Str × Nat} (hl : LineOf input 1023 line rest)
    (h : readRequestLine input = ok (buf, rest', x)) : buf = (lineBytes line).map some ∧ rest' = rest := by
  obtain ⟨line', rest', hl', hg⟩ := get_line_first input
  obtain ⟨rfl, rfl⟩ := lineOf_unique hl hl'
  unfold readRequestLine at h
  rw [hg] at h
  simp only [ok_bind] at h
  obtain ⟨_, -, h⟩ := bind_eq_ok.mp h
  obtain ⟨_, -, h⟩ := bind_eq_ok.mp h
  obtain ⟨_, -, h⟩ := bind_eq_ok.mp h
  obtain ⟨_, -, h⟩ := bind_eq_ok.mp h
  cases h
  exact ⟨rfl, rfl⟩

end Wayuu
