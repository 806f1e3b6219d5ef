import Verif.Spec.Announced
import Verif.Props.Harmless
import Verif.Props.PartsFit
/-
Property C145 (ws.c:463-656), continued: all requests.
-/
namespace Wayuu
open C Spec

theorem starts_eq (w t : List Byte) : starts w t = startswith t w := by
  rw [Bool.eq_iff_iff, startswith_iff]
  unfold starts CasePrefix CaseEq
  rw [decide_eq_true_eq]
  constructor
  · exact fun h => ⟨t.take w.length, t.drop w.length, by simp, h⟩
  · rintro ⟨a, b, rfl, h⟩
    have : a.length = w.length := by simpa using congrArg List.length h
    rw [← this, List.take_left' rfl]
    exact h

theorem afterWord_eq {w : List Byte} (hw : w ≠ []) (t : List Byte) : afterWord w t = (strcasestr t w).map (List.drop w.length) := by
  induction t with
  | nil =>
    obtain ⟨c, w, rfl⟩ := List.exists_cons_of_ne_nil hw
    rfl
  | cons c t ih =>
    unfold afterWord strcasestr
    rw [starts_eq]
    unfold startswith
    split
    · rfl
    · exact ih

theorem isDigit_fun : isDigit = fun c : Byte => decide (48 ≤ c.toNat) && decide (c.toNat ≤ 57) := by
  funext c
  have key : ∀ n : Fin 256, isDigit (UInt8.ofNat n.val) = (decide (48 ≤ (UInt8.ofNat n.val).toNat) && decide ((UInt8.ofNat n.val).toNat ≤ 57)) := by
    decide +kernel
  have := key ⟨c.toNat, c.toNat_lt⟩
  simpa using this

theorem digitsVal_takeWhile (s : Str) : ∀ n, digitsVal s n = (s.takeWhile isDigit).foldl (fun n c => 10 * n + (c.toNat - 48)) n := by
  induction s with
  | nil => intro n; rfl
  | cons c s ih =>
    intro n
    unfold digitsVal
    rw [List.takeWhile_cons]
    split
    · rw [ih, List.foldl_cons, Nat.mul_comm]
    · rfl

theorem numberAt_eq (s : Str) : numberAt s = atoi s := by
  unfold numberAt atoi narrowed toInt32 decimal
  rw [← isSpace_fun, ← isDigit_fun]
  simp only
  generalize s.dropWhile isSpace = t
  cases t with
  | nil => simp [digitsVal]
  | cons c t =>
    by_cases h45 : c = 45
    · subst h45
      simp [digitsVal_takeWhile]
    · by_cases h43 : c = 43
      · subst h43
        simp [digitsVal_takeWhile]
      · simp only [List.head?_cons, Option.some.injEq, h45, h43, or_self, if_false]
        split
        · rename_i heq; simp at heq; exact absurd heq.1 h45
        · rename_i heq; simp at heq; exact absurd heq.1 h43
        · rw [digitsVal_takeWhile]; rfl

/-- The array after a pass. -/
theorem nextBuf_eq {bs : List Byte} (hb : LineBuf bs) : nextBuf bs =
    if starts b!"X-Real-IP:" (untilNul bs) then trimmedArray bs.dropLast ++ [0] else bs := by
  unfold nextBuf
  rw [starts_eq]
  split
  · obtain ⟨-, a, rfl⟩ := hb
    rw [List.map_append, List.map_cons, List.map_nil, (trim_array a).1]
    simp [Function.comp_def]
  · rfl

theorem noted_step {a : Head} {s : Noted} (hb : LineBuf a.bs) (h : s.array = a.bs ∧ s.boundary = a.boundary ∧ s.length = a.clen) {l : List Byte}
    (hl : l.length ≤ 1023) : (s.line l).array = (a.step l).bs ∧ (s.line l).boundary = (a.step l).boundary ∧
      (s.line l).length = (a.step l).clen := by
  have hb' := hb.load hl
  have hu := untilNul_loadLine a.bs l
  refine ⟨?_, ?_, ?_⟩
  · show _ = nextBuf (loadLine a.bs l)
    rw [nextBuf_eq hb', hu]
    unfold Noted.line
    rw [h.1, uptoNul_eq]
    rfl
  · show _ = nextBoundary a.boundary (untilNul (loadLine a.bs l))
    rw [hu]
    unfold Noted.line nextBoundary
    simp only [uptoNul_eq, starts_eq, afterWord_eq (w := b!"boundary=") (by decide), h.2.1]
    split
    · cases strcasestr (untilNul l) b!"boundary=" with
      | none => rfl
      | some r =>
        simp only [Option.map_some]
        unfold strip
        rw [isSpace_fun]
        rfl
    · rfl
  · show _ = nextLength a.clen (loadLine a.bs l)
    unfold Noted.line nextLength tailAt
    simp only [uptoNul_eq, starts_eq, numberAt_eq, h.1, h.2.2, hu]
    rfl

theorem noted_eq {line : List Byte} (hl : line.length ≤ 1023) {lines : List (List Byte)} (hls : ∀ l ∈ lines, l.length ≤ 1023) (ip : Str) :
    (noted line lines).boundary = (lines.foldl Head.step (.init (lineBytes line) ip)).boundary ∧
    (noted line lines).length = (lines.foldl Head.step (.init (lineBytes line) ip)).clen := by
  have key : ∀ (lines : List (List Byte)) (a : Head) (s : Noted), (∀ l ∈ lines, l.length ≤ 1023) → LineBuf a.bs →
      (s.array = a.bs ∧ s.boundary = a.boundary ∧ s.length = a.clen) →
      (lines.foldl Noted.line s).boundary = (lines.foldl Head.step a).boundary ∧
      (lines.foldl Noted.line s).length = (lines.foldl Head.step a).clen := by
    intro lines
    induction lines with
    | nil => exact fun a s _ _ h => h.2
    | cons l lines ih =>
      intro a s hls hb h
      exact ih _ _ (fun x hx => hls x (by simp [hx])) (LineBuf.foldl (lines := [l]) hb (by simpa using hls l (by simp)))
        (noted_step hb h (hls l (by simp)))
  exact key lines _ _ hls ((lineBytes_buf hl).load (line := [65]) (by decide)) ⟨rfl, rfl, rfl⟩

/-- A boundary is absent, or begins with two hyphens. -/
theorem noted_boundary (line : List Byte) (lines : List (List Byte)) :
    (noted line lines).boundary = [] ∨ 2 ≤ (noted line lines).boundary.length ∧ NulFree (noted line lines).boundary := by
  have key : ∀ (lines : List (List Byte)) (s : Noted), (s.boundary = [] ∨ 2 ≤ s.boundary.length ∧ NulFree s.boundary) →
      (lines.foldl Noted.line s).boundary = [] ∨ 2 ≤ (lines.foldl Noted.line s).boundary.length ∧ NulFree (lines.foldl Noted.line s).boundary := by
    intro lines
    induction lines with
    | nil => exact fun s h => h
    | cons l lines ih =>
      intro s h
      refine ih _ ?_
      unfold Noted.line
      simp only
      split
      · rw [afterWord_eq (by decide), uptoNul_eq]
        cases hr : strcasestr (untilNul l) b!"boundary=" with
        | none => exact h
        | some r =>
          right
          obtain ⟨q, hq⟩ := strcasestr_suffix _ _ hr
          have hn := nulFree_untilNul l
          rw [hq, nulFree_append] at hn
          simp only [Option.map_some]
          generalize hx : List.drop (b!"boundary=").length r = x
          have hxn : NulFree x := by rw [← hx]; exact hn.2.drop _
          constructor
          · have : b!"--" <+: (b!"--" ++ x).rdropWhile ws := by
              obtain ⟨y, hy, hl⟩ : ∃ y, b!"--" ++ x = (b!"--" ++ x).rdropWhile ws ++ y ∧ ∀ c ∈ y, ws c = true := by
                refine ⟨(b!"--" ++ x).rtakeWhile ws, (List.rdropWhile_append_rtakeWhile ..).symm, fun c hc => List.mem_rtakeWhile_imp hc⟩
              by_contra hc
              have h2 : ((b!"--" ++ x).rdropWhile ws).length < 2 := by
                by_contra hge
                apply hc
                exact List.prefix_of_prefix_length_le (List.prefix_append _ _) (List.rdropWhile_prefix _ _) (by simp at hge ⊢; omega)
              have : (b!"--" ++ x)[((b!"--" ++ x).rdropWhile ws).length]? = some 45 := by
                rw [List.getElem?_append_left (by simp at h2 ⊢; omega)]
                generalize ((b!"--" ++ x).rdropWhile ws).length = k at h2
                match k, h2 with
                | 0, _ => rfl
                | 1, _ => rfl
              have this : ((b!"--" ++ x).rdropWhile ws ++ y)[((b!"--" ++ x).rdropWhile ws).length]? = some 45 := by
                rw [← hy]; exact this
              rw [List.getElem?_append_right (Nat.le_refl _)] at this
              exact absurd (hl 45 (List.mem_of_getElem? this)) (by decide)
            simpa using this.length_le
          · exact NulFree.mono (nulFree_append.mpr ⟨by decide, hxn⟩) (fun c hc => (List.rdropWhile_prefix _ _).subset hc)
      · exact h
  exact key lines _ (Or.inl rfl)

theorem storedForm_unique {b body f g : Str} {n : Int} (h : StoredForm b n body f) (h' : StoredForm b n body g) : f = g := by
  rcases h with ⟨h1, rfl⟩ | ⟨h1, h2, rfl⟩ | ⟨h1, h2, x, hx, rfl⟩
  · rcases h' with ⟨-, rfl⟩ | ⟨k1, -⟩ | ⟨k1, -⟩
    · rfl
    · omega
    · omega
  · rcases h' with ⟨k1, -⟩ | ⟨-, -, rfl⟩ | ⟨-, k2, -⟩
    · omega
    · rfl
    · exact absurd h2 k2
  · rcases h' with ⟨k1, -⟩ | ⟨-, k2, -⟩ | ⟨-, -, y, hy, rfl⟩
    · omega
    · exact absurd k2 h2
    · cases gathers_unique hx hy
      rfl

theorem length_bodyKept (n : Nat) (body : Str) : (bodyKept n body).length = n := by
  unfold bodyKept
  simp
  omega

/-- The form, whatever the request. -/
theorem form_stored {env : Env} {st : St} {n : Int} {b : Str} (hmax : 18 ≤ env.evpMax) (hb : b = [] ∨ 2 ≤ b.length ∧ NulFree b)
    (hform : st.req.form = [some 0]) :
    (∃ form st', StoredForm b n st.input form ∧ readForm env st n b = ok st' ∧ st'.req = { st.req with form := form.map some ++ [some 0] }) ∨
    ((∀ form, ¬ StoredForm b n st.input form) ∧ ∀ x, readForm env st n b ≠ ok x) := by
  by_cases h0 : n ≤ 0
  · refine Or.inl ⟨[], st, Or.inl ⟨h0, rfl⟩, ?_, ?_⟩
    · unfold readForm
      rw [if_neg (by omega)]
    · simp [← hform]
  obtain ⟨m, rfl⟩ : ∃ m : Nat, n = m := ⟨n.toNat, by omega⟩
  obtain ⟨st1, f1, f2⟩ := form_kept (env := env) (st := st) (o := some m) (boundary := []) (Or.inl rfl) hform
  have f1 : readForm env st m [] = ok st1 := f1
  simp only [Option.getD_some] at f2
  rcases hb with rfl | ⟨hb, hbz⟩
  · exact Or.inl ⟨_, st1, Or.inr (Or.inl ⟨by omega, rfl, rfl⟩), f1, f2⟩
  have hne : b ≠ [] := by rintro rfl; simp at hb
  have hloop : ∃ inp, bodyLoop m st.input 0 (malloc (m + 1)) 0 = ok ((bodyKept m st.input).map some ++ [some 0], inp) := by
    unfold readForm at f1
    rw [if_pos (by omega)] at f1
    obtain ⟨⟨form, inp⟩, g1, g2⟩ := bind_eq_ok.mp f1
    refine ⟨inp, ?_⟩
    simp only [List.length_nil, show ¬ 2 ≤ 0 by decide, if_false, ok_bind, C.ok.injEq] at g2
    have : st1.req.form = form := by rw [← g2]
    have e : st1.req.form = (bodyKept m st.input).map some ++ [some 0] := by rw [f2]
    rw [← e, this]
    exact g1
  obtain ⟨inp, hloop⟩ := hloop
  have hread : readForm env st m b = (multipart_parse env st.fs ((bodyKept m st.input).map some ++ [some 0]) b m >>= fun x =>
      ok { st with input := inp, fs := x.2, req := { st.req with form := x.1 } }) := by
    unfold readForm
    rw [if_pos (by omega)]
    simp only [Int.toNat_natCast]
    rw [hloop]
    simp only [ok_bind, if_pos hb]
  obtain ⟨r, hr, h⟩ := C72_exact env st.fs b (bodyKept m st.input) hmax hbz
  rw [length_bodyKept] at h
  cases r with
  | none =>
    refine Or.inr ⟨?_, fun x hx => ?_⟩
    · rintro form (⟨k, -⟩ | ⟨-, k, -⟩ | ⟨-, -, f, k, -⟩)
      · omega
      · exact hne k
      · rw [Int.toNat_natCast] at k
        cases gathers_unique hr k
    · rw [hread] at hx
      obtain ⟨y, hy, -⟩ := bind_eq_ok.mp hx
      exact h y hy
  | some f =>
    obtain ⟨-, h2, h3⟩ := h
    refine Or.inl ⟨_, _, Or.inr (Or.inr ⟨by omega, hne, f, hr, rfl⟩), by rw [hread, h3]; rfl, ?_⟩
    simp only [Int.toNat_natCast]
    congr 1
    have hlen : (bodyKept m st.input).length = m := length_bodyKept ..
    by_cases hlt : f.length < m
    · rw [if_pos hlt, List.take_of_length_le (by simp [hlen]; omega)]
      simp
    · have he : f.length = m := by omega
      rw [if_neg hlt, List.take_left' he, List.drop_eq_nil_of_le (by omega)]
      simp

theorem dispatch_bears {env : Env} {st st0 : St} {hs : List (Str × Str)} {regs : List Registration} {url boundary session : Str}
    {n : Int} {pieces : List Str} (hset : SoundSetup env st regs) (hmax : 18 ≤ env.evpMax) (hfs : st0.fs = st.fs) (hh : st0.req.HasHeaders hs)
    (hse : cstr st0.req.session = ok session) (hsl : session.length < 64) (hm : NulFree st0.req.method)
    (hform : st0.req.form = [some 0]) (hb : boundary = [] ∨ 2 ≤ boundary.length ∧ NulFree boundary) (hz : NulFree url) (hl : url.length ≤ 254)
    (hr : Runs b!"?" url pieces) :
    (dispatch env st0 url n boundary).IsOk ↔
      pieces ≠ [] ∧ pieces.length ≤ 50 ∧ (CasePrefix b!"/api" url → ∃ form, StoredForm boundary n st0.input form ∧
        ∀ mount path, pieces.head? = some (mount ++ path) → mount.length = 4 → PathFits regs st0.req.method path form) := by
  obtain ⟨p1, p2, p3⟩ := url_pieces hz hl hr
  have no : ∀ e, get_path_and_query_string url = ub e → ¬ (dispatch env st0 url n boundary).IsOk := by
    rintro e he ⟨x, hx⟩
    unfold dispatch at hx
    rw [he] at hx
    cases hx
  cases hpc : pieces with
  | nil =>
    refine ⟨fun h => absurd h (no _ (p1 hpc)), fun h => absurd rfl h.1⟩
  | cons t ts =>
    rw [← hpc]
    by_cases hn : pieces.length ≤ 50
    swap
    · exact ⟨fun h => absurd h (no _ (p2 (by omega))), fun h => absurd h.2.1 hn⟩
    obtain ⟨hget, htl, htz⟩ := p3 t ts hpc hn
    have hne : pieces ≠ [] := by rw [hpc]; simp
    by_cases hu : CasePrefix b!"/api" url
    · have hu' := hu
      obtain ⟨mount, b, rfl, hmount⟩ := hu
      have hml : mount.length = 4 := by simpa using congrArg List.length hmount
      have hmq : (63 : Byte) ∉ mount := by
        intro h
        have : lower 63 ∈ mount.map lower := List.mem_map_of_mem h
        rw [show mount.map lower = (b!"/api").map lower from hmount] at this
        revert this
        decide
      have hm0 : mount ≠ [] := by
        rintro rfl
        cases hml
      rw [hpc] at hr
      obtain ⟨path, rfl⟩ := mount_piece hm0 hmq hr
      have hpz : NulFree path := (nulFree_append.mp htz).2
      rw [dispatch_api hu' hget hml hpz]
      unfold handle_api_request
      rcases form_stored (env := env) (n := n) (b := boundary)
        (st := { st0 with req := { st0.req with query_string := ts.head?.getD [], path := path } }) hmax hb hform with
        ⟨form, st1, f0, f1, f2⟩ | ⟨f0, f1⟩
      · rw [f1, ok_bind]
        have key := router_fits (env := env) (st := st1) (hs := hs) (regs := regs) (form := form)
          (by refine HasHeaders.congr hh ?_ ?_ <;> rw [f2]) hset.valid hset.registered hset.names hset.responds hset.defined
          (by rw [f2]; exact ⟨hm, hpz⟩) (by rw [f2])
        have e1 : st1.req.method = st0.req.method := by rw [f2]
        have e2 : st1.req.path = path := by rw [f2]
        rw [e1, e2] at key
        rw [key]
        constructor
        · refine fun h => ⟨hne, hn, fun _ => ⟨form, f0, fun mount' path' e hl' => ?_⟩⟩
          rw [hpc, List.head?_cons, Option.some.injEq] at e
          obtain ⟨-, rfl⟩ := List.append_inj e (by omega)
          exact h
        · intro h
          obtain ⟨g, g0, g1⟩ := h.2.2 hu'
          rw [storedForm_unique f0 g0]
          exact g1 mount path (by rw [hpc]; rfl) hml
      · constructor
        · rintro ⟨x, hx⟩
          obtain ⟨y, hy, -⟩ := bind_eq_ok.mp hx
          exact absurd hy (f1 y)
        · intro h
          obtain ⟨g, g0, -⟩ := h.2.2 hu'
          exact absurd g0 (f0 g)
    · rw [dispatch_static hu hget]
      refine ⟨fun _ => ⟨hne, hn, fun h => absurd h hu⟩, fun _ => ?_⟩
      split
      · obtain ⟨s, s1, s2⟩ := hset.stack
        obtain ⟨x, hx⟩ := static_ok (env := env)
          (st := { st0 with req := { st0.req with query_string := ts.head?.getD [], path := t } }) (hs := hs)
          (HasHeaders.congr hh rfl rfl) hse hsl (by rw [hfs]; exact hset.small) hset.root hset.idx hset.icon s1 s2 htl
        rw [hx]
        exact ⟨_, rfl⟩
      · obtain ⟨x, -, hx, -⟩ := bad_request_eq (env := env)
          (st := { st0 with req := { st0.req with query_string := ts.head?.getD [], path := t } }) (hs := hs)
          (HasHeaders.congr hh rfl rfl)
        rw [hx]
        exact ⟨_, rfl⟩

/-- One request, given its lines. -/
theorem bears_iff {env : Env} {st : St} {socket : Nat} {peer line rest body : Str} {lines : List (List Byte)} {hs : List (Str × Str)}
    {regs : List Registration} (hset : SoundSetup env st regs) (hmax : 18 ≤ env.evpMax) (hp : peer.length < 16)
    (hl : LineOf st.input 1023 line rest) (hsec : Section rest lines body) (hn : Named lines hs) :
    (accept_request env st socket peer).IsOk ↔
      (∀ text, BeforeNul line text → 2 ≤ text.length) ∧
      ∀ method url after, Words line method url after → Supported method →
        after ≠ [] ∧ (Admits env.limits st.live peer url → Fits regs method url line lines hs body) := by
  generalize hQ : ((∀ text, BeforeNul line text → 2 ≤ text.length) ∧
      ∀ method url after, Words line method url after → Supported method →
        after ≠ [] ∧ (Admits env.limits st.live peer url → Fits regs method url line lines hs body)) = Q
  have hbn := untilNul_before line
  generalize untilNul line = text at hbn
  by_cases h2 : 2 ≤ text.length
  swap
  · rw [C41_short env st socket peer line rest text (by omega) hl hbn (by omega)]
    constructor
    · rintro ⟨x, hx⟩
      cases hx
    · rw [← hQ]
      exact fun h => absurd (h.1 text hbn) h2
  obtain ⟨method, url, after, hw⟩ := words_exist line
  obtain ⟨w1, w2, w3, -⟩ := words_read hw hl.2.1 hbn
  have harm : ∀ P : Prop, (Supported method → after ≠ [] ∧ (Admits env.limits st.live peer url →
      Fits regs method url line lines hs body) ↔ P) →
      (Q ↔ P) := by
    intro P hP
    rw [← hP, ← hQ]
    constructor
    · exact fun h => h.2 method url after hw
    · refine fun h => ⟨fun t ht => by rw [beforeNul_unique ht hbn]; exact h2, fun m u a hw' => ?_⟩
      obtain ⟨rfl, rfl, rfl⟩ := words_unique hw hw'
      exact h
  by_cases hsup : Supported method
  swap
  · refine ⟨fun _ => (harm True (by tauto)).mpr trivial, fun _ => words_method hl hbn h2 hw (by omega) hsup⟩
  by_cases ha : after = []
  · subst ha
    rw [words_out hl hbn h2 hw (by omega) hsup, harm False (by tauto)]
    constructor
    · rintro ⟨x, hx⟩
      cases hx
    · exact False.elim
  rw [words_line hl hbn h2 hw (by omega) hsup ha]
  have hadmits := connection_add_admits (socket := socket) hset.limits hset.paths
    (show url.length < 512 by omega) hp (live := st.live)
  by_cases hadm : Admits env.limits st.live peer url
  swap
  · rw [hadmits.2 hadm]
    refine ⟨fun _ => (harm True (by tauto)).mpr trivial, fun _ => ?_⟩
    simp only [ok_bind, Bool.not_false, if_true]
    obtain ⟨start, hst⟩ := findStatus_some (n := 429) (by decide)
    obtain ⟨st', h1, -⟩ := send_http_status_eq (env := env) (hs := [])
      (st := { st with input := rest, req := { lineReq socket peer (text.take (text.length - 2)) method with url := url } })
      (noHeaders rfl rfl) hst (message := []) (by simp)
    unfold too_many_connections
    have h1' : send_http_status env { st with input := rest, live := st.live, req :=
        { lineReq socket peer (text.take (text.length - 2)) method with url := url } } 429 [] = ok st' := h1
    rw [h1']
    exact ⟨_, rfl⟩
  obtain ⟨a, c, b, e1, e2, e3, hadd⟩ := hadmits.1 hadm
  rw [hadd, harm (Fits regs method url line lines hs body) (by tauto)]
  simp only [ok_bind, Bool.not_true, Bool.false_eq_true, if_false]
  have hbuf := lineBytes_buf hl.2.1
  obtain ⟨g1, g2, g3⟩ := hbuf
  have hg : (lineBytes line).getLast? = some 0 := by rw [g3]; simp
  obtain ⟨d1, d2⟩ := C69_defined (lineBytes line) rest body lines peer g1 hg hsec
  by_cases ho : ∀ l ∈ lines, ∀ t, BeforeNul l t → ¬ Overrun t
  swap
  · refine ⟨?_, fun h => absurd h.1 ho⟩
    rintro ⟨x, hx⟩
    obtain ⟨h, hh, -⟩ := bind_eq_ok.mp hx
    exact absurd (d1.mp ⟨h, hh⟩) ho
  obtain ⟨x, hx⟩ := d1.mpr ho
  rw [hx]
  simp only [ok_bind]
  have hz : ∀ p ∈ hs.take 20, NulFree p.1 ∧ NulFree p.2 := fun p hp => headers_nulFree hn p (List.mem_of_mem_take hp)
  generalize hst0 : servedSt st (a ++ ⟨socket, url, peer⟩ :: b) socket peer (text.take (text.length - 2)) method url x = st0
  have hstored : st0.req.Stored (hs.take 20) := by
    subst hst0
    exact stored_of g1 hg hsec hn hx ⟨rfl, rfl⟩
  have hfs : st0.fs = st.fs := by subst hst0; rfl
  by_cases hfit : FitsLog (hs.take 20)
  swap
  · refine ⟨?_, fun h => absurd h.2.1 hfit⟩
    rintro ⟨y, hy⟩
    obtain ⟨⟨st1, ev⟩, h1, -⟩ := bind_eq_ok.mp hy
    exfalso
    unfold dispatch at h1
    obtain ⟨⟨path, query⟩, -, h1⟩ := bind_eq_ok.mp h1
    dsimp only at h1
    split at h1
    · split at h1
      · obtain ⟨s, h2, h1⟩ := bind_eq_ok.mp h1
        exact absurd h2 (handle_static_long (Stored.same (a := st0) hstored ⟨rfl, rfl⟩) hz hfit
          (by show is_file st0.fs _ = true; rw [hfs]; exact is_file_iff.mpr hset.index))
      · obtain ⟨s, h2, h1⟩ := bind_eq_ok.mp h1
        exact (bad_request_long h2 (by exact Stored.same (a := st0) hstored ⟨rfl, rfl⟩) hz hfit).elim
    · obtain ⟨p, -, h1⟩ := bind_eq_ok.mp h1
      unfold handle_api_request at h1
      obtain ⟨s1, h2, h1⟩ := bind_eq_ok.mp h1
      have t := readForm_table h2
      exact (router_long (Stored.same (a := st0) hstored t) hz hfit h1).2 hset.responds
  obtain ⟨pieces, hr⟩ := runs_exists b!"?" url
  obtain ⟨-, session, s1, s2⟩ := C43_bounded (lineBytes line) rest body lines peer x g1 hg hsec hx
  obtain ⟨last, f0, -, -, -, -, f4, f5, -⟩ := parse_fields ⟨g1, g2, g3⟩ hsec hx
  obtain ⟨n1, n2⟩ := noted_eq hl.2.1 hsec.length_le peer
  have f4 : x.boundary = (noted line lines).boundary := f4.trans n1.symm
  have f5 : x.content_length = (noted line lines).length := f5.trans n2.symm
  have key := dispatch_bears (st0 := st0) (hs := hs.take 20) (url := url) (boundary := x.boundary) (session := session) (n := x.content_length)
    (pieces := pieces) hset hmax hfs ⟨hstored, hz, hfit⟩ (by subst hst0; exact s1) s2
    (by subst hst0; show NulFree method; rw [w1]
        exact NulFree.mono hbn.1 (fun c hc => by
          obtain ⟨t, ht⟩ := wordAt_zero_prefix text 254
          rw [ht]; simp [hc]))
    (by subst hst0; rfl) (by rw [f4]; exact noted_boundary line lines) w3 w2 hr
  have em : st0.req.method = method := by subst hst0; rfl
  have ei : st0.input = body := by subst hst0; exact f0
  rw [em, ei, f4, f5] at key
  rw [f4, f5]
  constructor
  · rintro ⟨y, hy⟩
    obtain ⟨z, hz', -⟩ := bind_eq_ok.mp hy
    refine ⟨ho, hfit, fun ps hps => ?_⟩
    rw [← runs_unique hr hps]
    exact key.mp ⟨z, hz'⟩
  · intro h
    obtain ⟨⟨z, ev⟩, hz'⟩ := key.mpr (h.2.2 pieces hr)
    rw [hz']
    exact ⟨_, rfl⟩

/-- C145, the exact condition for all byte sequences: on a server set up well, a connection is handled to its end, without leaving
defined behaviour, exactly if what the client sends is `Bearable`. -/
theorem C145_total (env : Env) (st : St) (socket : Nat) (peer : Str) (regs : List Registration) (hset : SoundSetup env st regs)
    (hmax : 18 ≤ env.evpMax) (hp : peer.length < 16) :
    (accept_request env st socket peer).IsOk ↔ Bearable env.limits st.live peer regs st.input := by
  constructor
  · intro h line rest lines body hs hl hsec hn
    exact (bears_iff hset hmax hp hl hsec hn).mp h
  · intro h
    obtain ⟨line, rest, hl, -⟩ := get_line_first st.input
    obtain ⟨lines, body, hsec⟩ := section_exists rest
    obtain ⟨hs, hn⟩ := named_exists lines
    exact (bears_iff hset hmax hp hl hsec hn).mpr (h line rest lines body hs hl hsec hn)

/-- A request with a form in parts. -/
def partsInput (body : List Byte) : List Byte :=
  b!"POST /api/user/5 HTTP/1.1\r\nContent-Type: multipart/form-data; boundary=xY\r\nContent-Length: 62\r\n\r\n" ++ body

/-- What the lines announce. -/
example : (noted b!"POST / HTTP/1.1\r\n" [b!"Content-Type: multipart/form-data; boundary=xY\r\n", b!"Content-Length: 62\r\n"]).boundary = b!"--xY" ∧
    (noted b!"POST / HTTP/1.1\r\n" [b!"Content-Type: multipart/form-data; boundary=xY\r\n", b!"Content-Length: 62\r\n"]).length = 62 := by
  decide +kernel

/-- A line without a number: the bytes of the line before it count. -/
example : (noted b!"POST / HTTP/1.1\r\n" [b!"X-Request-Id: 11742\r\n", b!"Content-Length:"]).length = 742 := by decide +kernel

def cutOff : List Byte := partsInput b!"--xY\r\nContent-Disposition: form-data; name=\"ab\"\r\n\r\n--xY--\r\n\r\n\r\n"
def whole : List Byte := partsInput b!"--xY\r\nContent-Disposition: form-data; name=\"a\"\r\n\r\n7\r\n--xY--\r\n\r\n"

/-- A part that ends at its empty line. -/
example : ¬ Bearable [] [⟨0, [], []⟩] b!"10.0.0.1" sampleRegs cutOff := by
  intro h
  obtain ⟨x, hx⟩ := (C145_total soundEnv { docsSt [] with input := cutOff, live := [⟨0, [], []⟩] } 7 b!"10.0.0.1" sampleRegs
    (soundEnv_setup _ _) (by decide) (by decide)).mpr h
  have : (accept_request soundEnv { docsSt [] with input := cutOff, live := [⟨0, [], []⟩] } 7 b!"10.0.0.1").bind (fun _ => ok ()) = ub .oob := by
    decide +kernel
  rw [hx] at this
  cases this

/-- The same with content. -/
example : Bearable [] [⟨0, [], []⟩] b!"10.0.0.1" sampleRegs whole := by
  refine (C145_total soundEnv { docsSt [] with input := whole, live := [⟨0, [], []⟩] } 7 b!"10.0.0.1" sampleRegs (soundEnv_setup _ _)
    (by decide) (by decide)).mp ?_
  have : (accept_request soundEnv { docsSt [] with input := whole, live := [⟨0, [], []⟩] } 7 b!"10.0.0.1").bind (fun _ => ok ()) = ok () := by
    decide +kernel
  cases hx : accept_request soundEnv { docsSt [] with input := whole, live := [⟨0, [], []⟩] } 7 b!"10.0.0.1" with
  | ok x => exact ⟨x, rfl⟩
  | ub f => rw [hx] at this; cases this

end Wayuu
