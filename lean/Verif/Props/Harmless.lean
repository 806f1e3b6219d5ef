import Verif.Spec.Harmless
import Verif.Props.LongHeader
import Verif.Props.Admission
import Verif.Props.Requests
import Verif.Props.Escape
import Mathlib.Tactic.Common
/-
C145: which requests are handled without leaving defined behaviour.
-/
namespace Wayuu
open C Spec

/-! ### the request line -/

theorem wordOf_eq {n : Nat} {s w rest : Str} (h : WordOf n s w rest) : w = wordAt s n 0 ∧ rest = s.drop w.length := by
  obtain ⟨rfl, h1, h2, h3⟩ := h
  refine ⟨?_, by simp⟩
  unfold wordAt
  rw [List.drop_zero, takeWhile_prefix_append (fun c hc => by simpa [← isSpace_iff] using h1 c hc)]
  rcases h3 with h3 | h3
  · rw [← h3, List.take_left]
  · have : rest.takeWhile (fun c => !isSpace c) = [] := by
      cases rest with
      | nil => rfl
      | cons c r => simp [(isSpace_iff c).mpr (h3 c rfl)]
    rw [this, List.append_nil, List.take_of_length_le h2]

theorem takeWhile_rest (p : Byte → Bool) (s : Str) : ∀ c, (s.drop (s.takeWhile p).length).head? = some c → p c = false := by
  intro c hc
  induction s with
  | nil => simp at hc
  | cons x s ih =>
    by_cases hx : p x = true
    · simp only [List.takeWhile_cons, hx, if_true, List.length_cons, List.drop_succ_cons] at hc
      exact ih hc
    · simp only [List.takeWhile_cons, hx, Bool.false_eq_true, if_false, List.length_nil, List.drop_zero, List.head?_cons, Option.some.injEq] at hc
      subst hc
      simpa using hx

theorem prefix_drop {w r s : Str} (h : w ++ r = s) : s = w ++ s.drop w.length := by
  subst h
  simp

theorem wordOf_exists (n : Nat) (s : Str) : WordOf n s (wordAt s n 0) (s.drop (wordAt s n 0).length) := by
  have hpre : wordAt s n 0 <+: s := by
    unfold wordAt
    rw [List.drop_zero]
    exact (List.take_prefix _ _).trans (List.takeWhile_prefix _)
  obtain ⟨r, hr⟩ := hpre
  refine ⟨prefix_drop hr, ?_, wordAt_length_le s n 0, ?_⟩
  · intro c hc
    unfold wordAt at hc
    have := List.mem_takeWhile_imp (List.mem_of_mem_take hc)
    rw [← isSpace_iff]
    simpa using this
  · by_cases hl : (wordAt s n 0).length = n
    · exact Or.inl hl
    · right
      intro c hc
      have e : wordAt s n 0 = s.takeWhile (fun c => !isSpace c) := by
        unfold wordAt at hl ⊢
        rw [List.drop_zero] at hl ⊢
        apply List.take_of_length_le
        rw [List.length_take] at hl
        omega
      rw [e] at hc
      have := takeWhile_rest (fun c => !isSpace c) s c hc
      rw [← isSpace_iff]
      simpa using this

theorem gapOf_eq {s gap rest : Str} (h : GapOf s gap rest) : gap = gapAt s 0 ∧ rest = s.drop gap.length := by
  obtain ⟨rfl, h1, h2⟩ := h
  refine ⟨?_, by simp⟩
  unfold gapAt
  rw [List.drop_zero, takeWhile_prefix_append (fun c hc => (isSpace_iff c).mpr (h1 c hc))]
  have : rest.takeWhile (fun c => isSpace c) = [] := by
    cases rest with
    | nil => rfl
    | cons c r =>
      have := h2 c rfl
      rw [← isSpace_iff] at this
      simp [this]
  simp [this]

theorem gapOf_exists (s : Str) : GapOf s (gapAt s 0) (s.drop (gapAt s 0).length) := by
  have hpre : gapAt s 0 <+: s := by
    unfold gapAt
    rw [List.drop_zero]
    exact List.takeWhile_prefix _
  obtain ⟨r, hr⟩ := hpre
  refine ⟨prefix_drop hr, ?_, ?_⟩
  · intro c hc
    unfold gapAt at hc
    exact (isSpace_iff c).mp (List.mem_takeWhile_imp hc)
  · intro c hc
    have e : gapAt s 0 = s.takeWhile (fun c => isSpace c) := by simp [gapAt]
    rw [e] at hc
    have := takeWhile_rest (fun c => isSpace c) s c hc
    rw [← isSpace_iff]
    simpa using this

theorem padded_eq (line : Str) : padded line = lineBytes line := rfl

theorem words_exist (line : Str) : ∃ method url after, Words line method url after :=
  ⟨_, _, _, _, _, _, _, _, wordOf_exists 254 _, gapOf_exists _, wordOf_exists 254 _, untilNul_before _, untilNul_before _⟩

/-- What the words are for the code. -/
theorem words_read {line method url after text : Str} (h : Words line method url after) (hl : line.length ≤ 1023)
    (hb : BeforeNul line text) :
    method = wordAt text 254 0 ∧ url.length ≤ 254 ∧ NulFree url ∧
      readUrl ((lineBytes line).map some) (wordAt (lineBytes line) 254 0).length = if after = [] then ub .oob else ok url := by
  obtain ⟨m, r1, gap, r2, u, h1, h2, h3, h4, h5⟩ := h
  rw [padded_eq] at h1
  obtain ⟨e1, e2⟩ := wordOf_eq h1
  obtain ⟨e3, e4⟩ := gapOf_eq h2
  obtain ⟨e5, e6⟩ := wordOf_eq h3
  have hu : u.length ≤ 254 := h3.2.2.1
  refine ⟨?_, ?_, h5.1, ?_⟩
  · rw [beforeNul_eq h4, e1]
    obtain ⟨r, hr⟩ := untilNul_prefix_lineBytes hl hb
    rw [hr, untilNul_wordAt text r hb.1 254 0 (by omega)]
  · rcases h5.2 with rfl | ⟨r, rfl⟩
    · exact hu
    · simp at hu; omega
  · have hlen := length_lineBytes hl
    have hlast : (lineBytes line).getLast? = some 0 := by
      unfold lineBytes
      rw [show 1024 - line.length = (1023 - line.length) + 1 by omega, List.replicate_succ']
      simp
    have hr2 : r2 ≠ [] := by
      rintro rfl
      rw [h1.1, h2.1, List.append_nil] at hlast
      by_cases hg : gap = []
      · subst hg
        have := h1.2.2.1
        have e := congrArg List.length h1.1
        rw [h2.1] at e
        simp at e
        omega
      · rw [List.getLast?_append_of_ne_nil _ hg] at hlast
        have := h2.2.1 0 (List.mem_of_getLast? hlast)
        unfold White at this
        revert this
        decide
    have hpos : 0 < r2.length := List.length_pos_iff.mpr hr2
    have l1 := congrArg List.length h1.1
    have l2 := congrArg List.length h2.1
    have l3 := congrArg List.length h3.1
    rw [List.length_append] at l1 l2 l3
    have g : gapAt (lineBytes line) m.length = gap := by
      rw [e3, e2]
      simp [gapAt]
    have w : wordAt (lineBytes line) 254 (m.length + gap.length) = u := by
      rw [e5, e4, e2]
      simp [wordAt, List.drop_drop]
    rw [← e1]
    unfold readUrl
    rw [skipSpaces_eq _ _ _ (by simp; omega), g, if_pos (by omega)]
    simp only [ok_bind]
    rw [scanWord_eq, w]
    by_cases ha : after = []
    · subst ha
      rw [if_neg (by simp at l3; omega)]
      simp
    · have : 0 < after.length := List.length_pos_iff.mpr ha
      rw [if_pos (by omega), if_neg ha]
      simp only [ok_bind]
      rw [← beforeNul_eq h5]

/-- The request line read, whatever it is. -/
theorem words_line {env : Env} {st : St} {socket : Nat} {peer line text method url rest after : Str}
    (hl : LineOf st.input 1023 line rest) (hb : BeforeNul line text) (h2 : 2 ≤ text.length)
    (hw : Words line method url after) (hp : peer.length < 24) (hs : Supported method) (ha : after ≠ []) :
    accept_request env st socket peer = (do
      let (added, live) ← connection_add env.limits st.live socket peer url
      if !added then do
        let st ← too_many_connections env { st with input := rest, live := live, req :=
          { lineReq socket peer (text.take (text.length - 2)) method with url := url } }
        ok (connection_close st, [])
      else do
      let h ← parseHeaders ((lineBytes line).map some) rest peer
      let (st, ev) ← dispatch env (servedSt st live socket peer (text.take (text.length - 2)) method url h) url h.content_length h.boundary
      ok (connection_close st, ev)) := by
  obtain ⟨w1, w2, w3, w4⟩ := words_read hw hl.2.1 hb
  rw [if_neg ha] at w4
  obtain ⟨b, hb1, hb2⟩ := startswithany_methods method
  rw [hb2.mpr hs] at hb1
  unfold accept_request
  rw [fmtInto_ok (by omega)]
  simp only [ok_bind]
  rw [readRequestLine_eq hl hb h2, ← w1]
  simp only [ok_bind, hb1, Bool.not_true, Bool.false_eq_true, if_false]
  rw [w4]
  simp only [ok_bind]
  rfl

/-- The URL runs out of the array. -/
theorem words_out {env : Env} {st : St} {socket : Nat} {peer line text method url rest : Str}
    (hl : LineOf st.input 1023 line rest) (hb : BeforeNul line text) (h2 : 2 ≤ text.length)
    (hw : Words line method url []) (hp : peer.length < 24) (hs : Supported method) :
    accept_request env st socket peer = ub .oob := by
  obtain ⟨w1, w2, w3, w4⟩ := words_read hw hl.2.1 hb
  rw [if_pos rfl] at w4
  obtain ⟨b, hb1, hb2⟩ := startswithany_methods method
  rw [hb2.mpr hs] at hb1
  unfold accept_request
  rw [fmtInto_ok (by omega)]
  simp only [ok_bind]
  rw [readRequestLine_eq hl hb h2, ← w1]
  simp only [ok_bind, hb1, Bool.not_true, Bool.false_eq_true, if_false]
  rw [w4]
  rfl

/-- A method that is not supported is answered. -/
theorem words_method {env : Env} {st : St} {socket : Nat} {peer line text method url rest after : Str}
    (hl : LineOf st.input 1023 line rest) (hb : BeforeNul line text) (h2 : 2 ≤ text.length)
    (hw : Words line method url after) (hp : peer.length < 24) (hs : ¬ Supported method) :
    (accept_request env st socket peer).IsOk := by
  obtain ⟨w1, -⟩ := words_read hw hl.2.1 hb
  obtain ⟨b, hb1, hb2⟩ := startswithany_methods method
  have hbf : b = false := by
    cases b with
    | false => rfl
    | true => exact absurd (hb2.mp rfl) hs
  subst hbf
  unfold accept_request
  rw [fmtInto_ok (by omega)]
  simp only [ok_bind]
  rw [readRequestLine_eq hl hb h2, ← w1]
  simp only [ok_bind, hb1, Bool.not_false, if_true]
  obtain ⟨st', start, h1, -⟩ := bad_request_eq (env := env) (hs := []) (st := { st with input := rest, req :=
    { api_request_new socket peer with request_line := text.take (text.length - 2), method := method } }) (noHeaders rfl rfl)
  rw [h1]
  exact ⟨_, rfl⟩

/-! ### the URL -/

theorem url_pieces {url : Str} {pieces : List Str} (hz : NulFree url) (hl : url.length ≤ 254) (h : Runs b!"?" url pieces) :
    (pieces = [] → get_path_and_query_string url = ub .uninit) ∧
    (50 < pieces.length → get_path_and_query_string url = ub .oob) ∧
    ∀ t ts, pieces = t :: ts → pieces.length ≤ 50 → get_path_and_query_string url = ok (t, ts.head?.getD []) ∧ t.length ≤ 254 ∧ NulFree t := by
  refine ⟨?_, fun hn => C36_over url pieces hl h hn, ?_⟩
  · rintro rfl
    cases h with
    | nil _ hd => exact C36_uninit url (fun c hc => by simpa using hd c hc)
  · rintro t ts rfl hn
    have hm := runs_token_length h
    refine ⟨C36_runs_partial url t ts hz h (fun u hu => ?_) hn, ?_, fun c hc => hz c (runs_mem h t (by simp) c hc)⟩
    · have := hm u hu
      omega
    · have := hm t (by simp)
      omega

/-- The first piece of a URL under the mount begins with the mount. -/
theorem mount_piece {a b t : Str} {ts : List Str} (ha : a ≠ []) (hq : (63 : Byte) ∉ a) (h : Runs b!"?" (a ++ b) (t :: ts)) :
    ∃ path, t = a ++ path := by
  generalize hu : a ++ b = u at h
  generalize hts : t :: ts = pieces at h
  have key : ∀ (d t' r : Str), (∀ c ∈ d, c ∈ b!"?") → t' ≠ [] → a ++ b = d ++ t' ++ r → (∀ c, r.head? = some c → c = 63) → ∃ path, t' = a ++ path := by
    intro d t' r hd ht' e hr
    have hd0 : d = [] := by
      cases d with
      | nil => rfl
      | cons x d =>
        obtain ⟨y, a', rfl⟩ : ∃ y a', a = y :: a' := by
          cases a with
          | nil => exact absurd rfl ha
          | cons y a' => exact ⟨y, a', rfl⟩
        simp only [List.cons_append, List.cons.injEq] at e
        have := hd x (by simp)
        rw [← e.1] at this
        simp at this
        subst this
        simp at hq
    subst hd0
    rw [List.nil_append] at e
    rcases List.append_eq_append_iff.mp e with ⟨x, rfl, -⟩ | ⟨x, rfl, e2⟩
    · exact ⟨x, rfl⟩
    · cases x with
      | nil => exact ⟨[], by simp⟩
      | cons y x =>
        rw [List.cons_append] at e2
        have := hr y (by rw [e2]; rfl)
        subst this
        simp at hq
  cases h with
  | nil => cases hts
  | last d t' hd ht htd =>
    cases hts
    exact key d t [] hd ht (by rw [hu]; simp) (by simp)
  | cons d t' x s ts' hd ht htd hx _ =>
    cases hts
    exact key d t (x :: s) hd ht (by rw [hu]) (by simpa using hx)

/-! ### pages -/

theorem direct_ok {env : Env} {st : St} {hs : List (Str × Str)} (hh : st.req.HasHeaders hs) {session name : Str}
    (hse : cstr st.req.session = ok session) (hsl : session.length < 64)
    (hsmall : ∀ name c, st.fs.openRead name = some c → c.length + 1200 < 2 ^ 31) :
    direct_file env st name = ok (-1, st) ∨ ∃ st', direct_file env st name = ok (0, st') := by
  by_cases hf : is_file st.fs name = true
  · right
    cases ho : st.fs.openRead name with
    | none =>
      obtain ⟨st', h, -⟩ := direct_file_unreadable (env := env) hh hse (by omega) hf ho
      exact ⟨st', h⟩
    | some c =>
      obtain ⟨st', h, -⟩ := direct_file_eq (env := env) hh hse (by omega) ho (hsmall _ _ ho)
      exact ⟨st', h⟩
  · left
    unfold direct_file
    simp only [Bool.not_eq_true] at hf
    simp [hf]

theorem static_ok {env : Env} {st : St} {hs : List (Str × Str)} (hh : st.req.HasHeaders hs) {session s : Str}
    (hse : cstr st.req.session = ok session) (hsl : session.length < 64)
    (hsmall : ∀ name c, st.fs.openRead name = some c → c.length + 1200 < 2 ^ 31)
    (hroot : env.staticRoot.length ≤ 256) (hidx : env.wwwIndex.length ≤ 256) (hicon : env.favicon.length ≤ 256)
    (hs : Stack env s) (hne : s ≠ []) (hp : st.req.path.length ≤ 254) : (handle_static_routes env st).IsOk := by
  obtain ⟨page, hpage, hpl⟩ : ∃ page, rewritePath env st.req.path = ok page ∧ page.length ≤ 300 := by
    rw [rewritePath_eq hs _ hp]
    split
    · exact ⟨_, rfl, by omega⟩
    · split
      · exact ⟨_, rfl, by omega⟩
      · split
        · exact ⟨_, rfl, by simp; omega⟩
        · exact ⟨_, rfl, by omega⟩
  unfold handle_static_routes
  rw [hpage]
  simp only [ok_bind]
  rw [fmtInto_ok (by simp; omega)]
  simp only [ok_bind]
  have hh' : ({ st with req := { st.req with path := page } } : St).req.HasHeaders _ := HasHeaders.congr hh rfl rfl
  rcases direct_ok (env := env) (name := env.staticRoot ++ b!"/" ++ page) hh' hse hsl hsmall with h | ⟨st', h⟩
  · rw [h]
    simp only [ok_bind, show (-1 : Int) < 0 by decide, if_true]
    rw [fmtInto_ok (by simp; omega)]
    simp only [ok_bind]
    rcases direct_ok (env := env) (name := env.staticRoot ++ b!"/" ++ env.wwwIndex) hh' hse hsl hsmall with h | ⟨st', h⟩ <;> rw [h] <;> exact ⟨_, rfl⟩
  · rw [h]
    exact ⟨_, rfl⟩

/-! ### the API -/

theorem extract_any {r : Registration} {T pre name : Str} (ht : r.template = .param pre name) (hz : NulFree T)
    (hn : name.length ≤ 2 * pre.length + 8) (hm : r.template.Matches T) :
    router_extract_param T (regRoute r) = ok (name ++ b!"=" ++ T.drop pre.length) := by
  have hpre : pre.length ≤ T.length := by
    rw [ht] at hm
    obtain ⟨⟨x, v, rfl⟩, -⟩ := hm
    simp; omega
  have e : regRoute r = ⟨true, pre, name, r.handler, r.filter⟩ := by
    unfold regRoute
    rw [ht]
  rw [e]
  unfold router_extract_param
  dsimp only
  have : strdup T = (T.take pre.length).map some ++ ((T.drop pre.length).map some ++ some 0 :: []) := by
    unfold strdup
    rw [← List.append_assoc, ← List.map_append, List.take_append_drop]
  rw [this, strAt_mk (by simp [hpre]) (hz.drop _)]
  simp only [ok_bind]
  rw [fmtInto_ok (by simp; omega)]

theorem addParam_ok {form : Str} {qs : Str} :
    (addParam (form.map some ++ [some 0]) qs).IsOk ↔ ∀ f, BeforeNul form f → f = [] ∨ f.length + 1 + qs.length ≤ form.length := by
  have hf := untilNul_before form
  generalize untilNul form = f at hf
  have main : (addParam (form.map some ++ [some 0]) qs).IsOk ↔ (f = [] ∨ f.length + 1 + qs.length ≤ form.length) := by
    by_cases h0 : f = []
    · subst h0
      refine ⟨fun _ => Or.inl rfl, fun _ => ?_⟩
      rw [addParam_empty]
      · exact ⟨_, rfl⟩
      · rcases hf.2 with rfl | ⟨r, rfl⟩
        · rfl
        · exact cstr_mk (r := r.map some ++ [some 0]) hf.1
    · simp only [h0, false_or]
      rcases hf.2 with rfl | ⟨r, rfl⟩
      · rw [addParam_room hf.1 h0, if_neg (by simp)]
        constructor
        · rintro ⟨x, hx⟩
          cases hx
        · intro h; omega
      · rw [List.map_append, List.map_cons, List.append_assoc, List.cons_append, addParam_room hf.1 h0]
        simp only [List.length_append, List.length_map, List.length_cons, List.length_nil]
        by_cases hl : qs.length + 1 ≤ r.length + (0 + 1)
        · rw [if_pos hl]
          exact ⟨fun _ => by omega, fun _ => ⟨_, rfl⟩⟩
        · rw [if_neg hl]
          constructor
          · rintro ⟨x, hx⟩
            cases hx
          · intro h; omega
  rw [main]
  constructor
  · intro h f' hf'
    rw [beforeNul_unique hf' hf]
    exact h
  · exact fun h => h f hf

/-- User code is defined on requests whose headers fit. -/
def UserDefined (env : Env) : Prop :=
  (∀ id st hs, st.req.HasHeaders hs → (env.handle id st).IsOk) ∧ ∀ id st hs, st.req.HasHeaders hs → (env.filt id st).IsOk

theorem router_fits {env : Env} {st : St} {hs : List (Str × Str)} {regs : List Registration} {form : Str}
    (hh : st.req.HasHeaders hs) (hv : ∀ r ∈ regs, r.template.Valid) (hreg : register regs = ok env.routes)
    (hname : ∀ r ∈ regs, ∀ pre name, r.template = .param pre name → name.length ≤ 2 * pre.length + 8)
    (hu : UserResponds env) (hd : UserDefined env) (hz : NulFree st.req.method ∧ NulFree st.req.path)
    (hform : st.req.form = form.map some ++ [some 0]) :
    (router_handle_request env st).IsOk ↔ PathFits regs st.req.method st.req.path form := by
  have hr := ((register_eq hv).mp hreg).2.2
  have hT : NulFree st.target := by
    unfold St.target
    rw [nulFree_append, nulFree_append]
    exact ⟨⟨hz.1, by decide⟩, hz.2⟩
  have hTl : st.target.length = st.req.method.length + 1 + st.req.path.length := by simp [St.target]; omega
  by_cases hlen : st.req.method.length + 1 + st.req.path.length < 255
  swap
  · rw [router_over (by omega)]
    constructor
    · rintro ⟨x, hx⟩
      cases hx
    · exact fun h => absurd h.1 hlen
  have hbad : ∀ b : Buf, (bad_request env { st with req := { st.req with form := b } }).IsOk := by
    intro b
    obtain ⟨st', -, h1, -⟩ := bad_request_eq (env := env) (st := { st with req := { st.req with form := b } })
      (HasHeaders.congr hh rfl rfl)
    exact ⟨st', h1⟩
  have hrun : ∀ (b : Buf) (h : Nat) (f : Option Nat), (runUser env h f { st with req := { st.req with form := b } }).IsOk := by
    intro b h f
    have hh' : ({ st with req := { st.req with form := b } } : St).req.HasHeaders hs := HasHeaders.congr hh rfl rfl
    cases f with
    | none =>
      obtain ⟨x, hx⟩ := hd.1 h _ hs hh'
      unfold runUser
      rw [hx]
      exact ⟨_, rfl⟩
    | some f =>
      obtain ⟨⟨s1, b1⟩, hx⟩ := hd.2 f _ hs hh'
      unfold runUser
      simp only
      rw [hx]
      simp only [ok_bind]
      cases b1 with
      | false => exact ⟨_, rfl⟩
      | true =>
        have e := hu.2.1 _ _ _ _ hx
        obtain ⟨y, hy⟩ := hd.1 h s1 hs (HasHeaders.congr hh' e.1 e.2)
        simp only [if_true]
        rw [hy]
        exact ⟨_, rfl⟩
  rcases firstMatch_cases regs st.target with hno | ⟨r, hm⟩
  · rw [router_none hr (by omega) hno]
    obtain ⟨st', h1⟩ := hbad st.req.form
    have h1 : bad_request env st = ok st' := h1
    rw [h1]
    refine ⟨fun _ => ⟨hlen, fun r pre name hm => ?_⟩, fun _ => ⟨_, rfl⟩⟩
    obtain ⟨a, b, rfl, h2, -⟩ := hm
    exact absurd h2 (hno r (by simp))
  · rw [router_some hr (by omega) hm]
    have hk : ∀ b : Buf, (match r.handler with
        | none => bad_request env { st with req := { st.req with form := b } } >>= fun st' => ok (st', ([] : List Event))
        | some h => runUser env h r.filter { st with req := { st.req with form := b } }).IsOk := by
      intro b
      cases r.handler with
      | none =>
        obtain ⟨st', h1⟩ := hbad b
        simp only
        rw [h1]
        exact ⟨_, rfl⟩
      | some h => exact hrun b h r.filter
    have hmem : r ∈ regs := by
      obtain ⟨a, b, rfl, -⟩ := hm
      simp
    have hmat : r.template.Matches st.target := by
      obtain ⟨a, b, -, h, -⟩ := hm
      exact h
    cases ht : r.template with
    | const t =>
      have e : formFor st.target (regRoute r) st.req.form = ok st.req.form := by
        unfold formFor regRoute
        rw [ht]
        rfl
      rw [e, ok_bind]
      refine ⟨fun _ => ⟨hlen, fun r' pre name hm' ht' => ?_⟩, fun _ => hk _⟩
      rw [← hm.unique hm', ht] at ht'
      cases ht'
    | param pre name =>
      have e : formFor st.target (regRoute r) st.req.form = addParam st.req.form (name ++ b!"=" ++ st.target.drop pre.length) := by
        unfold formFor
        rw [if_pos (by unfold regRoute; rw [ht]), extract_any ht hT (hname r hmem _ _ ht) hmat]
        rfl
      rw [e, hform]
      have key := addParam_ok (form := form) (qs := name ++ b!"=" ++ st.target.drop pre.length)
      have hql : (name ++ b!"=" ++ st.target.drop pre.length).length =
          name.length + 1 + (st.req.method.length + 1 + st.req.path.length - pre.length) := by
        simp [hTl]; omega
      rw [hql] at key
      have hp : PathFits regs st.req.method st.req.path form ↔ ∀ f, BeforeNul form f → f = [] ∨
          f.length + 1 + (name.length + 1 + (st.req.method.length + 1 + st.req.path.length - pre.length)) ≤ form.length := by
        constructor
        · exact fun h => h.2 r pre name hm ht
        · refine fun h => ⟨hlen, fun r' pre' name' hm' ht' => ?_⟩
          rw [← hm.unique hm', ht] at ht'
          cases ht'
          exact h
      rw [hp, ← key]
      constructor
      · rintro ⟨x, hx⟩
        obtain ⟨b, hb, -⟩ := bind_eq_ok.mp hx
        exact ⟨b, hb⟩
      · rintro ⟨b, hb⟩
        rw [hb, ok_bind]
        exact hk b

/-- The form of a request without parts. -/
theorem form_kept {env : Env} {st : St} {o : Option Nat} {boundary : Str} (hb : boundary = [] ∨ o.getD 0 = 0)
    (hform : st.req.form = [some 0]) :
    ∃ st', readForm env st ((o.map (fun m => (m : Int))).getD (-1)) boundary = ok st' ∧
      st'.req = { st.req with form := (bodyKept (o.getD 0) st.input).map some ++ [some 0] } := by
  by_cases h0 : o.getD 0 = 0
  · refine ⟨st, ?_, ?_⟩
    · unfold readForm
      rw [if_neg]
      cases o with
      | none => simp
      | some n => simp at h0; simp [h0]
    · rw [h0]
      simp [bodyKept, ← hform]
  · obtain ⟨n, rfl⟩ : ∃ n, o = some n := by
      cases o with
      | none => exact absurd rfl h0
      | some n => exact ⟨n, rfl⟩
    rw [Option.getD_some] at h0
    have hb : boundary = [] := by
      rcases hb with hb | hb
      · exact hb
      · exact absurd hb h0
    subst hb
    simp only [Option.getD_some]
    by_cases hl : n ≤ st.input.length
    · refine ⟨_, readForm_plain env st n (by omega) [] (by decide) hl, ?_⟩
      simp [bodyKept, show n - st.input.length = 0 by omega]
    · obtain ⟨st', h1, -, h3⟩ := C44_short env st n (by omega) (by omega)
      refine ⟨st', h1, ?_⟩
      have : st'.req = { st.req with form := st'.req.form } := by
        unfold readForm at h1
        rw [if_pos (by omega)] at h1
        obtain ⟨⟨a, b⟩, -, h1⟩ := bind_eq_ok.mp h1
        simp only [List.length_nil, show ¬ 2 ≤ 0 by decide, if_false, ok_bind, C.ok.injEq] at h1
        rw [← h1]
      rw [this, h3, bodyKept, List.take_of_length_le (by omega)]

theorem words_unique {line m1 u1 a1 m2 u2 a2 : Str} (h : Words line m1 u1 a1) (h' : Words line m2 u2 a2) :
    m1 = m2 ∧ u1 = u2 ∧ a1 = a2 := by
  obtain ⟨m, r1, gap, r2, u, k1, k2, k3, k4, k5⟩ := h
  obtain ⟨m', r1', gap', r2', u', j1, j2, j3, j4, j5⟩ := h'
  obtain ⟨e1, e2⟩ := wordOf_eq k1
  obtain ⟨d1, d2⟩ := wordOf_eq j1
  obtain rfl : m = m' := by rw [e1, d1]
  obtain rfl : r1 = r1' := by rw [e2, d2]
  obtain ⟨e1, e2⟩ := gapOf_eq k2
  obtain ⟨d1, d2⟩ := gapOf_eq j2
  obtain rfl : gap = gap' := by rw [e1, d1]
  obtain rfl : r2 = r2' := by rw [e2, d2]
  obtain ⟨e1, e2⟩ := wordOf_eq k3
  obtain ⟨d1, d2⟩ := wordOf_eq j3
  obtain rfl : u = u' := by rw [e1, d1]
  exact ⟨beforeNul_unique k4 j4, beforeNul_unique k5 j5, by rw [e2, d2]⟩

/-- What the operator and the programmer see to: limit rules and file names within their arrays, an index page, files of less than
2 GB, routes that could be registered and parameter names that fit (C27), and user code that is defined on requests whose headers
fit and answers with the functions of the library. (What the stack holds is nobody's choice, see C55.) -/
structure SoundSetup (env : Env) (st : St) (regs : List Registration) : Prop where
  limits : env.limits.length ≤ 64
  paths : ∀ l ∈ env.limits, l.path ≠ []
  root : env.staticRoot.length ≤ 256
  idx : env.wwwIndex.length ≤ 256
  icon : env.favicon.length ≤ 256
  stack : ∃ s, Stack env s ∧ s ≠ []
  index : ∃ c, st.fs.lookup (env.staticRoot ++ b!"/" ++ env.wwwIndex) = some (.file c)
  small : ∀ name c, st.fs.openRead name = some c → c.length + 1200 < 2 ^ 31
  valid : ∀ r ∈ regs, r.template.Valid
  registered : register regs = ok env.routes
  names : ∀ r ∈ regs, ∀ pre name, r.template = .param pre name → name.length ≤ 2 * pre.length + 8
  responds : UserResponds env
  defined : UserDefined env

theorem dispatch_fits {env : Env} {st st0 : St} {hs : List (Str × Str)} {regs : List Registration} {url boundary session : Str}
    {o : Option Nat} {pieces : List Str} (hset : SoundSetup env st regs) (hfs : st0.fs = st.fs) (hh : st0.req.HasHeaders hs)
    (hse : cstr st0.req.session = ok session) (hsl : session.length < 64) (hm : NulFree st0.req.method)
    (hform : st0.req.form = [some 0]) (hb : boundary = [] ∨ o.getD 0 = 0) (hz : NulFree url) (hl : url.length ≤ 254)
    (hr : Runs b!"?" url pieces) :
    (dispatch env st0 url ((o.map (fun m => (m : Int))).getD (-1)) boundary).IsOk ↔
      pieces ≠ [] ∧ pieces.length ≤ 50 ∧ (CasePrefix b!"/api" url → ∀ mount path, pieces.head? = some (mount ++ path) → mount.length = 4 →
        PathFits regs st0.req.method path (bodyKept (o.getD 0) st0.input)) := by
  obtain ⟨p1, p2, p3⟩ := url_pieces hz hl hr
  have no : ∀ e, get_path_and_query_string url = ub e → ¬ (dispatch env st0 url ((o.map (fun m => (m : Int))).getD (-1)) boundary).IsOk := by
    rintro e he ⟨x, hx⟩
    unfold dispatch at hx
    rw [he] at hx
    cases hx
  cases hpc : pieces with
  | nil =>
    refine ⟨fun h => absurd h (no _ (p1 hpc)), fun h => absurd rfl h.1⟩
  | cons t ts =>
    rw [← hpc]
    by_cases hn : pieces.length ≤ 50
    swap
    · exact ⟨fun h => absurd h (no _ (p2 (by omega))), fun h => absurd h.2.1 hn⟩
    obtain ⟨hget, htl, htz⟩ := p3 t ts hpc hn
    have hne : pieces ≠ [] := by rw [hpc]; simp
    by_cases hu : CasePrefix b!"/api" url
    · obtain ⟨mount, b, rfl, hmount⟩ := hu
      have hml : mount.length = 4 := by simpa using congrArg List.length hmount
      have hmq : (63 : Byte) ∉ mount := by
        intro h
        have : lower 63 ∈ mount.map lower := List.mem_map_of_mem h
        rw [show mount.map lower = (b!"/api").map lower from hmount] at this
        revert this
        decide
      have hm0 : mount ≠ [] := by
        rintro rfl
        cases hml
      rw [hpc] at hr
      obtain ⟨path, rfl⟩ := mount_piece hm0 hmq hr
      have hpz : NulFree path := (nulFree_append.mp htz).2
      rw [dispatch_api ⟨mount, b, rfl, hmount⟩ hget hml hpz]
      unfold handle_api_request
      obtain ⟨st1, f1, f2⟩ := form_kept (env := env) (o := o) (boundary := boundary)
        (st := { st0 with req := { st0.req with query_string := ts.head?.getD [], path := path } }) hb hform
      rw [f1, ok_bind]
      have key := router_fits (env := env) (st := st1) (hs := hs) (regs := regs) (form := bodyKept (o.getD 0) st0.input)
        (by refine HasHeaders.congr hh ?_ ?_ <;> rw [f2]) hset.valid hset.registered hset.names hset.responds hset.defined
        (by rw [f2]; exact ⟨hm, hpz⟩) (by rw [f2])
      have e1 : st1.req.method = st0.req.method := by rw [f2]
      have e2 : st1.req.path = path := by rw [f2]
      rw [e1, e2] at key
      rw [key]
      constructor
      · refine fun h => ⟨hne, hn, fun _ mount' path' e hl' => ?_⟩
        rw [hpc, List.head?_cons, Option.some.injEq] at e
        obtain ⟨-, rfl⟩ := List.append_inj e (by omega)
        exact h
      · exact fun h => h.2.2 ⟨mount, b, rfl, hmount⟩ mount path (by rw [hpc]; rfl) hml
    · rw [dispatch_static hu hget]
      refine ⟨fun _ => ⟨hne, hn, fun h => absurd h hu⟩, fun _ => ?_⟩
      split
      · obtain ⟨s, s1, s2⟩ := hset.stack
        obtain ⟨x, hx⟩ := static_ok (env := env)
          (st := { st0 with req := { st0.req with query_string := ts.head?.getD [], path := t } }) (hs := hs)
          (HasHeaders.congr hh rfl rfl) hse hsl (by rw [hfs]; exact hset.small) hset.root hset.idx hset.icon s1 s2 htl
        rw [hx]
        exact ⟨_, rfl⟩
      · obtain ⟨x, -, hx, -⟩ := bad_request_eq (env := env)
          (st := { st0 with req := { st0.req with query_string := ts.head?.getD [], path := t } }) (hs := hs)
          (HasHeaders.congr hh rfl rfl)
        rw [hx]
        exact ⟨_, rfl⟩

/-- C145, the exact condition: on a server set up well, a request (without an uploaded form in parts) is handled to its end, without
leaving defined behaviour, exactly if it is `Harmless`. -/
theorem C145_exact (env : Env) (st : St) (socket : Nat) (peer line rest body : Str) (lines : List (List Byte)) (hs : List (Str × Str))
    (o : Option Nat) (regs : List Registration) (hset : SoundSetup env st regs) (hp : peer.length < 16)
    (hl : LineOf st.input 1023 line rest) (hsec : Section rest lines body) (hn : Named lines hs)
    (hcl : LengthOf lines o) (hlt : o.getD 0 < 2 ^ 31)
    (hsp : ∀ l ∈ lines, ∀ t, BeforeNul l t → CasePrefix b!"Content-Length:" t → CasePrefix b!"Content-Length: " t)
    (hmp : o.getD 0 = 0 ∨ ∀ l ∈ lines, ∀ t, BeforeNul l t → ¬ CasePrefix b!"Content-Type: multipart/form-data" t) :
    (accept_request env st socket peer).IsOk ↔
      Harmless env.limits st.live peer regs line lines hs (bodyKept (o.getD 0) body) := by
  have hbn := untilNul_before line
  generalize untilNul line = text at hbn
  by_cases h2 : 2 ≤ text.length
  swap
  · rw [C41_short env st socket peer line rest text (by omega) hl hbn (by omega)]
    constructor
    · rintro ⟨x, hx⟩
      cases hx
    · exact fun h => absurd (h.1 text hbn) h2
  obtain ⟨method, url, after, hw⟩ := words_exist line
  obtain ⟨w1, w2, w3, -⟩ := words_read hw hl.2.1 hbn
  have harm : ∀ P : Prop, (Supported method → after ≠ [] ∧ (Admits env.limits st.live peer url →
      HeadFits regs method url lines hs (bodyKept (o.getD 0) body)) ↔ P) →
      (Harmless env.limits st.live peer regs line lines hs (bodyKept (o.getD 0) body) ↔ P) := by
    intro P hP
    rw [← hP]
    constructor
    · exact fun h => h.2 method url after hw
    · refine fun h => ⟨fun t ht => by rw [beforeNul_unique ht hbn]; exact h2, fun m u a hw' => ?_⟩
      obtain ⟨rfl, rfl, rfl⟩ := words_unique hw hw'
      exact h
  by_cases hsup : Supported method
  swap
  · refine ⟨fun _ => (harm True (by tauto)).mpr trivial, fun _ => words_method hl hbn h2 hw (by omega) hsup⟩
  by_cases ha : after = []
  · subst ha
    rw [words_out hl hbn h2 hw (by omega) hsup, harm False (by tauto)]
    constructor
    · rintro ⟨x, hx⟩
      cases hx
    · exact False.elim
  rw [words_line hl hbn h2 hw (by omega) hsup ha]
  have hadmits := connection_add_admits (socket := socket) hset.limits hset.paths
    (show url.length < 512 by omega) hp (live := st.live)
  by_cases hadm : Admits env.limits st.live peer url
  swap
  · rw [hadmits.2 hadm]
    refine ⟨fun _ => (harm True (by tauto)).mpr trivial, fun _ => ?_⟩
    simp only [ok_bind, Bool.not_false, if_true]
    obtain ⟨start, hst⟩ := findStatus_some (n := 429) (by decide)
    obtain ⟨st', h1, -⟩ := send_http_status_eq (env := env) (hs := [])
      (st := { st with input := rest, req := { lineReq socket peer (text.take (text.length - 2)) method with url := url } })
      (noHeaders rfl rfl) hst (message := []) (by simp)
    unfold too_many_connections
    have h1' : send_http_status env { st with input := rest, live := st.live, req :=
        { lineReq socket peer (text.take (text.length - 2)) method with url := url } } 429 [] = ok st' := h1
    rw [h1']
    exact ⟨_, rfl⟩
  obtain ⟨a, c, b, e1, e2, e3, hadd⟩ := hadmits.1 hadm
  rw [hadd, harm (HeadFits regs method url lines hs (bodyKept (o.getD 0) body)) (by tauto)]
  simp only [ok_bind, Bool.not_true, Bool.false_eq_true, if_false]
  have hbuf := lineBytes_buf hl.2.1
  obtain ⟨g1, g2, g3⟩ := hbuf
  have hg : (lineBytes line).getLast? = some 0 := by rw [g3]; simp
  obtain ⟨d1, d2⟩ := C69_defined (lineBytes line) rest body lines peer g1 hg hsec
  by_cases ho : ∀ l ∈ lines, ∀ t, BeforeNul l t → ¬ Overrun t
  swap
  · refine ⟨?_, fun h => absurd h.1 ho⟩
    rintro ⟨x, hx⟩
    obtain ⟨h, hh, -⟩ := bind_eq_ok.mp hx
    exact absurd (d1.mp ⟨h, hh⟩) ho
  obtain ⟨x, hx⟩ := d1.mpr ho
  rw [hx]
  simp only [ok_bind]
  have hz : ∀ p ∈ hs.take 20, NulFree p.1 ∧ NulFree p.2 := fun p hp => headers_nulFree hn p (List.mem_of_mem_take hp)
  generalize hst0 : servedSt st (a ++ ⟨socket, url, peer⟩ :: b) socket peer (text.take (text.length - 2)) method url x = st0
  have hstored : st0.req.Stored (hs.take 20) := by
    subst hst0
    exact stored_of g1 hg hsec hn hx ⟨rfl, rfl⟩
  have hfs : st0.fs = st.fs := by subst hst0; rfl
  by_cases hfit : FitsLog (hs.take 20)
  swap
  · refine ⟨?_, fun h => absurd h.2.1 hfit⟩
    rintro ⟨y, hy⟩
    obtain ⟨⟨st1, ev⟩, h1, -⟩ := bind_eq_ok.mp hy
    exfalso
    unfold dispatch at h1
    obtain ⟨⟨path, query⟩, -, h1⟩ := bind_eq_ok.mp h1
    dsimp only at h1
    split at h1
    · split at h1
      · obtain ⟨s, h2, h1⟩ := bind_eq_ok.mp h1
        exact absurd h2 (handle_static_long (Stored.same (a := st0) hstored ⟨rfl, rfl⟩) hz hfit
          (by show is_file st0.fs _ = true; rw [hfs]; exact is_file_iff.mpr hset.index))
      · obtain ⟨s, h2, h1⟩ := bind_eq_ok.mp h1
        exact (bad_request_long h2 (by exact Stored.same (a := st0) hstored ⟨rfl, rfl⟩) hz hfit).elim
    · obtain ⟨p, -, h1⟩ := bind_eq_ok.mp h1
      unfold handle_api_request at h1
      obtain ⟨s1, h2, h1⟩ := bind_eq_ok.mp h1
      have t := readForm_table h2
      exact (router_long (Stored.same (a := st0) hstored t) hz hfit h1).2 hset.responds
  obtain ⟨pieces, hr⟩ := runs_exists b!"?" url
  obtain ⟨-, session, s1, s2⟩ := C43_bounded (lineBytes line) rest body lines peer x g1 hg hsec hx
  obtain ⟨last, f0, -, -, -, -, f4, f5, -⟩ := parse_fields ⟨g1, g2, g3⟩ hsec hx
  have hb0 : LineBuf (Head.init (lineBytes line) peer).bs := (lineBytes_buf hl.2.1).load (line := [65]) (by decide)
  have hbd : x.boundary = [] ∨ o.getD 0 = 0 := by
    rcases hmp with h | hmp
    · exact Or.inr h
    · exact Or.inl (f4.trans (foldl_boundary_same lines _ (fun l hl => hmp l hl _ (untilNul_before l))))
  have hclen := foldl_clen hcl _ hb0 rfl hsec.length_le (fun m hm => by subst hm; exact hlt) hsp
  have hclen : x.content_length = (o.map (fun m => (m : Int))).getD (-1) := by
    rw [f5]
    cases o <;> exact hclen
  have key := dispatch_fits (st0 := st0) (hs := hs.take 20) (url := url) (boundary := x.boundary) (session := session) (o := o)
    (pieces := pieces) hset hfs ⟨hstored, hz, hfit⟩ (by subst hst0; exact s1) s2
    (by subst hst0; show NulFree method; rw [w1]
        exact NulFree.mono hbn.1 (fun c hc => by
          obtain ⟨t, ht⟩ := wordAt_zero_prefix text 254
          rw [ht]; simp [hc]))
    (by subst hst0; rfl) hbd w3 w2 hr
  have em : st0.req.method = method := by subst hst0; rfl
  have ei : st0.input = body := by subst hst0; exact f0
  rw [em, ei] at key
  rw [hclen]
  constructor
  · rintro ⟨y, hy⟩
    obtain ⟨z, hz', -⟩ := bind_eq_ok.mp hy
    refine ⟨ho, hfit, fun ps hps => ?_⟩
    rw [← runs_unique hr hps]
    exact key.mp ⟨z, hz'⟩
  · intro h
    obtain ⟨⟨z, ev⟩, hz'⟩ := key.mpr (h.2.2 pieces hr)
    rw [hz']
    exact ⟨_, rfl⟩

/-! ### short lines -/

theorem runs_half {delim s : Str} {ts : List Str} (h : Runs delim s ts) : 2 * ts.length ≤ s.length + 1 := by
  induction h with
  | nil => simp
  | last d t hd ht htd =>
    have := List.length_pos_iff.mpr ht
    simp; omega
  | cons d t x s ts hd ht htd hx _ ih =>
    have := List.length_pos_iff.mpr ht
    simp; omega

theorem nonzero_le {line w : Str} (h : w.Sublist (padded line)) (hz : NulFree w) : w.length ≤ line.length := by
  have h1 := (h.filter (fun c => c != 0)).length_le
  have h2 : w.filter (fun c => c != 0) = w := List.filter_eq_self.mpr (fun c hc => by simpa using hz c hc)
  have h3 : (padded line).filter (fun c => c != 0) = line.filter (fun c => c != 0) := by
    unfold padded
    rw [List.filter_append]
    simp
  rw [h2, h3] at h1
  have := List.length_filter_le (fun c => c != 0) line
  omega

theorem beforeNul_prefix {s t : Str} (h : BeforeNul s t) : t <+: s := by
  rcases h.2 with rfl | ⟨r, rfl⟩
  · exact List.prefix_refl _
  · exact List.prefix_append _ _

/-- The words of a line are not longer than it, and the array does not end before them. -/
theorem words_short {line method url after : Str} (h : Words line method url after) (hl : line.length < 400) :
    method.length + url.length ≤ line.length ∧ NulFree method ∧ NulFree url ∧ after ≠ [] := by
  obtain ⟨m, r1, gap, r2, u, h1, h2, h3, h4, h5⟩ := h
  have e : padded line = m ++ (gap ++ (u ++ after)) := by rw [h1.1, h2.1, h3.1]
  refine ⟨?_, h4.1, h5.1, ?_⟩
  · rw [← List.length_append]
    refine nonzero_le ?_ (nulFree_append.mpr ⟨h4.1, h5.1⟩)
    rw [e]
    refine List.Sublist.append (beforeNul_prefix h4).sublist ?_
    exact ((beforeNul_prefix h5).trans (List.prefix_append u after)).sublist.trans (List.sublist_append_right gap _)
  · rintro rfl
    have hlen := congrArg List.length e
    have hm := h1.2.2.1
    have hu := h3.2.2.1
    have hg : gap.length ≤ line.length := by
      refine nonzero_le ?_ ?_
      · rw [e]
        exact (List.sublist_append_left gap _).trans (List.sublist_append_right m _)
      · rintro c hc rfl
        have := h2.2.1 0 hc
        unfold White at this
        revert this
        decide
    unfold padded at hlen
    simp at hlen
    omega

theorem named_length {lines : List (List Byte)} {hs : List (Str × Str)} (h : Named lines hs) :
    ∀ p ∈ hs, ∃ l ∈ lines, p.2.length ≤ l.length := by
  induction h with
  | nil => simp
  | header line text name value lines hs hb hl _ ih =>
    intro p hp
    rcases List.mem_cons.mp hp with rfl | hp
    · refine ⟨line, by simp, ?_⟩
      have := (beforeNul_prefix hb).length_le
      obtain ⟨a, b, rfl, -, -, l, r, rfl, -⟩ := hl
      simp at this ⊢
      omega
    · obtain ⟨l, hl, h⟩ := ih p hp
      exact ⟨l, by simp [hl], h⟩
  | other line text lines hs hb hl _ ih =>
    intro p hp
    obtain ⟨l, hl, h⟩ := ih p hp
    exact ⟨l, by simp [hl], h⟩

theorem lengthOf_none (lines : List (List Byte)) (h : ∀ l ∈ lines, ∀ t, BeforeNul l t → ¬ CasePrefix b!"Content-Length:" t) :
    LengthOf lines none := by
  induction lines using List.reverseRecOn with
  | nil => exact .none
  | append_singleton lines l ih =>
    refine .other lines none l _ (ih (fun l' hl => h l' (by simp [hl]))) (untilNul_before l) (fun v hv => ?_)
    exact h l (by simp) _ (untilNul_before l)
      ((startswith_iff _ _).mp ((fieldLine_startswith (name := b!"Content-Length")).mp ⟨v, hv⟩))

/-- C145 in full: on a server set up well no request, whatever its bytes, makes it leave defined behaviour. -/
def C145_statement : Prop :=
  ∀ (env : Env) (st : St) (socket : Nat) (peer : Str) (regs : List Registration), SoundSetup env st regs → peer.length < 16 →
    (accept_request env st socket peer).IsOk

/-- C145, what holds without a closer look at the bytes: a request all of whose lines have less than 74 bytes, whose first line has
two bytes before any NUL, whose URL has a byte other than a question mark, and that announces no body, is handled to its end.
Missing: all other requests, for which `C145_exact` says what is required of them. -/
theorem C145_partial (env : Env) (st : St) (socket : Nat) (peer line rest body : Str) (lines : List (List Byte))
    (regs : List Registration) (hset : SoundSetup env st regs) (hp : peer.length < 16)
    (hl : LineOf st.input 1023 line rest) (hsec : Section rest lines body)
    (hshort : ∀ l ∈ line :: lines, l.length < 74)
    (htext : ∀ text, BeforeNul line text → 2 ≤ text.length)
    (hurl : ∀ method url after, Words line method url after → ∃ c ∈ url, c ≠ 63)
    (hno : ∀ l ∈ lines, ∀ t, BeforeNul l t → ¬ CasePrefix b!"Content-Length:" t) :
    (accept_request env st socket peer).IsOk := by
  obtain ⟨hs, hn⟩ := named_exists lines
  rw [C145_exact env st socket peer line rest body lines hs none regs hset hp hl hsec hn (lengthOf_none lines hno) (by decide)
    (fun l hl t ht h => absurd h (hno l hl t ht)) (Or.inl rfl)]
  refine ⟨htext, fun method url after hw _ => ?_⟩
  have hll := hshort line (by simp)
  obtain ⟨w1, w2, w3, w4⟩ := words_short hw (by omega)
  refine ⟨w4, fun _ => ⟨?_, ?_, ?_⟩⟩
  · intro l hl t ht
    have h1 := hshort l (by simp [hl])
    have h2 := (beforeNul_prefix ht).length_le
    rintro (⟨-, r, ⟨p, m, rfl, -⟩, h⟩ | ⟨-, h⟩)
    · simp at h2; omega
    · omega
  · intro name _ v hv
    obtain ⟨a, b, e, -⟩ := hv
    have : (name, v) ∈ hs := List.mem_of_mem_take (by rw [e]; simp)
    obtain ⟨l, hl, h⟩ := named_length hn _ this
    have := hshort l (by simp [hl])
    simp only at h
    omega
  · intro pieces hr
    have hc := runs_half hr
    refine ⟨?_, by omega, ?_⟩
    · rintro rfl
      obtain ⟨c, hc, hne⟩ := hurl method url after hw
      cases hr with
      | nil _ hd => exact hne (by simpa using hd c hc)
    · intro _ mount path hpath hm
      have hlen : (mount ++ path).length ≤ url.length := runs_token_length hr _ (List.mem_of_mem_head? hpath)
      rw [List.length_append] at hlen
      refine ⟨by omega, fun r pre name _ _ f hf => Or.inl ?_⟩
      have := (beforeNul_prefix hf).length_le
      simpa [bodyKept] using this

/-- A server with pages, routes and user code. -/
def soundEnv : Env := { jsonUserEnv with routes := sampleRegs.map regRoute }

theorem soundEnv_setup (input : Str) (live : List Conn) : SoundSetup soundEnv { docsSt [] with input := input, live := live } sampleRegs where
  limits := by decide
  paths := by intro l hl; cases hl
  root := by decide
  idx := by decide
  icon := by decide
  stack := ⟨[65], ⟨[], rfl, by decide⟩, by decide⟩
  index := ⟨b!"site", show docsFs.lookup b!"/www/index.html" = _ by decide +kernel⟩
  small := by
    intro name c h
    have h : docsFs.lookup name = some (.file c) := openRead_of_node h
    unfold FS.lookup at h
    cases hr : docsFs.resolve name with
    | none => rw [hr] at h; cases h
    | some p =>
      rw [hr] at h
      have h : docsFs.nodeAt p = some (.file c) := h
      unfold FS.nodeAt at h
      split at h
      · cases h
      · exact docs_small h
  valid := by decide
  registered := by decide +kernel
  names := by
    intro r hr pre name ht
    simp only [sampleRegs, List.mem_cons, List.not_mem_nil, or_false] at hr
    rcases hr with rfl | rfl | rfl
    · cases ht
    · cases ht
      decide
    · cases ht
  responds := ⟨fun _ _ _ h hz hf _ => return_json_long h hz hf, fun _ _ _ _ h => by cases h; exact ⟨rfl, rfl⟩, fun _ _ _ _ _ _ _ h => by cases h⟩
  defined := by
    refine ⟨fun id st hs hh => ?_, fun id st hs _ => ⟨_, rfl⟩⟩
    obtain ⟨st', h, -⟩ := return_json_eq (env := sampleEnv) hh (status := 200) (data := b!"{}") (start := b!"HTTP/1.1 200 OK\r\n") (by decide) (by decide)
    exact ⟨st', h⟩

/-- C145 is false of the code: a client that closes its connection without a word makes the server write before an array. -/
theorem C145_refuted : ¬ C145_statement := by
  intro h
  obtain ⟨x, hx⟩ := h soundEnv _ 7 b!"10.0.0.1" sampleRegs (soundEnv_setup [] [⟨0, [], []⟩]) (by decide)
  rw [C41_short soundEnv _ 7 b!"10.0.0.1" [] [] [] (by decide) ⟨rfl, by decide, by decide, Or.inr (Or.inr rfl)⟩ ⟨by decide, Or.inl rfl⟩ (by decide)] at hx
  cases hx

/-- The words of a line, computed. -/
theorem words_make {line method url after : Str} (h : untilNul (wordAt (padded line) 254 0) = method ∧
    untilNul (wordAt (((padded line).drop (wordAt (padded line) 254 0).length).drop
      (gapAt ((padded line).drop (wordAt (padded line) 254 0).length) 0).length) 254 0) = url ∧
    (((padded line).drop (wordAt (padded line) 254 0).length).drop
      (gapAt ((padded line).drop (wordAt (padded line) 254 0).length) 0).length).drop
      (wordAt (((padded line).drop (wordAt (padded line) 254 0).length).drop
        (gapAt ((padded line).drop (wordAt (padded line) 254 0).length) 0).length) 254 0).length = after) : Words line method url after := by
  obtain ⟨rfl, rfl, rfl⟩ := h
  exact ⟨_, _, _, _, _, wordOf_exists 254 _, gapOf_exists _, wordOf_exists 254 _, untilNul_before _, untilNul_before _⟩

theorem sound_words : Words b!"GET /a.txt?x HTTP/1.1\r\n" b!"GET" b!"/a.txt?x" (b!" HTTP/1.1\r\n" ++ List.replicate 1001 0) :=
  words_make (by decide +kernel)

/-- A page request with a header. -/
example : (accept_request soundEnv { docsSt [] with input := b!"GET /a.txt?x HTTP/1.1\r\nHost: a\r\n\r\n", live := [⟨0, [], []⟩] } 7 b!"10.0.0.1").IsOk :=
  C145_partial soundEnv _ 7 b!"10.0.0.1" b!"GET /a.txt?x HTTP/1.1\r\n" b!"Host: a\r\n\r\n" [] [b!"Host: a\r\n"] sampleRegs
    (soundEnv_setup _ _) (by decide) ⟨rfl, by decide, by decide, Or.inr (Or.inl rfl)⟩
    (one_line_section (line := b!"Host: a\r\n") (by decide) (by decide) (by decide) (by decide) (by decide) [])
    (by decide) (fun t ht => by rw [beforeNul_eq ht]; decide)
    (fun m u a hw => by
      obtain ⟨-, rfl, -⟩ := words_unique sound_words hw
      exact ⟨47, by decide, by decide⟩)
    (fun l hl t ht => by
      rw [List.mem_singleton.mp hl] at ht
      rw [beforeNul_eq ht, ← startswith_iff]
      decide)

theorem sound_posted : LengthOf [b!"Content-Length: 1\r\n"] (some 1) := by
  have := LengthOf.field [] none b!"Content-Length: 1\r\n" b!"Content-Length: 1\r\n" b!"1" .none ⟨by decide, Or.inl rfl⟩
    ⟨b!"Content-Length", b!" 1\r\n", rfl, rfl, by rw [show b!"1" = strip b!" 1\r\n" by decide]; exact isStrip_strip _⟩ (by decide)
    (by unfold digit; decide)
  exact this

/-- One byte posted to a route with a parameter: the condition fails, by the theorem and by computation. -/
example : ¬ Harmless [] [⟨0, [], []⟩] b!"10.0.0.1" sampleRegs b!"GET /api/user/5 HTTP/1.1\r\n" [b!"Content-Length: 1\r\n"]
    [headerPair b!"Content-Length: 1\r\n"] (bodyKept 1 b!"x") := by
  refine fun h => ?_
  have hn : Named [b!"Content-Length: 1\r\n"] [headerPair b!"Content-Length: 1\r\n"] :=
    .header _ _ _ _ _ _ (untilNul_before _) (headerLine_iff.mpr ⟨by decide, rfl⟩) .nil
  obtain ⟨x, hx⟩ := (C145_exact soundEnv { docsSt [] with input := b!"GET /api/user/5 HTTP/1.1\r\nContent-Length: 1\r\n\r\nx", live := [⟨0, [], []⟩] }
    7 b!"10.0.0.1" b!"GET /api/user/5 HTTP/1.1\r\n" b!"Content-Length: 1\r\n\r\nx" b!"x" [b!"Content-Length: 1\r\n"]
    [headerPair b!"Content-Length: 1\r\n"] (some 1) sampleRegs (soundEnv_setup _ _) (by decide)
    ⟨rfl, by decide, by decide, Or.inr (Or.inl rfl)⟩
    (one_line_section (line := b!"Content-Length: 1\r\n") (by decide) (by decide) (by decide) (by decide) (by decide) b!"x")
    hn sound_posted (by decide)
    (fun l hl t ht _ => by
      rw [List.mem_singleton.mp hl] at ht
      rw [beforeNul_eq ht, ← startswith_iff]
      decide)
    (Or.inr (fun l hl t ht => by
      rw [List.mem_singleton.mp hl] at ht
      rw [beforeNul_eq ht, ← startswith_iff]
      decide))).mpr h
  have : (accept_request soundEnv { docsSt [] with input := b!"GET /api/user/5 HTTP/1.1\r\nContent-Length: 1\r\n\r\nx", live := [⟨0, [], []⟩] }
    7 b!"10.0.0.1").bind (fun _ => ok ()) = ub .oob := by decide +kernel
  rw [hx] at this
  cases this

/-- The same after a NUL byte, with room for the parameter in the form. -/
example : (accept_request soundEnv { docsSt [] with input := b!"GET /api/user/5 HTTP/1.1\r\nContent-Length: 7\r\n\r\n" ++ [120, 0, 0, 0, 0, 0, 0], live := [⟨0, [], []⟩] }
    7 b!"10.0.0.1").bind (fun _ => ok ()) = ok () := by decide +kernel

/-- A URL that runs out of the array of the line. -/
example : Words (b!"GET" ++ List.replicate 1000 32) b!"GET" [] [] := words_make (by decide +kernel)
example : Words (b!"GET" ++ List.replicate 400 32) b!"GET" [] (List.replicate 367 0) := words_make (by decide +kernel)

end Wayuu
