import Verif.Spec.Smuggling
import Verif.Props.Forms
/-
C114: requests that are not clear about the length of their body (ws.c:592-596 and 292-302).
-/
namespace Wayuu
open C Spec

/-- C114 in full: no handler is run by a request whose body can be seen to end at different places. -/
def C114_statement : Prop :=
  ∀ (env : Env) (st st' : St) (socket : Nat) (peer method url path query body : Str) (lines : List (List Byte))
    (hs : List (Str × Str)) (regs : List Registration) (r : Registration) (h : Nat) (ev : List Event),
    ApiCall env st peer method url path query body lines hs regs r h → Unclear lines →
    accept_request env st socket peer = ok (st', ev) → ev = []

/-- `atoi` on white space, a sign or none, digits, and anything that does not begin with a digit. -/
theorem atoi_signed {l sign d r : Str} (hl : ∀ c ∈ l, ws c = true) (hs : sign = [] ∨ sign = [43] ∨ sign = [45]) (hne : d ≠ [])
    (hd : ∀ c ∈ d, digit c) (hr : ∀ c, r.head? = some c → ¬ digit c) :
    atoi (l ++ sign ++ d ++ r) = narrowed (if sign = [45] then -(decimal d : Int) else decimal d) := by
  have hsp : ∀ c : Byte, digit c → isSpace c = false ∧ c ≠ 45 ∧ c ≠ 43 := by
    intro c
    have key : ∀ n : Fin 256, 48 ≤ (UInt8.ofNat n.val).toNat ∧ (UInt8.ofNat n.val).toNat ≤ 57 →
      isSpace (UInt8.ofNat n.val) = false ∧ UInt8.ofNat n.val ≠ 45 ∧ UInt8.ofNat n.val ≠ 43 := by decide +kernel
    have := key ⟨c.toNat, c.toNat_lt⟩
    simpa [digit] using this
  have hval : digitsVal (d ++ r) 0 = decimal d := digitsVal_eq _ _ _ hd hr
  obtain ⟨c, d, rfl⟩ := List.exists_cons_of_ne_nil hne
  have hc := hsp c (hd c (by simp))
  have hdw : (l ++ sign ++ (c :: d) ++ r).dropWhile isSpace = sign ++ (c :: d ++ r) := by
    rw [List.append_assoc, List.append_assoc, List.dropWhile_append_of_pos (fun d h => by rw [isSpace_eq_ws]; exact hl d h)]
    rcases hs with rfl | rfl | rfl
    · simp [hc.1]
    · simp [show isSpace 43 = false by decide]
    · simp [show isSpace 45 = false by decide]
  unfold atoi
  rw [hdw]
  rw [List.cons_append] at hval ⊢
  rcases hs with rfl | rfl | rfl
  · dsimp only [List.nil_append]
    split
    · rename_i heq; simp at heq; exact absurd heq.1 hc.2.1
    · rename_i heq; simp at heq; exact absurd heq.1 hc.2.2
    simp only [Bool.false_eq_true, if_false, hval]
    simp [narrowed, toInt32]
  · simp [hval, narrowed, toInt32]
  · simp [hval, narrowed, toInt32]

/-- A length line ends what earlier lines said. -/
theorem step_length {a : Head} {line text n l sign d r : Str} (ha : LineBuf a.bs) (hlen : line.length ≤ 1023) (ht : BeforeNul line text)
    (htext : text = n ++ 58 :: 32 :: (l ++ sign ++ d ++ r)) (hn : CaseEq n b!"Content-Length")
    (hl : ∀ c ∈ l, ws c = true) (hs : sign = [] ∨ sign = [43] ∨ sign = [45]) (hne : d ≠ []) (hd : ∀ c ∈ d, digit c)
    (hr : ∀ c, r.head? = some c → ¬ digit c) :
    (a.step line).clen = narrowed (if sign = [45] then -(decimal d : Int) else decimal d) := by
  show nextLength a.clen (loadLine a.bs line) = _
  have hnl : n.length = 14 := by have := congrArg List.length (hn : n.map lower = _); simpa using this
  have hs' : startswith text b!"Content-Length:" = true := by
    refine (startswith_iff _ _).mpr ⟨n ++ [58], 32 :: (l ++ sign ++ d ++ r), by rw [htext]; simp, ?_⟩
    unfold CaseEq at *
    rw [List.map_append, hn]; rfl
  unfold nextLength
  rw [untilNul_loadLine, ← beforeNul_eq ht, if_pos hs', (ha.load hlen).tail (by
    rw [untilNul_loadLine, ← beforeNul_eq ht, htext]; simp; omega), untilNul_loadLine, ← beforeNul_eq ht, htext,
    show n ++ 58 :: 32 :: (l ++ sign ++ d ++ r) = (n ++ [58, 32]) ++ (l ++ sign ++ d ++ r) by simp, drop_at (by simp; omega)]
  exact atoi_signed hl hs hne hd hr

/-- Lines after it that are for other fields change nothing. -/
theorem foldl_clen_keep {lines : List (List Byte)} {a : Head} (ha : LineBuf a.bs) (hlen : ∀ l ∈ lines, l.length ≤ 1023)
    (h : ∀ v, ¬ HasField lines b!"Content-Length" v) : (lines.foldl Head.step a).clen = a.clen := by
  induction lines generalizing a with
  | nil => rfl
  | cons l lines ih =>
    rw [List.foldl_cons, ih (a := a.step l) (LineBuf.foldl (lines := [l]) ha (by simpa using hlen l (by simp))) (fun x hx => hlen x (by simp [hx]))]
    · exact (step_clen a l ha (hlen l (by simp))).2 (fun v hv => h v ⟨l, by simp, _, untilNul_before l, hv⟩)
    · rintro v ⟨x, hx, t, h1, h2⟩
      exact h v ⟨x, by simp [hx], t, h1, h2⟩

/-- An API request whose length field is read as `k`: the handler is run on the next `k` bytes. -/
theorem framed {env : Env} {st : St} {peer method url path query body : Str} {lines : List (List Byte)} {hs : List (Str × Str)}
    {regs : List Registration} {r : Registration} {h : Nat} (hc : ApiCall env st peer method url path query body lines hs regs r h)
    (socket : Nat) (k : Int)
    (hk : ∀ (bs : List Byte), LineBuf bs → (∀ l ∈ lines, l.length ≤ 1023) →
      (lines.foldl Head.step (.init bs peer)).clen = k) (hbody : k ≤ body.length)
    (hmp : ∀ l ∈ lines, ∀ t, BeforeNul l t → ¬ CasePrefix b!"Content-Type: multipart/form-data" t) :
    ∃ st0 : St, Seen st st0 socket method url path query hs ∧ st0.req.form = (body.take k.toNat).map some ++ [some 0] ∧
      st0.input = body.drop k.toNat ∧ st0.fs = st.fs ∧
      ∀ st' ev, accept_request env st socket peer = ok (st', ev) ↔
        ∃ st1, Dispatched env h r.filter st0 st1 ev ∧ st' = connection_close st1 := by
  obtain ⟨line, x, st2, hlb, h1, h2, h3, h4, ⟨h5, h5'⟩, h6, h7⟩ := api_call hc socket
  have hbd : x.boundary = [] := h1.trans (foldl_boundary_same lines _ (fun l hl => hmp l hl _ (untilNul_before l)))
  have hcl : x.content_length = k := h2.trans (hk _ hlb h3)
  rw [hbd, hcl] at h7
  by_cases h0 : 0 < k
  · obtain ⟨m, rfl⟩ : ∃ m : Nat, k = m := ⟨k.toNat, by omega⟩
    have hm := readForm_plain env st2 m (by omega) [] (by decide) (by rw [h4]; omega)
    rw [h4] at hm
    exact ⟨{ st2 with input := body.drop m, req := { st2.req with form := (body.take m).map some ++ [some 0] } }, ⟨h6.method, h6.path, h6.query, ⟨h6.headers.1, h6.headers.2⟩, h6.url, h6.socket, h6.out⟩, rfl, rfl, h5,
      h7 _ hm h6.method h6.path⟩
  · have hm : readForm env st2 k [] = ok st2 := by
      unfold readForm
      rw [if_neg h0]
    have hk0 : k.toNat = 0 := by omega
    refine ⟨st2, h6, ?_, ?_, h5, h7 _ hm h6.method h6.path⟩
    · rw [h5', hk0]; rfl
    · rw [hk0, h4]; rfl

/-- C114, what the server takes for the length: of the lines `Content-Length: …` the last one counts, whatever the earlier
ones say; of that line the digits after blanks and a sign count, whatever follows them; and of the number the lower 32 bits
(`narrowed`). Fields that give a transfer encoding do not matter. If the number is not positive there is no body. -/
theorem C114_last (env : Env) (st : St) (socket : Nat) (peer method url path query body : Str) (before after : List (List Byte))
    (line text n l sign d rest : Str) (hs : List (Str × Str)) (regs : List Registration) (r : Registration) (h : Nat)
    (hc : ApiCall env st peer method url path query body (before ++ line :: after) hs regs r h) (ht : BeforeNul line text)
    (htext : text = n ++ 58 :: 32 :: (l ++ sign ++ d ++ rest)) (hn : CaseEq n b!"Content-Length")
    (hl : ∀ c ∈ l, ws c = true) (hsg : sign = [] ∨ sign = [43] ∨ sign = [45]) (hne : d ≠ []) (hd : ∀ c ∈ d, digit c)
    (hr : ∀ c, rest.head? = some c → ¬ digit c) (hafter : ∀ v, ¬ HasField after b!"Content-Length" v)
    (hmp : ∀ l ∈ before ++ line :: after, ∀ t, BeforeNul l t → ¬ CasePrefix b!"Content-Type: multipart/form-data" t)
    (k : Int) (hk : k = narrowed (if sign = [45] then -(decimal d : Int) else decimal d)) (hbody : k ≤ body.length) :
    ∃ st0 : St, Seen st st0 socket method url path query hs ∧ st0.req.form = (body.take k.toNat).map some ++ [some 0] ∧
      st0.input = body.drop k.toNat ∧ st0.fs = st.fs ∧
      ∀ st' ev, accept_request env st socket peer = ok (st', ev) ↔
        ∃ st1, Dispatched env h r.filter st0 st1 ev ∧ st' = connection_close st1 := by
  refine framed hc socket k ?_ hbody hmp
  intro bs hb hlen
  have hb0 : LineBuf (Head.init bs peer).bs := hb.load (line := [65]) (by decide)
  have hb1 := LineBuf.foldl (lines := before) hb0 (fun x hx => hlen x (by simp [hx]))
  have hb2 : LineBuf ((before.foldl Head.step (.init bs peer)).step line).bs :=
    LineBuf.foldl (lines := [line]) hb1 (by simpa using hlen line (by simp))
  rw [List.foldl_append, List.foldl_cons, foldl_clen_keep hb2 (fun x hx => hlen x (by simp [hx])) hafter, hk]
  exact step_length hb1 (hlen line (by simp)) ht htext hn hl hsg hne hd hr

/-- C114, transfer encodings: without a length field the handler is run on an empty body, whatever the other fields say. -/
theorem C114_encoded (env : Env) (st : St) (socket : Nat) (peer method url path query body : Str) (lines : List (List Byte))
    (hs : List (Str × Str)) (regs : List Registration) (r : Registration) (h : Nat)
    (hc : ApiCall env st peer method url path query body lines hs regs r h) (hno : ∀ v, ¬ HasField lines b!"Content-Length" v)
    (hmp : ∀ l ∈ lines, ∀ t, BeforeNul l t → ¬ CasePrefix b!"Content-Type: multipart/form-data" t) :
    ∃ st0 : St, Seen st st0 socket method url path query hs ∧ st0.req.form = [some 0] ∧ st0.input = body ∧ st0.fs = st.fs ∧
      ∀ st' ev, accept_request env st socket peer = ok (st', ev) ↔
        ∃ st1, Dispatched env h r.filter st0 st1 ev ∧ st' = connection_close st1 :=
  framed hc socket (-1) (fun bs hb hlen => foldl_clen_keep (hb.load (line := [65]) (by decide)) hlen hno) (by omega) hmp

/-- C114, what holds: if the length is clear (and there is a blank after the colon) the handler gets exactly the body.
Missing: the requests that are not clear, none of which is turned down for that. -/
theorem C114_partial (env : Env) (st : St) (socket : Nat) (peer method url path query body v : Str) (lines : List (List Byte))
    (hs : List (Str × Str)) (regs : List Registration) (r : Registration) (h : Nat)
    (hc : ApiCall env st peer method url path query body lines hs regs r h) (hclear : ¬ Unclear lines)
    (hv : HasField lines b!"Content-Length" v) (hbody : decimal v ≤ body.length)
    (hsp : ∀ l ∈ lines, ∀ t, BeforeNul l t → CasePrefix b!"Content-Length:" t → CasePrefix b!"Content-Length: " t)
    (hmp : ∀ l ∈ lines, ∀ t, BeforeNul l t → ¬ CasePrefix b!"Content-Type: multipart/form-data" t) :
    ∃ st0 : St, Seen st st0 socket method url path query hs ∧ st0.req.form = (body.take (decimal v)).map some ++ [some 0] ∧
      st0.input = body.drop (decimal v) ∧ st0.fs = st.fs ∧
      ∀ st' ev, accept_request env st socket peer = ok (st', ev) ↔
        ∃ st1, Dispatched env h r.filter st0 st1 ev ∧ st' = connection_close st1 := by
  have hgood : GoodLength v := by
    by_contra hg
    exact hclear (Or.inr (Or.inl ⟨v, hv, hg⟩))
  have key : ∀ ls : List (List Byte), (∀ l ∈ ls, l ∈ lines) →
      LengthOf ls none ∧ (∀ w, ¬ HasField ls b!"Content-Length" w) ∨ LengthOf ls (some (decimal v)) := by
    intro ls
    induction ls using List.reverseRecOn with
    | nil => intro _; exact Or.inl ⟨.none, by rintro w ⟨l, hl, -⟩; cases hl⟩
    | append_singleton ls l ih =>
      intro hin
      have hl := hin l (by simp)
      by_cases hf : ∃ w, FieldLine b!"Content-Length" (untilNul l) w
      · obtain ⟨w, hw⟩ := hf
        have hwv : w = v := by
          by_contra hne
          exact hclear (Or.inl ⟨w, v, ⟨l, hl, _, untilNul_before l, hw⟩, hv, hne⟩)
        subst hwv
        right
        rcases ih (fun x hx => hin x (by simp [hx])) with ⟨h1, -⟩ | h1
        · exact .field _ _ l _ w h1 (untilNul_before l) hw hgood.1 hgood.2.1
        · exact .field _ _ l _ w h1 (untilNul_before l) hw hgood.1 hgood.2.1
      · have hno : ∀ w, ¬ FieldLine b!"Content-Length" (untilNul l) w := fun w hw => hf ⟨w, hw⟩
        rcases ih (fun x hx => hin x (by simp [hx])) with ⟨h1, h2⟩ | h1
        · refine Or.inl ⟨.other _ _ l _ h1 (untilNul_before l) hno, ?_⟩
          rintro w ⟨x, hx, t, hx1, hx2⟩
          rcases List.mem_append.mp hx with hx | hx
          · exact h2 w ⟨x, hx, t, hx1, hx2⟩
          · rw [List.mem_singleton.mp hx] at hx1
            rw [beforeNul_eq hx1] at hx2
            exact hno w hx2
        · exact Or.inr (.other _ _ l _ h1 (untilNul_before l) hno)
  have hlo : LengthOf lines (some (decimal v)) := by
    rcases key lines (fun l hl => hl) with ⟨-, h⟩ | h
    · exact absurd hv (h v)
    · exact h
  have := framed hc socket (decimal v) (fun bs hb hlen => foldl_clen hlo _ (hb.load (line := [65]) (by decide)) rfl hlen
    (fun m hm => by cases hm; exact hgood.2.2) hsp) (by omega) hmp
  simpa using this

/-! ### a request that says two things -/

def firstLength : Str := b!"Content-Length: 30\r\n"
def secondLength : Str := b!"Content-Length: 3\r\n"
def unclearBody : Str := b!"x=1POST /api/evil HTTP/1.1\r\n\r\n"
def unclearSt : St :=
  { sampleSt with live := [⟨0, [], []⟩], input := b!"GET /api/a HTTP/1.1\r\n" ++ (firstLength ++ (secondLength ++ 13 :: 10 :: unclearBody)) }

theorem unclear_call : ApiCall sampleRouterEnv unclearSt b!"10.0.0.1" b!"GET" b!"/api/a" b!"/a" [] unclearBody
    ([] ++ firstLength :: [secondLength]) [headerPair firstLength, headerPair secondLength] sampleRegs
    ⟨.const b!"GET:/a", some 1, some 2⟩ 1 :=
  formCall unclearBody (by decide +kernel) (by decide +kernel) (by decide +kernel)
    (by decide +kernel) (by decide +kernel) (by decide +kernel) (by decide +kernel)

theorem unclear_lines : Unclear ([] ++ firstLength :: [secondLength]) := by
  refine Or.inl ⟨b!"30", b!"3", ⟨firstLength, by simp, firstLength, ⟨by decide, Or.inl rfl⟩, b!"Content-Length", b!" 30\r\n", rfl, rfl, ?_⟩,
    ⟨secondLength, by simp, secondLength, ⟨by decide, Or.inl rfl⟩, b!"Content-Length", b!" 3\r\n", rfl, rfl, ?_⟩, by decide⟩
  · rw [show b!"30" = strip b!" 30\r\n" by decide]; exact isStrip_strip _
  · rw [show b!"3" = strip b!" 3\r\n" by decide]; exact isStrip_strip _

example : givenForm sampleRouterEnv unclearSt = ok (some b!"x=1") := by decide +kernel

/-- C114 fails: of two lengths the server takes the second and runs the handler. -/
theorem C114_refuted : ¬ C114_statement := by
  intro h
  have h1 : (accept_request sampleRouterEnv unclearSt 7 b!"10.0.0.1").bind (fun x => ok x.2.length) = ok 2 := by
    decide +kernel
  obtain ⟨⟨st', ev⟩, hx, h2⟩ := bind_eq_ok.mp h1
  rw [h sampleRouterEnv unclearSt st' 7 _ _ _ _ _ _ _ _ _ _ 1 ev unclear_call unclear_lines hx] at h2
  cases h2

theorem no_multipart {a b : Str} (h1 : NulFree a ∧ startswith a b!"Content-Type: multipart/form-data" = false)
    (h2 : NulFree b ∧ startswith b b!"Content-Type: multipart/form-data" = false) :
    ∀ l ∈ [] ++ a :: [b], ∀ t, BeforeNul l t → ¬ CasePrefix b!"Content-Type: multipart/form-data" t := by
  intro l hl t ht hc
  have hc := (startswith_iff _ _).mpr hc
  rcases (show l = a ∨ l = b by simpa using hl) with rfl | rfl
  · rw [beforeNul_eq ht, untilNul_of_nulFree h1.1, h1.2] at hc; cases hc
  · rw [beforeNul_eq ht, untilNul_of_nulFree h2.1, h2.2] at hc; cases hc

/-- `C114_last` on this request. -/
example : ∃ st0 : St, st0.req.form = strdup b!"x=1" ∧ st0.input = unclearBody.drop 3 ∧
    ∀ st' ev, accept_request sampleRouterEnv unclearSt 7 b!"10.0.0.1" = ok (st', ev) ↔
      ∃ st1, Dispatched sampleRouterEnv 1 (some 2) st0 st1 ev ∧ st' = connection_close st1 := by
  obtain ⟨st0, -, h1, h2, -, h3⟩ := C114_last sampleRouterEnv unclearSt 7 _ _ _ _ _ _ [firstLength] [] secondLength secondLength
    b!"Content-Length" [] [] b!"3" b!"\r\n" _ _ _ 1 unclear_call ⟨by decide, Or.inl rfl⟩ rfl rfl (by simp) (Or.inl rfl) (by simp)
    (by unfold digit; decide) (by unfold digit; decide) (by rintro v ⟨l, hl, -⟩; cases hl)
    (no_multipart ⟨by decide, by decide⟩ ⟨by decide, by decide⟩) 3 (by decide) (by decide)
  exact ⟨st0, h1, h2, h3⟩

def chunked : Str := b!"Transfer-Encoding: chunked\r\n"
def chunkedBody : Str := b!"3\r\nx=1\r\n0\r\n\r\n"
def plainBody : Str := b!"x=1"
def hostLine : Str := b!"Host: h\r\n"

def linesSt (a b body : Str) : St :=
  { sampleSt with live := [⟨0, [], []⟩], input := b!"GET /api/a HTTP/1.1\r\n" ++ (a ++ (b ++ 13 :: 10 :: body)) }

/-- `C114_encoded`: a chunked body, and `C114_partial`: a clear one. -/
example : (∃ st0 : St, st0.req.form = strdup [] ∧ ∀ st' ev,
      accept_request sampleRouterEnv (linesSt chunked hostLine chunkedBody) 7 b!"10.0.0.1" = ok (st', ev) ↔
        ∃ st1, Dispatched sampleRouterEnv 1 (some 2) st0 st1 ev ∧ st' = connection_close st1) ∧
    (∃ st0 : St, st0.req.form = strdup b!"x=1" ∧ ∀ st' ev,
      accept_request sampleRouterEnv (linesSt hostLine secondLength plainBody) 7 b!"10.0.0.1" = ok (st', ev) ↔
        ∃ st1, Dispatched sampleRouterEnv 1 (some 2) st0 st1 ev ∧ st' = connection_close st1) := by
  have hno : ∀ (name a : Str), NulFree a → startswith a (name ++ [58]) = false → ∀ t v, BeforeNul a t → ¬ FieldLine name t v := by
    intro name a hz hs t v ht hf
    have := fieldLine_startswith.mp ⟨v, hf⟩
    rw [beforeNul_eq ht, untilNul_of_nulFree hz, hs] at this
    cases this
  constructor
  · obtain ⟨st0, -, h1, -, -, h3⟩ := C114_encoded sampleRouterEnv _ 7 _ _ _ _ _ _ _ _ _ _ 1
      (formCall (ct := chunked) (cl := hostLine) chunkedBody (by decide +kernel) (by decide +kernel) (by decide +kernel)
        (by decide +kernel) (by decide +kernel) (by decide +kernel) (by decide +kernel))
      (by
        rintro v ⟨l, hl, t, ht, hf⟩
        rcases (show l = chunked ∨ l = hostLine by simpa using hl) with rfl | rfl
        · exact hno _ chunked (by decide) (by decide) t v ht hf
        · exact hno _ hostLine (by decide) (by decide) t v ht hf)
      (no_multipart ⟨by decide, by decide⟩ ⟨by decide, by decide⟩)
    exact ⟨st0, h1, h3⟩
  · have hfield : ∀ v, HasField ([] ++ hostLine :: [secondLength]) b!"Content-Length" v → v = b!"3" := by
      rintro v ⟨l, hl, t, ht, hf⟩
      rcases (show l = hostLine ∨ l = secondLength by simpa using hl) with rfl | rfl
      · exact absurd hf (hno _ hostLine (by decide) (by decide) t v ht)
      · have := fieldLine_drop hf
        rw [beforeNul_eq ht] at this
        rw [← this]; decide
    have h3 : HasField ([] ++ hostLine :: [secondLength]) b!"Content-Length" b!"3" := by
      refine ⟨secondLength, by simp, secondLength, ⟨by decide, Or.inl rfl⟩, b!"Content-Length", b!" 3\r\n", rfl, rfl, ?_⟩
      rw [show b!"3" = strip b!" 3\r\n" by decide]; exact isStrip_strip _
    obtain ⟨st0, -, h1, -, -, h4⟩ := C114_partial sampleRouterEnv _ 7 _ _ _ _ _ _ b!"3" _ _ _ _ 1
      (formCall (ct := hostLine) (cl := secondLength) plainBody (by decide +kernel) (by decide +kernel) (by decide +kernel)
        (by decide +kernel) (by decide +kernel) (by decide +kernel) (by decide +kernel))
      (by
        rintro (⟨v, w, hv, hw, hne⟩ | ⟨v, hv, hg⟩ | ⟨v, l, hl, t, ht, hf⟩)
        · exact hne ((hfield v hv).trans (hfield w hw).symm)
        · rw [hfield v hv] at hg
          exact hg ⟨by decide, by unfold digit; decide, by decide⟩
        · rcases (show l = hostLine ∨ l = secondLength by simpa using hl) with rfl | rfl
          · exact hno _ hostLine (by decide) (by decide) t v ht hf
          · exact hno _ secondLength (by decide) (by decide) t v ht hf)
      h3 (by decide)
      (by
        intro l hl t ht hc
        rcases (show l = hostLine ∨ l = secondLength by simpa using hl) with rfl | rfl
        · rw [beforeNul_eq ht] at hc
          exact absurd ((startswith_iff _ _).mpr hc) (by decide)
        · rw [beforeNul_eq ht]
          exact (startswith_iff _ _).mp (by decide))
      (no_multipart ⟨by decide, by decide⟩ ⟨by decide, by decide⟩)
    exact ⟨st0, h1, h4⟩

/-- The numbers: what `Content-Length: 4294967299` and others come to. -/
example : narrowed 4294967299 = 3 ∧ narrowed 2147483648 = -2147483648 ∧ narrowed (10 ^ 20) = -1 ∧ narrowed (-4294967293) = 3 := by
  decide

end Wayuu
