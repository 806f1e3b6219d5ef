import Verif.Props.MediaType
/-
C43: what every header section leaves in the session, and what the user's code gets of it (ws.c:607-617).
-/
namespace Wayuu
open C Spec

/-- The session the code takes from these lines: what is behind the tenth byte of the last `X-Session:` or `Authorization:` line,
or what is behind the 18th byte of a `Cookie:` line (line end included, if it is less than 64 bytes) as long as there is none. -/
inductive SessionRead : List (List Byte) → List Byte → Prop where
  | none : SessionRead [] []
  | token (lines : List (List Byte)) (s line text v : List Byte) : SessionRead lines s → BeforeNul line text →
      CasePrefix b!"X-Session:" text ∨ CasePrefix b!"Authorization:" text → IsStrip (text.drop 10) v → SessionRead (lines ++ [line]) v
  | cookie (lines : List (List Byte)) (line a v : List Byte) : SessionRead lines [] → BeforeNul line (a ++ v) →
      CasePrefix b!"Cookie:" (a ++ v) → a.length = 18 → v.length < 64 → SessionRead (lines ++ [line]) v
  | kept (lines : List (List Byte)) (s line text : List Byte) : SessionRead lines s → BeforeNul line text →
      ¬ CasePrefix b!"X-Session:" text → ¬ CasePrefix b!"Authorization:" text →
      (CasePrefix b!"Cookie:" text → s ≠ [] ∨ 82 ≤ text.length) → SessionRead (lines ++ [line]) s

theorem isSess_iff {text : Str} : isSess text = true ↔ CasePrefix b!"X-Session:" text ∨ CasePrefix b!"Authorization:" text := by
  unfold isSess
  rw [Bool.or_eq_true, startswith_iff, startswith_iff]

theorem cookie_not_sess {text : Str} (h : CasePrefix b!"Cookie:" text) : isSess text = false := by
  have h := (startswith_iff _ _).mpr h
  unfold isSess
  rw [not_startswith_of_get h (q := b!"X-Session:") (i := 0) (by decide) (by decide) (by decide),
    not_startswith_of_get h (q := b!"Authorization:") (i := 0) (by decide) (by decide) (by decide)]
  rfl

theorem foldl_read {lines : List (List Byte)} {s : Str} (h : SessionRead lines s) (a : Head) (ha : LineBuf a.bs)
    (hs : a.sess = []) (hl : ∀ l ∈ lines, l.length ≤ 1023)
    (hc : ∀ l ∈ lines, ∀ t, BeforeNul l t → CasePrefix b!"Cookie:" t → 18 ≤ t.length) :
    (lines.foldl Head.step a).sess = s := by
  induction h with
  | none => exact hs
  | token lines s line text v _ hb ht hv ih =>
    rw [List.foldl_append, List.foldl_cons, List.foldl_nil]
    have hb' := LineBuf.foldl (lines := lines) ha (fun l h => hl l (by simp [h]))
    generalize lines.foldl Head.step a = x at hb' ⊢
    show nextSession x.sess (loadLine x.bs line) = v
    have hi := isSess_iff.mpr ht
    have e := beforeNul_eq hb
    rw [e] at hi hv
    unfold nextSession
    simp only [untilNul_loadLine, hi, if_true]
    rw [(hb'.load (hl line (by simp))).tail (by rw [untilNul_loadLine]; exact isSess_length hi), untilNul_loadLine]
    exact (isStrip_eq hv).symm
  | cookie lines line p v _ hb hck hp hv ih =>
    rw [List.foldl_append, List.foldl_cons, List.foldl_nil]
    have hb' := LineBuf.foldl (lines := lines) ha (fun l h => hl l (by simp [h]))
    have ih := ih (fun l h => hl l (by simp [h])) (fun l h => hc l (by simp [h]))
    generalize lines.foldl Head.step a = x at hb' ih ⊢
    show nextSession x.sess (loadLine x.bs line) = v
    have e := beforeNul_eq hb
    have ht : tailAt (loadLine x.bs line) 18 = v := by
      rw [(hb'.load (hl line (by simp))).tail (by rw [untilNul_loadLine, ← e, List.length_append]; omega), untilNul_loadLine, ← e,
        drop_at hp.symm]
    have h1 := cookie_not_sess hck
    have h2 := (startswith_iff _ _).mpr hck
    rw [e] at h1 h2
    unfold nextSession
    simp only [untilNul_loadLine, h1, h2, ht, hv, ih, Bool.false_eq_true, if_false, and_self, if_true]
  | kept lines s line text _ hb h1 h2 h3 ih =>
    rw [List.foldl_append, List.foldl_cons, List.foldl_nil]
    have hb' := LineBuf.foldl (lines := lines) ha (fun l h => hl l (by simp [h]))
    have ih := ih (fun l h => hl l (by simp [h])) (fun l h => hc l (by simp [h]))
    generalize lines.foldl Head.step a = x at hb' ih ⊢
    show nextSession x.sess (loadLine x.bs line) = s
    have e := beforeNul_eq hb
    have hi : isSess (untilNul line) = false := by
      rw [← e, ← Bool.not_eq_true, isSess_iff]
      tauto
    unfold nextSession
    simp only [untilNul_loadLine, hi, Bool.false_eq_true, if_false]
    rw [if_neg, ih]
    rintro ⟨g1, g2, g3⟩
    rw [← e, startswith_iff] at g1
    have h18 := hc line (by simp) text hb g1
    rw [(hb'.load (hl line (by simp))).tail (by rw [untilNul_loadLine, ← e]; exact h18), untilNul_loadLine, ← e, List.length_drop] at g3
    rcases h3 g1 with h | h
    · exact h (ih.symm.trans g2)
    · omega

/-- Every section with no `Cookie:` line below 18 bytes has its session. -/
theorem sessionRead_exists (lines : List (List Byte))
    (hc : ∀ l ∈ lines, ∀ t, BeforeNul l t → CasePrefix b!"Cookie:" t → 18 ≤ t.length) : ∃ s, SessionRead lines s := by
  induction lines using List.reverseRecOn with
  | nil => exact ⟨_, .none⟩
  | append_singleton lines line ih =>
    obtain ⟨s, hs⟩ := ih (fun l h => hc l (by simp [h]))
    have hb := untilNul_before line
    by_cases h1 : CasePrefix b!"X-Session:" (untilNul line) ∨ CasePrefix b!"Authorization:" (untilNul line)
    · exact ⟨_, .token lines s line _ _ hs hb h1 (isStrip_strip _)⟩
    · by_cases h2 : CasePrefix b!"Cookie:" (untilNul line) ∧ s = [] ∧ (untilNul line).length < 82
      · obtain ⟨h2, rfl, h3⟩ := h2
        have h18 := hc line (by simp) _ hb h2
        refine ⟨(untilNul line).drop 18, .cookie lines line ((untilNul line).take 18) _ hs ?_ ?_ ?_ ?_⟩
        · rwa [List.take_append_drop]
        · rwa [List.take_append_drop]
        · rw [List.length_take]; omega
        · rw [List.length_drop]; omega
      · refine ⟨s, .kept lines s line _ hs hb (fun h => h1 (Or.inl h)) (fun h => h1 (Or.inr h)) (fun h => ?_)⟩
        by_cases hs0 : s = []
        · right
          by_contra h4
          exact h2 ⟨h, hs0, by omega⟩
        · exact Or.inl hs0

/-- C43, what happens with every section (if no `Cookie:` line is shorter than 18 bytes, for which see `C108_stale`): the session
is the one of `SessionRead`, and that is what the first user code of the request finds. -/
theorem C43_exact (env : Env) (st st' : St) (socket : Nat) (peer line text method url rest body : Str) (lines : List (List Byte))
    (e : Event) (ev : List Event)
    (hb : Begins st.input line text method url rest) (hs : Section rest lines body)
    (hc : ∀ l ∈ lines, ∀ t, BeforeNul l t → CasePrefix b!"Cookie:" t → 18 ≤ t.length)
    (h : accept_request env st socket peer = ok (st', e :: ev)) :
    (∃ s, SessionRead lines s) ∧ ∀ s, SessionRead lines s → cstr e.request.session = ok s := by
  refine ⟨sessionRead_exists lines hc, fun s hr => ?_⟩
  obtain ⟨x, p, q, f, h1, h2⟩ := first_request hb h
  obtain ⟨last, -, -, -, -, -, -, -, -, h3⟩ := parse_fields (lineBytes_buf hb.1.2.1) hs h1
  rw [h2]
  have := foldl_read hr (.init (lineBytes line) peer) ((lineBytes_buf hb.1.2.1).load (line := [65]) (by decide)) rfl hs.length_le hc
  rw [← this]
  exact h3.cstr

/-- C43, cookies of any name: a client that sends no session but one cookie line – whatever the names of its cookies – has as
session what is behind its 18th byte. -/
theorem C43_anycookie (env : Env) (st st' : St) (socket : Nat) (peer line text method url rest body : Str)
    (before after : List (List Byte)) (a v : Str) (e : Event) (ev : List Event)
    (hb : Begins st.input line text method url rest) (hs : Section rest (before ++ (a ++ v) :: after) body)
    (h0 : (0 : Byte) ∉ a ++ v) (hck : CasePrefix b!"Cookie:" (a ++ v)) (ha : a.length = 18) (hv : v.length < 64)
    (hno : ∀ l ∈ before ++ after, ∀ t, BeforeNul l t →
      ¬ CasePrefix b!"X-Session:" t ∧ ¬ CasePrefix b!"Authorization:" t ∧ ¬ CasePrefix b!"Cookie:" t)
    (h : accept_request env st socket peer = ok (st', e :: ev)) : cstr e.request.session = ok v := by
  have hbn : BeforeNul (a ++ v) (a ++ v) := ⟨fun c hc => by rintro rfl; exact h0 hc, Or.inl rfl⟩
  have hempty : ∀ ls : List (List Byte), (∀ l ∈ ls, ∀ t, BeforeNul l t →
      ¬ CasePrefix b!"X-Session:" t ∧ ¬ CasePrefix b!"Authorization:" t ∧ ¬ CasePrefix b!"Cookie:" t) → ∀ pre s, SessionRead pre s →
      SessionRead (pre ++ ls) s := by
    intro ls
    induction ls with
    | nil => intro _ pre s h; simpa using h
    | cons l ls ih =>
      intro hl pre s hp
      have h1 := hl l (by simp) _ (untilNul_before l)
      have := ih (fun x hx => hl x (by simp [hx])) (pre ++ [l]) s
        (.kept pre s l _ hp (untilNul_before l) h1.1 h1.2.1 (fun h => absurd h h1.2.2))
      simpa using this
  have h1 := hempty before (fun l hl => hno l (by simp [hl])) [] [] .none
  rw [List.nil_append] at h1
  have h2 := hempty after (fun l hl => hno l (by simp [hl])) _ v (.cookie before _ a v h1 hbn hck ha hv)
  refine (C43_exact env st st' socket peer line text method url rest body _ e ev hb hs ?_ h).2 v (by simpa using h2)
  intro l hl t ht hct
  rw [List.mem_append, List.mem_cons] at hl
  rcases hl with hl | rfl | hl
  · exact absurd hct (hno l (by simp [hl]) t ht).2.2
  · rw [beforeNul_unique ht hbn, List.length_append]; omega
  · exact absurd hct (hno l (by simp [hl]) t ht).2.2

/-- What the first user code of a request finds in `session`. -/
def sessionSeen (r : C (St × List Event)) : C (Option (C Str)) := do
  let (_, ev) ← r
  ok (ev.head?.map (fun e => cstr e.request.session))

/-- A cookie of a statistics script becomes the session. -/
example : sessionSeen (accept_request sampleRouterEnv (typeSt b!"Cookie: _ga=GA1.2.1111; lang=en\r\n") 7 b!"10.0.0.1") =
    ok (some (ok b!"1111; lang=en\r\n")) := by decide +kernel
example : sessionSeen (accept_request sampleRouterEnv (typeSt b!"Authorization: Bearer abc\r\n") 7 b!"10.0.0.1") =
    ok (some (ok b!"ion: Bearer abc")) := by decide +kernel
example : CasePrefix b!"Cookie:" (b!"Cookie: _ga=GA1.2." ++ b!"1111; lang=en\r\n") ∧ (b!"Cookie: _ga=GA1.2.").length = 18 :=
  ⟨⟨b!"Cookie:", _, rfl, rfl⟩, rfl⟩

end Wayuu
