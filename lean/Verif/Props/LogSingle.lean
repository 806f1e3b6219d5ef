import Verif.Lemmas.LogSingle
import Verif.Props.Admission
import Verif.Props.Log
/-
Property C58, for whole requests: every entry of the access log is one line.
-/
namespace Wayuu
open C Spec

theorem strip_no_break {s : Str} (h : (10 : Byte) ∉ s.dropLast) : (10 : Byte) ∉ strip s := by
  obtain ⟨l, r, e, -, -, -, hlast⟩ := isStrip_strip s
  intro hm
  generalize strip s = t at *
  rcases List.eq_nil_or_concat t with rfl | ⟨x, c, hx⟩
  · simp at hm
  · rw [List.concat_eq_append] at hx
    subst hx
    have hc : ws c = false := hlast c (by simp)
    rcases List.mem_append.mp hm with hx | hx
    · apply h
      rw [e, List.append_assoc, List.append_assoc, ← List.append_assoc, List.dropLast_append_of_ne_nil (by simp)]
      simp [hx]
    · rw [List.mem_singleton] at hx
      subst hx
      exact absurd hc (by decide)

theorem dropLast_drop_sub {s : Str} {k : Nat} {c : Byte} (h : c ∈ (s.drop k).dropLast) : c ∈ s.dropLast := by
  by_cases hk : s.drop k = []
  · rw [hk] at h; simp at h
  · conv_lhs => rw [← List.take_append_drop k s]
    rw [List.dropLast_append_of_ne_nil hk]
    exact List.mem_append.mpr (Or.inr h)

theorem untilNul_break {l : List Byte} (h : (10 : Byte) ∉ l.dropLast) : (10 : Byte) ∉ (untilNul l).dropLast := by
  obtain ⟨-, e | ⟨q, e⟩⟩ := untilNul_before l
  · rwa [← e]
  · intro hm
    apply h
    rw [e, List.dropLast_append_of_ne_nil (by simp)]
    exact List.mem_append.mpr (Or.inl (List.dropLast_sublist _ |>.subset hm))

theorem _root_.Wayuu.Spec.Section.breaks {input rest : List Byte} {lines : List (List Byte)} (h : Section input lines rest) :
    ∀ l ∈ lines, (10 : Byte) ∉ l.dropLast := by
  induction h with
  | eof => simp
  | blank => simp
  | line input line rest lines rest' hl _ _ _ _ ih =>
    intro l hm
    rcases List.mem_cons.mp hm with rfl | hm
    · exact hl.2.2.1
    · exact ih l hm

/-- The line is not an `X-Real-IP` line without anything but blanks after the colon. -/
def Says (line : List Byte) : Prop :=
  ∀ t, BeforeNul line t → CasePrefix b!"X-Real-IP:" t → ∃ c ∈ t.drop 10, ws c = false

theorem nextIP_break {bs : List Byte} (hb : LineBuf bs) {line : List Byte} (hl : line.length ≤ 1023)
    (h10 : (10 : Byte) ∉ line.dropLast) (hsay : Says line) {ip : Str} (hip : (10 : Byte) ∉ ip) :
    (10 : Byte) ∉ nextIP ip (loadLine bs line) := by
  unfold nextIP
  split
  · rename_i hst
    have hbuf := nextBuf_spec (hb.load hl)
    have hu := hbuf.2 hst
    rw [untilNul_loadLine] at hu hst
    have hp := (startswith_iff _ _).mp hst
    obtain ⟨c, hc, hw⟩ := hsay _ (untilNul_before line) hp
    have hlen : 11 ≤ (strip (untilNul line)).length := by
      obtain ⟨l, r, e, el, er, -, -⟩ := isStrip_strip (untilNul line)
      by_contra hlt
      have hl0 : l = [] := by
        cases l with
        | nil => rfl
        | cons x l =>
          exfalso
          obtain ⟨p, q, e1, e2⟩ := hp
          rw [e1] at e
          cases p with
          | nil => cases e2
          | cons y p =>
            have hy : y = x := by simpa using congrArg List.head? e
            subst hy
            have hx : lower y = 120 := by simpa [CaseEq, show lower 88 = (120 : Byte) by decide] using congrArg List.head? e2
            have hk : ∀ n : Fin 256, lower (UInt8.ofNat n) = 120 → ws (UInt8.ofNat n) = false := by decide +kernel
            have := hk ⟨y.toNat, y.toNat_lt⟩ (by simpa using hx)
            simp only [UInt8.ofNat_toNat] at this
            rw [el y (by simp)] at this
            cases this
      subst hl0
      rw [List.nil_append] at e
      generalize strip (untilNul line) = t at *
      rw [e] at hc
      have : c ∈ r := by
        rw [List.drop_append] at hc
        rw [List.drop_of_length_le (by omega), List.nil_append] at hc
        exact List.mem_of_mem_drop hc
      rw [er c this] at hw
      cases hw
    rw [hbuf.1.tail (by rw [hu]; exact hlen), hu]
    intro hm
    exact strip_no_break (untilNul_break h10) (List.mem_of_mem_drop (List.mem_of_mem_take hm))
  · exact hip

theorem foldl_ip_break (lines : List (List Byte)) (a : Head) (hb : LineBuf a.bs) (hl : ∀ l ∈ lines, l.length ≤ 1023)
    (h10 : ∀ l ∈ lines, (10 : Byte) ∉ l.dropLast) (hsay : ∀ l ∈ lines, Says l) (hip : (10 : Byte) ∉ a.ip) :
    (10 : Byte) ∉ (lines.foldl Head.step a).ip := by
  induction lines generalizing a with
  | nil => exact hip
  | cons l lines ih =>
    refine ih (a.step l) (hb.step (hl l (by simp))) (fun l' h' => hl l' (by simp [h'])) (fun l' h' => h10 l' (by simp [h']))
      (fun l' h' => hsay l' (by simp [h'])) ?_
    exact nextIP_break hb (hl l (by simp)) (h10 l (by simp)) (hsay l (by simp)) hip

theorem parse_unbroken {bs input rest : List Byte} {lines : List (List Byte)} {ip : Str} {h : HdrSt} (hb : LineBuf bs)
    (hs : Section input lines rest) (hsay : ∀ l ∈ lines, Says l) (hip : (10 : Byte) ∉ ip)
    (hok : parseHeaders (bs.map some) input ip = ok h) :
    (10 : Byte) ∉ h.IP ∧ ∀ x ∈ h.headers, ∀ v, cstr x.value = ok v → (10 : Byte) ∉ v := by
  obtain ⟨last, -, -, -, h2, -, -, -, h6, -⟩ := parse_fields hb hs hok
  have h10 := hs.breaks
  constructor
  · have h6 : h.IP = (lines.foldl Head.step (.init bs ip)).ip := h6
    rw [h6]
    exact foldl_ip_break lines _ (hb.load (line := [65]) (by decide)) hs.length_le h10 hsay hip
  · have e : h.headers = ((lines.filter (fun l => decide ((58 : Byte) ∈ untilNul l))).map (fun l => headerRec (untilNul l))).take 20 := by
      rw [h2]
      show (lines.foldl Head.step (.init bs ip)).headers = _
      rw [foldl_headers _ _ (by show 0 ≤ 20; omega)]
      rfl
    intro x hx v hv hm
    rw [e] at hx
    obtain ⟨l, hl, rfl⟩ := List.mem_map.mp (List.mem_of_mem_take hx)
    have hl := (List.mem_filter.mp hl).1
    obtain ⟨-, r, hr⟩ := cstr_eq_ok.mp hv
    have hin : some (10 : Byte) ∈ (headerRec (untilNul l)).value := by rw [hr]; simp [hm]
    simp only [headerRec, padTo, List.mem_map, List.mem_append, Option.some.injEq, List.mem_replicate] at hin
    obtain ⟨c, hc | ⟨-, hc⟩, rfl⟩ := hin
    · have hd : ∃ k, (untilNul l).dropWhile (· != 58) = (untilNul l).drop k :=
        ⟨((untilNul l).takeWhile (· != 58)).length, by
          have := drop_length_append ((untilNul l).takeWhile (· != 58)) ((untilNul l).dropWhile (· != 58))
          rw [List.takeWhile_append_dropWhile] at this
          exact this.symm⟩
      obtain ⟨k, hk⟩ := hd
      rw [hk, List.drop_drop] at hc
      exact strip_no_break (fun hm => untilNul_break (h10 l hl) (dropLast_drop_sub hm)) (List.mem_of_mem_take hc)
    · cases hc

theorem readRequestLine_break {input line rest : List Byte} (hl : LineOf input 1023 line rest) {buf : Buf} {inp rl m : Str}
    {j : Nat} (h : readRequestLine input = ok (buf, inp, rl, m, j)) :
    buf = (lineBytes line).map some ∧ inp = rest ∧ (10 : Byte) ∉ rl := by
  have hb := untilNul_before line
  by_cases h2 : 2 ≤ (untilNul line).length
  · rw [readRequestLine_eq hl hb h2] at h
    simp only [ok.injEq, Prod.mk.injEq] at h
    obtain ⟨rfl, rfl, rfl, -, -⟩ := h
    refine ⟨rfl, rfl, fun hm => untilNul_break hl.2.2.1 ?_⟩
    rw [List.dropLast_eq_take]
    rw [show (untilNul line).length - 2 = min ((untilNul line).length - 2) ((untilNul line).length - 1) by omega, ← List.take_take] at hm
    exact List.mem_of_mem_take hm
  · rw [readRequestLine_short hl hb (by omega)] at h
    cases h

/-- C58, whole requests: whatever the client sends, every entry the request adds to the log is one line, unless a header
line `X-Real-IP:` says nothing. -/
theorem C58_request (env : Env) (st st' : St) (socket : Nat) (peer : Str) (ev : List Event) (line rest after : List Byte)
    (lines : List (List Byte)) (hts : (10 : Byte) ∉ env.ts) (hrt : (10 : Byte) ∉ env.rt) (hpeer : (10 : Byte) ∉ peer)
    (hu : UserNeat env) (hl : LineOf st.input 1023 line rest) (hs : Section rest lines after) (hsay : ∀ l ∈ lines, Says l)
    (h : accept_request env st socket peer = ok (st', ev)) :
    ∃ ls, st'.log = st.log ++ ls ∧ ∀ l ∈ ls, SingleLine l := by
  obtain ⟨hp, hh⟩ := accept_request_cases h
  cases hh with
  | badMethod buf inp rl method j st1 hr hm h1 =>
    obtain ⟨-, -, -, ls, e, s⟩ := bad_request_neat h1
    exact ⟨ls, e, s ⟨hts, hrt, hpeer, (readRequestLine_break hl hr).2.2, by simp [lineReq, api_request_new]⟩⟩
  | tooMany buf inp rl method j url live st1 hr hm hurl hadd h1 =>
    obtain ⟨-, -, -, ls, e, s⟩ := send_http_status_neat h1
    exact ⟨ls, e, s ⟨hts, hrt, hpeer, (readRequestLine_break hl hr).2.2, by simp [lineReq, api_request_new]⟩⟩
  | served buf inp rl method j url live hd st1 ev hr hm hurl hadd hh h1 =>
    obtain ⟨-, -, -, ls, e, s⟩ := dispatch_neat hu h1
    obtain ⟨rfl, rfl, hrl⟩ := readRequestLine_break hl hr
    obtain ⟨b1, a, b2⟩ := lineBytes_buf hl.2.1
    obtain ⟨k1, k2⟩ := parse_unbroken (lineBuf_of b1 (by rw [b2]; simp)) hs hsay hpeer hh
    exact ⟨ls, e, s ⟨hts, hrt, k1, hrl, k2⟩⟩

/-! ### Examples -/

theorem sampleEnv_neat : UserNeat sampleEnv :=
  ⟨fun _ _ _ h => by cases h; exact Neat.refl _ _, fun _ _ _ _ h => by cases h; exact Neat.refl _ _⟩

example : Says b!"X-Real-IP: 1.2.3.4\r\n" ∧ ¬ Says b!"X-Real-IP: \r\n" := by
  constructor
  · intro t ht _
    rw [beforeNul_eq ht]
    exact ⟨49, by decide, by decide⟩
  · intro h
    obtain ⟨c, hc, hw⟩ := h b!"X-Real-IP: \r\n" ⟨by decide, Or.inl rfl⟩ ⟨b!"X-Real-IP:", b!" \r\n", rfl, rfl⟩
    revert c
    decide

end Wayuu
