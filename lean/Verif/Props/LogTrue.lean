import Verif.Props.Entries
import Verif.Props.LogFields
/-
C104 for whole connections: what a reader of the access log reads is what was asked and what was sent.
-/
namespace Wayuu
open C Spec

namespace Spec

/-- There is no quote in the request line or in a header line. -/
def NoQuotes (input : List Byte) : Prop :=
  ∀ line rest lines body, LineOf input 1023 line rest → Section rest lines body → (34 : Byte) ∉ line ∧ ∀ l ∈ lines, (34 : Byte) ∉ l

/-- The answer begins with a status line of this code. -/
def SaysStatus (sent : List Byte) (code : Nat) : Prop := ∃ ct rest, NatText ct code ∧ sent = b!"HTTP/1.1 " ++ ct ++ b!" " ++ rest

end Spec

theorem not_mem_uptoNul {c : Byte} {s : Str} (h : c ∉ s) : c ∉ uptoNul s := fun hc => h ((List.takeWhile_prefix _).subset hc)

theorem trimmedArray_no {d : Str} (h : (34 : Byte) ∉ d) : (34 : Byte) ∉ trimmedArray d := by
  have h1 : (34 : Byte) ∉ (uptoNul d).dropWhile ws := fun hc => not_mem_uptoNul h ((List.dropWhile_suffix _).subset hc)
  have h2 : (34 : Byte) ∉ ((uptoNul d).dropWhile ws).rdropWhile ws := fun hc => h1 ((List.rdropWhile_prefix _ _).subset hc)
  unfold trimmedArray
  dsimp only
  intro hc
  have hc := (List.dropLast_prefix _).subset hc
  simp only [List.mem_append, List.mem_cons] at hc
  rcases hc with hc | hc | hc
  · exact h2 hc
  · exact absurd hc (by decide)
  · have hc := List.mem_of_mem_drop hc
    split at hc
    · simp only [List.mem_append, List.mem_singleton] at hc
      rcases hc with hc | hc
      · exact h hc
      · exact absurd hc (by decide)
    · simp only [List.mem_append, List.mem_cons] at hc
      rcases hc with hc | hc | hc
      · exact h1 hc
      · exact absurd hc (by decide)
      · have hc := List.mem_of_mem_drop hc
        simp only [List.mem_append, List.mem_singleton] at hc
        rcases hc with hc | hc
        · exact h hc
        · exact absurd hc (by decide)

theorem noted_line_no {s : Noted} {line : Str} (hs : (34 : Byte) ∉ s.array) (hl : (34 : Byte) ∉ line) : (34 : Byte) ∉ (s.line line).array := by
  have h1 : (34 : Byte) ∉ line ++ 0 :: s.array.drop (line.length + 1) := by
    simp only [List.mem_append, List.mem_cons, not_or]
    exact ⟨hl, by decide, fun hc => hs (List.mem_of_mem_drop hc)⟩
  unfold Noted.line
  dsimp only
  split
  · simp only [List.mem_append, List.mem_singleton, not_or]
    exact ⟨trimmedArray_no (fun hc => h1 ((List.dropLast_prefix _).subset hc)), by decide⟩
  · exact h1

theorem told_fold_no : ∀ (lines : List Str) (s : Told), (34 : Byte) ∉ s.noted.array → (34 : Byte) ∉ s.address →
    (∀ l ∈ lines, (34 : Byte) ∉ l) → (34 : Byte) ∉ (lines.foldl Told.line s).address
  | [], s, _, h2, _ => h2
  | l :: lines, s, h1, h2, h3 => by
    have k := noted_line_no h1 (h3 l (by simp))
    refine told_fold_no lines (s.line l) k ?_ (fun x hx => h3 x (by simp [hx]))
    unfold Told.line
    dsimp only
    split
    · intro hc
      have hc := List.mem_of_mem_take hc
      exact not_mem_uptoNul (fun hc => k (List.mem_of_mem_drop hc)) hc
    · exact h2

theorem told_address_no {peer line : Str} {lines : List Str} (hp : (34 : Byte) ∉ peer) (hl : (34 : Byte) ∉ line)
    (hls : ∀ l ∈ lines, (34 : Byte) ∉ l) : (34 : Byte) ∉ (told peer line lines).address := by
  refine told_fold_no lines _ ?_ hp hls
  show (34 : Byte) ∉ b!"A" ++ 0 :: (padded line).drop 2
  simp only [List.mem_append, List.mem_cons, List.not_mem_nil, or_false, not_or]
  refine ⟨by decide, by decide, fun hc => ?_⟩
  have hc := List.mem_of_mem_drop hc
  unfold padded at hc
  simp only [List.mem_append, List.mem_replicate] at hc
  rcases hc with hc | ⟨-, hc⟩
  · exact hl hc
  · exact absurd hc (by decide)

theorem named_no {lines : List Str} {hs : List (Str × Str)} (h : Named lines hs) (hl : ∀ l ∈ lines, (34 : Byte) ∉ l) :
    ∀ p ∈ hs, (34 : Byte) ∉ p.2 := by
  induction h with
  | nil => simp
  | header line text name value lines hs hb hh _ ih =>
    intro p hp
    rcases List.mem_cons.mp hp with rfl | hp
    · obtain ⟨a, b, rfl, -, -, l, r, rfl, -⟩ := hh
      intro hc
      have : (34 : Byte) ∉ line := hl line (by simp)
      rcases hb.2 with rfl | ⟨r', rfl⟩
      · exact this (by simp only [List.mem_append, List.mem_cons]; tauto)
      · exact this (by simp only [List.mem_append, List.mem_cons]; tauto)
    · exact ih (fun l hl' => hl l (by simp [hl'])) p hp
  | other line text lines hs _ _ _ ih => exact ih (fun l hl' => hl l (by simp [hl']))

/-- A line of the log without further quotes is read as it was meant. -/
theorem reads_access {entry ip ts request referer ua rt : Str} {status length : Nat}
    (h : AccessLine entry ip ts request status length referer ua rt) (h1 : (34 : Byte) ∉ ip) (h2 : (34 : Byte) ∉ ts)
    (h3 : (34 : Byte) ∉ request) (h4 : (34 : Byte) ∉ referer) (h5 : (34 : Byte) ∉ ua) :
    Reads entry request status length referer ua := by
  obtain ⟨ct, lt, k1, k2, e⟩ := h
  refine ⟨ip ++ b!" - - [" ++ ts ++ b!"] ", ct, lt, b!" " ++ rt ++ b!"\n", by rw [e]; simp, ?_, h3, h4, h5, k1, k2⟩
  simp [h1, h2]

/-- C104 for whole connections: if no user code runs and the client sends no quotes, the one line added to the access log says the request
line that came in, the status at the beginning of what was sent, the number of bytes sent, and referer and user agent as told (if the request was
admitted); and nothing else can be read from it. -/
theorem C104_request (env : Env) (st st' : St) (socket : Nat) (peer s : Str) (regs : List Registration)
    (hset : SoundSetup env st regs) (hmax : 18 ≤ env.evpMax) (hp : peer.length < 16) (hs1 : Stack env s) (hs2 : s ≠ [])
    (hu : UserAppends env) (h0 : st.sent = []) (hok : env.logOk = true) (hts : (34 : Byte) ∉ env.ts) (hpeer : (34 : Byte) ∉ peer)
    (hq : NoQuotes st.input) (h : accept_request env st socket peer = ok (st', [])) :
    ∃ entry line rest lines body hs method url after code referer ua, st'.log = st.log ++ [entry] ∧
      LineOf st.input 1023 line rest ∧ Section rest lines body ∧ Named lines hs ∧ Words line method url after ∧
      SaysStatus st'.sent code ∧
      (Supported method ∧ Admits env.limits st.live peer url →
        FirstHeader (hs.take 20) b!"Referer" referer ∧ FirstHeader (hs.take 20) b!"User-Agent" ua) ∧
      Reads entry ((uptoNul line).take ((uptoNul line).length - 2)) code st'.sent.length (referer.getD []) (ua.getD []) ∧
      ∀ request status length f u, Reads entry request status length f u →
        request = (uptoNul line).take ((uptoNul line).length - 2) ∧ status = code ∧ length = st'.sent.length ∧
        f = referer.getD [] ∧ u = ua.getD [] := by
  obtain ⟨o, entries, -, -, he, hl, ht⟩ := C151_request env st st' socket peer s regs [] hset hmax hp hs1 hs2 hu h0 h
  have key : ∃ code entry, LineFor env.limits st.live peer st.input env.ts env.rt code st'.sent.length entry ∧ SaysStatus st'.sent code ∧
      st'.log = st.log ++ [entry] := by
    cases o with
    | status n =>
      obtain ⟨entry, rfl, hf⟩ := ht.2 hok
      obtain ⟨-, -, reply, fields, e, ⟨ct, reason, lines, e2, hn, -⟩, -⟩ := he
      exact ⟨n, entry, hf, ⟨ct, reason ++ 13 :: 10 :: (lines.flatMap (fun l => l ++ [13, 10]) ++ [13, 10]), hn, by rw [e, h0, e2]; simp⟩, hl⟩
    | page name session =>
      obtain ⟨entry, rfl, hf⟩ := ht.2 hok
      obtain ⟨-, -, reply, e, ⟨t, e2⟩, -⟩ := he
      exact ⟨200, entry, hf, ⟨b!"200", b!"OK\r\n" ++ t, by unfold NatText digit; decide, by rw [e, h0, ← e2]; simp⟩, hl⟩
    | code h f q =>
      obtain ⟨st1, st2, -, -, hd, -⟩ := ht
      unfold Dispatched at hd
      cases f with
      | none => exact absurd hd.2 (by simp)
      | some f =>
        rcases hd with ⟨-, hd⟩ | ⟨_, -, -, hd⟩
        · exact absurd hd (by simp)
        · exact absurd hd (by simp)
  obtain ⟨code, entry, ⟨line, rest, lines, body, hs, method, url, after, k1, k2, k3, k4, k5, k6⟩, hcode, hlog⟩ := key
  obtain ⟨q1, q2⟩ := hq _ _ _ _ k1 k2
  have q3 : (34 : Byte) ∉ (uptoNul line).take ((uptoNul line).length - 2) := fun hc => not_mem_uptoNul q1 (List.mem_of_mem_take hc)
  by_cases ha : Supported method ∧ Admits env.limits st.live peer url
  · obtain ⟨referer, ua, f1, f2, f3⟩ := k5 ha
    have hv : ∀ (name : Str) (v : Option Str), FirstHeader (hs.take 20) name v → (34 : Byte) ∉ v.getD [] := by
      intro name v hv
      cases v with
      | none => simp
      | some v =>
        obtain ⟨a, b, e, -⟩ := hv
        exact named_no k3 q2 (name, v) (List.mem_of_mem_take (by rw [e]; simp))
    have hR := reads_access f3 (told_address_no hpeer q1 q2) hts q3 (hv _ _ f1) (hv _ _ f2)
    exact ⟨entry, line, rest, lines, body, hs, method, url, after, code, referer, ua, hlog, k1, k2, k3, k4, hcode,
      fun _ => ⟨f1, f2⟩, hR, fun _ _ _ _ _ h => reads_unique h hR⟩
  · have hR := reads_access (k6 ha) hpeer hts q3 (by simp) (by simp)
    exact ⟨entry, line, rest, lines, body, hs, method, url, after, code, none, none, hlog, k1, k2, k3, k4, hcode,
      fun h => absurd h ha, hR, fun _ _ _ _ _ h => reads_unique h hR⟩

theorem section_no {input after : Str} {lines : List Str} (h : Section input lines after) (hq : (34 : Byte) ∉ input) :
    ∀ l ∈ lines, (34 : Byte) ∉ l := by
  induction h with
  | eof => simp
  | blank => simp
  | line input line rest lines rest' hl _ _ _ _ ih =>
    rw [hl.1, List.mem_append, not_or] at hq
    intro l hm
    rcases List.mem_cons.mp hm with rfl | hm
    · exact hq.1
    · exact ih hq.2 l hm

theorem noQuotes_of {input : Str} (h : (34 : Byte) ∉ input) : NoQuotes input := by
  intro line rest lines body hl hs
  rw [hl.1, List.mem_append, not_or] at h
  exact ⟨h.1, section_no hs h.2⟩

/-- A page is asked for through a proxy (the line is shown beside C151). -/
def proxied : St :=
  { docsSt [] with live := [⟨0, [], []⟩], input := b!"GET /a.txt HTTP/1.1\r\nUser-Agent: me\r\nX-Real-IP: 1.2.3.4\r\n\r\n" }

example : ∃ st' entry request code f u, accept_request soundEnv proxied 5 b!"10.0.0.1" = ok (st', []) ∧ st'.log = [entry] ∧
    SaysStatus st'.sent code ∧ Reads entry request code st'.sent.length f u := by
  obtain ⟨s, h1, h2⟩ := (soundEnv_setup [] []).stack
  have e : (accept_request soundEnv proxied 5 b!"10.0.0.1").bind (fun x => ok x.2.length) = ok 0 := by decide +kernel
  obtain ⟨⟨st', ev⟩, hx, he⟩ := bind_eq_ok.mp e
  obtain rfl := List.length_eq_zero_iff.mp (ok.inj he)
  obtain ⟨entry, line, _, _, _, _, _, _, _, code, referer, ua, k1, -, -, -, -, k2, -, k3, -⟩ :=
    C104_request soundEnv proxied st' 5 b!"10.0.0.1" s sampleRegs (soundEnv_setup _ _) (by decide) (by decide) h1 h2 soundEnv_appends rfl
      rfl (by decide) (by decide) (noQuotes_of (by decide)) hx
  exact ⟨st', entry, _, code, _, _, hx, k1, k2, k3⟩

end Wayuu
