import Verif.Lemmas.Unread
import Verif.Props.Admission
/-
Property C122 (ws.c:410-420, 463-656): what is still unread when the socket is closed.
-/
namespace Wayuu
open C Spec

/-- What can arrive of an answer when the sender closes the socket: all of it if it has read all that was sent to it; else the
connection is reset and the receiver can lose any part of the answer that it has not read yet. -/
def Arrives (answer unread got : List Byte) : Prop := got <+: answer ∧ (unread = [] → got = answer)

/-- A request within the limits: request line, header section, and a body of the announced length (none: no body). -/
structure WholeRequest (input : List Byte) (method url rest : Str) (lines : List (List Byte)) (body : List Byte) (n : Option Nat) : Prop where
  head : ∃ line text, Begins input line text method url rest
  section_ : Section rest lines body
  ended : rest ≠ []
  length : LengthOf lines n
  small : n.getD 0 < 2 ^ 31
  spaced : ∀ l ∈ lines, ∀ t, BeforeNul l t → CasePrefix b!"Content-Length:" t → CasePrefix b!"Content-Length: " t
  body_ : body.length = n.getD 0

/-- C122: who sends a whole request gets the whole answer. -/
def C122_statement : Prop :=
  ∀ (env : Env) (st st' : St) (socket : Nat) (peer method url rest : Str) (lines : List (List Byte)) (body : List Byte) (n : Option Nat)
    (ev : List Event),
    env.limits.length ≤ 64 → (∀ l ∈ env.limits, l.path ≠ []) → peer.length < 16 → UserStays env → st.out = [] →
    WholeRequest st.input method url rest lines body n → accept_request env st socket peer = ok (st', ev) →
    ∀ got, Arrives st'.sent st'.input got → got = st'.sent

/-- C122, what is left: exactly what follows the request line if the method is not supported or the request is not admitted;
exactly the body outside /api; what follows the announced length for the API. -/
theorem C122_left (env : Env) (st st' : St) (socket : Nat) (peer line text method url rest : Str) (ev : List Event)
    (hlim : env.limits.length ≤ 64) (hne : ∀ l ∈ env.limits, l.path ≠ []) (hp : peer.length < 16) (hu : UserStays env)
    (hb : Begins st.input line text method url rest) (h : accept_request env st socket peer = ok (st', ev)) :
    (¬ (Supported method ∧ Admits env.limits st.live peer url) → st'.input = rest) ∧
    (Supported method ∧ Admits env.limits st.live peer url → ∀ lines body, Section rest lines body →
      (¬ CasePrefix b!"/api" url → st'.input = body) ∧
      (CasePrefix b!"/api" url → ∀ n, LengthOf lines n → n.getD 0 < 2 ^ 31 →
        (∀ l ∈ lines, ∀ t, BeforeNul l t → CasePrefix b!"Content-Length:" t → CasePrefix b!"Content-Length: " t) →
        st'.input = body.drop (n.getD 0))) := by
  obtain ⟨-, hh⟩ := accept_request_cases h
  obtain ⟨e1, e2⟩ := requestLine_eq hb.1 hb.2.1 hb.2.2.1 hb.2.2.2.1 hb.2.2.2.2
  obtain ⟨b, hb1, hb2⟩ := startswithany_methods method
  have hadm := connection_add_admits (live := st.live) (socket := socket) hlim hne (show url.length < 512 by have := hb.2.2.2.2; omega) hp
  cases hh with
  | badMethod buf inp rl m j st1 hr hm h1 =>
    rw [e1] at hr; cases hr
    rw [hb1] at hm
    cases hm
    refine ⟨fun _ => bad_request_stays h1, fun hs => ?_⟩
    exact absurd (hb2.mpr hs.1) (by simp)
  | tooMany buf inp rl m j u live st1 hr hm hurl hadd h1 =>
    rw [e1] at hr; cases hr
    rw [e2] at hurl; cases hurl
    refine ⟨fun _ => send_http_status_stays h1, fun hs => ?_⟩
    obtain ⟨a, c, b, -, -, -, h3⟩ := hadm.1 hs.2
    rw [hadd] at h3
    cases h3
  | served buf inp rl m j u live hd st1 ev hr hm hurl hadd hh h1 =>
    rw [e1] at hr; cases hr
    rw [e2] at hurl; cases hurl
    have ha : Admits env.limits st.live peer url := by
      by_contra hc
      rw [hadm.2 hc] at hadd
      cases hadd
    rw [hb1] at hm
    cases hm
    have hsup := hb2.mp rfl
    refine ⟨fun hn => absurd ⟨hsup, ha⟩ hn, fun _ lines body hsec => ?_⟩
    have hin := dispatch_input hu h1
    obtain ⟨last, f0, -, -, -, -, f4, f5, -⟩ := parse_fields (lineBytes_buf hb.1.2.1) hsec hh
    simp only [f0] at hin
    constructor
    · intro hc
      rw [if_neg (by rw [API_MOUNT, startswith_iff]; exact hc)] at hin
      exact hin
    · intro hc n hn hlt hsp
      rw [if_pos (by rw [API_MOUNT, startswith_iff]; exact hc)] at hin
      have hb0 : LineBuf (Head.init (lineBytes line) peer).bs := (lineBytes_buf hb.1.2.1).load (line := [65]) (by decide)
      have hclen := foldl_clen hn _ hb0 rfl hsec.length_le (fun m hm => by subst hm; exact hlt) hsp
      have hclen : hd.content_length.toNat = n.getD 0 := by
        rw [f5]
        cases n with
        | none => exact (congrArg Int.toNat hclen).trans rfl
        | some n => exact (congrArg Int.toNat hclen).trans (Int.toNat_natCast n)
      rw [hclen] at hin
      exact hin

/-- C122, what holds, exactly: a whole request has been read to its end when the socket is closed if and only if its method is
supported, it was admitted, and it is for the API or has no body. -/
theorem C122_partial (env : Env) (st st' : St) (socket : Nat) (peer method url rest : Str) (lines : List (List Byte)) (body : List Byte)
    (n : Option Nat) (ev : List Event)
    (hlim : env.limits.length ≤ 64) (hne : ∀ l ∈ env.limits, l.path ≠ []) (hp : peer.length < 16) (hu : UserStays env)
    (hw : WholeRequest st.input method url rest lines body n) (h : accept_request env st socket peer = ok (st', ev)) :
    st'.input = [] ↔ Supported method ∧ Admits env.limits st.live peer url ∧ (CasePrefix b!"/api" url ∨ n.getD 0 = 0) := by
  obtain ⟨line, text, hb⟩ := hw.head
  obtain ⟨h1, h2⟩ := C122_left env st st' socket peer line text method url rest ev hlim hne hp hu hb h
  by_cases hs : Supported method ∧ Admits env.limits st.live peer url
  · obtain ⟨h3, h4⟩ := h2 hs lines body hw.section_
    by_cases hc : CasePrefix b!"/api" url
    · have := h4 hc n hw.length hw.small hw.spaced
      rw [this, List.drop_of_length_le (by rw [hw.body_])]
      exact ⟨fun _ => ⟨hs.1, hs.2, Or.inl hc⟩, fun _ => rfl⟩
    · rw [h3 hc, ← hw.body_, List.length_eq_zero_iff]
      exact ⟨fun he => ⟨hs.1, hs.2, Or.inr he⟩, fun he => he.2.2.resolve_left hc⟩
  · rw [h1 hs]
    exact ⟨fun he => absurd he hw.ended, fun he => absurd ⟨he.1, he.2.1⟩ hs⟩

/-- C122, the answer: in these cases, and if there is no answer at all, the whole answer arrives; in all others any part of it can
be lost. -/
theorem C122_answer (env : Env) (st st' : St) (socket : Nat) (peer method url rest : Str) (lines : List (List Byte)) (body : List Byte)
    (n : Option Nat) (ev : List Event)
    (hlim : env.limits.length ≤ 64) (hne : ∀ l ∈ env.limits, l.path ≠ []) (hp : peer.length < 16) (hu : UserStays env)
    (hw : WholeRequest st.input method url rest lines body n) (h : accept_request env st socket peer = ok (st', ev)) :
    (∀ got, Arrives st'.sent st'.input got → got = st'.sent) ↔
      st'.sent = [] ∨ (Supported method ∧ Admits env.limits st.live peer url ∧ (CasePrefix b!"/api" url ∨ n.getD 0 = 0)) := by
  rw [← C122_partial env st st' socket peer method url rest lines body n ev hlim hne hp hu hw h]
  constructor
  · intro hg
    by_cases he : st'.input = []
    · exact Or.inr he
    · exact Or.inl (hg [] ⟨List.nil_prefix, fun e => absurd e he⟩).symm
  · rintro (he | he) got ⟨g1, g2⟩
    · rw [he] at g1 ⊢
      exact List.prefix_nil.mp g1
    · exact g2 he

/-- A request with a body of one byte. -/
def bodyRequest (url : Str) : Str := b!"POST " ++ url ++ b!" HTTP/1.1\r\nContent-Length: 1\r\n\r\na"

theorem bodyRequest_begins {url : Str} (h0 : url ≠ []) (hl : url.length ≤ 200) (hn : ∀ c ∈ url, c ≠ 0 ∧ c ≠ 10 ∧ ¬ White c) :
    Begins (bodyRequest url) (b!"POST " ++ url ++ b!" HTTP/1.1\r\n") (b!"POST " ++ url ++ b!" HTTP/1.1\r\n") b!"POST" url
      b!"Content-Length: 1\r\n\r\na" := by
  refine ⟨⟨by simp [bodyRequest], by simp; omega, ?_, Or.inr (Or.inl (by rw [List.getLast?_append_of_ne_nil _ (by decide)]; decide))⟩, ⟨?_, Or.inl rfl⟩,
    ⟨b!" ", 32, b!"HTTP/1.1\r\n", by simp, by unfold White; decide, by decide, by unfold White; decide, h0,
      fun c hc => (hn c hc).2.2, by unfold White; decide⟩, by decide, by omega⟩
  · rw [List.dropLast_append_of_ne_nil (by decide)]
    intro hm
    rcases List.mem_append.mp hm with hm | hm
    · rcases List.mem_append.mp hm with hm | hm
      · revert hm; decide
      · exact (hn _ hm).2.1 rfl
    · revert hm; decide
  · intro c hc
    rcases List.mem_append.mp hc with hm | hm
    · rcases List.mem_append.mp hm with hm' | hm
      · clear hc hm; revert c; decide
      · exact (hn _ hm).1
    · clear hc; revert c; decide

theorem bodyRequest_whole {url : Str} (h0 : url ≠ []) (hl : url.length ≤ 200) (hn : ∀ c ∈ url, c ≠ 0 ∧ c ≠ 10 ∧ ¬ White c) :
    WholeRequest (bodyRequest url) b!"POST" url b!"Content-Length: 1\r\n\r\na" [b!"Content-Length: 1\r\n"] b!"a" (some 1) where
  head := ⟨_, _, bodyRequest_begins h0 hl hn⟩
  section_ := one_line_section (line := b!"Content-Length: 1\r\n") (by decide) (by decide) (by decide) (by decide) (by decide) b!"a"
  ended := by decide
  length := .field [] none b!"Content-Length: 1\r\n" b!"Content-Length: 1\r\n" b!"1" .none ⟨by decide, Or.inl rfl⟩
    ⟨b!"Content-Length", b!" 1\r\n", rfl, rfl, by rw [show b!"1" = strip b!" 1\r\n" by decide]; exact isStrip_strip _⟩ (by decide)
    (by unfold digit; decide)
  small := by decide
  spaced := by
    intro l hl t ht _
    rw [List.mem_singleton.mp hl] at ht
    rw [beforeNul_eq ht]
    exact (startswith_iff _ _).mp (by decide)
  body_ := rfl

theorem sample_userStays : UserStays sampleEnv :=
  ⟨fun _ _ _ h => by cases h; rfl, fun _ _ _ _ h => by cases h; rfl⟩

/-- C122 does not hold: the answer to a POST outside /api can be lost, since its body is never read. -/
theorem C122_refuted : ¬ C122_statement := by
  intro hc
  have hu : ∀ c ∈ b!"/form", c ≠ 0 ∧ c ≠ 10 ∧ ¬ White c := by unfold White; decide
  have key : (accept_request sampleEnv { sampleSt with live := [⟨0, [], []⟩], out := [], input := bodyRequest b!"/form" } 7 b!"10.0.0.1").bind
      (fun x => ok (x.1.input, x.1.sent)) =
      ok (b!"a", b!"HTTP/1.1 400 Bad Request\r\nServer: WAYUU/1.5.0\r\nContent-Length: 0\r\n\r\n") := by decide +kernel
  obtain ⟨⟨st', ev⟩, h1, h2⟩ := bind_eq_ok.mp key
  simp only [ok.injEq, Prod.mk.injEq] at h2
  have := hc sampleEnv _ st' 7 b!"10.0.0.1" b!"POST" b!"/form" _ _ _ (some 1) ev (by decide) (by intro l hl; cases hl) (by decide)
    sample_userStays rfl (bodyRequest_whole (by decide) (by decide) hu) h1 []
    ⟨List.nil_prefix, fun e => by rw [h2.1] at e; cases e⟩
  rw [h2.2] at this
  cases this

example : CasePrefix b!"/api" b!"/api/a" ∧ Supported b!"POST" ∧ ¬ Supported b!"HEAD" ∧
    WholeRequest (bodyRequest b!"/api/a") b!"POST" b!"/api/a" b!"Content-Length: 1\r\n\r\na" [b!"Content-Length: 1\r\n"] b!"a" (some 1) :=
  ⟨(startswith_iff _ _).mp (by decide), ⟨b!"POST", by decide, (startswith_iff _ _).mp (by decide)⟩,
    by rintro ⟨m, h1, h2⟩; rw [← startswith_iff] at h2; revert h2; revert m; decide,
    bodyRequest_whole (by decide) (by decide) (by unfold White; decide)⟩
example : (accept_request sampleEnv { sampleSt with live := [⟨0, [], []⟩], out := [], input := bodyRequest b!"/api/a" } 7 b!"10.0.0.1").bind
    (fun x => ok (x.1.input, x.1.sent.take 12)) = ok ([], b!"HTTP/1.1 400") := by decide +kernel
example : (accept_request sampleEnv { sampleSt with live := [⟨5, [], []⟩], out := [], input := bodyRequest b!"/api/a" } 7 b!"10.0.0.1").bind
    (fun x => ok (x.1.input, x.1.sent.take 12)) = ok (b!"Content-Length: 1\r\n\r\na", b!"HTTP/1.1 429") := by decide +kernel

end Wayuu
