import Verif.Model.Alloc
import Verif.Props.Forms
/-
C113: requests for which there is not enough memory (ws.c:244-311).
-/
namespace Wayuu.Scarce
open C Spec

/-- C113 in full: a request the server can serve does not harm it when memory is short. -/
def C113_statement : Prop :=
  ∀ (g : Grant) (env : Env) (st : St) (socket : Nat) (peer : Str),
    (∃ x, Wayuu.accept_request env st socket peer = ok x) → ∃ x, accept_request g env st socket peer = ok x

theorem served_eq {g : Grant} {env : Env} {st : St} {socket : Nat} {peer line text method url rest : Str} {live : List Conn}
    (hb : Begins st.input line text method url rest) (hp : peer.length < 24) (hs : Supported method)
    (hadd : connection_add env.limits st.live socket peer url = ok (true, live)) :
    accept_request g env st socket peer = (parseHeaders ((lineBytes line).map some) rest peer).bind (fun h =>
      (dispatch g env (servedSt st live socket peer (text.take (text.length - 2)) method url h) url h.content_length h.boundary).bind
      (fun x => ok (connection_close x.1, x.2))) := by
  obtain ⟨h1, h2, h3, h4, h5⟩ := hb
  obtain ⟨e1, e2⟩ := requestLine_eq h1 h2 h3 h4 h5
  obtain ⟨b, hb1, hb2⟩ := startswithany_methods method
  rw [hb2.mpr hs] at hb1
  unfold accept_request
  rw [fmtInto_ok (by omega)]
  simp only [ok_bind]
  rw [e1]
  simp only [ok_bind, hb1, Bool.not_true, Bool.false_eq_true, if_false]
  rw [e2]
  simp only [ok_bind]
  rw [show connection_add env.limits st.live socket (api_request_new socket peer).IP url = _ from hadd]
  rfl

/-- Nothing is different if the blocks are granted. -/
theorem readForm_granted {g : Grant} (env : Env) (st : St) (n : Int) (b : Str) (h : ∀ k, k ≤ 2 → g k (n.toNat + 1) = true) :
    readForm g env st n b = Wayuu.readForm env st n b := by
  unfold readForm Wayuu.readForm multipart_parse Wayuu.multipart_parse mallocG callocG
  simp only [h 0 (by decide), h 1 (by decide), h 2 (by decide), if_true]

/-- Without the block for the body, the first byte of the body is written to address 0. -/
theorem readForm_refused {g : Grant} (env : Env) (st : St) (n : Nat) (b : Str) (hn : 0 < n) (h : g 0 (n + 1) = false) :
    readForm g env st n b = ub .oob := by
  unfold readForm mallocG
  rw [if_pos (by omega), Int.toNat_natCast]
  dsimp only
  rw [h]
  obtain ⟨m, rfl⟩ : ∃ m, n = m + 1 := ⟨n - 1, by omega⟩
  simp only [Bool.false_eq_true, if_false]
  unfold bodyLoop
  simp [Buf.store]

/-- C113, with memory for everything: each request, whatever it is, is answered as in the model of the other properties. -/
theorem C113_granted {g : Grant} (h : ∀ k n, g k n = true) : accept_request g = Wayuu.accept_request := by
  funext env st socket peer
  unfold accept_request Wayuu.accept_request dispatch Wayuu.dispatch handle_api_request Wayuu.handle_api_request
  simp only [readForm_granted _ _ _ _ (fun k _ => h k _)]

/-- The hypothesis holds for a system that never refuses, and not for one that refuses large blocks. -/
example : (∀ k n, (fun _ _ => true : Grant) k n = true) ∧ ¬ ∀ k n, (fun _ n => decide (n < 4096) : Grant) k n = true :=
  ⟨fun _ _ => rfl, fun h => absurd (h 0 4096) (by decide)⟩

/-- A request METHOD /api/PATH?QUERY (the mount in any case) within the limits that is admitted. `body` is what follows the
header section. -/
structure ApiAsk (env : Env) (st : St) (peer method url path query body : Str) (lines : List (List Byte))
    (hs : List (Str × Str)) : Prop where
  limits : env.limits.length ≤ 64 ∧ ∀ l ∈ env.limits, l.path ≠ []
  peerFits : peer.length < 16
  supported : Supported method
  admitted : Admits env.limits st.live peer url
  parts : ∃ mount, UrlParts url (mount ++ path) query ∧ CaseEq mount b!"/api" ∧ (63 : Byte) ∉ query
  head : ∃ line text rest, Begins st.input line text method url rest ∧ Section rest lines body
  noOverrun : ∀ l ∈ lines, ∀ t, BeforeNul l t → ¬ Overrun t
  named : Named lines hs
  fits : FitsLog (hs.take 20)

/-- Such a request, up to the reading of the body, in both models. -/
theorem ask {env : Env} {st : St} {peer method url path query body : Str} {lines : List (List Byte)} {hs : List (Str × Str)}
    (hc : ApiAsk env st peer method url path query body lines hs) (socket : Nat) (n : Nat) (hcl : LengthOf lines (some n))
    (hlt : n < 2 ^ 31)
    (hsp : ∀ l ∈ lines, ∀ t, BeforeNul l t → CasePrefix b!"Content-Length:" t → CasePrefix b!"Content-Length: " t) :
    ∃ (st2 : St) (b : Str), (∀ g, accept_request g env st socket peer =
        ((readForm g env st2 n b).bind (router_handle_request env)).bind (fun x => ok (connection_close x.1, x.2))) ∧
      Wayuu.accept_request env st socket peer =
        ((Wayuu.readForm env st2 n b).bind (router_handle_request env)).bind (fun x => ok (connection_close x.1, x.2)) := by
  obtain ⟨line, text, rest, hb, hsec⟩ := hc.head
  obtain ⟨mount, hparts, hmount, hq⟩ := hc.parts
  obtain ⟨a, c, b, e1, e2, e3, hadd⟩ := (connection_add_admits (socket := socket) hc.limits.1 hc.limits.2
    (show url.length < 512 by have := hb.2.2.2.2; omega) hc.peerFits).1 hc.admitted
  obtain ⟨x, hh1, -, -⟩ := head_ok hsec hc.noOverrun hc.named hc.fits (lineBytes_buf hb.1.2.1) peer
  have hml : mount.length = 4 := by simpa using congrArg List.length hmount
  have hmne : mount ++ path ≠ [] := by
    intro e
    rw [List.append_eq_nil_iff.mp e |>.1] at hml
    cases hml
  have hget : get_path_and_query_string url = ok (mount ++ path, query) :=
    C36_partial url _ query hb.nulFree hb.2.2.2.2 hparts hmne hq
  have hpre : CasePrefix b!"/api" url := by
    rcases hparts with ⟨rfl, -⟩ | ⟨rfl, -⟩
    · exact ⟨mount, path, rfl, hmount⟩
    · exact ⟨mount, path ++ 63 :: query, by simp, hmount⟩
  have hz : NulFree path := by
    refine NulFree.mono hb.nulFree (fun c hin => ?_)
    rcases hparts with ⟨rfl, -⟩ | ⟨rfl, -⟩ <;> simp [hin]
  obtain ⟨last, -, -, -, -, -, -, f5, -⟩ := parse_fields (lineBytes_buf hb.1.2.1) hsec hh1
  have hb0 : LineBuf (Head.init (lineBytes line) peer).bs := (lineBytes_buf hb.1.2.1).load (line := [65]) (by decide)
  have hclen : x.content_length = (n : Int) :=
    f5.trans (foldl_clen hcl _ hb0 rfl hsec.length_le (fun m hm => by cases hm; exact hlt) hsp)
  let st1 := servedSt st (a ++ ⟨socket, url, peer⟩ :: b) socket peer (text.take (text.length - 2)) method url x
  let st2 : St := { st1 with req := { st1.req with query_string := query, path := path } }
  refine ⟨st2, x.boundary, fun g => ?_, ?_⟩
  · rw [served_eq hb (by have := hc.peerFits; omega) hc.supported hadd, hh1, ← hclen]
    show (dispatch g env st1 url x.content_length x.boundary).bind _ = _
    have : dispatch g env st1 url x.content_length x.boundary = handle_api_request g env st2 x.content_length x.boundary := by
      unfold dispatch
      rw [hget]
      simp only [ok_bind, show startswith url API_MOUNT = true from (startswith_iff _ _).mpr hpre,
        Bool.not_true, Bool.false_eq_true, if_false]
      have : strAt (strdup (mount ++ path)) API_MOUNT.length = ok path := by
        rw [show API_MOUNT.length = mount.length by rw [hml]; rfl]
        unfold strdup
        rw [List.map_append, List.append_assoc, ← List.length_map (f := some) (as := mount)]
        exact strAt_mk rfl hz []
      rw [this]
      rfl
    rw [this]
    rfl
  · rw [Wayuu.served_eq hb (by have := hc.peerFits; omega) hc.supported hadd, hh1, ← hclen]
    show (Wayuu.dispatch env st1 url x.content_length x.boundary).bind _ = _
    rw [dispatch_api hpre hget hml hz]
    rfl

/-- C113, what holds: a request is served as usual if the blocks its body needs are granted. Missing: the others. -/
theorem C113_partial (g : Grant) (env : Env) (st : St) (socket : Nat) (peer method url path query body : Str)
    (lines : List (List Byte)) (hs : List (Str × Str)) (n : Nat) (hc : ApiAsk env st peer method url path query body lines hs)
    (hcl : LengthOf lines (some n)) (hlt : n < 2 ^ 31)
    (hsp : ∀ l ∈ lines, ∀ t, BeforeNul l t → CasePrefix b!"Content-Length:" t → CasePrefix b!"Content-Length: " t)
    (hg : ∀ k, k ≤ 2 → g k (n + 1) = true) :
    accept_request g env st socket peer = Wayuu.accept_request env st socket peer := by
  obtain ⟨st2, b, h1, h2⟩ := ask hc socket n hcl hlt hsp
  rw [h1, h2, readForm_granted env st2 n b (by simpa using hg)]

/-- C113, how it fails: every API request that announces a body for which there is no memory writes to address 0, whether or
not a route matches and whatever the client sends after the header section. -/
theorem C113_crash (g : Grant) (env : Env) (st : St) (socket : Nat) (peer method url path query body : Str)
    (lines : List (List Byte)) (hs : List (Str × Str)) (n : Nat) (hc : ApiAsk env st peer method url path query body lines hs)
    (hcl : LengthOf lines (some n)) (hn : 0 < n) (hlt : n < 2 ^ 31)
    (hsp : ∀ l ∈ lines, ∀ t, BeforeNul l t → CasePrefix b!"Content-Length:" t → CasePrefix b!"Content-Length: " t)
    (hg : g 0 (n + 1) = false) :
    accept_request g env st socket peer = ub .oob := by
  obtain ⟨st2, b, h1, -⟩ := ask hc socket n hcl hlt hsp
  rw [h1, readForm_refused env st2 n b hn hg]
  rfl

/-- A request with a body of three bytes. -/
def bodySt : St :=
  { sampleSt with live := [⟨0, [], []⟩], input := b!"GET /api/a HTTP/1.1\r\nContent-Length: 3\r\n\r\nx=1" }

example : (accept_request (fun _ n => n ≤ 4) sampleRouterEnv bodySt 7 b!"10.0.0.1").bind (fun x => ok x.2.length) = ok 2 := by
  decide +kernel

theorem ApiAsk.of_call {env : Env} {st : St} {peer method url path query body : Str} {lines : List (List Byte)}
    {hs : List (Str × Str)} {regs : List Registration} {r : Registration} {h : Nat}
    (hc : ApiCall env st peer method url path query body lines hs regs r h) :
    ApiAsk env st peer method url path query body lines hs :=
  ⟨hc.limits, hc.peerFits, hc.supported, hc.admitted, hc.parts, hc.head, hc.noOverrun, hc.named, hc.fits⟩

/-- The form of C70, with and without memory for its 140 bytes. -/
example : accept_request (fun _ n => n ≤ 140) sampleRouterEnv (formSt plainType) 7 b!"10.0.0.1" = ub .oob ∧
    accept_request (fun _ n => n ≤ 141) sampleRouterEnv (formSt plainType) 7 b!"10.0.0.1" =
      Wayuu.accept_request sampleRouterEnv (formSt plainType) 7 b!"10.0.0.1" := by
  have hc := ApiAsk.of_call (formCall (ct := plainType) (cl := formLength) formBody (by decide +kernel) (by decide +kernel) (by decide +kernel)
    (by decide +kernel) (by decide +kernel) (by decide +kernel) (by decide +kernel))
  have hl := formLength_length plainType (by decide +kernel) (by decide +kernel)
  have hsp : ∀ l ∈ [] ++ plainType :: [formLength], ∀ t, BeforeNul l t → CasePrefix b!"Content-Length:" t →
      CasePrefix b!"Content-Length: " t := by
    intro l hl t ht hp
    rcases (show l = plainType ∨ l = formLength by simpa using hl) with rfl | rfl
    · rw [beforeNul_eq ht] at hp
      exact absurd ((startswith_iff _ _).mpr hp) (by decide +kernel)
    · rw [beforeNul_eq ht]
      exact (startswith_iff _ _).mp (by decide +kernel)
  exact ⟨C113_crash _ _ _ 7 _ _ _ _ _ _ _ _ 140 hc hl (by decide) (by decide) hsp (by decide),
    C113_partial _ _ _ 7 _ _ _ _ _ _ _ _ 140 hc hl (by decide) hsp (by decide)⟩

/-- C113 fails. -/
theorem C113_refuted : ¬ C113_statement := by
  intro h
  have h1 : (Wayuu.accept_request sampleRouterEnv bodySt 7 b!"10.0.0.1").bind (fun x => ok x.2.length) = ok 2 := by
    decide +kernel
  have h2 : (accept_request (fun _ n => n ≤ 3) sampleRouterEnv bodySt 7 b!"10.0.0.1").bind (fun x => ok x.2.length) = ub .oob := by
    decide +kernel
  obtain ⟨x, hx, -⟩ := bind_eq_ok.mp h1
  obtain ⟨y, hy⟩ := h (fun _ n => n ≤ 3) sampleRouterEnv bodySt 7 b!"10.0.0.1" ⟨x, hx⟩
  rw [hy] at h2
  cases h2

end Wayuu.Scarce
