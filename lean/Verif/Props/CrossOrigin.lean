import Verif.Spec.CrossOrigin
import Verif.Props.Requests
import Verif.Props.Http
import Verif.Lemmas.Http2
/-
C87: use of the API by pages of other origins.
-/
namespace Wayuu
open C Spec

/-- The response can be read by pages of any origin. -/
def Readable (reply : Str) : Prop := ∃ code fields body, Response reply code fields body ∧ CrossOrigin fields

/-- Every helper's response can be read by pages of other origins, and the question browsers ask before a `PUT`, a `DELETE` or a
`POST` of JSON is answered in the same way. -/
def C87_statement : Prop :=
  (∀ (env : Env) (st : St) (hs : List (Str × Str)), st.req.HasHeaders hs → ∀ status ∈ supported, ∀ data : Str, data.length < 900 →
    (∀ st' reply, return_json_with_status env st status data = ok st' → st'.sent = st.sent ++ reply → Readable reply) ∧
    (∀ st' reply, send_http_status env st status data = ok st' → st'.sent = st.sent ++ reply → Readable reply)) ∧
  (∀ (env : Env) (st : St) (socket : Nat) (peer line rest : Str), peer.length < 16 → LineOf st.input 1023 line rest →
    b!"OPTIONS " <+: line → ∀ st' ev reply, accept_request env st socket peer = ok (st', ev) → st'.sent = st.sent ++ reply →
      Readable reply)

theorem notReadable {reply : Str} {code : Nat} {fields : List (Str × Str)} {body : Str} (h : Response reply code fields body)
    (hf : ∀ f ∈ fields, f.1 = b!"Server" ∨ f.1 = b!"Content-Length") : ¬ Readable reply := by
  rintro ⟨code', fields', body', h', a, b, e, -⟩
  obtain ⟨-, rfl, -⟩ := h.unique h'
  have := hf (b!"Access-Control-Allow-Origin", b!"*") (by rw [e]; simp)
  simp at this

/-- The answers without JSON — 404, 403 and the rest — cannot be read: the page cannot tell a missing record from a broken
network. -/
theorem C87_status (env : Env) (st : St) (hs : List (Str × Str)) (hh : st.req.HasHeaders hs) (status : Nat)
    (h : status ∈ supported) : ∃ st' reply, send_http_status env st status [] = ok st' ∧ st'.sent = st.sent ++ reply ∧ ¬ Readable reply := by
  obtain ⟨start, hst⟩ := findStatus_some h
  obtain ⟨st', h1, h2, -⟩ := send_http_status_eq (env := env) hh hst (message := []) (by simp)
  exact ⟨st', _, h1, h2, notReadable (statusReply_plain hst) (by simp)⟩

example := C87_status sampleEnv sampleSt [] sample_headers 404 (by decide)

/-- Every request with method `OPTIONS` is refused, without the field. -/
theorem C87_preflight (env : Env) (st : St) (socket : Nat) (peer line rest text : Str) (hp : peer.length < 24)
    (hl : LineOf st.input 1023 line rest) (hb : BeforeNul line text) (ho : b!"OPTIONS " <+: text)
    (hs : ∀ c ∈ st.live, c.socket ≠ socket) :
    ∃ st' reply fields, accept_request env st socket peer = ok (st', []) ∧ st'.sent = st.sent ++ reply ∧
      Response reply 400 fields [] ∧ ¬ Readable reply := by
  obtain ⟨t, rfl⟩ := ho
  obtain ⟨st', reply, fields, h1, h2, h3, -, -, -, -, -, h4⟩ := C41_method env st socket peer line rest _ hp hl hb
    (by simp only [List.length_append, List.length_cons]; omega) (by
      rintro ⟨m, hm, a, b, e, hc⟩
      unfold CaseEq at hc
      cases a with
      | nil =>
        simp only [List.mem_cons, List.not_mem_nil, or_false] at hm
        rcases hm with rfl | rfl | rfl | rfl <;> simp at hc
      | cons x xs =>
        simp only [List.cons_append, List.cons.injEq] at e
        obtain ⟨rfl, -⟩ := e
        simp only [List.mem_cons, List.not_mem_nil, or_false] at hm
        rcases hm with rfl | rfl | rfl | rfl <;> exact absurd (List.cons.inj hc).1 (by decide)) hs
  exact ⟨st', reply, fields, h1, h2, h3, notReadable h3 h4⟩

example := C87_preflight sampleEnv { sampleSt with live := [⟨0, [], []⟩], input := b!"OPTIONS /api/x HTTP/1.1\r\nOrigin: a\r\n\r\n" } 7 b!"10.0.0.1"
  b!"OPTIONS /api/x HTTP/1.1\r\n" b!"Origin: a\r\n\r\n" b!"OPTIONS /api/x HTTP/1.1\r\n" (by decide)
  ⟨by decide, by decide, by decide, by decide⟩ ⟨by decide, Or.inl rfl⟩ (by decide) (by decide)

theorem C87_refuted : ¬ C87_statement := by
  intro h
  obtain ⟨st', reply, h1, h2, h3⟩ := C87_status sampleEnv sampleSt [] sample_headers 404 (by decide)
  exact h3 ((h.1 sampleEnv sampleSt [] sample_headers 404 (by decide) [] (by decide)).2 st' reply h1 h2)

theorem jsonFields_origin (b : List (Str × Str)) (hb : ∀ f ∈ b, f.1 = b!"Content-Length") : CrossOrigin (jsonFields ++ b) := by
  refine ⟨[(b!"Server", b!"WAYUU/1.5.0")], [(b!"Access-Control-Allow-Methods", b!"GET, POST, DELETE, PUT"),
    (b!"Access-Control-Allow-Headers", b!"Content-Type"), (b!"Content-Type", b!"application/json")] ++ b, rfl, ?_⟩
  intro f hf
  unfold CaseEq
  simp only [List.cons_append, List.nil_append, List.mem_cons] at hf
  rcases hf with rfl | rfl | rfl | rfl | hf
  · decide
  · decide
  · decide
  · decide
  · rw [hb f hf]; decide

/-- Every JSON response, whatever its status, and every streamed one can be read by pages of any origin. Missing: answers
without JSON (`C87_status`) and `OPTIONS` (`C87_preflight`). -/
theorem C87_partial (env : Env) (st : St) (hs : List (Str × Str)) (hh : st.req.HasHeaders hs) (status : Nat)
    (h : status ∈ supported) (data : Str) (hd : data.length + 300 < 2 ^ 31) :
    (∃ st' reply, return_json_with_status env st status data = ok st' ∧ st'.sent = st.sent ++ reply ∧ Readable reply) ∧
    (NulFree data → ∃ st' reply, return_json_stream env st status data = ok st' ∧ st'.sent = st.sent ++ reply ∧ Readable reply) := by
  obtain ⟨start, hst⟩ := findStatus_some h
  constructor
  · obtain ⟨st', h1, h2, -⟩ := return_json_eq (env := env) (data := data) hh hst (by omega)
    obtain ⟨h4, -⟩ := jsonReply_response hst data
    exact ⟨st', _, h1, h2, _, _, _, h4, jsonFields_origin _ (by simp)⟩
  · intro hz
    obtain ⟨st', h1, h2, -⟩ := return_json_stream_eq (env := env) hh hst hz hd
    have := response_mk hst jsonLines jsonFields (data ++ [13, 10]) jsonLines_fields
    rw [jsonLines_text] at this
    refine ⟨st', _, h1, h2, status, jsonFields, data ++ [13, 10], by simpa [streamReply] using this, ?_⟩
    have := jsonFields_origin [] (by simp)
    simpa using this

example := C87_partial sampleEnv sampleSt [] sample_headers 200 (by decide) b!"{\"a\":1}" (by decide)

theorem mime_mem (m : Str) : get_content_type_for_mime m ∈ contentTypes := by
  unfold get_content_type_for_mime
  repeat' split
  all_goals decide +kernel

/-- `return_headers_with_mime` followed by an empty line and any body is one well-formed response, which can be read by pages of
any origin. -/
theorem C87_mime (st : St) (status : Nat) (h : status ∈ supported) (mime body : Str) :
    ∃ st' n head t, return_headers_with_mime st status mime = ok (n, st') ∧ st'.sent = st.sent ++ head ∧ n = head.length ∧
      get_content_type_for_mime mime = b!"Content-Type: " ++ t ++ [13, 10] ∧
      Response (head ++ [13, 10] ++ body) status [(b!"Server", b!"WAYUU/1.5.0"), (b!"Access-Control-Allow-Origin", b!"*"),
        (b!"Access-Control-Allow-Methods", b!"GET, POST, DELETE, PUT"), (b!"Access-Control-Allow-Headers", b!"Content-Type"),
        (b!"Content-Type", t)] body ∧ Readable (head ++ [13, 10] ++ body) := by
  obtain ⟨start, hst⟩ := findStatus_some h
  have hl : start.length ≤ 36 := (table_lines _ (findStatus_cases hst)).1
  obtain ⟨t, ht, hfield⟩ := types_field (mime_mem mime)
  have hlen : (get_content_type_for_mime mime).length ≤ 42 := by
    have key : ∀ w ∈ contentTypes, w.length ≤ 42 := by decide
    exact key _ (mime_mem mime)
  have h1 : WAYUU_HTTP_SERVER_STRING.length = 21 := by decide
  have h2 : HTTP_ACCESS_CONTROL.length = 130 := by decide +kernel
  have hb : (start ++ WAYUU_HTTP_SERVER_STRING ++ HTTP_ACCESS_CONTROL ++ get_content_type_for_mime mime).length ≤ 250 := by
    simp only [List.length_append]; omega
  have hr := response_mk hst [b!"Server: WAYUU/1.5.0", b!"Access-Control-Allow-Origin: *",
    b!"Access-Control-Allow-Methods: GET, POST, DELETE, PUT", b!"Access-Control-Allow-Headers: Content-Type",
    b!"Content-Type: " ++ t] _ body
    (fields_cons field_server (fields_cons field_origin (fields_cons field_methods (fields_cons field_headers
        (fields_cons hfield .nil)))))
  have e : [b!"Server: WAYUU/1.5.0", b!"Access-Control-Allow-Origin: *",
    b!"Access-Control-Allow-Methods: GET, POST, DELETE, PUT", b!"Access-Control-Allow-Headers: Content-Type",
    b!"Content-Type: " ++ t].flatMap (fun l => l ++ [13, 10]) =
      WAYUU_HTTP_SERVER_STRING ++ HTTP_ACCESS_CONTROL ++ get_content_type_for_mime mime := by
    rw [ht]; simp [WAYUU_HTTP_SERVER_STRING, HTTP_ACCESS_CONTROL]
  rw [e] at hr
  have hr' : Response (start ++ WAYUU_HTTP_SERVER_STRING ++ HTTP_ACCESS_CONTROL ++ get_content_type_for_mime mime ++ [13, 10] ++ body)
      status [(b!"Server", b!"WAYUU/1.5.0"), (b!"Access-Control-Allow-Origin", b!"*"),
        (b!"Access-Control-Allow-Methods", b!"GET, POST, DELETE, PUT"), (b!"Access-Control-Allow-Headers", b!"Content-Type"),
        (b!"Content-Type", t)] body := by simpa using hr
  refine ⟨{ st with out := st.out ++ [start ++ WAYUU_HTTP_SERVER_STRING ++ HTTP_ACCESS_CONTROL ++ get_content_type_for_mime mime] },
    _, start ++ WAYUU_HTTP_SERVER_STRING ++ HTTP_ACCESS_CONTROL ++ get_content_type_for_mime mime, t, ?_, ?_, rfl, ht, hr', _, _, _, hr',
    [(b!"Server", b!"WAYUU/1.5.0")], _, rfl, ?_⟩
  · unfold return_headers_with_mime
    simp only [hst]
    rw [fmtInto_ok (by omega)]
    simp only [ok_bind]
    rw [http_print_all (by omega)]
    rfl
  · simp [St.sent]
  · unfold CaseEq
    intro f hf
    simp only [List.cons_append, List.nil_append, List.mem_cons, List.not_mem_nil, or_false] at hf
    rcases hf with rfl | rfl | rfl | rfl <;> (dsimp only; decide)

/-- C87, what `return_headers_with_mime` returns: the number of bytes it sent, for every status; for a status it does not know that is nothing. -/
theorem C87_count (st : St) (status : Int) (mime : Str) :
    ∃ st' n head, return_headers_with_mime st status mime = ok (n, st') ∧ st'.sent = st.sent ++ head ∧ n = head.length ∧
      (head = [] ↔ ∀ s ∈ supported, status ≠ (s : Nat)) := by
  by_cases h : ∃ s ∈ supported, status = (s : Nat)
  · obtain ⟨s, hs, rfl⟩ := h
    obtain ⟨st', n, head, t, h1, h2, h3, -, hr, -⟩ := C87_mime st s hs mime []
    refine ⟨st', n, head, h1, h2, h3, ⟨?_, fun h => absurd rfl (h s hs)⟩⟩
    rintro rfl
    obtain ⟨start, hst⟩ := findStatus_some hs
    subst h3
    unfold return_headers_with_mime at h1
    simp only [hst] at h1
    obtain ⟨buf, e1, h1⟩ := bind_eq_ok.mp h1
    obtain ⟨_, -, h1⟩ := bind_eq_ok.mp h1
    rw [ok.injEq, Prod.mk.injEq] at h1
    have hb := (fmtInto_eq_ok.mp e1).2
    have := h1.1
    rw [hb] at this
    simp [WAYUU_HTTP_SERVER_STRING] at this
  · have hn : findStatus status HTTP_STATUS_TABLE = none := by
      cases hf : findStatus status HTTP_STATUS_TABLE with
      | none => rfl
      | some start =>
        have key : ∀ e ∈ HTTP_STATUS_TABLE, ∃ s ∈ supported, e.1 = ((s : Nat) : Int) := by decide
        exact absurd (key _ (findStatus_cases hf)) h
    refine ⟨st, 0, [], ?_, by simp, rfl, ⟨fun _ s hs e => h ⟨s, hs, e⟩, fun _ => rfl⟩⟩
    unfold return_headers_with_mime
    simp only [hn]

example : ∀ s ∈ supported, (418 : Int) ≠ (s : Nat) := by decide

/-- A request before a `PUT` of JSON. -/
example : LineOf b!"OPTIONS /api/x HTTP/1.1\r\nOrigin: a\r\n" 1023 b!"OPTIONS /api/x HTTP/1.1\r\n" b!"Origin: a\r\n" ∧
    BeforeNul b!"OPTIONS /api/x HTTP/1.1\r\n" b!"OPTIONS /api/x HTTP/1.1\r\n" ∧ b!"OPTIONS " <+: b!"OPTIONS /api/x HTTP/1.1\r\n" :=
  ⟨⟨by decide, by decide, by decide, by decide⟩, ⟨by decide, Or.inl rfl⟩, by decide⟩

/-- A text/css response. -/
example : (return_headers_with_mime sampleSt 200 b!"text/css").bind (fun p => ok (p.2.sent.drop 168)) =
    ok b!"Content-Type: text/css\r\n" := by decide +kernel

end Wayuu
