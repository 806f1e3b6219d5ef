import Verif.Lemmas.Headers2
import Verif.Lemmas.Limits
/-
How `accept_request` continues once the request line was read (ws.c:540-656).
-/
namespace Wayuu
open C Spec

/-- The state in which a request is passed on, its header section read. -/
def servedSt (st : St) (live : List Conn) (socket : Nat) (ip rl method url : Str) (h : HdrSt) : St :=
  { st with input := h.input, live := live, req := headReq socket ip rl method url h }

theorem begins_line {env : Env} {st : St} {socket : Nat} {peer line text method url rest : Str}
    (hb : Begins st.input line text method url rest) (hp : peer.length < 24) (hs : Supported method) :
    accept_request env st socket peer = (do
      let (added, live) ← connection_add env.limits st.live socket peer url
      if !added then do
        let st ← too_many_connections env { st with input := rest, live := live, req :=
          { lineReq socket peer (text.take (text.length - 2)) method with url := url } }
        ok (connection_close st, [])
      else do
      let h ← parseHeaders ((lineBytes line).map some) rest peer
      let (st, ev) ← dispatch env (servedSt st live socket peer (text.take (text.length - 2)) method url h) url h.content_length h.boundary
      ok (connection_close st, ev)) := by
  obtain ⟨h1, h2, h3, h4, h5⟩ := hb
  obtain ⟨e1, e2⟩ := requestLine_eq h1 h2 h3 h4 h5
  obtain ⟨b, hb1, hb2⟩ := startswithany_methods method
  rw [hb2.mpr hs] at hb1
  unfold accept_request
  rw [fmtInto_ok (by omega)]
  simp only [ok_bind]
  rw [e1]
  simp only [ok_bind, hb1, Bool.not_true, Bool.false_eq_true, if_false]
  rw [e2]
  simp only [ok_bind]
  rfl

theorem served_eq {env : Env} {st : St} {socket : Nat} {peer line text method url rest : Str} {live : List Conn}
    (hb : Begins st.input line text method url rest) (hp : peer.length < 24) (hs : Supported method)
    (hadd : connection_add env.limits st.live socket peer url = ok (true, live)) :
    accept_request env st socket peer = (parseHeaders ((lineBytes line).map some) rest peer).bind (fun h =>
      (dispatch env (servedSt st live socket peer (text.take (text.length - 2)) method url h) url h.content_length h.boundary).bind
      (fun x => ok (connection_close x.1, x.2))) := by
  rw [begins_line hb hp hs, hadd]
  rfl

theorem refused_eq {env : Env} {st : St} {socket : Nat} {peer line text method url rest : Str} {live : List Conn}
    (hb : Begins st.input line text method url rest) (hp : peer.length < 24) (hs : Supported method)
    (hadd : connection_add env.limits st.live socket peer url = ok (false, live)) (hsock : ∀ c ∈ st.live, c.socket ≠ socket) :
    ∃ st' start, accept_request env st socket peer = ok (st', []) ∧ findStatus (429 : Nat) HTTP_STATUS_TABLE = some start ∧
      st'.sent = st.sent ++ statusReply start [] ∧ st'.input = rest ∧ st'.fs = st.fs ∧ st'.live = st.live ∧
      st'.closed = st.closed ++ [socket] := by
  have hl : live = st.live := by
    rcases connection_add_ok hadd with h | h
    · exact h.2
    · cases h.1
  subst hl
  obtain ⟨start, hst⟩ := findStatus_some (n := 429) (by decide)
  obtain ⟨st', h1, h2, h3, h4, h5, h6, h7, h8⟩ := send_http_status_eq (env := env) (hs := [])
    (st := { st with input := rest, req := { lineReq socket peer (text.take (text.length - 2)) method with url := url } })
    (noHeaders rfl rfl) hst (message := []) (by simp)
  refine ⟨connection_close st', start, ?_, hst, h2, h5, h6, ?_, ?_⟩
  · rw [begins_line hb hp hs, hadd]
    simp only [ok_bind, Bool.not_false, if_true]
    unfold too_many_connections
    have h1' : send_http_status env { st with input := rest, live := st.live, req :=
        { lineReq socket peer (text.take (text.length - 2)) method with url := url } } 429 [] = ok st' := h1
    rw [h1']
    rfl
  · have : st'.req.socket = socket := by rw [h3]; rfl
    simp only [connection_close, h7, this]
    exact connection_del_notin hsock
  · have : st'.req.socket = socket := by rw [h3]; rfl
    simp [connection_close, h8, this]

theorem strcaseEq_iff (s t : Str) : strcaseEq s t = true ↔ CaseEq s t := by
  unfold CaseEq
  induction s generalizing t with
  | nil => cases t <;> simp [strcaseEq]
  | cons a s ih =>
    cases t with
    | nil => simp [strcaseEq]
    | cons b t => simp [strcaseEq, ih, toLower_eq]

theorem not_startswith_api {url : Str} (h : ¬ CasePrefix b!"/api" url) : startswith url API_MOUNT = false := by
  cases e : startswith url API_MOUNT with
  | false => rfl
  | true => exact absurd ((startswith_iff _ _).mp e) h

theorem dispatch_static {env : Env} {st : St} {url path query : Str} (hu : ¬ CasePrefix b!"/api" url)
    (hg : get_path_and_query_string url = ok (path, query)) (n : Int) (boundary : Str) :
    dispatch env st url n boundary =
      (if strcaseEq st.req.method b!"GET" then
        handle_static_routes env { st with req := { st.req with query_string := query, path := path } }
       else bad_request env { st with req := { st.req with query_string := query, path := path } }).bind (fun s => ok (s, [])) := by
  unfold dispatch
  rw [hg]
  simp only [ok_bind, not_startswith_api hu, Bool.not_false, if_true]
  split <;> rfl

theorem dispatch_api {env : Env} {st : St} {url mount path query : Str} (hu : CasePrefix b!"/api" url)
    (hg : get_path_and_query_string url = ok (mount ++ path, query)) (hm : mount.length = 4) (hz : NulFree path)
    (n : Int) (boundary : Str) :
    dispatch env st url n boundary =
      handle_api_request env { st with req := { st.req with query_string := query, path := path } } n boundary := by
  unfold dispatch
  rw [hg]
  simp only [ok_bind, show startswith url API_MOUNT = true from (startswith_iff _ _).mpr hu,
    Bool.not_true, Bool.false_eq_true, if_false]
  have : strAt (strdup (mount ++ path)) API_MOUNT.length = ok path := by
    rw [show API_MOUNT.length = mount.length by rw [hm]; rfl]
    unfold strdup
    rw [List.map_append, List.append_assoc, ← List.length_map (f := some) (as := mount)]
    exact strAt_mk rfl hz []
  rw [this]
  rfl

end Wayuu
