import Verif.Props.Static
import Verif.Props.Headers
import Verif.Lemmas.Served
/-
C124: the lengths of header values.
-/
namespace Wayuu
open C Spec

/-- An admitted GET request outside /api for this path, with these header lines and these headers, of any length. -/
def StaticOpen (env : Env) (st : St) (peer path body : Str) (lines : List (List Byte)) (hs : List (Str × Str)) : Prop :=
  ∃ line text method url rest query,
    env.limits.length ≤ 64 ∧ (∀ l ∈ env.limits, l.path ≠ []) ∧ peer.length < 16 ∧
    Begins st.input line text method url rest ∧ CaseEq method b!"GET" ∧ ¬ CasePrefix b!"/api" url ∧
    UrlParts url path query ∧ path ≠ [] ∧ (63 : Byte) ∉ query ∧ Admits env.limits st.live peer url ∧
    Section rest lines body ∧ (∀ l ∈ lines, ∀ t, BeforeNul l t → ¬ Overrun t) ∧ Named lines hs

/-- C124 in full, for a file of the site: it is sent whatever the lengths of the headers. (The stack holds something, see C55.) -/
def C124_statement : Prop :=
  ∀ (env : Env) (st : St) (socket : Nat) (peer path body page name content s : Str) (lines : List (List Byte)) (hs : List (Str × Str)),
    StaticOpen env st peer path body lines hs → Page env.wwwIndex env.favicon path page →
    Served st.fs env.staticRoot env.wwwIndex page name → st.fs.openRead name = some content →
    env.staticRoot.length ≤ 256 → env.wwwIndex.length ≤ 256 → env.favicon.length ≤ 256 → content.length + 1200 < 2 ^ 31 →
    path = b!"/" ∨ path.getLast? ≠ some 47 → Stack env s → s ≠ [] → s.getLast? ≠ some 47 →
    ∃ st' head, accept_request env st socket peer = ok (st', []) ∧ st'.sent = st.sent ++ head ++ content

/-- C124, what holds: all headers may be of any length (and there may be any number of them) but the first Referer and the first
User-Agent among the first twenty, which must have less than 256 bytes. Missing: those. -/
theorem C124_partial (env : Env) (st : St) (socket : Nat) (peer path body page name content s : Str) (lines : List (List Byte))
    (hs : List (Str × Str)) (hreq : StaticOpen env st peer path body lines hs) (hfit : FitsLog (hs.take 20))
    (hpage : Page env.wwwIndex env.favicon path page)
    (hserved : Served st.fs env.staticRoot env.wwwIndex page name) (hopen : st.fs.openRead name = some content)
    (hroot : env.staticRoot.length ≤ 256) (hidx : env.wwwIndex.length ≤ 256) (hicon : env.favicon.length ≤ 256)
    (hlen : content.length + 1200 < 2 ^ 31)
    (hfolder : path = b!"/" ∨ path.getLast? ≠ some 47) (hs : Stack env s) (hne : s ≠ []) (hlast : s.getLast? ≠ some 47) :
    ∃ st' head, accept_request env st socket peer = ok (st', []) ∧ st'.sent = st.sent ++ head ++ content ∧
      b!"HTTP/1.1 200 OK\r\n" <+: head ∧ st'.fs = st.fs ∧ st'.closed = st.closed ++ [socket] := by
  obtain ⟨line, text, method, url, rest, query, h⟩ := hreq
  exact C55_partial env st socket peer path body page name content s
    ⟨lines, line, text, method, url, rest, query, _, by tauto⟩ hpage hserved hopen hroot hidx hicon hlen hfolder hs hne hlast

/-- The two look-ups of the access log, if one of the values does not fit. -/
theorem log_access_long {env : Env} {st : St} {hs : List (Str × Str)} (h : st.req.Stored hs)
    (hz : ∀ p ∈ hs, NulFree p.1 ∧ NulFree p.2) (hfit : ¬ FitsLog hs) (n : Int) : log_access env st n = ub .oob := by
  unfold log_access
  have r := get_header_stored h hz (name := b!"Referer") (by decide) (by decide)
  have u := get_header_stored h hz (name := b!"User-Agent") (by decide) (by decide)
  have f1 := headerValue_first hs b!"Referer"
  have f2 := headerValue_first hs b!"User-Agent"
  have main : ((∃ v, headerValue hs b!"Referer" = some v ∧ 256 ≤ v.length) ∨ ∃ v, headerValue hs b!"User-Agent" = some v ∧ 256 ≤ v.length) := by
    by_contra hno
    apply hfit
    intro name hname v hv
    by_contra hl
    apply hno
    simp only [List.mem_cons, List.not_mem_nil, or_false] at hname
    rcases hname with rfl | rfl
    · exact Or.inl ⟨v, firstHeader_unique f1 hv, by omega⟩
    · exact Or.inr ⟨v, firstHeader_unique f2 hv, by omega⟩
  rcases main with ⟨v, hv, hl⟩ | ⟨v, hv, hl⟩
  · rw [hv] at r
    simp only at r
    rw [if_neg (by omega)] at r
    rw [r]
    rfl
  · rw [hv] at u
    simp only at u
    rw [if_neg (by omega)] at u
    rw [u, r]
    cases headerValue hs b!"Referer" with
    | none => rfl
    | some w =>
      simp only
      split <;> rfl

/-- The header table does not change while a response is sent. -/
theorem http_print_req {st st' : St} {d : List Byte} {n : Int} (h : http_print st d n = ok st') : st'.req = st.req := by
  unfold http_print at h
  dsimp only at h
  split at h
  · cases h
  · cases h
    rfl

theorem http_print_str_req {st st' : St} {d : List Byte} (h : http_print_str st d = ok st') : st'.req = st.req := http_print_req h

theorem log_access_undefined {env : Env} {st st1 st' : St} {hs : List (Str × Str)} (h : st.req.Stored hs)
    (hz : ∀ p ∈ hs, NulFree p.1 ∧ NulFree p.2) (hfit : ¬ FitsLog hs) {n : Int}
    (he : st1.req.headers = st.req.headers ∧ st1.req.n_headers = st.req.n_headers) : log_access env st1 n ≠ ok st' := by
  have : st1.req.Stored hs := ⟨by rw [he.1, he.2]; exact h.1, by rw [he.1]; exact h.2⟩
  rw [log_access_long this hz hfit n]
  simp

theorem send_http_status_long {env : Env} {st st' : St} {hs : List (Str × Str)} (h : st.req.Stored hs)
    (hz : ∀ p ∈ hs, NulFree p.1 ∧ NulFree p.2) (hfit : ¬ FitsLog hs) {n : Int} {m : Str}
    (hn : (findStatus n HTTP_STATUS_TABLE).isSome = true) : send_http_status env st n m ≠ ok st' := by
  intro hk
  unfold send_http_status at hk
  split at hk
  · rename_i e
    rw [e] at hn
    cases hn
  · obtain ⟨_, -, hk⟩ := bind_eq_ok.mp hk
    obtain ⟨_, -, hk⟩ := bind_eq_ok.mp hk
    obtain ⟨_, -, hk⟩ := bind_eq_ok.mp hk
    obtain ⟨s1, e1, hk⟩ := bind_eq_ok.mp hk
    obtain ⟨s2, e2, hk⟩ := bind_eq_ok.mp hk
    have r1 := http_print_str_req e1
    have r2 := http_print_str_req e2
    refine log_access_undefined h hz hfit ?_ hk
    simp only [r2, r1, and_self]

theorem bad_request_long {env : Env} {st st' : St} {hs : List (Str × Str)} (hk : bad_request env st = ok st') (h : st.req.Stored hs)
    (hz : ∀ p ∈ hs, NulFree p.1 ∧ NulFree p.2) (hfit : ¬ FitsLog hs) : False :=
  send_http_status_long h hz hfit (by decide) hk

theorem return_headers_req {st st' : St} {f : Str} {n : Nat} (h : return_headers st f = ok (n, st')) : st'.req = st.req := by
  unfold return_headers at h
  obtain ⟨_, -, h⟩ := bind_eq_ok.mp h
  obtain ⟨s1, e1, h⟩ := bind_eq_ok.mp h
  obtain ⟨_, -, h⟩ := bind_eq_ok.mp h
  obtain ⟨s2, e2, h⟩ := bind_eq_ok.mp h
  obtain ⟨_, -, h⟩ := bind_eq_ok.mp h
  obtain ⟨⟨l, s3⟩, e3, h⟩ := bind_eq_ok.mp h
  obtain ⟨s4, e4, h⟩ := bind_eq_ok.mp h
  cases h
  have e3' : s3.req = s2.req := by
    unfold sessionHeaders at e3
    split at e3
    · obtain ⟨_, -, e3⟩ := bind_eq_ok.mp e3
      obtain ⟨s, e5, e3⟩ := bind_eq_ok.mp e3
      cases e3
      exact http_print_req e5
    · cases e3
      rfl
  rw [http_print_req e4, e3', http_print_req e2, http_print_req e1]

theorem return_file_req {st st' : St} {f : Str} {n : Int} (h : return_file st f = ok (n, st')) : st'.req = st.req := by
  unfold return_file at h
  split at h
  · obtain ⟨s1, e1, h⟩ := bind_eq_ok.mp h
    rw [ok.injEq, Prod.mk.injEq] at h
    rw [← h.2]
    exact http_print_req e1
  · rw [ok.injEq, Prod.mk.injEq] at h
    rw [h.2]

theorem direct_file_long {env : Env} {st st' : St} {hs : List (Str × Str)} (h : st.req.Stored hs)
    (hz : ∀ p ∈ hs, NulFree p.1 ∧ NulFree p.2) (hfit : ¬ FitsLog hs) {f : Str} {r : Int} (hf : is_file st.fs f = true) :
    direct_file env st f ≠ ok (r, st') := by
  intro hk
  unfold direct_file at hk
  rw [hf] at hk
  simp only [Bool.not_true, Bool.false_eq_true, if_false] at hk
  obtain ⟨⟨hl, s1⟩, e1, hk⟩ := bind_eq_ok.mp hk
  obtain ⟨⟨fl, s2⟩, e2, hk⟩ := bind_eq_ok.mp hk
  obtain ⟨_, -, hk⟩ := bind_eq_ok.mp hk
  obtain ⟨s3, e3, hk⟩ := bind_eq_ok.mp hk
  refine log_access_undefined h hz hfit ?_ e3
  simp only [return_file_req e2, return_headers_req e1, and_self]

theorem return_json_headers_req {st st' : St} {n : Int} {l : Nat} (h : return_json_headers st n = ok (l, st')) : st'.req = st.req := by
  unfold return_json_headers at h
  split at h
  · cases h
    rfl
  · obtain ⟨_, -, h⟩ := bind_eq_ok.mp h
    obtain ⟨s1, e1, h⟩ := bind_eq_ok.mp h
    cases h
    exact http_print_req e1

theorem return_json_long {env : Env} {st st' : St} {hs : List (Str × Str)} (h : st.req.Stored hs)
    (hz : ∀ p ∈ hs, NulFree p.1 ∧ NulFree p.2) (hfit : ¬ FitsLog hs) {n : Int} {d : Str} :
    return_json_with_status env st n d ≠ ok st' := by
  intro hk
  unfold return_json_with_status at hk
  obtain ⟨⟨l, s1⟩, e1, hk⟩ := bind_eq_ok.mp hk
  obtain ⟨_, -, hk⟩ := bind_eq_ok.mp hk
  obtain ⟨s2, e2, hk⟩ := bind_eq_ok.mp hk
  obtain ⟨s3, e3, hk⟩ := bind_eq_ok.mp hk
  obtain ⟨s4, e4, hk⟩ := bind_eq_ok.mp hk
  refine log_access_undefined h hz hfit ?_ hk
  simp only [http_print_str_req e4, http_print_str_req e3, http_print_str_req e2, return_json_headers_req e1, and_self]

theorem streamLoop_req : ∀ (n : Nat) {st st' : St} {l l' : Int} {c : Str}, streamLoop n st l c = ok (l', st') → st'.req = st.req
  | 0, _, _, _, _, _, h => by cases h; rfl
  | n + 1, st, st', l, l', c, h => by
    unfold streamLoop at h
    split at h
    · cases h
      rfl
    · obtain ⟨_, -, h⟩ := bind_eq_ok.mp h
      obtain ⟨s1, e1, h⟩ := bind_eq_ok.mp h
      rw [streamLoop_req n h, http_print_req e1]

theorem return_json_stream_long {env : Env} {st st' : St} {hs : List (Str × Str)} (h : st.req.Stored hs)
    (hz : ∀ p ∈ hs, NulFree p.1 ∧ NulFree p.2) (hfit : ¬ FitsLog hs) {n : Int} {d : Str} :
    return_json_stream env st n d ≠ ok st' := by
  intro hk
  unfold return_json_stream at hk
  obtain ⟨⟨l, s1⟩, e1, hk⟩ := bind_eq_ok.mp hk
  obtain ⟨s2, e2, hk⟩ := bind_eq_ok.mp hk
  obtain ⟨⟨l2, s3⟩, e3, hk⟩ := bind_eq_ok.mp hk
  obtain ⟨_, -, hk⟩ := bind_eq_ok.mp hk
  obtain ⟨_, -, hk⟩ := bind_eq_ok.mp hk
  unfold send_stream at e3
  obtain ⟨⟨l4, s4⟩, e4, e3⟩ := bind_eq_ok.mp e3
  obtain ⟨s5, e5, e3⟩ := bind_eq_ok.mp e3
  obtain ⟨_, -, e3⟩ := bind_eq_ok.mp e3
  cases e3
  refine log_access_undefined h hz hfit ?_ hk
  simp only [http_print_req e5, streamLoop_req _ e4, http_print_req e2, return_json_headers_req e1, and_self]

/-- C124, the responses: once such a request is in, none of the response functions completes: whatever the response, an array is read
past its end for the line of the access log. -/
theorem C124_responses (env : Env) (st st' : St) (hs : List (Str × Str)) (h : st.req.Stored hs)
    (hz : ∀ p ∈ hs, NulFree p.1 ∧ NulFree p.2) (name value : Str) (hname : name = b!"Referer" ∨ name = b!"User-Agent")
    (hfirst : FirstHeader hs name (some value)) (hlong : 256 ≤ value.length) :
    (∀ n message, (findStatus n HTTP_STATUS_TABLE).isSome = true → send_http_status env st n message ≠ ok st') ∧
    (∀ n data, return_json_with_status env st n data ≠ ok st') ∧
    (∀ n content, return_json_stream env st n content ≠ ok st') ∧
    (∀ file r, is_file st.fs file = true → direct_file env st file ≠ ok (r, st')) := by
  have hfit : ¬ FitsLog hs := by
    intro hf
    have := hf name (by simpa using hname) value hfirst
    omega
  exact ⟨fun n m hn => send_http_status_long h hz hfit hn, fun n d => return_json_long h hz hfit,
    fun n c => return_json_stream_long h hz hfit, fun f r hf => direct_file_long h hz hfit hf⟩

/-- Handlers answer with the functions above (so do filters that reject), so they do not come back from such a request. -/
def UserResponds (env : Env) : Prop :=
  (∀ id st hs, st.req.Stored hs → (∀ p ∈ hs, NulFree p.1 ∧ NulFree p.2) → ¬ FitsLog hs → ∀ st', env.handle id st ≠ ok st') ∧
  (∀ id st st' b, env.filt id st = ok (st', b) → st'.req.headers = st.req.headers ∧ st'.req.n_headers = st.req.n_headers) ∧
  ∀ id st hs, st.req.Stored hs → (∀ p ∈ hs, NulFree p.1 ∧ NulFree p.2) → ¬ FitsLog hs → ∀ st', env.filt id st ≠ ok (st', false)

/-- Same header table. -/
def SameTable (a b : St) : Prop := b.req.headers = a.req.headers ∧ b.req.n_headers = a.req.n_headers

theorem Stored.same {a b : St} {hs : List (Str × Str)} (h : a.req.Stored hs) (e : SameTable a b) : b.req.Stored hs :=
  ⟨by rw [e.1, e.2]; exact h.1, by rw [e.1]; exact h.2⟩

theorem readForm_table {env : Env} {st st' : St} {n : Int} {b : Str} (h : readForm env st n b = ok st') : SameTable st st' := by
  unfold readForm at h
  split at h
  · obtain ⟨⟨f, i⟩, -, h⟩ := bind_eq_ok.mp h
    simp only at h
    split at h
    · obtain ⟨⟨form, fs⟩, -, h⟩ := bind_eq_ok.mp h
      cases h; exact ⟨rfl, rfl⟩
    · cases h; exact ⟨rfl, rfl⟩
  · cases h; exact ⟨rfl, rfl⟩

theorem handle_static_long {env : Env} {st st' : St} {hs : List (Str × Str)} (h : st.req.Stored hs)
    (hz : ∀ p ∈ hs, NulFree p.1 ∧ NulFree p.2) (hfit : ¬ FitsLog hs)
    (hidx : is_file st.fs (env.staticRoot ++ b!"/" ++ env.wwwIndex) = true) : handle_static_routes env st ≠ ok st' := by
  intro hk
  unfold handle_static_routes at hk
  obtain ⟨p, -, hk⟩ := bind_eq_ok.mp hk
  obtain ⟨path, -, hk⟩ := bind_eq_ok.mp hk
  obtain ⟨⟨r, s1⟩, e1, hk⟩ := bind_eq_ok.mp hk
  by_cases hf : is_file st.fs path = true
  · exact direct_file_long (st := { st with req := { st.req with path := p } }) (Stored.same (a := st) h ⟨rfl, rfl⟩) hz hfit hf e1
  · unfold direct_file at e1
    simp only [Bool.not_eq_true] at hf
    simp only [hf, Bool.not_false, if_true, ok.injEq, Prod.mk.injEq] at e1
    obtain ⟨rfl, rfl⟩ := e1
    simp only [show (-1 : Int) < 0 by decide, if_true] at hk
    obtain ⟨q, e2, hk⟩ := bind_eq_ok.mp hk
    obtain ⟨-, rfl⟩ := fmtInto_eq_ok.mp e2
    obtain ⟨⟨r, s2⟩, e3, hk⟩ := bind_eq_ok.mp hk
    exact direct_file_long (st := { st with req := { st.req with path := p } }) (Stored.same (a := st) h ⟨rfl, rfl⟩) hz hfit hidx e3

theorem router_long {env : Env} {st st' : St} {ev : List Event} {hs : List (Str × Str)} (h : st.req.Stored hs)
    (hz : ∀ p ∈ hs, NulFree p.1 ∧ NulFree p.2) (hfit : ¬ FitsLog hs)
    (hk : router_handle_request env st = ok (st', ev)) : ev ≠ [] ∧ ¬ UserResponds env := by
  unfold router_handle_request at hk
  obtain ⟨_, -, hk⟩ := bind_eq_ok.mp hk
  obtain ⟨⟨hd, fl, form⟩, -, hk⟩ := bind_eq_ok.mp hk
  simp only at hk
  cases hd with
  | none =>
    simp only at hk
    obtain ⟨s1, h1, hk⟩ := bind_eq_ok.mp hk
    exact (bad_request_long h1 (by exact Stored.same (a := st) h ⟨rfl, rfl⟩) hz hfit).elim
  | some hd =>
    cases fl with
    | none =>
      simp only at hk
      obtain ⟨s1, h1, hk⟩ := bind_eq_ok.mp hk
      cases hk
      exact ⟨by simp, fun hu => hu.1 _ _ hs (by exact Stored.same (a := st) h ⟨rfl, rfl⟩) hz hfit _ h1⟩
    | some f =>
      simp only at hk
      obtain ⟨⟨s1, b⟩, h1, hk⟩ := bind_eq_ok.mp hk
      cases b with
      | false =>
        simp only [Bool.not_false, if_true, ok.injEq, Prod.mk.injEq] at hk
        rw [← hk.2]
        exact ⟨by simp, fun hu => hu.2.2 _ _ hs (by exact Stored.same (a := st) h ⟨rfl, rfl⟩) hz hfit _ h1⟩
      | true =>
        simp only [Bool.not_true, Bool.false_eq_true, if_false] at hk
        obtain ⟨s2, h2, hk⟩ := bind_eq_ok.mp hk
        cases hk
        refine ⟨by simp, fun hu => hu.1 _ _ hs ?_ hz hfit _ h2⟩
        have e := hu.2.1 _ _ _ _ h1
        exact Stored.same (a := st) h e

/-- C124, what goes wrong: an admitted request, whatever it asks for, whose first Referer or User-Agent (among the first twenty headers)
has 256 bytes or more leads to a read past an array, unless it gets to user code; and then, too, if that answers with the functions
of the library. (The site has its index page, without which some requests get no answer at all, C62.) -/
theorem C124_undefined (env : Env) (st st' : St) (socket : Nat) (peer line text method url rest body name value : Str)
    (lines : List (List Byte)) (hs : List (Str × Str)) (ev : List Event)
    (hlim : env.limits.length ≤ 64) (hne : ∀ l ∈ env.limits, l.path ≠ []) (hp : peer.length < 16)
    (hb : Begins st.input line text method url rest) (hsup : Supported method) (hadm : Admits env.limits st.live peer url)
    (hsec : Section rest lines body) (hn : Named lines hs) (hname : name = b!"Referer" ∨ name = b!"User-Agent")
    (hfirst : FirstHeader (hs.take 20) name (some value)) (hlong : 256 ≤ value.length)
    (hidx : ∃ c, st.fs.lookup (env.staticRoot ++ b!"/" ++ env.wwwIndex) = some (.file c))
    (h : accept_request env st socket peer = ok (st', ev)) : ev ≠ [] ∧ ¬ UserResponds env := by
  have hfit : ¬ FitsLog (hs.take 20) := by
    intro hf
    have := hf name (by simpa using hname) value hfirst
    omega
  obtain ⟨a, c, b, e1, e2, e3, hadd⟩ := (connection_add_admits (socket := socket) hlim hne
    (show url.length < 512 by have := hb.2.2.2.2; omega) hp).1 hadm
  rw [served_eq hb (by omega) hsup hadd] at h
  obtain ⟨x, hx, h⟩ := bind_eq_ok.mp h
  obtain ⟨⟨st1, ev1⟩, h1, h⟩ := bind_eq_ok.mp h
  simp only [ok.injEq, Prod.mk.injEq] at h
  obtain ⟨-, rfl⟩ := h
  obtain ⟨g1, g2, g3⟩ := lineBytes_buf hb.1.2.1
  generalize hst0 : servedSt st (a ++ ⟨socket, url, peer⟩ :: b) socket peer (text.take (text.length - 2)) method url x = st0 at h1
  have hstored : st0.req.Stored (hs.take 20) := by
    subst hst0
    exact stored_of g1 (by rw [g3]; simp) hsec hn hx ⟨rfl, rfl⟩
  have hfs : st0.fs = st.fs := by subst hst0; rfl
  have hz : ∀ p ∈ hs.take 20, NulFree p.1 ∧ NulFree p.2 := fun p hp => headers_nulFree hn p (List.mem_of_mem_take hp)
  unfold dispatch at h1
  obtain ⟨⟨path, query⟩, -, h1⟩ := bind_eq_ok.mp h1
  dsimp only at h1
  split at h1
  · split at h1
    · obtain ⟨s, h2, h1⟩ := bind_eq_ok.mp h1
      exact absurd h2 (handle_static_long (Stored.same (a := st0) hstored ⟨rfl, rfl⟩) hz hfit
        (by show is_file st0.fs _ = true; rw [hfs]; exact is_file_iff.mpr hidx))
    · obtain ⟨s, h2, h1⟩ := bind_eq_ok.mp h1
      exact (bad_request_long h2 (by exact Stored.same (a := st0) hstored ⟨rfl, rfl⟩) hz hfit).elim
  · obtain ⟨p, -, h1⟩ := bind_eq_ok.mp h1
    unfold handle_api_request at h1
    obtain ⟨s1, h2, h1⟩ := bind_eq_ok.mp h1
    have t := readForm_table h2
    exact router_long (Stored.same (a := st0) hstored t) hz hfit h1

/-- User code that answers with `return_json`. -/
def jsonUserEnv : Env := { sampleEnv with handle := fun _ st => return_json sampleEnv st b!"{}", filt := fun _ st => ok (st, true) }

example : UserResponds jsonUserEnv :=
  ⟨fun _ _ _ h hz hf _ => return_json_long h hz hf, fun _ _ _ _ h => by cases h; exact ⟨rfl, rfl⟩, fun _ _ _ _ _ _ _ h => by cases h⟩

/-- A GET request with a Referer. -/
def refererSt (v : Str) : St :=
  { docsSt b!"/a.txt" with input := b!"GET /a.txt HTTP/1.1\r\n" ++ ((b!"Referer: " ++ v ++ b!"\r\n") ++ 13 :: 10 :: []) }

theorem referer_begins (v : Str) : Begins (refererSt v).input b!"GET /a.txt HTTP/1.1\r\n" b!"GET /a.txt HTTP/1.1\r\n" b!"GET" b!"/a.txt"
    ((b!"Referer: " ++ v ++ b!"\r\n") ++ 13 :: 10 :: []) :=
  ⟨⟨rfl, by decide, by decide, Or.inr (Or.inl rfl)⟩, ⟨by decide, Or.inl rfl⟩,
    ⟨b!" ", 32, b!"HTTP/1.1\r\n", by simp, by unfold White; decide, by decide, by unfold White; decide, by decide,
      by unfold White; decide, by unfold White; decide⟩, by decide, by decide⟩

theorem referer_open {v : Str} (hv : ∀ c ∈ v, c = 97) (hl : v.length ≤ 1000) :
    StaticOpen sampleEnv (refererSt v) b!"10.0.0.1" b!"/a.txt" [] [b!"Referer: " ++ v ++ b!"\r\n"] [(b!"Referer", v)] := by
  have hz : ∀ c ∈ b!"Referer: " ++ v ++ b!"\r\n", c ≠ 0 := by
    intro c hc
    simp only [List.mem_append] at hc
    rcases hc with (hc | hc) | hc
    · revert hc; revert c; decide
    · rw [hv c hc]; decide
    · revert hc; revert c; decide
  refine ⟨_, _, _, _, _, [], by decide, by decide, by decide, referer_begins v, rfl, ?_, Or.inl ⟨rfl, rfl, by decide⟩, by decide, by simp,
    ⟨⟨⟨0, [], []⟩, by simp [refererSt, docsSt], rfl⟩, by intro l hl; simp [sampleEnv] at hl⟩,
    one_line_section (by simp; omega) ?_ (by rw [List.getLast?_append_of_ne_nil _ (by decide)]; rfl) (by simp) (by simp) [], ?_,
    .header _ (b!"Referer: " ++ v ++ b!"\r\n") _ _ _ _ ⟨hz, Or.inl rfl⟩ ?_ .nil⟩
  · rw [← startswith_iff]; decide
  · rw [List.dropLast_append_of_ne_nil (by decide)]
    intro h
    simp only [List.mem_append] at h
    rcases h with (h | h) | h
    · revert h; decide
    · have := hv _ h; revert this; decide
    · revert h; decide
  · intro l hl t ht
    obtain rfl : l = b!"Referer: " ++ v ++ b!"\r\n" := by simpa using hl
    obtain rfl := beforeNul_unique ht ⟨hz, Or.inl rfl⟩
    have hr : startswith (b!"Referer: " ++ v ++ b!"\r\n") b!"Referer: " = true :=
      (startswith_iff _ _).mpr ⟨b!"Referer: ", v ++ b!"\r\n", by simp, rfl⟩
    rintro (⟨h, -⟩ | ⟨h | h, -⟩) <;> rw [← startswith_iff, not_startswith_of_get hr (i := 0) (by decide) (by decide) (by decide)] at h <;>
      cases h
  · have hw : ws 97 = false := by decide
    refine ⟨b!"Referer", b!" " ++ v ++ b!"\r\n", by simp, by decide, ⟨[], [], by simp, by simp, by simp, by decide, by decide⟩,
      b!" ", b!"\r\n", rfl, by decide, by decide, fun c hc => ?_, fun c hc => ?_⟩
    · rw [hv c (List.mem_of_mem_head? hc)]; exact hw
    · rw [hv c (List.mem_of_mem_getLast? hc)]; exact hw

/-- C124 is false: a Referer of 256 bytes. -/
theorem C124_refuted : ¬ C124_statement := by
  intro h
  obtain ⟨v, hv, hl⟩ : ∃ v : Str, (∀ c ∈ v, c = 97) ∧ v.length = 256 :=
    ⟨List.replicate 256 97, fun c hc => List.eq_of_mem_replicate hc, List.length_replicate ..⟩
  have ho := referer_open hv (by omega)
  obtain ⟨st', head, e, -⟩ := h sampleEnv (refererSt v) 7 b!"10.0.0.1" b!"/a.txt" [] b!"/a.txt" b!"/www//a.txt" b!"plain" b!"A" _ _ ho
    (Or.inr (Or.inr (Or.inr ⟨by decide, by decide, by decide, rfl⟩)))
    (Or.inl ⟨⟨b!"plain", by show docsFs.lookup _ = _; decide +kernel⟩, rfl⟩) (by show docsFs.openRead _ = _; decide +kernel)
    (by decide) (by decide) (by decide) (by decide) (Or.inr (by decide)) ⟨[], rfl, by decide⟩ (by decide) (by decide)
  obtain ⟨line, text, method, url, rest, query, h1, h2, h3, h4, h5, h6, h7, h8, h9, h10, h11, h12, h13⟩ := ho
  exact (C124_undefined sampleEnv _ st' 7 _ line text method url rest [] b!"Referer" v _ _ [] h1 h2 h3 h4
    ⟨b!"GET", by simp, method, [], by simp, h5⟩ h10 h11 h13 (Or.inl rfl) ⟨[], [], rfl, by simp⟩ (by omega)
    ⟨b!"site", by show docsFs.lookup _ = _; decide +kernel⟩ e).1 rfl

/-- C124_partial applies: the same request with a Referer of 255 bytes or less. -/
example {v : Str} (hv : ∀ c ∈ v, c = 97) (hl : v.length ≤ 255) : ∃ st' head, accept_request sampleEnv (refererSt v) 7 b!"10.0.0.1" =
    ok (st', []) ∧ st'.sent = (refererSt v).sent ++ head ++ b!"plain" := by
  obtain ⟨st', head, e1, e2, -⟩ := C124_partial sampleEnv (refererSt v) 7 b!"10.0.0.1" b!"/a.txt" [] b!"/a.txt" b!"/www//a.txt" b!"plain" b!"A" _ _
    (referer_open hv (by omega)) (fitsLog_of_short (by simp; omega)) (Or.inr (Or.inr (Or.inr ⟨by decide, by decide, by decide, rfl⟩)))
    (Or.inl ⟨⟨b!"plain", by show docsFs.lookup _ = _; decide +kernel⟩, rfl⟩) (by show docsFs.openRead _ = _; decide +kernel)
    (by decide) (by decide) (by decide) (by decide) (Or.inr (by decide)) ⟨[], rfl, by decide⟩ (by decide) (by decide)
  exact ⟨st', head, e1, e2⟩

end Wayuu
