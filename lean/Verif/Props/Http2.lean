import Verif.Lemmas.Response
import Verif.Lemmas.Sample
import Verif.Lemmas.Http2
import Verif.Props.Json
/-
Properties C35–C40.
-/
namespace Wayuu
open C Spec

/-! ### C35 -/

/-- C35 in full. -/
def C35_statement : Prop :=
  ∀ (env : Env) (st : St) (hs : List (Str × Str)) (session filename content : Str),
    st.req.HasHeaders hs → cstr st.req.session = ok session → session.length < 64 → OneLine session →
    st.fs.openRead filename = some content → content.length + 1200 < 2 ^ 31 →
    ∃ st' reply fields t, direct_file env st filename = ok (0, st') ∧ st'.sent = st.sent ++ reply ∧
      Response reply 200 fields content ∧ (b!"Content-Type", t) ∈ fields

/-- C35 is false for every file: the status line is sent twice, so what is sent is never a well-formed
response. -/
theorem C35_never (env : Env) (st : St) (hs : List (Str × Str)) (hh : st.req.HasHeaders hs)
    (session filename content : Str) (hse : cstr st.req.session = ok session) (hsl : session.length ≤ 490)
    (hopen : st.fs.openRead filename = some content) (hlen : content.length + 1200 < 2 ^ 31) :
    ∃ st' reply, direct_file env st filename = ok (0, st') ∧ st'.sent = st.sent ++ reply ∧
      ∀ code fields body, ¬ Response reply code fields body := by
  obtain ⟨st', h1, h2, -⟩ := direct_file_eq (env := env) hh hse hsl hopen hlen
  refine ⟨st', _, h1, h2, fun code fields body => ?_⟩
  have := not_response3 (l1 := b!"HTTP/1.1 200 OK") (l2 := b!"Server: WAYUU/1.5.0") (l3 := b!"HTTP/1.1 200 OK")
    (rest := WAYUU_HTTP_SERVER_STRING ++ (get_content_type filename ++ (sessionText session ++ (13 :: 10 :: content))))
    (by unfold OneLine; decide) (by unfold OneLine; decide) (by decide) (by unfold OneLine; decide) (by decide) (by decide)
    (c := code) (f := fields) (body := body)
  have e : fileReply filename session content = b!"HTTP/1.1 200 OK" ++ 13 :: 10 :: (b!"Server: WAYUU/1.5.0" ++ 13 :: 10 ::
      (b!"HTTP/1.1 200 OK" ++ 13 :: 10 ::
        (WAYUU_HTTP_SERVER_STRING ++ (get_content_type filename ++ (sessionText session ++ (13 :: 10 :: content)))))) := by
    simp [fileReply, fileHead, HTTP_OK_START, WAYUU_HTTP_SERVER_STRING]
  rw [e]
  exact this

/-- A state with the single file `/f`. -/
def fileSt (content : Str) : St :=
  { sampleSt with fs := ⟨fun p => if p = [b!"f"] then some (.file content) else none, fun _ => true, fun _ => true⟩ }

/-- C35 is false. -/
theorem C35_refuted : ¬ C35_statement := by
  intro h
  obtain ⟨st', reply, fields, t, h1, h2, h3, -⟩ := h sampleEnv (fileSt b!"x") [] [] b!"/f" b!"x" sample_headers
    (by decide) (by decide) (by unfold OneLine; decide) (by decide) (by decide)
  obtain ⟨st'', reply', g1, g2, g3⟩ := C35_never sampleEnv (fileSt b!"x") [] sample_headers [] b!"/f" b!"x"
    (by decide) (by decide) (by decide) (by decide)
  rw [g1] at h1
  simp only [ok.injEq, Prod.mk.injEq, true_and] at h1
  subst h1
  rw [g2] at h2
  simp only [List.append_cancel_left_eq] at h2
  subst h2
  exact g3 _ _ _ h3

/-- C35, what holds: after the superfluous first status line and Server line comes one well-formed 200
response with the content type of the file name, the session (if there is one) and exactly the bytes of
the file. Missing: the duplicate head makes the whole stream ill-formed. -/
theorem C35_partial (env : Env) (st : St) (hs : List (Str × Str)) (hh : st.req.HasHeaders hs)
    (session filename content : Str) (hse : cstr st.req.session = ok session) (hsl : session.length < 64)
    (hone : OneLine session) (hhead : ∀ c, session.head? = some c → c ≠ 32 ∧ c ≠ 9)
    (hopen : st.fs.openRead filename = some content) (hlen : content.length + 1200 < 2 ^ 31) :
    ∃ st' reply t, direct_file env st filename = ok (0, st') ∧
      st'.sent = st.sent ++ b!"HTTP/1.1 200 OK\r\nServer: WAYUU/1.5.0\r\n" ++ reply ∧
      get_content_type filename = b!"Content-Type: " ++ t ++ [13, 10] ∧
      Response reply 200 ([(b!"Server", b!"WAYUU/1.5.0"), (b!"Content-Type", t)] ++
        (if session = [] then [] else [(b!"X-Session", session), (b!"Set-Cookie", b!"WSSESSION=" ++ session)])) content := by
  obtain ⟨st', h1, h2, -⟩ := direct_file_eq (env := env) hh hse (by omega) hopen hlen
  obtain ⟨t, ht, hf⟩ := content_type_field filename
  refine ⟨st', fileHead ++ get_content_type filename ++ sessionText session ++ [13, 10] ++ content, t, h1, ?_, ht, ?_⟩
  · rw [h2]
    simp [fileReply, fileHead, HTTP_OK_START, WAYUU_HTTP_SERVER_STRING]
  · have hst : findStatus 200 HTTP_STATUS_TABLE = some HTTP_OK_START := by decide
    by_cases e : session = []
    · subst e
      have := response_mk hst [b!"Server: WAYUU/1.5.0", b!"Content-Type: " ++ t] _ content
        (fields_cons field_server (fields_cons hf .nil))
      rw [ht]
      simpa [sessionText, fileHead, WAYUU_HTTP_SERVER_STRING] using this
    · have f1 : Field (b!"X-Session" ++ 58 :: (b!" " ++ session)) b!"X-Session" session :=
        field_mk _ _ _ (by decide) (by unfold nameByte; decide) (by decide) hone hhead
      have f2 : Field (b!"Set-Cookie" ++ 58 :: ([] ++ (b!"WSSESSION=" ++ session))) b!"Set-Cookie" (b!"WSSESSION=" ++ session) := by
        refine field_mk _ _ _ (by decide) (by unfold nameByte; decide) (by decide) ?_ (by simp)
        intro c hc
        rcases List.mem_append.mp hc with hc' | hc'
        · clear hc; revert hc'; revert c; decide
        · exact hone c hc'
      have := response_mk hst [b!"Server: WAYUU/1.5.0", b!"Content-Type: " ++ t, b!"X-Session" ++ 58 :: (b!" " ++ session),
          b!"Set-Cookie" ++ 58 :: ([] ++ (b!"WSSESSION=" ++ session))] _ content
        (fields_cons field_server (fields_cons hf (fields_cons f1 (fields_cons f2 .nil))))
      rw [ht]
      simpa [sessionText, fileHead, e, WAYUU_HTTP_SERVER_STRING] using this

/-- C35, missing files: nothing is sent, nothing changes, the result is -1. -/
theorem C35_missing_partial (env : Env) (st : St) (filename : Str)
    (h : ∀ c, st.fs.lookup filename ≠ some (.file c)) : direct_file env st filename = ok (-1, st) := by
  have : is_file st.fs filename = false := by
    rw [← Bool.not_eq_true, is_file_iff]
    rintro ⟨c, hc⟩
    exact h c hc
  simp [direct_file, this]

example : (fileSt b!"x").fs.openRead b!"/f" = some b!"x" := by decide
example : (direct_file sampleEnv (fileSt b!"x") b!"/f").bind (fun p => ok (p.2.sent.drop 38)) =
    ok b!"HTTP/1.1 200 OK\r\nServer: WAYUU/1.5.0\r\nContent-Type: text/html\r\n\r\nx" := by
  decide +kernel
example : ∀ c, sampleSt.fs.lookup b!"/f" ≠ some (.file c) := by
  intro c
  have : sampleSt.fs.lookup b!"/f" = none := by decide +kernel
  rw [this]
  simp

/-! ### C36 -/

/-- C36 in full. -/
def C36_statement : Prop :=
  ∀ url path query : Str, NulFree url → url.length ≤ 254 → UrlParts url path query →
    get_path_and_query_string url = ok (path, query)

/-- C36 is false: for `a?b?c` the query is cut at the second question mark. -/
theorem C36_refuted : ¬ C36_statement := by
  intro h
  have := h b!"a?b?c" b!"a" b!"b?c" (by decide) (by decide) (Or.inr (by decide))
  revert this
  decide +kernel

/-- C36 also fails for an empty path: the query takes its place. -/
theorem C36_refuted_empty : UrlParts b!"?q" [] b!"q" ∧ get_path_and_query_string b!"?q" = ok (b!"q", []) :=
  ⟨Or.inr (by decide), by decide +kernel⟩

/-- C36, exactly what the code returns: the first two non-empty runs between question marks. -/
theorem C36_runs_partial (url t : Str) (ts : List Str) (hz : NulFree url) (h : Runs b!"?" url (t :: ts))
    (hlen : ∀ u ∈ t :: ts, u.length < 1023) (hcnt : (t :: ts).length ≤ 50) :
    get_path_and_query_string url = ok (t, ts.head?.getD []) := by
  have hm := runs_mem h
  have hn : ∀ u ∈ t :: ts, NulFree u := fun u hu c hc => hz c (hm u hu c hc)
  unfold get_path_and_query_string
  rw [split_eq h hlen hcnt]
  simp only [ok_bind, List.map_cons, strSlot, List.getElem?_cons_zero]
  rw [cstr_splitBuf (hn t (by simp))]
  cases ts with
  | nil => simp
  | cons u us =>
    simp [cstr_splitBuf (hn u (by simp))]

example : get_path_and_query_string b!"/a?b=1?c" = ok (b!"/a", b!"b=1") :=
  C36_runs_partial b!"/a?b=1?c" b!"/a" [b!"b=1", b!"c"] (by decide)
    (.cons [] b!"/a" 63 b!"b=1?c" _ (by decide) (by decide) (by decide) (by decide)
      (.cons [] b!"b=1" 63 b!"c" _ (by decide) (by decide) (by decide) (by decide)
        (.last [] b!"c" (by decide) (by decide) (by decide)))) (by decide) (by decide)

/-- C36, what holds: a non-empty path and a query without further question marks. Missing: empty paths,
queries with question marks. -/
theorem C36_partial (url path query : Str) (hz : NulFree url) (hl : url.length ≤ 254) (h : UrlParts url path query)
    (hp : path ≠ []) (hq : (63 : Byte) ∉ query) : get_path_and_query_string url = ok (path, query) := by
  have hpath : ∀ (p : Str), (63 : Byte) ∉ p → ∀ c ∈ p, c ∉ b!"?" := by
    intro p hp c hc h
    simp only [List.mem_singleton] at h
    subst h
    exact hp hc
  rcases h with ⟨rfl, rfl, hn⟩ | ⟨rfl, hn⟩
  · have := C36_runs_partial url url [] hz (by simpa using Runs.last (delim := b!"?") [] url (by simp) hp (hpath url hn))
      (by simp; omega) (by simp)
    simpa using this
  · simp only [List.length_append, List.length_cons] at hl
    by_cases e : query = []
    · subst e
      have := C36_runs_partial (path ++ [63]) path [] hz
        (by simpa using Runs.cons (delim := b!"?") [] path 63 [] [] (by simp) hp (hpath path hn) (by simp) (.nil [] (by simp)))
        (by simp; omega) (by simp)
      simpa using this
    · have r2 := Runs.last (delim := b!"?") [] query (by simp) e (hpath query hq)
      have r1 := Runs.cons (delim := b!"?") [] path 63 query [query] (by simp) hp (hpath path hn) (by simp)
        (by simpa using r2)
      have := C36_runs_partial (path ++ 63 :: query) path [query] hz (by simpa using r1)
        (by simp; omega) (by simp)
      simpa using this

example : get_path_and_query_string b!"/api/x?y=1" = ok (b!"/api/x", b!"y=1") :=
  C36_partial b!"/api/x?y=1" b!"/api/x" b!"y=1" (by decide) (by decide) (Or.inr (by decide)) (by decide) (by decide)

/-- C36, URLs without any other byte than question marks (the empty URL included) make the code read an
uninitialised string. -/
theorem C36_uninit (url : Str) (h : ∀ c ∈ url, c = 63) : get_path_and_query_string url = ub .uninit := by
  unfold get_path_and_query_string
  rw [split_eq (Runs.nil (delim := b!"?") url (by simpa using h)) (by simp) (by simp)]
  rfl

example : UrlParts b!"/api/x?y=1" b!"/api/x" b!"y=1" := Or.inr (by decide)

theorem runs_token_length {delim s : Str} {ts : List Str} (h : Spec.Runs delim s ts) : ∀ t ∈ ts, t.length ≤ s.length := by
  induction h with
  | nil => simp
  | last d t hd ht htd => simp
  | cons d t x s ts hd ht htd hx _ ih =>
    intro u hu
    simp only [List.mem_cons] at hu
    rcases hu with rfl | hu
    · simp; omega
    · have := ih u hu
      simp; omega

theorem runs_pieces {delim s : Str} {ts : List Str} (h : Spec.Runs delim s ts) : ∀ t ∈ ts, t ≠ [] ∧ ∀ c ∈ t, c ∉ delim := by
  induction h with
  | nil => simp
  | last d t hd ht htd =>
    intro u hu
    rw [List.mem_singleton.mp hu]
    exact ⟨ht, htd⟩
  | cons d t x s ts hd ht htd hx _ ih =>
    intro u hu
    rcases List.mem_cons.mp hu with rfl | hu
    · exact ⟨ht, htd⟩
    · exact ih u hu

/-- C36, URLs of more than 50 pieces between question marks: the code writes past the array of pieces. -/
theorem C36_over (url : Str) (ts : List Str) (hl : url.length ≤ 254) (h : Runs b!"?" url ts) (hcnt : 50 < ts.length) :
    get_path_and_query_string url = ub .oob := by
  have hlen : ∀ t ∈ ts, t.length < 1023 := fun t ht => by
    have : t.length ≤ url.length := runs_token_length h t ht
    omega
  have : split url b!"?" = ub .oob :=
    splitLoop_over h [] (url.length + 1) (by have := runs_length h; omega) (by simp) (by simpa using hcnt) hlen
  unfold get_path_and_query_string
  rw [this]
  rfl

theorem runs_marks : ∀ n : Nat, Runs b!"?" (List.replicate n [97, 63]).flatten (List.replicate n [97])
  | 0 => .nil [] (by simp)
  | n + 1 => by
    simp only [List.replicate_succ, List.flatten_cons]
    exact .cons [] [97] 63 _ _ (by simp) (by simp) (by decide) (by decide) (runs_marks n)

/-- A URL of 102 bytes. -/
example : get_path_and_query_string (List.replicate 51 b!"a?").flatten = ub .oob :=
  C36_over _ _ (by decide) (runs_marks 51) (by decide)

/-- C36, exactly when it holds: the path is not empty and the query has no further question mark. -/
theorem C36_exact (url path query : Str) (hz : NulFree url) (hl : url.length ≤ 254) (h : UrlParts url path query) :
    get_path_and_query_string url = ok (path, query) ↔ path ≠ [] ∧ (63 : Byte) ∉ query := by
  refine ⟨fun hg => ?_, fun hc => C36_partial url path query hz hl h hc.1 hc.2⟩
  obtain ⟨ts, hr⟩ := runs_exists b!"?" url
  have hlen : ∀ t ∈ ts, t.length < 1023 := fun t ht => by
    have : t.length ≤ url.length := runs_token_length hr t ht
    omega
  by_cases hcnt : 50 < ts.length
  · rw [C36_over url ts hl hr hcnt] at hg
    cases hg
  have hpieces := runs_pieces hr
  cases ts with
  | nil =>
    cases hr with
    | nil _ hd => rw [C36_uninit url (by simpa using hd)] at hg; cases hg
  | cons t ts =>
    rw [C36_runs_partial url t ts hz hr hlen (by omega)] at hg
    cases hg
    refine ⟨(hpieces path (by simp)).1, fun hq => ?_⟩
    cases ts with
    | nil => cases hq
    | cons u us => exact (hpieces u (by simp)).2 63 hq (by simp)

example : UrlParts b!"/a?b?c" b!"/a" b!"b?c" ∧ ¬ get_path_and_query_string b!"/a?b?c" = ok (b!"/a", b!"b?c") :=
  ⟨Or.inr (by decide), fun h => absurd ((C36_exact _ _ _ (by decide) (by decide) (Or.inr (by decide))).mp h).2 (by decide)⟩

/-! ### C37 -/

/-- C37 in full. -/
def C37_statement : Prop :=
  ∀ (req : Req) (hs : List (Str × Str)) (name : Str), req.Stored hs → hs.length ≤ 20 →
    (∀ p ∈ hs, NulFree p.1 ∧ NulFree p.2) → NulFree name →
    ∃ v, FirstHeader hs name v ∧ http_get_header req name = ok ⟨v.isSome, v.getD []⟩

/-- C37 is false: a value of 256 bytes is stored without a terminator and read past its array. -/
theorem C37_refuted : ¬ C37_statement := by
  intro h
  obtain ⟨v, -, h1⟩ := h { sampleReq with n_headers := 1, headers :=
      [⟨(b!"A").map some ++ List.replicate 63 (some 0), List.replicate 256 (some 65)⟩] }
    [(b!"A", List.replicate 256 65)] b!"A" ⟨rfl, .cons (by decide +kernel) .nil⟩ (by decide)
    (by unfold NulFree; decide +kernel) (by decide)
  have : http_get_header { sampleReq with n_headers := 1, headers :=
      [⟨(b!"A").map some ++ List.replicate 63 (some 0), List.replicate 256 (some 65)⟩] } b!"A" = ub .oob := by
    decide +kernel
  rw [this] at h1
  simp at h1

/-- C37, what holds: names and values that fit their arrays. The block returned is the caller's iff the header exists. Missing:
longer ones, for which see C37_exact and C37_long. -/
theorem C37_partial (req : Req) (hs : List (Str × Str)) (name : Str) (h : req.Stored hs)
    (hlen : ∀ p ∈ hs, p.1.length < 64 ∧ p.2.length < 256)
    (hz : ∀ p ∈ hs, NulFree p.1 ∧ NulFree p.2) (hn : NulFree name) :
    ∃ v, FirstHeader hs name v ∧ http_get_header req name = ok ⟨v.isSome, v.getD []⟩ := by
  refine ⟨headerValue hs name, headerValue_first hs name, ?_⟩
  rw [get_header_fits h hz hlen hn]
  cases headerValue hs name <;> rfl

example : ∃ req : Req, req.Stored [(b!"Host", b!"a")] ∧ http_get_header req b!"Host" = ok ⟨true, b!"a"⟩ := by
  have hs : Req.Stored { sampleReq with n_headers := 1, headers := [⟨padTo 64 b!"Host", padTo 256 b!"a"⟩] } [(b!"Host", b!"a")] :=
    ⟨rfl, .cons ⟨calloc_strncpy_pad .., calloc_strncpy_pad ..⟩ .nil⟩
  obtain ⟨v, hv, h⟩ := C37_partial _ [(b!"Host", b!"a")] b!"Host" hs (by decide) (by decide) (by decide)
  have : v = some b!"a" := by
    cases v with
    | none => exact absurd (hv _ (List.mem_singleton.mpr rfl)) (by simp)
    | some w =>
      obtain ⟨a, b, h1, h2⟩ := hv
      cases a with
      | nil => cases h1; rfl
      | cons x a => simp at h1
  rw [this] at h
  exact ⟨_, hs, h⟩

/-- C37, exactly, for names of less than 64 bytes: the first header of that name is found however long the other names and values
are, and its value returned if it has less than 256 bytes; if it has more its array is read past its end. -/
theorem C37_exact (req : Req) (hs : List (Str × Str)) (name : Str) (h : req.Stored hs) (hz : ∀ p ∈ hs, NulFree p.1 ∧ NulFree p.2)
    (hn : NulFree name) (hl : name.length < 64) :
    (∀ v, FirstHeader hs name (some v) → v.length < 256 → http_get_header req name = ok ⟨true, v⟩) ∧
    (∀ v, FirstHeader hs name (some v) → 256 ≤ v.length → http_get_header req name = ub .oob) ∧
    (FirstHeader hs name none → http_get_header req name = ok ⟨false, []⟩) := by
  have hf := headerValue_first hs name
  rw [get_header_stored h hz hn hl]
  refine ⟨fun v hv h1 => ?_, fun v hv h1 => ?_, fun hv => ?_⟩
  · rw [firstHeader_unique hf hv]
    simp only
    rw [if_pos h1]
  · rw [firstHeader_unique hf hv]
    simp only
    rw [if_neg (by omega)]
  · rw [firstHeader_unique hf hv]

/-- C37, exactly, for longer names: only 64 bytes of a name are stored, so a header whose name begins with the same 64 bytes makes the
comparison run past its array; otherwise the header counts as absent. -/
theorem C37_long (req : Req) (hs : List (Str × Str)) (name : Str) (h : req.Stored hs) (hz : ∀ p ∈ hs, NulFree p.1 ∧ NulFree p.2)
    (hn : NulFree name) (hl : 64 ≤ name.length) :
    ((∃ p ∈ hs, p.1.take 64 = name.take 64) → http_get_header req name = ub .oob) ∧
    ((∀ p ∈ hs, p.1.take 64 ≠ name.take 64) → http_get_header req name = ok ⟨false, []⟩) := by
  rw [get_header_long h hz hn hl]
  exact ⟨fun h => if_pos h, fun h => if_neg (by rintro ⟨p, hp, e⟩; exact h p hp e)⟩

/-- C37_exact applies: a table with a long value, and a short one behind it. -/
example (v : Str) (hv : NulFree v) (hl : 256 ≤ v.length) :
    ∃ req : Req, req.Stored [(b!"Accept", v), (b!"Host", b!"a")] ∧
      http_get_header req b!"Host" = ok ⟨true, b!"a"⟩ ∧ http_get_header req b!"Accept" = ub .oob := by
  have hs : Req.Stored { sampleReq with n_headers := 2, headers :=
      [⟨padTo 64 b!"Accept", padTo 256 v⟩, ⟨padTo 64 b!"Host", padTo 256 b!"a"⟩] } [(b!"Accept", v), (b!"Host", b!"a")] :=
    ⟨rfl, .cons ⟨calloc_strncpy_pad .., calloc_strncpy_pad ..⟩ (.cons ⟨calloc_strncpy_pad .., calloc_strncpy_pad ..⟩ .nil)⟩
  have hz : ∀ p ∈ [(b!"Accept", v), (b!"Host", b!"a")], NulFree p.1 ∧ NulFree p.2 := by
    simp only [List.mem_cons, List.not_mem_nil, or_false, forall_eq_or_imp, forall_eq]
    exact ⟨⟨by decide, hv⟩, by decide, by decide⟩
  exact ⟨_, hs, (C37_exact _ _ _ hs hz (by decide) (by decide)).1 _ ⟨[(b!"Accept", v)], [], rfl, by simp⟩ (by decide),
    (C37_exact _ _ _ hs hz (by decide) (by decide)).2.1 v ⟨[], [(b!"Host", b!"a")], rfl, by simp⟩ hl⟩

example : sampleReq.Stored [] := ⟨rfl, .nil⟩
example : FirstHeader [(b!"A", b!"1"), (b!"B", b!"2"), (b!"B", b!"3")] b!"B" (some b!"2") :=
  ⟨[(b!"A", b!"1")], [(b!"B", b!"3")], rfl, by decide⟩

/-! ### C38 -/

/-- The name of a response status. -/
def statusName (status : Int) : Option Str :=
  if status = -1 then some b!"FAIL" else if status = 0 then some b!"OK"
  else if status = 1 then some b!"ERROR" else if status = 2 then some b!"WARNING" else none

/-- The `data` member: the given JSON text, or an empty string. -/
def DataIs (data : Option Str) (v : Value) : Prop := (data = none ∧ v = .str []) ∨ ∃ d, data = some d ∧ Json d v

/-- C38 in full: every documented status, any text and description that need no escaping (omitted if
empty) and any JSON data. -/
def C38_statement : Prop :=
  ∀ (status : Int) (name text description : Str) (data : Option Str) (v : Value), statusName status = some name →
    Plain text → Plain description → DataIs data v →
    ∃ out, return_response ⟨status, strdup text, strdup description, data⟩ = ok out ∧
      Json out (.obj ([(b!"RSP", .str name)] ++ (if text = [] then [] else [(b!"info", .str text)]) ++
        (if description = [] then [] else [(b!"description", .str description)]) ++ [(b!"data", v)]))

/-- C38 is false: without a text the code prints an uninitialised pointer. -/
theorem C38_refuted : ¬ C38_statement := by
  intro h
  obtain ⟨out, h1, -⟩ := h 0 b!"OK" [] b!"d" none (.str []) (by decide) (by simp [Plain]) (by unfold Plain; decide) (Or.inl ⟨rfl, rfl⟩)
  have : return_response ⟨0, strdup [], strdup b!"d", none⟩ = ub .uninit := by decide
  rw [this] at h1
  simp at h1

/-- C38, the uninitialised cases: an unknown status, an empty text or an empty description. -/
theorem C38_uninit (status : Int) (text description : Str) (data : Option Str) (h1 : NulFree text)
    (h2 : NulFree description) (h : statusName status = none ∨ text = [] ∨ description = []) :
    return_response ⟨status, strdup text, strdup description, data⟩ = ub .uninit := by
  unfold return_response
  simp only [cstr_strdup h1, cstr_strdup h2, ok_bind]
  rcases h with h | rfl | rfl
  · have : (if status = -1 then some b!"\"RSP\":\"FAIL\""
      else if status = 0 then some b!"\"RSP\":\"OK\""
      else if status = 1 then some b!"\"RSP\":\"ERROR\""
      else if status = 2 then some b!"\"RSP\":\"WARNING\""
      else none) = none := by
      unfold statusName at h
      split at h
      · simp at h
      · split at h
        · simp at h
        · split at h
          · simp at h
          · split at h
            · simp at h
            · simp_all
    rw [this]
    rfl
  all_goals
    cases e : (if status = -1 then some b!"\"RSP\":\"FAIL\""
      else if status = 0 then some b!"\"RSP\":\"OK\""
      else if status = 1 then some b!"\"RSP\":\"ERROR\""
      else if status = 2 then some b!"\"RSP\":\"WARNING\""
      else none) with
    | none => rfl
    | some x =>
      first
      | rfl
      | (by_cases e2 : text.length ≠ 0 <;> simp [assigned, e2])

example : return_response ⟨0, strdup [], strdup b!"d", none⟩ = ub .uninit :=
  C38_uninit 0 [] b!"d" none (by decide) (by decide) (Or.inr (Or.inl rfl))

/-- C38, what holds: documented status, non-empty text and description that need no escaping. -/
theorem C38_partial (status : Int) (name text description : Str) (data : Option Str) (v : Value)
    (hn : statusName status = some name) (h1 : Plain text) (h2 : Plain description) (n1 : text ≠ []) (n2 : description ≠ [])
    (hd : DataIs data v) :
    ∃ out, return_response ⟨status, strdup text, strdup description, data⟩ = ok out ∧
      Json out (.obj [(b!"RSP", .str name), (b!"info", .str text), (b!"description", .str description), (b!"data", v)]) := by
  have z1 : NulFree text := plain_nulFree h1
  have z2 : NulFree description := plain_nulFree h2
  have l1 : text.length ≠ 0 := by simpa using n1
  have l2 : description.length ≠ 0 := by simpa using n2
  have hs : (if status = -1 then some b!"\"RSP\":\"FAIL\""
      else if status = 0 then some b!"\"RSP\":\"OK\""
      else if status = 1 then some b!"\"RSP\":\"ERROR\""
      else if status = 2 then some b!"\"RSP\":\"WARNING\""
      else none) = some (b!"\"RSP\":" ++ (34 :: name ++ [34])) ∧ Plain name := by
    unfold statusName at hn
    unfold Plain
    split at hn
    · rename_i e; obtain rfl := Option.some.inj hn; rw [if_pos e]; exact ⟨rfl, by decide⟩
    · rename_i e; rw [if_neg e]
      split at hn
      · rename_i e; obtain rfl := Option.some.inj hn; rw [if_pos e]; exact ⟨rfl, by decide⟩
      · rename_i e; rw [if_neg e]
        split at hn
        · rename_i e; obtain rfl := Option.some.inj hn; rw [if_pos e]; exact ⟨rfl, by decide⟩
        · rename_i e; rw [if_neg e]
          split at hn
          · rename_i e; obtain rfl := Option.some.inj hn; rw [if_pos e]; exact ⟨rfl, by decide⟩
          · simp at hn
  obtain ⟨dt, hdt, hdj⟩ : ∃ dt, return_response ⟨status, strdup text, strdup description, data⟩ =
      ok (b!"{" ++ (b!"\"RSP\":" ++ (34 :: name ++ [34])) ++ (b!", \"info\":\"" ++ text ++ b!"\"") ++
        (b!", \"description\":\"" ++ description ++ b!"\"") ++ (b!",\"data\":" ++ dt) ++ b!"}") ∧ Json dt v := by
    unfold return_response
    simp only [cstr_strdup z1, cstr_strdup z2, ok_bind, hs.1, assigned, l1, l2, ne_eq, not_false_eq_true, if_true]
    rcases hd with ⟨rfl, rfl⟩ | ⟨d, rfl, hd⟩
    · exact ⟨b!"\"\"", rfl, Json.str _ _ ⟨[], rfl, .nil⟩⟩
    · exact ⟨d, rfl, hd⟩
  refine ⟨_, hdt, ?_⟩
  · have lit : ∀ s, Plain s → Json (34 :: s ++ [34]) (.str s) := fun s h => .str _ _ (strLit_plain h)
    have pl : ∀ s : Str, (∀ c ∈ s, 32 ≤ c.toNat ∧ c ≠ 34 ∧ c ≠ 92) → StrLit (34 :: s ++ [34]) s := fun s h => strLit_plain h
    have := Json.obj [⟨[], 34 :: b!"RSP" ++ [34], b!"RSP", [], 34 :: name ++ [34], .str name⟩,
      ⟨[32], 34 :: b!"info" ++ [34], b!"info", [], 34 :: text ++ [34], .str text⟩,
      ⟨[32], 34 :: b!"description" ++ [34], b!"description", [], 34 :: description ++ [34], .str description⟩,
      ⟨[], 34 :: b!"data" ++ [34], b!"data", [], dt, v⟩] (by simp) (by
        simp only [List.mem_cons, List.not_mem_nil, or_false]
        rintro m (rfl | rfl | rfl | rfl)
        all_goals exact ⟨by simp [JWs], by simp [JWs], pl _ (by decide)⟩) (by
        simp only [List.mem_cons, List.not_mem_nil, or_false]
        rintro m (rfl | rfl | rfl | rfl)
        · exact lit _ hs.2
        · exact lit _ h1
        · exact lit _ h2
        · exact hdj)
    simpa [Memb.text, sepBy] using this

example : return_response ⟨1, strdup b!"t", strdup b!"d", some b!"[1]"⟩ =
    ok b!"{\"RSP\":\"ERROR\", \"info\":\"t\", \"description\":\"d\",\"data\":[1]}" := by decide

/-! ### C39 -/

/-- C39 in full. -/
def C39_statement : Prop :=
  ∀ code message : Str, NulFree code → NulFree message → code.length < 64 → message.length < 1024 →
    ∃ e out e', new_error_with_values code message = ok e ∧ wayuu_error_t_json_serializer e = ok (out, e') ∧
      Json out (.obj [(b!"code", .str (if code = [] then b!"UNKNOWN" else code)), (b!"message", .str message)])

/-- C39 is false: a quote in the message is not escaped. -/
theorem C39_refuted : ¬ C39_statement := by
  intro h
  obtain ⟨e, out, e', h1, h2, h3⟩ := h b!"C" b!"\"" (by decide) (by decide) (by decide) (by decide)
  have k : (new_error_with_values b!"C" b!"\"").bind (fun e => (wayuu_error_t_json_serializer e).bind fun p => ok p.1) =
      ok b!"{\"code\":\"C\",\"message\":\"\"\"}" := by decide +kernel
  rw [h1] at k
  have k : (wayuu_error_t_json_serializer e).bind (fun p => ok p.1) = ok b!"{\"code\":\"C\",\"message\":\"\"\"}" := k
  rw [h2] at k
  obtain rfl : out = b!"{\"code\":\"C\",\"message\":\"\"\"}" := C.ok.inj k
  have := json_quotes h3 (by decide)
  revert this
  decide

/-- C39, storing: both strings are stored intact when they fit. -/
theorem C39_stored (code message : Str) (h1 : NulFree code) (h2 : NulFree message) (l1 : code.length < 64)
    (l2 : message.length < 1024) :
    ∃ e, new_error_with_values code message = ok e ∧ cstr e.code = ok code ∧ cstr e.message = ok message ∧
      e.code.length = 64 ∧ e.message.length = 1024 := new_error_eq h1 h2 l1 l2

example := C39_stored b!"E1" b!"not found" (by decide) (by decide) (by decide) (by decide)

/-- C39, the limits are sharp: longer strings are written past the arrays. -/
theorem C39_over (code message : Str) (h : 64 ≤ code.length ∨ (code.length < 64 ∧ 1024 ≤ message.length)) :
    new_error_with_values code message = ub .oob := by
  have m1 : (malloc HTTP_MAX_ERROR_CODE_LEN).length = 64 := List.length_replicate
  have m2 : (malloc HTTP_MAX_ERROR_MSG_LEN).length = 1024 := List.length_replicate
  unfold new_error_with_values
  rcases h with h | ⟨h1, h2⟩
  · rw [strcpyAt_over (by rw [m1]; omega)]
    rfl
  · rw [strcpyAt_ok (by rw [m1]; omega)]
    simp only [ok_bind]
    rw [strcpyAt_over (by rw [m2]; omega)]
    rfl

example : new_error_with_values (List.replicate 64 65) b!"m" = ub .oob := C39_over _ _ (Or.inl (by decide))

/-- C39, safety for every content: the serialiser never overruns its buffers, and prints the code
(`UNKNOWN` if empty) and the message verbatim. -/
theorem C39_text (e : WayuuError) (code message : Str) (h1 : cstr e.code = ok code) (h2 : cstr e.message = ok message)
    (hl : e.code.length = 64) :
    ∃ e', wayuu_error_t_json_serializer e = ok (b!"{\"code\":\"" ++ (if code = [] then b!"UNKNOWN" else code) ++
      b!"\",\"message\":\"" ++ message ++ b!"\"}", e') := serializer_eq h1 h2 hl

/-- C39, what holds: texts that need no escaping. Missing: escaping. -/
theorem C39_partial (code message : Str) (h1 : Plain code) (h2 : Plain message) (l1 : code.length < 64)
    (l2 : message.length < 1024) :
    ∃ e out e', new_error_with_values code message = ok e ∧ wayuu_error_t_json_serializer e = ok (out, e') ∧
      Json out (.obj [(b!"code", .str (if code = [] then b!"UNKNOWN" else code)), (b!"message", .str message)]) := by
  obtain ⟨e, g1, g2, g3, g4, -⟩ := C39_stored code message (plain_nulFree h1) (plain_nulFree h2) l1 l2
  obtain ⟨e', g5⟩ := C39_text e code message g2 g3 g4
  refine ⟨e, _, e', g1, g5, ?_⟩
  have hc : Plain (if code = [] then b!"UNKNOWN" else code) := by
    split
    · unfold Plain; decide
    · exact h1
  generalize (if code = [] then b!"UNKNOWN" else code) = code' at hc
  have := Json.obj [⟨[], 34 :: b!"code" ++ [34], b!"code", [], 34 :: code' ++ [34], .str code'⟩,
      ⟨[], 34 :: b!"message" ++ [34], b!"message", [], 34 :: message ++ [34], .str message⟩] (by simp) (by
        simp only [List.mem_cons, List.not_mem_nil, or_false]
        rintro m (rfl | rfl)
        all_goals exact ⟨by simp [JWs], by simp [JWs], strLit_plain (by unfold Plain; decide)⟩) (by
        simp only [List.mem_cons, List.not_mem_nil, or_false]
        rintro m (rfl | rfl)
        · exact .str _ _ (strLit_plain hc)
        · exact .str _ _ (strLit_plain h2))
  simpa [Memb.text, sepBy] using this

example := C39_partial b!"E1" b!"not found" (by unfold Plain; decide) (by unfold Plain; decide) (by decide) (by decide)

/-- C39 for whole responses: an error response carries the serialised error as its body. -/
theorem C39_response (env : Env) (st : St) (hs : List (Str × Str)) (hh : st.req.HasHeaders hs)
    (e : WayuuError) (code message : Str) (h1 : cstr e.code = ok code) (h2 : cstr e.message = ok message)
    (hl : e.code.length = 64) (hm : message.length < 1024) (f : Env → St → WayuuError → C St) (status : Nat)
    (hf : (f, status) ∈ [(bad_request_with_error, 400), (forbidden_with_error, 403), (internal_server_error_with_error, 500)]) :
    ∃ st' reply fields, f env st e = ok st' ∧ st'.sent = st.sent ++ reply ∧
      Response reply status fields (b!"{\"code\":\"" ++ (if code = [] then b!"UNKNOWN" else code) ++
        b!"\",\"message\":\"" ++ message ++ b!"\"}\r\n") ∧ (b!"Content-Type", b!"application/json") ∈ fields := by
  obtain ⟨e', g⟩ := C39_text e code message h1 h2 hl
  have hcl : code.length < 64 := by
    obtain ⟨-, r, hr⟩ := cstr_eq_ok.mp h1
    have := congrArg List.length hr
    simp at this; omega
  have key : ∀ status : Nat, status ∈ supported → ∃ st' reply fields,
      (do let (j, _) ← wayuu_error_t_json_serializer e
          return_json_with_status env st status j) = ok st' ∧ st'.sent = st.sent ++ reply ∧
      Response reply status fields (b!"{\"code\":\"" ++ (if code = [] then b!"UNKNOWN" else code) ++
        b!"\",\"message\":\"" ++ message ++ b!"\"}\r\n") ∧ (b!"Content-Type", b!"application/json") ∈ fields := by
    intro status hs'
    obtain ⟨start, hst⟩ := findStatus_some hs'
    rw [g]
    simp only [ok_bind]
    generalize hD : b!"{\"code\":\"" ++ (if code = [] then b!"UNKNOWN" else code) ++
        b!"\",\"message\":\"" ++ message ++ b!"\"}" = D
    have hDl : D.length < 2 ^ 31 := by
      rw [← hD]
      have : (if code = [] then b!"UNKNOWN" else code).length < 64 := by
        split
        · decide
        · exact hcl
      simp only [List.length_append, List.length_cons, List.length_nil]
      omega
    obtain ⟨st', k1, k2, -⟩ := return_json_eq (env := env) hh hst hDl
    obtain ⟨k3, -⟩ := jsonReply_response hst D
    refine ⟨st', _, jsonFields ++ [(b!"Content-Length", fmtNat (D.length + 2))], k1, k2, ?_, by simp [jsonFields]⟩
    · have : b!"{\"code\":\"" ++ (if code = [] then b!"UNKNOWN" else code) ++
        b!"\",\"message\":\"" ++ message ++ b!"\"}\r\n" = D ++ [13, 10] := by rw [← hD]; simp
      rw [this]
      simpa using k3
  simp only [List.mem_cons, List.not_mem_nil, or_false, Prod.mk.injEq] at hf
  rcases hf with ⟨rfl, rfl⟩ | ⟨rfl, rfl⟩ | ⟨rfl, rfl⟩ <;> exact key _ (by decide)

example : (new_error_with_values [] b!"no").bind (fun e => (wayuu_error_t_json_serializer e).bind fun p => ok p.1) =
    ok b!"{\"code\":\"UNKNOWN\",\"message\":\"no\"}" := by decide +kernel

/-! ### C40 -/

/-- C40. For every input, buffer and size, `get_line` stores one line and a terminator inside the
buffer, leaves the other bytes of the buffer as they were, returns the number of bytes stored and leaves
the rest of the input. -/
theorem C40_get_line (input : List Byte) (buf : Buf) (size : Nat) (h1 : 1 ≤ size) (h2 : size ≤ buf.length) :
    ∃ line rest, LineOf input (size - 1) line rest ∧
      get_line input buf size = ok (line.length, line.map some ++ some 0 :: buf.drop (line.length + 1), rest) := by
  obtain ⟨line, rest, h, hl, e⟩ := get_line_eq input buf h1 h2
  exact ⟨line, rest, h, e⟩

example := C40_get_line b!"GET /\r\nHost" (List.replicate 4 none) 4 (by decide) (by decide)

/-- C40, the line is determined by the input. -/
theorem C40_unique (input : List Byte) (max : Nat) (line rest line' rest' : List Byte)
    (h : LineOf input max line rest) (h' : LineOf input max line' rest') : line = line' ∧ rest = rest' :=
  lineOf_unique h h'

example : LineOf b!"GET /\r\nHost" 1023 b!"GET /\r\n" b!"Host" := by unfold LineOf; decide
example : LineOf b!"abcdef" 3 b!"abc" b!"def" := by unfold LineOf; decide

end Wayuu
