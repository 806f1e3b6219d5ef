import Verif.Props.Messages
import Verif.Props.Forms
import Verif.Lemmas.More
/-
Property C123 (ws.c:165-311, log.c:63-92): how many messages one request can leave in the server log.
-/
namespace Wayuu
open C Spec

/-! ### upper bounds -/

theorem written_le (n : Nat) (a : List Msg) : (written n a).length ≤ a.length := List.length_filter_le _ _

theorem one_le (p : Prop) [Decidable p] {m : Msg} : (if p then [m] else []).length ≤ 1 := by split <;> simp

theorem direct_file_count (fs : FS) (path : Str) : (written DEFAULT_LEVEL (direct_file_msgs fs path)).length ≤ 1 := by
  refine Nat.le_trans (written_le _ _) ?_
  unfold direct_file_msgs
  split <;> simp

theorem static_count {env : Env} {st : St} {ms : List Msg} (h : static_msgs env st = ok ms) :
    (written DEFAULT_LEVEL ms).length ≤ 2 := by
  unfold static_msgs at h
  obtain ⟨p, -, h⟩ := bind_eq_ok.mp h
  obtain ⟨path, -, h⟩ := bind_eq_ok.mp h
  dsimp only at h
  have h1 := direct_file_count st.fs path
  split at h
  · obtain ⟨index, -, h⟩ := bind_eq_ok.mp h
    cases h
    have h2 := direct_file_count st.fs index
    rw [written_append, written_append, written_nil (by simp)]
    simp only [List.nil_append, List.length_append]
    omega
  · cases h
    rw [written_append, written_nil (by simp)]
    simp only [List.nil_append]
    omega

theorem save_count {env : Env} {fs : FS} {tmpdata : Buf} {a b : Nat} {n : Int} {ms : List Msg} (h : save_msgs env fs tmpdata a b n = ok ms) :
    (written DEFAULT_LEVEL ms).length ≤ 1 := by
  unfold save_msgs at h
  obtain ⟨_, -, h⟩ := bind_eq_ok.mp h
  obtain ⟨_, -, h⟩ := bind_eq_ok.mp h
  obtain ⟨_, -, h⟩ := bind_eq_ok.mp h
  obtain ⟨_, -, h⟩ := bind_eq_ok.mp h
  obtain ⟨_, -, h⟩ := bind_eq_ok.mp h
  dsimp only at h
  obtain ⟨_, -, h⟩ := bind_eq_ok.mp h
  obtain ⟨_, -, h⟩ := bind_eq_ok.mp h
  cases h
  rw [written_append, written_append, written_append, written_nil (by simp), written_nil, written_nil (by simp)]
  · simp only [List.nil_append]
    exact Nat.le_trans (written_le _ _) (one_le _)
  · intro m hm
    split at hm
    · simp at hm; subst hm; exact Nat.lt_succ_self 1
    · simp at hm

theorem part_count {env : Env} {fs : FS} {ip : Str} {tmpdata : Buf} {n : Int} {ms : List Msg} (h : part_msgs env fs ip tmpdata n = ok ms) :
    (written DEFAULT_LEVEL ms).length ≤ 1 := by
  unfold part_msgs at h
  obtain ⟨_, -, h⟩ := bind_eq_ok.mp h
  obtain ⟨_, -, h⟩ := bind_eq_ok.mp h
  split at h
  · cases h; exact written_le _ _
  · obtain ⟨_, -, h⟩ := bind_eq_ok.mp h
    split at h
    · cases h; simp [written]
    · obtain ⟨_, -, h⟩ := bind_eq_ok.mp h
      obtain ⟨_, -, h⟩ := bind_eq_ok.mp h
      split at h
      · exact save_count h
      · cases h; simp [written]

theorem findLoop_range {hay : Buf} {needle : Str} : ∀ (n i : Nat) {r : Int}, findLoop hay needle n i = ok r → 0 ≤ r →
    ∃ k : Nat, r = ((k + needle.length : Nat) : Int) ∧ i ≤ k ∧ k < i + n
  | 0, i, r, h, hr => by unfold findLoop at h; cases h; omega
  | n + 1, i, r, h, hr => by
    unfold findLoop at h
    obtain ⟨found, -, h⟩ := bind_eq_ok.mp h
    split at h
    · cases h
      exact ⟨i, by simp, Nat.le_refl _, by omega⟩
    · obtain ⟨k, h1, h2, h3⟩ := findLoop_range n (i + 1) h hr
      exact ⟨k, h1, by omega, by omega⟩

theorem parts_count {env : Env} {ip : Str} {form : Buf} {boundary : Str} {cl : Nat} : ∀ (n ptr : Nat) (tp tf : Buf) (fs : FS) (ms : List Msg),
    partsMsgs env ip form boundary cl n ptr tp tf fs = ok ms → ptr ≤ cl →
    (written DEFAULT_LEVEL ms).length * (boundary.length + 1) ≤ cl - ptr
  | 0, ptr, tp, tf, fs, ms, h, hp => by unfold partsMsgs at h; cases h; simp [written]
  | n + 1, ptr, tp, tf, fs, ms, h, hp => by
    unfold partsMsgs at h
    split at h
    · cases h; simp [written]
    · obtain ⟨s, h1, h⟩ := bind_eq_ok.mp h
      split at h
      · cases h; simp [written]
      · rename_i hs
        obtain ⟨e, h2, h⟩ := bind_eq_ok.mp h
        split at h
        · cases h; simp [written]
        · rename_i he
          dsimp only at h
          obtain ⟨tp1, -, h⟩ := bind_eq_ok.mp h
          obtain ⟨m1, h3, h⟩ := bind_eq_ok.mp h
          obtain ⟨⟨tf1, fs1⟩, -, h⟩ := bind_eq_ok.mp h
          obtain ⟨tp2, -, h⟩ := bind_eq_ok.mp h
          obtain ⟨m2, h4, h⟩ := bind_eq_ok.mp h
          cases h
          unfold text_find_after at h1 h2
          obtain ⟨k, k1, k2, k3⟩ := findLoop_range _ _ h1 (by omega)
          obtain ⟨k', k1', k2', k3'⟩ := findLoop_range _ _ h2 (by omega)
          have hs' : s.toNat = k + boundary.length := by rw [k1]; exact Int.toNat_natCast _
          rw [hs'] at k2' k3' h4
          have ih := parts_count n _ _ _ _ _ h4 (by omega)
          have c := part_count h3
          rw [written_append, List.length_append]
          calc _ = (written DEFAULT_LEVEL m1).length * (boundary.length + 1) + (written DEFAULT_LEVEL m2).length * (boundary.length + 1) := by
                rw [Nat.add_mul]
            _ ≤ 1 * (boundary.length + 1) + (cl - (k + boundary.length + 1)) := Nat.add_le_add (Nat.mul_le_mul_right _ c) ih
            _ ≤ cl - ptr := by omega

theorem form_count {env : Env} {st : St} {n : Int} {b : Str} {ms : List Msg} (h : form_msgs env st n b = ok ms) :
    3 * (written DEFAULT_LEVEL ms).length ≤ n.toNat := by
  unfold form_msgs at h
  split at h
  · obtain ⟨⟨form, inp⟩, -, h⟩ := bind_eq_ok.mp h
    dsimp only at h
    split at h
    · rename_i hb
      have := parts_count _ _ _ _ _ _ h (Nat.zero_le _)
      have h3 : (written DEFAULT_LEVEL ms).length * 3 ≤ (written DEFAULT_LEVEL ms).length * (b.length + 1) :=
        Nat.mul_le_mul_left _ (by omega)
      omega
    · cases h; simp [written]
  · cases h; simp [written]

/-- What is written at the default level for an admitted request: the messages about the file, or those about the body. -/
theorem accept_loud {env : Env} {st : St} {socket : Nat} {peer : Str} {line rest after : List Byte} {lines : List (List Byte)}
    {ms : List Msg} (hl : LineOf st.input 1023 line rest) (hs : Section rest lines after)
    (h : accept_msgs env st socket peer = ok ms) :
    (written DEFAULT_LEVEL ms).length ≤ 2 ∨ ∃ (st1 : St) (hd : HdrSt) (fm : List Msg), st1.input = after ∧
      parseHeaders ((lineBytes line).map some) rest peer = ok hd ∧
      form_msgs env st1 hd.content_length hd.boundary = ok fm ∧ written DEFAULT_LEVEL ms = written DEFAULT_LEVEL fm := by
  unfold accept_msgs at h
  obtain ⟨ip, hip, h2⟩ := bind_eq_ok.mp h
  clear h
  obtain ⟨-, rfl⟩ := fmtInto_eq_ok.mp hip
  rename' h2 => h
  dsimp only at h
  obtain ⟨⟨buf, inp, rl, method, j⟩, hr, h⟩ := bind_eq_ok.mp h
  obtain ⟨rfl, rfl, -⟩ := readRequestLine_break hl hr
  dsimp only at h
  obtain ⟨text, -, h⟩ := bind_eq_ok.mp h
  obtain ⟨al, -, h⟩ := bind_eq_ok.mp h
  cases al with
  | false => cases h; simp [written]
  | true =>
    simp only [Bool.not_true, Bool.false_eq_true, if_false] at h
    obtain ⟨url, hu, h⟩ := bind_eq_ok.mp h
    obtain ⟨⟨added, live⟩, hadd, h⟩ := bind_eq_ok.mp h
    dsimp only at h
    cases added with
    | false =>
      cases h
      left
      rw [written_append, written_nil (by simp), written_nil (fun m hm => by rw [add_level _ _ _ _ m hm]; decide)]
      simp
    | true =>
      simp only [Bool.not_true, Bool.false_eq_true, if_false] at h
      obtain ⟨m4, h4, h⟩ := bind_eq_ok.mp h
      obtain ⟨hd, hh, h⟩ := bind_eq_ok.mp h
      obtain ⟨m5, h5, h⟩ := bind_eq_ok.mp h
      cases h
      obtain ⟨last, f0, -⟩ := parse_fields (lineBytes_buf hl.2.1) hs hh
      rw [written_append, written_append, written_append, written_nil (by simp),
        written_nil (fun m hm => by rw [add_level _ _ _ _ m hm]; decide),
        written_nil (a := m4) (fun m hm => by rw [section_level h4 m hm]; decide)]
      simp only [List.nil_append]
      unfold dispatch_msgs at h5
      obtain ⟨⟨path, query⟩, hq, h5⟩ := bind_eq_ok.mp h5
      dsimp only at h5
      split at h5
      · split at h5
        · exact Or.inl (static_count h5)
        · cases h5; left; simp [written]
      · obtain ⟨p, -, h5⟩ := bind_eq_ok.mp h5
        obtain ⟨fm, f1, f2⟩ := api_loud h5
        exact Or.inr ⟨_, hd, fm, f0, hh, f1, f2⟩

/-- C123: at the default level, a request does not leave more messages in the server log than it has bytes. -/
def C123_statement : Prop :=
  ∀ (env : Env) (st : St) (socket : Nat) (peer line rest after : Str) (lines : List (List Byte)) (ms : List Msg),
    LineOf st.input 1023 line rest → Section rest lines after → accept_msgs env st socket peer = ok ms →
    (written DEFAULT_LEVEL ms).length ≤ st.input.length

/-- C123, what holds: two messages, or one for every three bytes that are announced for the body. So the bound holds for a body that is
sent as announced. Missing: requests that end before the announced length. -/
theorem C123_partial (env : Env) (st : St) (socket : Nat) (peer line rest body : Str) (lines : List (List Byte)) (ms : List Msg)
    (n : Option Nat) (hl : LineOf st.input 1023 line rest) (hs : Section rest lines body) (hn : LengthOf lines n) (hlt : n.getD 0 < 2 ^ 31)
    (h : accept_msgs env st socket peer = ok ms) :
    (written DEFAULT_LEVEL ms).length ≤ 2 ∨ 3 * (written DEFAULT_LEVEL ms).length ≤ n.getD 0 := by
  rcases accept_loud hl hs h with h | ⟨st1, hd, fm, h1, hh, h2, h3⟩
  · exact Or.inl h
  · right
    rw [h3]
    obtain ⟨last, -, -, -, -, -, f4, f5, -⟩ := parse_fields (lineBytes_buf hl.2.1) hs hh
    have hb0 : LineBuf (Head.init (lineBytes line) peer).bs := (lineBytes_buf hl.2.1).load (line := [65]) (by decide)
    have hclen := foldl_clen_le hn _ hb0 rfl hs.length_le hlt
    have hclen : hd.content_length ≤ (n.getD 0 : Nat) := by rw [f5]; exact hclen
    have := form_count h2
    omega

/-! ### the bound is nearly reached by a body of one byte -/

theorem dash_find {N i : Nat} (h : i + 3 ≤ N) :
    text_find_after ((List.replicate N (45 : Byte)).map some ++ [some 0]) b!"---" i N = ok ((i : Int) + 3) := by
  refine find_first (needle := b!"---") (by decide) (by simp) ⟨Nat.le_refl _, by omega, ?_, fun j h1 h2 => by omega⟩
  rw [List.drop_replicate]
  exact ⟨List.replicate (N - i - 3) 45, by
    rw [show b!"---" = List.replicate 3 (45 : Byte) from rfl, List.replicate_append_replicate]; congr 1; omega⟩

theorem dash_none {N i : Nat} (h : N < i + 3) :
    text_find_after ((List.replicate N (45 : Byte)).map some ++ [some 0]) b!"---" i N = ok (-1) := by
  refine find_none (needle := b!"---") (by decide) (by simp) (fun j h1 h2 hp => ?_)
  have := hp.length_le
  simp at this
  omega

theorem empty_part (env : Env) (fs : FS) (ip : Str) (tf : Buf) (m : Nat) (n : Int) :
    part_msgs env fs ip (calloc (m + 1)) n = ok [⟨3, b!"IP:" ++ ip ++ b!" Multipart error: Form-data not found "⟩] ∧
    part_parse env fs tf (calloc (m + 1)) n = ok (tf, fs) ∧ trim (calloc (m + 1)) = ok (calloc (m + 1)) := by
  have hc : cstr (calloc (m + 1)) = ok [] := by
    have := cstr_mk (s := []) (by decide) (calloc m)
    simpa [calloc, List.replicate_succ] using this
  have hf : text_find_after (calloc (m + 1)) b!"form-data; name=\"" 0 0 = ok (-1) := rfl
  refine ⟨?_, ?_, ?_⟩
  · unfold part_msgs
    rw [hc]
    simp only [ok_bind, List.length_nil]
    rw [hf]
    rfl
  · unfold part_parse
    rw [hc]
    simp only [ok_bind, List.length_nil]
    rw [hf]
    rfl
  · obtain ⟨q, h1, h2, -⟩ := trim_bytes [] (by decide) (calloc m)
    have hq : q = [] := by
      have : strip ([] : Str) = [] := by decide
      rw [this] at h2
      exact List.length_eq_zero_iff.mp (by simpa using h2)
    subst hq
    simpa [calloc, List.replicate_succ, show strip ([] : Str) = [] by decide] using h1

theorem dash_parts (env : Env) (ip : Str) (N : Nat) (tf : Buf) (fs : FS) : ∀ (fuel ptr : Nat), N < fuel + ptr →
    ∃ ms, partsMsgs env ip ((List.replicate N (45 : Byte)).map some ++ [some 0]) b!"---" N fuel ptr (calloc (N + 1)) tf fs = ok ms ∧
      (written DEFAULT_LEVEL ms).length = (N - ptr - 2) / 4
  | 0, ptr, h => ⟨[], rfl, by simp [written]; omega⟩
  | fuel + 1, ptr, h => by
    unfold partsMsgs
    split
    · exact ⟨[], rfl, by simp [written]; omega⟩
    · by_cases h3 : ptr + 3 ≤ N
      · rw [dash_find h3]
        simp only [ok_bind]
        rw [if_neg (by omega), show (((ptr : Int) + 3).toNat) = ptr + 3 by omega]
        by_cases h6 : ptr + 6 ≤ N
        · rw [dash_find (i := ptr + 3) (by omega)]
          simp only [ok_bind]
          rw [if_neg (by omega), show (((ptr + 3 : Nat) : Int) + 3 - ((ptr : Int) + 3) - ((b!"---").length : Nat)) = 0 by simp; omega]
          have hm : memcpyI (calloc (N + 1)) ((List.replicate N (45 : Byte)).map some ++ [some 0]) (ptr + 3) 0 = ok (calloc (N + 1)) := by
            unfold memcpyI copyCells
            rw [if_neg (by omega), if_pos (by simp; omega)]
            simp
          obtain ⟨e1, e2, e3⟩ := empty_part env fs ip tf N 0
          obtain ⟨ms, i1, i2⟩ := dash_parts env ip N tf fs fuel (ptr + 3 + 1) (by omega)
          rw [hm]
          simp only [ok_bind]
          rw [e1]
          simp only [ok_bind]
          rw [e2]
          simp only [ok_bind]
          rw [e3]
          simp only [ok_bind]
          rw [i1]
          refine ⟨_, rfl, ?_⟩
          rw [written_append, List.length_append, i2]
          show 1 + _ = _
          omega
        · rw [dash_none (i := ptr + 3) (by omega)]
          exact ⟨[], rfl, by simp [written]; omega⟩
      · rw [dash_none (i := ptr) (by omega)]
        exact ⟨[], rfl, by simp [written]; omega⟩

theorem dash_body {env : Env} {st : St} {N : Nat} (hN : 0 < N) (hin : st.input = b!"-") :
    bodyLoop N st.input 0 (malloc (N + 1)) 0 = ok ((List.replicate N (45 : Byte)).map some ++ [some 0], []) := by
  by_cases h1 : N = 1
  · subst h1; rw [hin]; rfl
  obtain ⟨st', e1, e2, e3⟩ := C44_short env st N (by omega) (by rw [hin]; simp; omega)
  unfold readForm at e1
  rw [if_pos (by omega)] at e1
  obtain ⟨⟨form, inp⟩, e4, e5⟩ := bind_eq_ok.mp e1
  simp only [Int.toNat_natCast] at e4
  dsimp only at e5
  rw [if_neg (by simp)] at e5
  cases e5
  rw [e4, show inp = [] from e2, show form = _ from e3, hin]
  simp only [List.length_singleton, List.getLast?_singleton, Option.getD_some, List.cons_append, List.nil_append]
  rw [← List.replicate_succ, show N - 1 + 1 = N by omega]

theorem dash_form (env : Env) (st : St) (N : Nat) (hin : st.input = b!"-") :
    ∃ ms, form_msgs env st N b!"---" = ok ms ∧ (written DEFAULT_LEVEL ms).length = (N - 2) / 4 := by
  by_cases h0 : N = 0
  · subst h0; exact ⟨[], rfl, rfl⟩
  unfold form_msgs
  rw [if_pos (by omega)]
  simp only [Int.toNat_natCast]
  rw [dash_body (env := env) (by omega) hin]
  exact dash_parts env st.req.IP N _ _ (N + 1) 0 (by omega)

/-- C123, the amplification: with the boundary `-`, a body of the single byte `-` and then the end of the input, every four bytes
that are announced leave one message. -/
theorem C123_flood (env : Env) (st : St) (socket : Nat) (peer line text method url rest : Str)
    (before after : List (List Byte)) (l t w : Str) (N : Nat) (ms : List Msg)
    (hlim : env.limits.length ≤ 64) (hne : ∀ l ∈ env.limits, l.path ≠ []) (hp : peer.length < 16)
    (hb : Begins st.input line text method url rest) (hm : Supported method) (hadm : Admits env.limits st.live peer url)
    (hapi : CasePrefix b!"/api" url) (hs : Section rest (before ++ l :: after) b!"-")
    (hn : LengthOf (before ++ l :: after) (some N)) (hlt : N < 2 ^ 31)
    (hsp : ∀ x ∈ before ++ l :: after, ∀ t, BeforeNul x t → CasePrefix b!"Content-Length:" t → CasePrefix b!"Content-Length: " t)
    (ht : BeforeNul l t) (hct : CasePrefix b!"Content-Type: multipart/form-data" t)
    (hbd : AfterCase t b!"boundary=" (b!"-" ++ w)) (hw : ∀ c ∈ w, ws c = true)
    (hafter : ∀ l ∈ after, ∀ t, BeforeNul l t → ¬ CasePrefix b!"Content-Type: multipart/form-data" t)
    (h : accept_msgs env st socket peer = ok ms) :
    (written DEFAULT_LEVEL ms).length = (N - 2) / 4 := by
  obtain ⟨e1, e2⟩ := requestLine_eq hb.1 hb.2.1 hb.2.2.1 hb.2.2.2.1 hb.2.2.2.2
  obtain ⟨b, hb1, hb2⟩ := startswithany_methods method
  obtain ⟨a, c, b', -, -, -, hadd⟩ := (connection_add_admits (live := st.live) (socket := socket) hlim hne
    (show url.length < 512 by have := hb.2.2.2.2; omega) hp).1 hadm
  rw [hb2.mpr hm] at hb1
  unfold accept_msgs at h
  obtain ⟨ip, hip, h2⟩ := bind_eq_ok.mp h
  clear h
  obtain ⟨-, rfl⟩ := fmtInto_eq_ok.mp hip
  rename' h2 => h
  dsimp only at h
  rw [e1] at h
  simp only [ok_bind] at h
  obtain ⟨_, -, h⟩ := bind_eq_ok.mp h
  rw [hb1] at h
  simp only [ok_bind, Bool.not_true, Bool.false_eq_true, if_false] at h
  rw [e2] at h
  simp only [ok_bind] at h
  rw [show (api_request_new socket ip).IP = ip from rfl, hadd] at h
  simp only [ok_bind, Bool.not_true, Bool.false_eq_true, if_false] at h
  obtain ⟨m4, h4, h⟩ := bind_eq_ok.mp h
  obtain ⟨hd, hh, h⟩ := bind_eq_ok.mp h
  obtain ⟨m5, h5, h⟩ := bind_eq_ok.mp h
  cases h
  obtain ⟨last, f0, -, -, -, -, f4, f5, -⟩ := parse_fields (lineBytes_buf hb.1.2.1) hs hh
  have hb0 : LineBuf (Head.init (lineBytes line) ip).bs := (lineBytes_buf hb.1.2.1).load (line := [65]) (by decide)
  have hclen := foldl_clen hn _ hb0 rfl hs.length_le (fun m hm => by cases hm; exact hlt) hsp
  have hclen : hd.content_length = (N : Int) := by rw [f5]; exact hclen
  have hbnd : hd.boundary = b!"---" := by
    refine f4.trans ((foldl_boundary (bound := b!"-") (w := w) _ ht hct hbd (by decide) hw hafter).trans rfl)
  rw [written_append, written_append, written_append, written_nil (by simp),
    written_nil (fun m hm => by rw [add_level _ _ _ _ m hm]; decide),
    written_nil (a := m4) (fun m hm => by rw [section_level h4 m hm]; decide)]
  simp only [List.nil_append]
  unfold dispatch_msgs at h5
  obtain ⟨⟨path, query⟩, hq, h5⟩ := bind_eq_ok.mp h5
  dsimp only at h5
  rw [if_neg (by
    have := (startswith_iff url b!"/api").mpr hapi
    simpa [API_MOUNT] using this)] at h5
  obtain ⟨p, -, h5⟩ := bind_eq_ok.mp h5
  obtain ⟨fm, g1, g2⟩ := api_loud h5
  rw [g2]
  rw [hclen, hbnd] at g1
  have key : ∀ st1 : St, st1.input = b!"-" → form_msgs env st1 N b!"---" = ok fm → (written DEFAULT_LEVEL fm).length = (N - 2) / 4 := by
    intro st1 hi g1
    obtain ⟨ms', g3, g4⟩ := dash_form env st1 N hi
    rw [g3] at g1
    cases g1
    exact g4
  exact key _ f0 g1

/-! ### such a request is handled -/

theorem dash_fields (env : Env) (N : Nat) (tf : Buf) (fs : FS) : ∀ (fuel ptr : Nat),
    partsLoop env ((List.replicate N (45 : Byte)).map some ++ [some 0]) b!"---" N fuel ptr (calloc (N + 1)) tf fs = ok (tf, fs)
  | 0, ptr => rfl
  | fuel + 1, ptr => by
    unfold partsLoop
    split
    · rfl
    · by_cases h3 : ptr + 3 ≤ N
      · rw [dash_find h3]
        simp only [ok_bind]
        rw [if_neg (by omega), show (((ptr : Int) + 3).toNat) = ptr + 3 by omega]
        by_cases h6 : ptr + 6 ≤ N
        · rw [dash_find (i := ptr + 3) (by omega)]
          simp only [ok_bind]
          rw [if_neg (by omega), show (((ptr + 3 : Nat) : Int) + 3 - ((ptr : Int) + 3) - ((b!"---").length : Nat)) = 0 by simp; omega]
          have hm : memcpyI (calloc (N + 1)) ((List.replicate N (45 : Byte)).map some ++ [some 0]) (ptr + 3) 0 = ok (calloc (N + 1)) := by
            unfold memcpyI copyCells
            rw [if_neg (by omega), if_pos (by simp; omega)]
            simp
          obtain ⟨-, e2, e3⟩ := empty_part env fs [] tf N 0
          rw [hm]
          simp only [ok_bind]
          rw [e2]
          simp only [ok_bind]
          rw [e3]
          simp only [ok_bind]
          exact dash_fields env N tf fs fuel (ptr + 3 + 1)
        · rw [dash_none (i := ptr + 3) (by omega)]
          rfl
      · rw [dash_none (i := ptr) (by omega)]
        rfl

theorem dash_read (env : Env) (st : St) (N : Nat) (hN : 0 < N) (hin : st.input = b!"-") :
    ∃ form, readForm env st N b!"---" = ok { st with input := [], req := { st.req with form := form } } := by
  unfold readForm
  rw [if_pos (by omega)]
  simp only [Int.toNat_natCast]
  rw [dash_body (env := env) hN hin]
  simp only [ok_bind]
  rw [if_pos (by decide)]
  unfold multipart_parse
  rw [dash_fields]
  simp only [ok_bind]
  have hc : cstr (calloc (N + 1)) = ok [] := by
    have := cstr_mk (s := []) (by decide) (calloc N)
    simpa [calloc, List.replicate_succ] using this
  rw [hc]
  simp only [ok_bind]
  have hs : ∃ form, strcpyAt ((List.replicate N (45 : Byte)).map some ++ [some 0]) 0 [] = ok form := by
    unfold strcpyAt writeAt
    rw [if_pos (by simp)]
    exact ⟨_, rfl⟩
  obtain ⟨form, hs⟩ := hs
  rw [hs]
  exact ⟨form, rfl⟩

def dashType : Str := b!"Content-Type: multipart/form-data; boundary=-\r\n"
def dashLength : Str := b!"Content-Length: 2000000000\r\n"

/-- A request for the filtered route of `sampleRegs` that announces 2000000000 bytes and sends one. -/
def dashSt : St :=
  { sampleSt with live := [⟨0, [], []⟩], input := b!"GET /api/a HTTP/1.1\r\n" ++ (dashType ++ (dashLength ++ 13 :: 10 :: b!"-")) }

theorem dash_call : ApiCall sampleRouterEnv dashSt b!"10.0.0.1" b!"GET" b!"/api/a" b!"/a" [] b!"-" ([] ++ dashType :: [dashLength])
    [headerPair dashType, headerPair dashLength] sampleRegs ⟨.const b!"GET:/a", some 1, some 2⟩ 1 :=
  formCall (ct := dashType) (cl := dashLength) b!"-" (by decide +kernel) (by decide +kernel) (by decide +kernel)
    (by decide +kernel) (by decide +kernel) (by decide +kernel) (by decide +kernel)

theorem dash_lengthOf : LengthOf ([] ++ dashType :: [dashLength]) (some 2000000000) := by
  have h0 := LengthOf.other [] none dashType dashType .none ⟨by decide +kernel, Or.inl rfl⟩ (fun v hv => by
    have := (startswith_iff _ _).mpr (fieldLine_prefix hv)
    exact absurd this (by decide +kernel))
  exact LengthOf.field ([] ++ [dashType]) none dashLength dashLength b!"2000000000" h0 ⟨by decide, Or.inl rfl⟩
    ⟨b!"Content-Length", b!" 2000000000\r\n", rfl, rfl, by
      rw [show b!"2000000000" = strip b!" 2000000000\r\n" by decide]; exact isStrip_strip _⟩
    (by decide) (by unfold digit; decide)

theorem dash_spaced : ∀ x ∈ [] ++ dashType :: [dashLength], ∀ t, BeforeNul x t → CasePrefix b!"Content-Length:" t →
    CasePrefix b!"Content-Length: " t := by
  intro x hx t ht hp
  rcases (show x = dashType ∨ x = dashLength by simpa using hx) with rfl | rfl
  · rw [beforeNul_eq ht] at hp
    exact absurd ((startswith_iff _ _).mpr hp) (by decide +kernel)
  · rw [beforeNul_eq ht]
    exact (startswith_iff _ _).mp (by decide +kernel)

theorem dash_boundary : BeforeNul dashType dashType ∧ CasePrefix b!"Content-Type: multipart/form-data" dashType ∧
    AfterCase dashType b!"boundary=" (b!"-" ++ b!"\r\n") := by
  refine ⟨⟨by decide +kernel, Or.inl rfl⟩, (startswith_iff _ _).mp (by decide +kernel),
    b!"Content-Type: multipart/form-data; ", b!"boundary=", rfl, rfl, ?_⟩
  intro i hi hc
  rw [← startswith_iff] at hc
  revert hc
  revert i
  decide +kernel

/-- A request of 99 bytes that leaves 499999999 messages. -/
theorem dash_messages : ∃ ms, accept_msgs sampleRouterEnv dashSt 7 b!"10.0.0.1" = ok ms ∧
    (written DEFAULT_LEVEL ms).length = 499999999 := by
  have hc := dash_call
  obtain ⟨ln, x, st2, hlb, h1, h2, h3, h4, -, h6, h7⟩ := api_call hc 7
  have hb0 : LineBuf (Head.init (lineBytes ln) b!"10.0.0.1").bs := hlb.load (line := [65]) (by decide)
  have hclen := foldl_clen dash_lengthOf _ hb0 rfl h3 (fun m hm => by cases hm; decide) dash_spaced
  have hclen : x.content_length = ((2000000000 : Nat) : Int) := by rw [h2]; exact hclen
  obtain ⟨b1, b2, b3⟩ := dash_boundary
  have hafter : ∀ l ∈ [dashLength], ∀ t, BeforeNul l t → ¬ CasePrefix b!"Content-Type: multipart/form-data" t := by
    intro l hl t ht hp
    rw [List.mem_singleton.mp hl] at ht
    rw [beforeNul_eq ht] at hp
    exact absurd ((startswith_iff _ _).mpr hp) (by decide +kernel)
  have hbnd : x.boundary = b!"---" := by
    rw [h1, foldl_boundary (bound := b!"-") (w := b!"\r\n") _ b1 b2 b3 (by decide) (by decide) hafter]
    rfl
  obtain ⟨form, hread⟩ := dash_read sampleRouterEnv st2 2000000000 (by decide) h4
  rw [← hbnd, ← hclen] at hread
  have hacc : ∃ st' ev, accept_request sampleRouterEnv dashSt 7 b!"10.0.0.1" = ok (st', ev) := by
    refine ⟨_, _, (h7 _ hread h6.method h6.path _ _).mpr ⟨_, Or.inr ⟨_, rfl, rfl, rfl⟩, rfl⟩⟩
  obtain ⟨st', ev, hacc⟩ := hacc
  obtain ⟨ms, hms⟩ := accept_defined hacc
  obtain ⟨line, text, rest, hb, hsec⟩ := hc.head
  obtain ⟨mount, hparts, hmount, -⟩ := hc.parts
  refine ⟨ms, hms, ?_⟩
  have := C123_flood sampleRouterEnv dashSt 7 b!"10.0.0.1" line text _ _ rest [] [dashLength] dashType dashType b!"\r\n" 2000000000 ms
    hc.limits.1 hc.limits.2 hc.peerFits hb hc.supported hc.admitted ((startswith_iff _ _).mp (by decide)) hsec dash_lengthOf (by decide)
    dash_spaced b1 b2 b3 (by decide) hafter hms
  exact this

/-- C123 does not hold. -/
theorem C123_refuted : ¬ C123_statement := by
  intro hc
  obtain ⟨ms, h1, h2⟩ := dash_messages
  obtain ⟨line, text, rest, hb, hsec⟩ := dash_call.head
  have := hc sampleRouterEnv dashSt 7 b!"10.0.0.1" line rest _ _ ms hb.1 hsec h1
  rw [h2] at this
  revert this
  decide +kernel

example : dashSt.input.length = 99 := by decide +kernel

/-- A missing page: two messages. -/
example : LengthOf [] none ∧ (accept_msgs sampleEnv { freeSt with input := b!"GET /x HTTP/1.1\r\n\r\n" } 5 b!"1.2.3.4").bind
    (fun ms => ok (written DEFAULT_LEVEL ms).length) = ok 2 := ⟨.none, by decide +kernel⟩

end Wayuu
