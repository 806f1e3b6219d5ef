import Verif.Model.HttpUtils
import Verif.Spec.Http
import Verif.Lemmas.Json
/-
Lemmas about the model of http_utils.c and wayuu_log.c.
-/
namespace Wayuu
open C

/-! ### integers and output -/

theorem toInt32_small {n : Int} (h1 : -(2 ^ 31) ≤ n) (h2 : n < 2 ^ 31) : toInt32 n = n := by
  unfold toInt32
  rw [Int.bmod_eq_of_le] <;> omega

theorem addInt_ok {a b : Int} (h1 : -(2 ^ 31) ≤ a + b) (h2 : a + b < 2 ^ 31) : addInt a b = ok (a + b) := by
  simp [addInt]; omega

theorem toUInt32_small {n : Nat} (h : n < 2 ^ 32) : toUInt32 n = n := by
  unfold toUInt32; omega

theorem toUInt32_nat (n : Nat) : toUInt32 n = n % 2 ^ 32 := by
  unfold toUInt32; omega

theorem http_print_all {st : St} {d : List Byte} (h : d.length < 2 ^ 31) :
    http_print st d d.length = ok { st with out := st.out ++ [d] } := by
  unfold http_print
  rw [toInt32_small (by omega) (by omega)]
  have : ¬ ((d.length : Int) < 0 ∨ (d.length : Int) < (d.length : Int)) := by omega
  simp only [this, if_false]
  simp

theorem http_print_str_eq {st : St} {d : List Byte} (h : d.length < 2 ^ 31) :
    http_print_str st d = ok { st with out := st.out ++ [d] } := http_print_all h

/-! ### request headers -/

/-- The header table of the request was filled with these names and values (ws.c:569-573, `strncpy` into zeroed arrays of 64 and
256 bytes). -/
def Req.Stored (req : Req) (hs : List (Str × Str)) : Prop :=
  req.n_headers = req.headers.length ∧
  List.Forall₂ (fun (h : Header) (p : Str × Str) =>
    strncpyAt (calloc HTTP_MAX_HEADER_NAME) 0 p.1 HTTP_MAX_HEADER_NAME = ok h.name ∧
    strncpyAt (calloc HTTP_MAX_HEADER_VALUE) 0 p.2 HTTP_MAX_HEADER_VALUE = ok h.value) req.headers hs

/-- The header table holds these names and values, and the two values that the access log shows fit into their arrays. -/
def Req.HasHeaders (req : Req) (hs : List (Str × Str)) : Prop :=
  req.Stored hs ∧ (∀ p ∈ hs, NulFree p.1 ∧ NulFree p.2) ∧ Spec.FitsLog hs

/-- Value of the first header with this name. -/
def headerValue (hs : List (Str × Str)) (name : Str) : Option Str := (hs.find? (fun p => p.1 = name)).map (·.2)

theorem headerValue_first (hs : List (Str × Str)) (name : Str) : Spec.FirstHeader hs name (headerValue hs name) := by
  induction hs with
  | nil => simp [headerValue, Spec.FirstHeader]
  | cons p hs ih =>
    by_cases e : p.1 = name
    · have : headerValue (p :: hs) name = some p.2 := by simp [headerValue, e]
      rw [this]
      exact ⟨[], hs, by simp [← e], by simp⟩
    · have hv : headerValue (p :: hs) name = headerValue hs name := by simp [headerValue, e]
      rw [hv]
      cases h : headerValue hs name with
      | none =>
        rw [h] at ih
        intro q hq
        rcases List.mem_cons.mp hq with rfl | hq
        · exact e
        · exact ih q hq
      | some v =>
        rw [h] at ih
        obtain ⟨a, b, h1, h2⟩ := ih
        exact ⟨p :: a, b, by simp [h1], by
          intro q hq
          rcases List.mem_cons.mp hq with rfl | hq
          · exact e
          · exact h2 q hq⟩

theorem firstHeader_unique {hs : List (Str × Str)} {name : Str} {v w : Option Str} (hv : Spec.FirstHeader hs name v)
    (hw : Spec.FirstHeader hs name w) : v = w := by
  induction hs with
  | nil =>
    cases v <;> cases w <;> simp_all [Spec.FirstHeader]
  | cons p hs ih =>
    have key : ∀ u, Spec.FirstHeader (p :: hs) name u → (p.1 = name ∧ u = some p.2) ∨ (p.1 ≠ name ∧ Spec.FirstHeader hs name u) := by
      intro u hu
      cases u with
      | none => exact Or.inr ⟨hu p (by simp), fun q hq => hu q (by simp [hq])⟩
      | some x =>
        obtain ⟨a, b, e, h⟩ := hu
        cases a with
        | nil => simp at e; left; simp [e.1]
        | cons y a =>
          simp only [List.cons_append, List.cons.injEq] at e
          right
          exact ⟨e.1 ▸ h y (by simp), a, b, e.2, fun q hq => h q (by simp [hq])⟩
    rcases key v hv with ⟨h1, h2⟩ | ⟨h1, h2⟩ <;> rcases key w hw with ⟨h3, h4⟩ | ⟨h3, h4⟩
    · rw [h2, h4]
    · exact absurd h1 h3
    · exact absurd h3 h1
    · exact ih h2 h4

/-- What `strncpy` leaves in an array of `n` zero bytes. -/
def padTo (n : Nat) (s : Str) : Buf := (s.take n ++ List.replicate (n - s.length) 0).map some

theorem calloc_strncpy_pad (n : Nat) (s : Str) : strncpyAt (calloc n) 0 s n = ok (padTo n s) := by
  unfold strncpyAt
  rw [writeAt_ok (by rw [length_calloc]; simp; omega)]
  unfold padTo
  congr 1
  rw [List.take_zero, List.nil_append, List.drop_eq_nil_of_le (by rw [length_calloc]; simp; omega), List.append_nil]

theorem length_padTo (n : Nat) (s : Str) : (padTo n s).length = n := by
  unfold padTo; simp; omega

theorem cstr_padTo {n : Nat} {s : Str} (hs : NulFree s) (h : s.length < n) : cstr (padTo n s) = ok s := by
  unfold padTo
  obtain ⟨k, hk⟩ : ∃ k, n - s.length = k + 1 := ⟨n - s.length - 1, by omega⟩
  rw [hk, List.take_of_length_le (by omega), List.replicate_succ, List.map_append, List.map_cons]
  exact cstr_mk hs _

theorem cstr_unterminated {s : Str} (h : NulFree s) : cstr (s.map some) = ub .oob := by
  induction s with
  | nil => rfl
  | cons c s ih =>
    rw [nulFree_cons] at h
    simp [cstr, h.1, ih h.2]

theorem cstr_padTo_over {n : Nat} {s : Str} (hs : NulFree s) (h : n ≤ s.length) : cstr (padTo n s) = ub .oob := by
  unfold padTo
  rw [show n - s.length = 0 by omega, List.replicate_zero, List.append_nil]
  exact cstr_unterminated (hs.take n)

/-- Comparing what was stored in an array of `n` bytes with a name. -/
theorem strcmpBuf_padTo {n : Nat} {s t : Str} (hs : NulFree s) (ht : NulFree t) :
    strcmpBuf (padTo n s) t = if n ≤ t.length ∧ s.take n = t.take n then ub .oob else ok (decide (s = t)) := by
  induction n generalizing s t with
  | zero => simp [padTo, strcmpBuf]
  | succ n ih =>
    cases s with
    | nil =>
      cases t with
      | nil => simp [padTo, List.replicate_succ, strcmpBuf]
      | cons y t =>
        simp only [nulFree_cons] at ht
        simp [padTo, List.replicate_succ, strcmpBuf, Ne.symm ht.1]
    | cons c s =>
      simp only [nulFree_cons] at hs
      have e : padTo (n + 1) (c :: s) = some c :: padTo n s := by simp [padTo]
      rw [e]
      cases t with
      | nil => simp [strcmpBuf, hs.1]
      | cons y t =>
        simp only [nulFree_cons] at ht
        by_cases h : c = y
        · subst h
          simp [strcmpBuf, ih hs.2 ht.2]
        · simp [strcmpBuf, h]

/-- Looking up a name of less than 64 bytes in a table. -/
theorem getHeaderLoop_stored {name : Str} (hn : NulFree name) (hl : name.length < 64) (pre post : List Header) (hs : List (Str × Str))
    (h : List.Forall₂ (fun (h : Header) (p : Str × Str) =>
      strncpyAt (calloc HTTP_MAX_HEADER_NAME) 0 p.1 HTTP_MAX_HEADER_NAME = ok h.name ∧
      strncpyAt (calloc HTTP_MAX_HEADER_VALUE) 0 p.2 HTTP_MAX_HEADER_VALUE = ok h.value) post hs)
    (hz : ∀ p ∈ hs, NulFree p.1 ∧ NulFree p.2) :
    getHeaderLoop (pre ++ post) name post.length pre.length =
      match headerValue hs name with
      | some v => if v.length < 256 then ok ⟨true, v⟩ else ub .oob
      | none => ok ⟨false, []⟩ := by
  induction h generalizing pre with
  | nil => simp [getHeaderLoop, headerValue]
  | @cons x p post hs hx h ih =>
    have ih := ih (pre ++ [x]) (fun q hq => hz q (List.mem_cons_of_mem _ hq))
    simp only [List.append_assoc, List.singleton_append, List.length_append, List.length_singleton] at ih
    obtain ⟨e1, e2⟩ := hx
    obtain ⟨z1, z2⟩ := hz p (List.mem_cons_self ..)
    rw [calloc_strncpy_pad] at e1 e2
    simp only [List.length_cons, getHeaderLoop]
    rw [List.getElem?_append_right (Nat.le_refl _)]
    simp only [Nat.sub_self, List.getElem?_cons_zero]
    rw [← C.ok.inj e1, ← C.ok.inj e2, strcmpBuf_padTo z1 hn, if_neg (by show ¬ (64 ≤ _ ∧ _); omega)]
    by_cases e : p.1 = name
    · have : headerValue (p :: hs) name = some p.2 := by simp [headerValue, e]
      rw [this]
      simp only [ok_bind, e, decide_true, if_true]
      by_cases h256 : p.2.length < 256
      · rw [cstr_padTo z2 h256, if_pos h256]; rfl
      · rw [cstr_padTo_over z2 (by show 256 ≤ _; omega), if_neg h256]; rfl
    · have : headerValue (p :: hs) name = headerValue hs name := by simp [headerValue, e]
      rw [this]
      simp only [ok_bind, e, decide_false, Bool.false_eq_true, if_false, ih]

theorem get_header_stored {req : Req} {hs : List (Str × Str)} (h : req.Stored hs) (hz : ∀ p ∈ hs, NulFree p.1 ∧ NulFree p.2)
    {name : Str} (hn : NulFree name) (hl : name.length < 64) :
    http_get_header req name =
      match headerValue hs name with
      | some v => if v.length < 256 then ok ⟨true, v⟩ else ub .oob
      | none => ok ⟨false, []⟩ := by
  have := getHeaderLoop_stored hn hl [] req.headers hs h.2 hz
  unfold http_get_header
  rw [h.1]
  simpa using this

/-- Looking up a name of 64 bytes or more. -/
theorem getHeaderLoop_long {name : Str} (hn : NulFree name) (hl : 64 ≤ name.length) (pre post : List Header) (hs : List (Str × Str))
    (h : List.Forall₂ (fun (h : Header) (p : Str × Str) =>
      strncpyAt (calloc HTTP_MAX_HEADER_NAME) 0 p.1 HTTP_MAX_HEADER_NAME = ok h.name ∧
      strncpyAt (calloc HTTP_MAX_HEADER_VALUE) 0 p.2 HTTP_MAX_HEADER_VALUE = ok h.value) post hs)
    (hz : ∀ p ∈ hs, NulFree p.1 ∧ NulFree p.2) :
    getHeaderLoop (pre ++ post) name post.length pre.length =
      if ∃ p ∈ hs, p.1.take 64 = name.take 64 then ub .oob else ok ⟨false, []⟩ := by
  induction h generalizing pre with
  | nil => simp [getHeaderLoop]
  | @cons x p post hs hx h ih =>
    have ih := ih (pre ++ [x]) (fun q hq => hz q (List.mem_cons_of_mem _ hq))
    simp only [List.append_assoc, List.singleton_append, List.length_append, List.length_singleton] at ih
    obtain ⟨e1, e2⟩ := hx
    obtain ⟨z1, z2⟩ := hz p (List.mem_cons_self ..)
    rw [calloc_strncpy_pad] at e1 e2
    simp only [List.length_cons, getHeaderLoop]
    rw [List.getElem?_append_right (Nat.le_refl _)]
    simp only [Nat.sub_self, List.getElem?_cons_zero]
    rw [← C.ok.inj e1, strcmpBuf_padTo z1 hn]
    by_cases e : p.1.take 64 = name.take 64
    · rw [if_pos (show HTTP_MAX_HEADER_NAME ≤ _ ∧ _ from ⟨hl, e⟩), if_pos ⟨p, List.mem_cons_self .., e⟩]
      rfl
    · rw [if_neg (show ¬ (HTTP_MAX_HEADER_NAME ≤ _ ∧ _) from fun h => e h.2)]
      have hne : p.1 ≠ name := fun h => e (by rw [h])
      simp only [ok_bind, hne, decide_false, Bool.false_eq_true, if_false, ih]
      refine if_congr ?_ rfl rfl
      simp [e]

theorem get_header_long {req : Req} {hs : List (Str × Str)} (h : req.Stored hs) (hz : ∀ p ∈ hs, NulFree p.1 ∧ NulFree p.2)
    {name : Str} (hn : NulFree name) (hl : 64 ≤ name.length) :
    http_get_header req name = if ∃ p ∈ hs, p.1.take 64 = name.take 64 then ub .oob else ok ⟨false, []⟩ := by
  have := getHeaderLoop_long hn hl [] req.headers hs h.2 hz
  unfold http_get_header
  rw [h.1]
  simpa using this

theorem headerValue_mem {hs : List (Str × Str)} {name v : Str} (h : headerValue hs name = some v) : (name, v) ∈ hs := by
  have := headerValue_first hs name
  rw [h] at this
  obtain ⟨a, b, rfl, -⟩ := this
  simp

/-- If all names and values fit, looking up any name works. -/
theorem get_header_fits {req : Req} {hs : List (Str × Str)} (h : req.Stored hs) (hz : ∀ p ∈ hs, NulFree p.1 ∧ NulFree p.2)
    (hfit : ∀ p ∈ hs, p.1.length < 64 ∧ p.2.length < 256) {name : Str} (hn : NulFree name) :
    http_get_header req name = ok (match headerValue hs name with
        | some v => ⟨true, v⟩
        | none => ⟨false, []⟩) := by
  by_cases hl : name.length < 64
  · rw [get_header_stored h hz hn hl]
    cases hv : headerValue hs name with
    | none => rfl
    | some v => simp only; rw [if_pos (hfit _ (headerValue_mem hv)).2]
  · rw [get_header_long h hz hn (by omega), if_neg]
    · cases hv : headerValue hs name with
      | none => rfl
      | some v => exact absurd (hfit _ (headerValue_mem hv)).1 hl
    · rintro ⟨p, hp, e⟩
      have := (hfit p hp).1
      have e2 := congrArg List.length e
      simp only [List.length_take] at e2
      omega

theorem get_header_eq {req : Req} {hs : List (Str × Str)} (h : req.HasHeaders hs) {name : Str}
    (hn : name = b!"Referer" ∨ name = b!"User-Agent") :
    http_get_header req name = ok (match headerValue hs name with
        | some v => ⟨true, v⟩
        | none => ⟨false, []⟩) := by
  rw [get_header_stored h.1 h.2.1 (by rcases hn with rfl | rfl <;> decide) (by rcases hn with rfl | rfl <;> decide)]
  cases hv : headerValue hs name with
  | none => rfl
  | some v =>
    have := headerValue_first hs name
    rw [hv] at this
    simp only
    rw [if_pos (h.2.2 name (by rcases hn with rfl | rfl <;> simp) v this)]

/-- The line of the access log for a response. -/
def logLine (env : Env) (req : Req) (hs : List (Str × Str)) (status : Int) : Str :=
  accessLine env req status ((headerValue hs b!"Referer").getD []) ((headerValue hs b!"User-Agent").getD [])

theorem fitsLog_of_short {hs : List (Str × Str)} (h : ∀ p ∈ hs, p.1.length < 64 ∧ p.2.length < 256) : Spec.FitsLog hs := by
  rintro name - v ⟨a, b, rfl, -⟩
  exact (h (name, v) (by simp)).2

theorem noHeaders {req : Req} (h1 : req.n_headers = 0) (h2 : req.headers = []) : req.HasHeaders [] :=
  ⟨⟨by rw [h1, h2]; rfl, by rw [h2]; exact .nil⟩, by simp, fitsLog_of_short (by simp)⟩

theorem log_access_eq {env : Env} {st : St} {hs : List (Str × Str)} (h : st.req.HasHeaders hs) (status : Int) :
    log_access env st status = ok (appendLog env st (logLine env st.req hs status)) := by
  unfold log_access logLine
  rw [get_header_eq h (Or.inl rfl), get_header_eq h (Or.inr rfl)]
  cases headerValue hs b!"Referer" <;> cases headerValue hs b!"User-Agent" <;>
    simp [freeHeader, freeStr]

@[simp] theorem appendLog_out (env : Env) (st : St) (l : Str) : (appendLog env st l).out = st.out := by
  unfold appendLog; split <;> rfl
@[simp] theorem appendLog_sent (env : Env) (st : St) (l : Str) : (appendLog env st l).sent = st.sent := by
  simp [St.sent]
@[simp] theorem appendLog_req (env : Env) (st : St) (l : Str) : (appendLog env st l).req = st.req := by
  unfold appendLog; split <;> rfl
@[simp] theorem appendLog_fs (env : Env) (st : St) (l : Str) : (appendLog env st l).fs = st.fs := by
  unfold appendLog; split <;> rfl
@[simp] theorem appendLog_live (env : Env) (st : St) (l : Str) : (appendLog env st l).live = st.live := by
  unfold appendLog; split <;> rfl
@[simp] theorem appendLog_closed (env : Env) (st : St) (l : Str) : (appendLog env st l).closed = st.closed := by
  unfold appendLog; split <;> rfl
@[simp] theorem appendLog_input (env : Env) (st : St) (l : Str) : (appendLog env st l).input = st.input := by
  unfold appendLog; split <;> rfl
theorem appendLog_log (env : Env) (st : St) (l : Str) (h : env.logOk = true) :
    (appendLog env st l).log = st.log ++ [l] := by
  simp [appendLog, h]

theorem HasHeaders.congr {r r' : Req} {hs : List (Str × Str)} (h : r.HasHeaders hs) (h1 : r'.headers = r.headers)
    (h2 : r'.n_headers = r.n_headers) : r'.HasHeaders hs := by
  unfold Req.HasHeaders Req.Stored at *; rw [h1, h2]; exact h

/-! ### responses -/

/-- Status line of a supported status. -/
def startOf (status : Int) : Option Str := findStatus status HTTP_STATUS_TABLE

theorem findStatus_cases {status : Int} {l : Str} (h : findStatus status HTTP_STATUS_TABLE = some l) :
    (status, l) ∈ HTTP_STATUS_TABLE := by
  unfold HTTP_STATUS_TABLE at h ⊢
  simp only [findStatus] at h
  repeat' split at h
  all_goals first
    | (simp only [Option.some.injEq] at h; subst h; simp_all)
    | simp at h

theorem findStatus_none {status : Int} (h : findStatus status HTTP_STATUS_TABLE = none) :
    ∀ n ∈ Spec.supported, status ≠ (n : Int) := by
  intro n hn e
  subst e
  revert h
  revert hn n
  decide

theorem findStatus_some {n : Nat} (h : n ∈ Spec.supported) : ∃ l, findStatus (n : Int) HTTP_STATUS_TABLE = some l := by
  revert h
  unfold Spec.supported
  simp only [List.mem_cons, List.not_mem_nil, or_false]
  rintro (rfl | rfl | rfl | rfl | rfl | rfl | rfl | rfl) <;> exact ⟨_, rfl⟩

/-- Every status line of the table is `HTTP/1.1 code reason CRLF` for its code. -/
theorem table_lines : ∀ p ∈ HTTP_STATUS_TABLE, p.2.length ≤ 36 ∧
    ∃ n : Nat, p.1 = n ∧ ∃ ct reason, p.2 = (b!"HTTP/1.1 " ++ ct ++ 32 :: reason) ++ [13, 10] ∧
      Spec.NatText ct n ∧ ct.length = 3 ∧ Spec.OneLine reason := by
  have key : ∀ (ct reason : Str) (n : Nat), ct.length = 3 → (∀ c ∈ ct, 48 ≤ c.toNat ∧ c.toNat ≤ 57) → ct.head? ≠ some 48 →
      Spec.decimal ct = n → (∀ c ∈ reason, c ≠ 13 ∧ c ≠ 10) →
      Spec.NatText ct n ∧ ct.length = 3 ∧ Spec.OneLine reason := by
    intro ct reason n h1 h2 h3 h4 h5
    exact ⟨⟨by rintro rfl; simp at h1, h2, fun _ => h3, h4⟩, h1, h5⟩
  unfold HTTP_STATUS_TABLE
  simp only [List.mem_cons, List.not_mem_nil, or_false]
  rintro p (rfl | rfl | rfl | rfl | rfl | rfl | rfl | rfl)
  · exact ⟨by decide, 200, rfl, b!"200", b!"OK", by decide,
      key _ _ _ (by decide) (by decide) (by decide) (by decide) (by decide)⟩
  · exact ⟨by decide, 201, rfl, b!"201", b!"CREATED", by decide,
      key _ _ _ (by decide) (by decide) (by decide) (by decide) (by decide)⟩
  · exact ⟨by decide, 400, rfl, b!"400", b!"Bad Request", by decide,
      key _ _ _ (by decide) (by decide) (by decide) (by decide) (by decide)⟩
  · exact ⟨by decide, 401, rfl, b!"401", b!"UNAUTHORIZED", by decide,
      key _ _ _ (by decide) (by decide) (by decide) (by decide) (by decide)⟩
  · exact ⟨by decide, 403, rfl, b!"403", b!"Forbidden", by decide,
      key _ _ _ (by decide) (by decide) (by decide) (by decide) (by decide)⟩
  · exact ⟨by decide, 404, rfl, b!"404", b!"NOT FOUND", by decide,
      key _ _ _ (by decide) (by decide) (by decide) (by decide) (by decide)⟩
  · exact ⟨by decide, 429, rfl, b!"429", b!"Too many connections", by decide,
      key _ _ _ (by decide) (by decide) (by decide) (by decide) (by decide)⟩
  · exact ⟨by decide, 500, rfl, b!"500", b!"Internal Server Error", by decide,
      key _ _ _ (by decide) (by decide) (by decide) (by decide) (by decide)⟩

theorem table_lines_min : ∀ p ∈ HTTP_STATUS_TABLE, 17 ≤ p.2.length := by decide +kernel

theorem fmtInto_over {cap : Nat} {s : Str} (h : cap < s.length + 1) : fmtInto cap s = ub .oob := by
  unfold fmtInto
  rw [if_neg (by omega)]

theorem fmtInto_ub {cap : Nat} {s : Str} {f : Fault} (h : fmtInto cap s = ub f) : f = .oob := by
  unfold fmtInto at h
  split at h
  · simp at h
  · simpa using h.symm

theorem strrchr_none {s : Str} {c : Byte} (h : c ∉ s) : strrchr s c = none := by
  induction s with
  | nil => rfl
  | cons x s ih =>
    simp only [List.mem_cons, not_or] at h
    simp [strrchr, ih h.2, Ne.symm h.1]

theorem strrchr_mid (a b : Str) (c : Byte) (h : c ∉ b) : strrchr (a ++ c :: b) c = some a.length := by
  induction a with
  | nil => simp [strrchr, strrchr_none h]
  | cons x a ih => simp [strrchr, ih]

/-- Assemble a response from a status line of the table and field lines. -/
theorem response_mk {status : Int} {start : Str} (hs : findStatus status HTTP_STATUS_TABLE = some start)
    (lines : List Str) (fields : List (Str × Str)) (body : Str)
    (hf : List.Forall₂ (fun l (f : Str × Str) => Spec.Field l f.1 f.2) lines fields) :
    Spec.Response (start ++ (lines.flatMap (fun l => l ++ [13, 10]) ++ 13 :: 10 :: body)) status.toNat fields body := by
  obtain ⟨_, n, hn, ct, reason, he, h1, h2, h3⟩ := table_lines _ (findStatus_cases hs)
  simp only at hn he
  subst hn
  exact ⟨ct, reason, lines, by rw [he]; simp, h1, h2, h3, hf⟩

theorem field_mk (name ows value : Str) (h1 : name ≠ []) (h2 : ∀ c ∈ name, Spec.nameByte c)
    (h3 : ∀ c ∈ ows, c = 32 ∨ c = 9) (h4 : Spec.OneLine value) (h5 : ∀ c, value.head? = some c → c ≠ 32 ∧ c ≠ 9) :
    Spec.Field (name ++ 58 :: (ows ++ value)) name value := ⟨ows, rfl, h1, h2, h3, h4, h5⟩

theorem fields_cons {l n v : Str} {ls : List Str} {fs : List (Str × Str)} (h : Spec.Field l n v)
    (t : List.Forall₂ (fun l (f : Str × Str) => Spec.Field l f.1 f.2) ls fs) :
    List.Forall₂ (fun l (f : Str × Str) => Spec.Field l f.1 f.2) (l :: ls) ((n, v) :: fs) := .cons h t

theorem natText_oneLine {s : Str} {n : Nat} (h : Spec.NatText s n) :
    Spec.OneLine s ∧ ∀ c, s.head? = some c → c ≠ 32 ∧ c ≠ 9 := by
  have key : ∀ c ∈ s, c ≠ 13 ∧ c ≠ 10 ∧ c ≠ 32 ∧ c ≠ 9 := by
    intro c hc
    have := h.2.1 c hc
    unfold Spec.digit at this
    refine ⟨?_, ?_, ?_, ?_⟩ <;> (rintro rfl; simp at this)
  refine ⟨fun c hc => ⟨(key c hc).1, (key c hc).2.1⟩, fun c hc => ?_⟩
  have := key c (List.mem_of_head? hc)
  exact ⟨this.2.2.1, this.2.2.2⟩

theorem field_server : Spec.Field b!"Server: WAYUU/1.5.0" b!"Server" b!"WAYUU/1.5.0" :=
  field_mk b!"Server" b!" " b!"WAYUU/1.5.0" (by decide) (by unfold Spec.nameByte; decide) (by decide)
    (by unfold Spec.OneLine; decide) (by decide)

theorem field_length {v : Str} {n : Nat} (h : Spec.NatText v n) :
    Spec.Field (b!"Content-Length: " ++ v) b!"Content-Length" v := by
  obtain ⟨h1, h2⟩ := natText_oneLine h
  exact field_mk b!"Content-Length" b!" " v (by decide) (by unfold Spec.nameByte; decide) (by decide) h1 h2

theorem fmtNat_len1024 {n : Nat} (h : n < 1000) : (fmtNat n).length ≤ 3 := fmtNat_length n 2 (by omega)

/-- What `send_http_status` sends. -/
def statusReply (start message : Str) : Str :=
  start ++ WAYUU_HTTP_SERVER_STRING ++
    (if message = [] then HTTP_CONTENT_LENGTH_ZERO ++ CRLF
     else b!"Content-Length: " ++ fmtNat (message.length + 2) ++ CRLF ++ CRLF ++ message ++ CRLF)

theorem statusBody_eq {buf message : Str} (h : buf.length ≤ 57) (hm : message.length ≤ 943) :
    ∃ t, statusBody buf message = ok (buf ++ t) ∧ t.length ≤ 966 ∧
      t ++ CRLF = (if message = [] then HTTP_CONTENT_LENGTH_ZERO ++ CRLF
        else b!"Content-Length: " ++ fmtNat (message.length + 2) ++ CRLF ++ CRLF ++ message ++ CRLF) := by
  unfold statusBody
  by_cases e : message = []
  · subst e
    refine ⟨HTTP_CONTENT_LENGTH_ZERO, ?_, by decide, by simp⟩
    simp only [ne_eq, not_true_eq_false, if_false]
    have : HTTP_CONTENT_LENGTH_ZERO.length = 19 := by decide
    exact fmtInto_ok (by simp only [List.length_append, this]; omega)
  · have hl := fmtNat_len1024 (n := message.length + 2) (by omega)
    have hc : CRLF.length = 2 := by decide
    refine ⟨b!"Content-Length: " ++ fmtNat (message.length + 2) ++ CRLF ++ CRLF ++ message, ?_, ?_, ?_⟩
    · rw [if_pos e, fmtInto_ok (by simp [hc]; omega)]
      simp only [ok_bind]
      rw [fmtInto_ok (by simp [hc]; omega)]
      simp only [ok_bind]
      rw [fmtInto_ok (by simp [hc]; omega)]
      simp
    · simp [hc]; omega
    · rw [if_neg e]

theorem statusReply_response {status : Int} {start : Str} (hs : findStatus status HTTP_STATUS_TABLE = some start)
    (message : Str) :
    ∃ fields, Spec.Response (statusReply start message) status.toNat fields (if message = [] then [] else message ++ [13, 10]) ∧
      Spec.Sized fields (if message = [] then [] else message ++ [13, 10]) := by
  have hne : ¬ Spec.CaseEq b!"Server" b!"Content-Length" := by unfold Spec.CaseEq; decide
  by_cases e : message = []
  · subst e
    have h0 : Spec.NatText b!"0" 0 := ⟨by decide, by unfold Spec.digit; decide, by decide, by decide⟩
    refine ⟨[(b!"Server", b!"WAYUU/1.5.0"), (b!"Content-Length", b!"0")], ?_,
      ⟨[(b!"Server", b!"WAYUU/1.5.0")], _, _, [], rfl, rfl, h0, by simpa using hne⟩⟩
    have := response_mk hs [b!"Server: WAYUU/1.5.0", b!"Content-Length: 0"] _ []
      (fields_cons field_server (fields_cons (field_length h0) .nil))
    simpa [statusReply, WAYUU_HTTP_SERVER_STRING, HTTP_CONTENT_LENGTH_ZERO, CRLF] using this
  · have h0 := fmtNat_text (message.length + 2)
    refine ⟨[(b!"Server", b!"WAYUU/1.5.0"), (b!"Content-Length", fmtNat (message.length + 2))], ?_,
      ⟨[(b!"Server", b!"WAYUU/1.5.0")], _, _, [], rfl, rfl, by simpa [e] using h0, by simpa using hne⟩⟩
    have := response_mk hs [b!"Server: WAYUU/1.5.0", b!"Content-Length: " ++ fmtNat (message.length + 2)] _
      (message ++ [13, 10])
      (fields_cons field_server (fields_cons (field_length h0) .nil))
    simpa [statusReply, e, WAYUU_HTTP_SERVER_STRING, CRLF] using this

/-- `send_http_status` on a supported status. -/
theorem send_http_status_eq {env : Env} {st : St} {hs : List (Str × Str)} (hh : st.req.HasHeaders hs)
    {status : Int} {start message : Str} (hst : findStatus status HTTP_STATUS_TABLE = some start)
    (hm : message.length ≤ 943) :
    ∃ st', send_http_status env st status message = ok st' ∧
      st'.sent = st.sent ++ statusReply start message ∧
      st'.req = { st.req with response_length :=
        (st.req.response_length + (statusReply start message).length) % 2 ^ 32 } ∧
      st'.log = (if env.logOk then st.log ++ [logLine env st'.req hs status] else st.log) ∧
      st'.input = st.input ∧ st'.fs = st.fs ∧ st'.live = st.live ∧ st'.closed = st.closed := by
  have hl : start.length ≤ 36 := (table_lines _ (findStatus_cases hst)).1
  have hsv : WAYUU_HTTP_SERVER_STRING.length = 21 := by decide
  have hc : CRLF.length = 2 := by decide
  obtain ⟨t, ht, htl, hte⟩ := statusBody_eq (buf := start ++ WAYUU_HTTP_SERVER_STRING) (message := message)
    (by simp [hsv]; omega) hm
  unfold send_http_status
  simp only [hst]
  rw [fmtInto_ok (by omega)]
  simp only [ok_bind]
  rw [fmtInto_ok (by simp [hsv]; omega)]
  simp only [ok_bind]
  rw [ht]
  simp only [ok_bind]
  rw [http_print_str_eq (by simp [hsv]; omega)]
  simp only [ok_bind]
  rw [http_print_str_eq (by simp [hc])]
  simp only [ok_bind]
  rw [log_access_eq (hs := hs) (by exact hh)]
  have hrep : statusReply start message = start ++ WAYUU_HTTP_SERVER_STRING ++ t ++ CRLF := by
    unfold statusReply; rw [← hte]; simp
  refine ⟨_, rfl, ?_, ?_, ?_, by simp, by simp, by simp, by simp⟩
  · simp [St.sent, hrep]
  · rw [appendLog_req, hrep]
    simp only [List.length_append]
    congr 1
    unfold toUInt32
    omega
  · rw [appendLog_req]
    unfold appendLog
    split <;> simp

/-! ### JSON responses -/

/-- What `return_json_with_status` sends. -/
def jsonReply (start data : Str) : Str :=
  start ++ WAYUU_HTTP_SERVER_STRING ++ HTTP_ACCESS_CONTROL ++ CONTENT_TYPE_JSON ++
    b!"Content-Length: " ++ fmtNat (data.length + 2) ++ b!"\r\n\r\n" ++ data ++ CRLF

theorem json_headers_eq {st : St} {status : Int} {start : Str}
    (hst : findStatus status HTTP_STATUS_TABLE = some start) :
    return_json_headers st status =
      ok ((start ++ WAYUU_HTTP_SERVER_STRING ++ HTTP_ACCESS_CONTROL ++ CONTENT_TYPE_JSON).length,
        { st with out := st.out ++ [start ++ WAYUU_HTTP_SERVER_STRING ++ HTTP_ACCESS_CONTROL ++ CONTENT_TYPE_JSON] }) := by
  have hl : start.length ≤ 36 := (table_lines _ (findStatus_cases hst)).1
  have h1 : WAYUU_HTTP_SERVER_STRING.length = 21 := by decide
  have h2 : HTTP_ACCESS_CONTROL.length = 130 := by decide +kernel
  have h3 : CONTENT_TYPE_JSON.length = 32 := by decide
  have hb : (start ++ WAYUU_HTTP_SERVER_STRING ++ HTTP_ACCESS_CONTROL ++ CONTENT_TYPE_JSON).length ≤ 250 := by
    simp only [List.length_append]; omega
  unfold return_json_headers
  simp only [hst]
  rw [fmtInto_ok (by omega)]
  simp only [ok_bind]
  rw [http_print_all (by omega)]
  simp only [ok_bind]

theorem return_json_eq {env : Env} {st : St} {hs : List (Str × Str)} (hh : st.req.HasHeaders hs)
    {status : Int} {start data : Str} (hst : findStatus status HTTP_STATUS_TABLE = some start)
    (hd : data.length < 2 ^ 31) :
    ∃ st', return_json_with_status env st status data = ok st' ∧
      st'.sent = st.sent ++ jsonReply start data ∧
      st'.req = { st.req with response_length := (jsonReply start data).length % 2 ^ 32 } ∧
      st'.log = (if env.logOk then st.log ++ [logLine env st'.req hs status] else st.log) ∧
      st'.input = st.input ∧ st'.fs = st.fs ∧ st'.live = st.live ∧ st'.closed = st.closed := by
  have hn := fmtNat_length (data.length + 2) 9 (by omega)
  have hb : (b!"Content-Length: " ++ fmtNat (data.length + 2) ++ b!"\r\n\r\n").length ≤ 30 := by
    simp only [List.length_append]; simp only [List.length_cons, List.length_nil]; omega
  have hc : CRLF.length = 2 := by decide
  unfold return_json_with_status
  rw [json_headers_eq hst]
  simp only [ok_bind]
  rw [fmtInto_ok (by omega)]
  simp only [ok_bind]
  rw [http_print_str_eq (by omega)]
  simp only [ok_bind]
  rw [http_print_str_eq (by omega)]
  simp only [ok_bind]
  rw [http_print_str_eq (by omega)]
  simp only [ok_bind]
  rw [log_access_eq (hs := hs) (by exact hh)]
  refine ⟨_, rfl, ?_, ?_, ?_, by simp, by simp, by simp, by simp⟩
  · simp [St.sent, jsonReply]
  · rw [appendLog_req]
    refine congrArg (fun n => { st.req with response_length := n }) ?_
    rw [← toUInt32_nat]
    refine congrArg toUInt32 ?_
    simp only [jsonReply, List.length_append, hc]
    omega
  · rw [appendLog_req]
    unfold appendLog
    split <;> simp

theorem field_json : Spec.Field b!"Content-Type: application/json" b!"Content-Type" b!"application/json" :=
  field_mk b!"Content-Type" b!" " b!"application/json" (by decide) (by unfold Spec.nameByte; decide) (by decide)
    (by unfold Spec.OneLine; decide) (by decide)
theorem field_origin : Spec.Field b!"Access-Control-Allow-Origin: *" b!"Access-Control-Allow-Origin" b!"*" :=
  field_mk b!"Access-Control-Allow-Origin" b!" " b!"*" (by decide) (by unfold Spec.nameByte; decide) (by decide)
    (by unfold Spec.OneLine; decide) (by decide)
theorem field_methods : Spec.Field b!"Access-Control-Allow-Methods: GET, POST, DELETE, PUT"
    b!"Access-Control-Allow-Methods" b!"GET, POST, DELETE, PUT" :=
  field_mk b!"Access-Control-Allow-Methods" b!" " b!"GET, POST, DELETE, PUT" (by decide)
    (by unfold Spec.nameByte; decide) (by decide) (by unfold Spec.OneLine; decide) (by decide)
theorem field_headers : Spec.Field b!"Access-Control-Allow-Headers: Content-Type"
    b!"Access-Control-Allow-Headers" b!"Content-Type" :=
  field_mk b!"Access-Control-Allow-Headers" b!" " b!"Content-Type" (by decide)
    (by unfold Spec.nameByte; decide) (by decide) (by unfold Spec.OneLine; decide) (by decide)

/-- The fields common to all JSON responses. -/
def jsonFields : List (Str × Str) :=
  [(b!"Server", b!"WAYUU/1.5.0"), (b!"Access-Control-Allow-Origin", b!"*"),
   (b!"Access-Control-Allow-Methods", b!"GET, POST, DELETE, PUT"),
   (b!"Access-Control-Allow-Headers", b!"Content-Type"), (b!"Content-Type", b!"application/json")]

/-- The lines of these fields. -/
def jsonLines : List Str :=
  [b!"Server: WAYUU/1.5.0", b!"Access-Control-Allow-Origin: *",
   b!"Access-Control-Allow-Methods: GET, POST, DELETE, PUT", b!"Access-Control-Allow-Headers: Content-Type",
   b!"Content-Type: application/json"]

theorem jsonLines_fields :
    List.Forall₂ (fun l (f : List Byte × List Byte) => Spec.Field l f.1 f.2) jsonLines jsonFields :=
  fields_cons field_server (fields_cons field_origin (fields_cons field_methods (fields_cons field_headers
        (fields_cons field_json .nil))))

theorem jsonLines_text : jsonLines.flatMap (fun l => l ++ [13, 10]) =
    WAYUU_HTTP_SERVER_STRING ++ HTTP_ACCESS_CONTROL ++ CONTENT_TYPE_JSON := by decide +kernel

theorem jsonFields_unsized : ∀ f ∈ jsonFields, ¬ Spec.CaseEq f.1 b!"Content-Length" := by
  unfold jsonFields Spec.CaseEq
  decide +kernel

theorem jsonReply_response {status : Int} {start : Str} (hs : findStatus status HTTP_STATUS_TABLE = some start)
    (data : Str) :
    Spec.Response (jsonReply start data) status.toNat
        (jsonFields ++ [(b!"Content-Length", fmtNat (data.length + 2))]) (data ++ [13, 10]) ∧
      Spec.Sized (jsonFields ++ [(b!"Content-Length", fmtNat (data.length + 2))]) (data ++ [13, 10]) := by
  have h0 := fmtNat_text (data.length + 2)
  refine ⟨?_, ⟨jsonFields, _, _, [], rfl, rfl, by simpa using h0, ?_⟩⟩
  · have := response_mk hs (jsonLines ++ [b!"Content-Length: " ++ fmtNat (data.length + 2)]) _ (data ++ [13, 10])
      (List.rel_append jsonLines_fields (fields_cons (field_length h0) .nil))
    rw [List.flatMap_append, jsonLines_text] at this
    simpa [jsonReply, CRLF] using this
  · simpa using jsonFields_unsized

/-! ### streams -/

theorem fgetsAux_append (n : Nat) (s : Str) : (fgetsAux n s).1 ++ (fgetsAux n s).2 = s := by
  induction n generalizing s with
  | zero => simp [fgetsAux]
  | succ n ih =>
    cases s with
    | nil => simp [fgetsAux]
    | cons c s =>
      simp only [fgetsAux]
      split
      · simp
      · simp [ih]

theorem fgetsAux_pos (n : Nat) (c : Byte) (s : Str) : (fgetsAux (n + 1) (c :: s)).1 ≠ [] := by
  simp only [fgetsAux]
  split <;> simp

theorem fgets_cons (n : Nat) (c : Byte) (s : Str) : fgets n (c :: s) = some (fgetsAux (n - 1) (c :: s)) := rfl

theorem toUInt32_of {z : Int} {n : Nat} (h : z = n) (hn : n < 2 ^ 32) : toUInt32 z = n := by
  rw [h, toUInt32_small hn]

theorem streamLoop_eq (n : Nat) (st : St) (len : Nat) (content : Str) (hn : content.length < n)
    (hz : NulFree content) (hl : len + content.length < 2 ^ 31) :
    ∃ chunks : List Str, streamLoop n st len content =
        ok (((len + content.length : Nat) : Int), { st with out := st.out ++ chunks }) ∧ chunks.flatten = content := by
  induction n generalizing st len content with
  | zero => omega
  | succ n ih =>
    cases content with
    | nil => exact ⟨[], by simp [streamLoop, fgets], rfl⟩
    | cons c s =>
      have hap := fgetsAux_append 1022 (c :: s)
      have hpos := fgetsAux_pos 1021 c s
      generalize hr : fgetsAux 1022 (c :: s) = r at hap
      rw [hr] at hpos
      obtain ⟨line, rest⟩ := r
      simp only at hap hpos
      have hlen : line.length + rest.length = (c :: s).length := by rw [← hap]; simp
      have hlp : 0 < line.length := List.length_pos_iff.mpr hpos
      have hz2 : NulFree line ∧ NulFree rest := by rw [← hap] at hz; simpa using hz
      have hf : fgets 1023 (c :: s) = some (line, rest) := by
        rw [← hr]
        exact fgets_cons 1023 c s
      simp only [streamLoop, hf]
      rw [untilNul_of_nulFree hz2.1]
      rw [addInt_ok (by omega) (by omega)]
      simp only [ok_bind]
      rw [http_print_all (by omega)]
      simp only [ok_bind]
      obtain ⟨chunks, h1, h2⟩ := ih { st with out := st.out ++ [line] } (len + line.length) rest (by omega) hz2.2 (by omega)
      refine ⟨line :: chunks, ?_, by simp [h2, hap]⟩
      have e : ((len : Int) + (line.length : Int)) = ((len + line.length : Nat) : Int) := by omega
      rw [e, h1, Nat.add_assoc, hlen]
      simp

theorem send_stream_eq (st : St) (content : Str) (hz : NulFree content) (hl : content.length + 2 < 2 ^ 31) :
    ∃ chunks : List Str, send_stream st content =
        ok (((content.length + 2 : Nat) : Int), { st with out := st.out ++ chunks }) ∧ chunks.flatten = content ++ [13, 10] := by
  obtain ⟨chunks, h1, h2⟩ := streamLoop_eq (content.length + 1) st 0 content (by omega) hz (by omega)
  have hc : CRLF.length = 2 := by decide
  refine ⟨chunks ++ [CRLF], ?_, by simp [h2, CRLF]⟩
  unfold send_stream
  have h1' : streamLoop (content.length + 1) st 0 content = _ := h1
  rw [h1']
  simp only [ok_bind]
  rw [http_print_all (by omega)]
  simp only [ok_bind]
  rw [addInt_ok (by omega) (by omega)]
  simp [hc]

/-- What `return_json_stream` sends. -/
def streamReply (start content : Str) : Str :=
  start ++ WAYUU_HTTP_SERVER_STRING ++ HTTP_ACCESS_CONTROL ++ CONTENT_TYPE_JSON ++ [13, 10] ++ content ++ [13, 10]

theorem return_json_stream_eq {env : Env} {st : St} {hs : List (Str × Str)} (hh : st.req.HasHeaders hs)
    {status : Int} {start content : Str} (hst : findStatus status HTTP_STATUS_TABLE = some start)
    (hz : NulFree content) (hd : content.length + 300 < 2 ^ 31) :
    ∃ st', return_json_stream env st status content = ok st' ∧
      st'.sent = st.sent ++ streamReply start content ∧
      st'.req = { st.req with response_length := (streamReply start content).length } ∧
      st'.log = (if env.logOk then st.log ++ [logLine env st'.req hs status] else st.log) ∧
      st'.input = st.input ∧ st'.fs = st.fs ∧ st'.live = st.live ∧ st'.closed = st.closed := by
  have hl : start.length ≤ 36 := (table_lines _ (findStatus_cases hst)).1
  have h1 : WAYUU_HTTP_SERVER_STRING.length = 21 := by decide
  have h2 : HTTP_ACCESS_CONTROL.length = 130 := by decide +kernel
  have h3 : CONTENT_TYPE_JSON.length = 32 := by decide
  have hb : (start ++ WAYUU_HTTP_SERVER_STRING ++ HTTP_ACCESS_CONTROL ++ CONTENT_TYPE_JSON).length ≤ 250 := by
    simp only [List.length_append]; omega
  have hc : CRLF.length = 2 := by decide
  unfold return_json_stream
  rw [json_headers_eq hst]
  simp only [ok_bind]
  rw [http_print_all (by omega)]
  simp only [ok_bind]
  obtain ⟨chunks, e1, e2⟩ := send_stream_eq
    { st with out := st.out ++ [start ++ WAYUU_HTTP_SERVER_STRING ++ HTTP_ACCESS_CONTROL ++ CONTENT_TYPE_JSON] ++ [CRLF] }
    content hz (by omega)
  rw [e1]
  simp only [ok_bind]
  rw [addInt_ok (by omega) (by omega)]
  simp only [ok_bind]
  rw [addInt_ok (by omega) (by omega)]
  simp only [ok_bind]
  rw [log_access_eq (hs := hs) (by exact hh)]
  refine ⟨_, rfl, ?_, ?_, ?_, by simp, by simp, by simp, by simp⟩
  · simp [St.sent, streamReply, e2, CRLF]
  · rw [appendLog_req]
    have : (streamReply start content).length =
      (start ++ WAYUU_HTTP_SERVER_STRING ++ HTTP_ACCESS_CONTROL ++ CONTENT_TYPE_JSON).length + content.length + 4 := by
      simp only [streamReply, List.length_append, List.length_cons, List.length_nil]
      omega
    rw [this]
    refine congrArg (fun n => { st.req with response_length := n }) (toUInt32_of ?_ ?_)
    · omega
    · omega
  · rw [appendLog_req]
    unfold appendLog
    split <;> simp

/-! ### static files -/

/-- First block sent by `return_headers`. -/
def fileHead : Str := HTTP_OK_START ++ WAYUU_HTTP_SERVER_STRING

/-- Session headers sent by `return_headers`. -/
def sessionText (session : Str) : Str :=
  if session = [] then [] else b!"X-Session: " ++ session ++ b!"\r\nSet-Cookie:WSSESSION=" ++ session ++ b!"\r\n"

theorem content_type_length (f : Str) : (get_content_type f).length ≤ 42 := by
  unfold get_content_type
  split
  · decide
  · split
    · decide
    · simp only
      repeat' split
      all_goals decide

theorem return_headers_eq {st : St} {session : Str} (hs : cstr st.req.session = ok session) (hl : session.length ≤ 490)
    (filename : Str) :
    ∃ chunks : List Str, return_headers st filename =
        ok (chunks.flatten.length, { st with out := st.out ++ chunks }) ∧
      chunks.flatten = fileHead ++ fileHead ++ get_content_type filename ++ sessionText session ++ [13, 10] := by
  have h1 : WAYUU_HTTP_SERVER_STRING.length = 21 := by decide
  have h2 : HTTP_OK_START.length = 17 := by decide
  have h3 := content_type_length filename
  have hc : CRLF.length = 2 := by decide
  unfold return_headers
  rw [fmtInto_ok (by simp only [List.length_append]; omega)]
  simp only [ok_bind]
  rw [http_print_all (by simp only [List.length_append]; omega)]
  simp only [ok_bind]
  rw [fmtInto_ok (by simp only [List.length_append]; omega)]
  simp only [ok_bind]
  rw [http_print_all (by simp only [List.length_append]; omega)]
  simp only [ok_bind]
  rw [hs]
  simp only [ok_bind]
  unfold sessionHeaders
  by_cases e : session = []
  · subst e
    simp only [List.length_nil, Nat.lt_irrefl, if_false, ok_bind]
    rw [http_print_all (by omega)]
    refine ⟨[HTTP_OK_START ++ WAYUU_HTTP_SERVER_STRING, HTTP_OK_START ++ WAYUU_HTTP_SERVER_STRING ++ get_content_type filename, CRLF], ?_, ?_⟩
    · simp; omega
    · simp [fileHead, sessionText, CRLF]
  · have : 0 < session.length := List.length_pos_iff.mpr e
    simp only [this, if_true]
    have hb : (b!"X-Session: " ++ session ++ b!"\r\nSet-Cookie:WSSESSION=" ++ session ++ b!"\r\n").length = 36 + 2 * session.length := by
      simp only [List.length_append, List.length_cons, List.length_nil]; omega
    rw [fmtInto_ok (by omega)]
    simp only [ok_bind]
    rw [http_print_all (by omega)]
    simp only [ok_bind]
    rw [http_print_all (by omega)]
    refine ⟨[HTTP_OK_START ++ WAYUU_HTTP_SERVER_STRING, HTTP_OK_START ++ WAYUU_HTTP_SERVER_STRING ++ get_content_type filename,
      b!"X-Session: " ++ session ++ b!"\r\nSet-Cookie:WSSESSION=" ++ session ++ b!"\r\n", CRLF], ?_, ?_⟩
    · simp; omega
    · simp [fileHead, sessionText, e, CRLF]

theorem length_sessionText (session : Str) : (sessionText session).length ≤ 36 + 2 * session.length := by
  unfold sessionText
  split
  · simp
  · simp; omega

theorem is_file_iff {fs : FS} {path : Str} : is_file fs path = true ↔ ∃ c, fs.lookup path = some (.file c) := by
  unfold is_file
  split
  · rename_i c h; simp [h]
  · rename_i h
    simp only [Bool.false_eq_true, false_iff, not_exists]
    exact fun c hc => h c hc

theorem openRead_of_lookup {fs : FS} {path : Str} {c : List Byte} (h : fs.openRead path = some c) :
    fs.lookup path = some (.file c) := by
  unfold FS.openRead at h
  unfold FS.lookup
  cases hr : fs.resolve path with
  | none => simp [hr] at h
  | some p =>
    simp only [hr] at h
    simp only [Option.bind_some]
    split at h
    · rename_i c' hc
      split at h
      · simp only [Option.some.injEq] at h; rw [hc, h]
      · simp at h
    · simp at h

/-- All bytes sent for a static file. -/
def fileReply (filename session content : Str) : Str :=
  fileHead ++ fileHead ++ get_content_type filename ++ sessionText session ++ [13, 10] ++ content

theorem direct_file_eq {env : Env} {st : St} {hs : List (Str × Str)} (hh : st.req.HasHeaders hs)
    {session filename content : Str} (hse : cstr st.req.session = ok session) (hsl : session.length ≤ 490)
    (hopen : st.fs.openRead filename = some content) (hlen : content.length + 1200 < 2 ^ 31) :
    ∃ st', direct_file env st filename = ok (0, st') ∧
      st'.sent = st.sent ++ fileReply filename session content ∧
      st'.req = { st.req with response_length := (fileReply filename session content).length } ∧
      st'.log = (if env.logOk then st.log ++ [logLine env st'.req hs 200] else st.log) ∧
      st'.input = st.input ∧ st'.fs = st.fs ∧ st'.live = st.live ∧ st'.closed = st.closed := by
  have hf : is_file st.fs filename = true := is_file_iff.mpr ⟨content, openRead_of_lookup hopen⟩
  obtain ⟨chunks, e1, e2⟩ := return_headers_eq hse hsl filename
  have h1 : fileHead.length = 38 := by decide
  have h3 := content_type_length filename
  have h4 := length_sessionText session
  have hcl : chunks.flatten.length ≤ 1200 := by
    rw [e2]; simp only [List.length_append, List.length_cons, List.length_nil]; omega
  unfold direct_file
  simp only [hf, Bool.not_true, Bool.false_eq_true, if_false]
  rw [e1]
  simp only [ok_bind]
  unfold return_file
  simp only [hopen]
  rw [http_print_all (by omega)]
  simp only [ok_bind]
  rw [toInt32_small (by omega) (by omega), addInt_ok (by omega) (by omega)]
  simp only [ok_bind]
  rw [log_access_eq (hs := hs) (by exact hh)]
  have hrep : fileReply filename session content = chunks.flatten ++ content := by rw [e2]; rfl
  refine ⟨_, rfl, ?_, ?_, ?_, by simp, by simp, by simp, by simp⟩
  · rw [hrep]; simp [St.sent]
  · rw [appendLog_req, hrep]
    refine congrArg (fun n => { st.req with response_length := n }) (toUInt32_of ?_ ?_)
    · rw [List.length_append]; omega
    · rw [List.length_append]; omega
  · rw [appendLog_req]
    unfold appendLog
    split <;> simp

end Wayuu
