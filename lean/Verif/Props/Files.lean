import Verif.Lemmas.Files
import Verif.Props.Conf
/-
Properties C46, C47 (address filter) and C59, C60 (file helpers).
-/
namespace Wayuu
open C Spec

/-! ### C59 -/

/-- C59 as claimed for `find_in_file` and `write_file`: they work on every file and every block. -/
def C59_statement : Prop :=
  (∀ fs path needle, (find_in_file fs path needle).IsOk) ∧
  (∀ fs path (data : List Byte), (write_file fs path (data.map some) 0 data.length).IsOk)

/-- Both parts are false of the code: `find_in_file` overruns its buffer from 8192 bytes on, and `write_file`
takes the `strlen` of the data for its trace. -/
theorem C59_refuted : ¬ C59_statement := by
  rintro ⟨-, h⟩
  obtain ⟨a, ha⟩ := h ⟨fun _ => none, fun _ => true, fun _ => true⟩ b!"/f" [65]
  cases ha

/-- C59, `write_file` on a block that holds a NUL at or after the data: the file then holds exactly the data,
and no other object of the file system changes. If the file cannot be opened nothing changes. -/
theorem C59_write_partial (fs : FS) (path : Str) (pre post : Buf) (data : List Byte)
    (hz : (strAt (pre ++ (data.map some ++ post)) pre.length).IsOk) :
    (∀ p, fs.openWrite path = some p →
      ∃ fs', write_file fs path (pre ++ (data.map some ++ post)) pre.length data.length = ok fs' ∧
        (fs.canRead p = true → fs'.openRead path = some data) ∧ fs'.lookup path = some (.file data) ∧
        (∀ q, q ≠ p → fs'.nodeAt q = fs.nodeAt q) ∧
        (∀ path2, fs'.resolve path2 = fs.resolve path2) ∧
        (∀ path2, fs.resolve path2 ≠ some p → fs'.openRead path2 = fs.openRead path2)) ∧
    (fs.openWrite path = none →
      write_file fs path (pre ++ (data.map some ++ post)) pre.length data.length = ok fs) := by
  obtain ⟨s, hs⟩ := hz
  have hrem : ∀ p, fs.openWrite path = some p →
      (if is_file fs path then fs.remove path else fs) = fs ∨
      (if is_file fs path then fs.remove path else fs) = fs.update p none := by
    intro p hp
    obtain ⟨h1, h2, h3, h4⟩ := FS.openWrite_some hp
    by_cases hf : is_file fs path = true
    · right
      rw [if_pos hf]
      unfold FS.remove
      rw [h1]
      simp [h3, h4]
    · left
      rw [if_neg hf]
  constructor
  · intro p hp
    obtain ⟨h1, h2, h3, h4⟩ := FS.openWrite_some hp
    have hres : write_file fs path (pre ++ (data.map some ++ post)) pre.length data.length =
        ok (fs.update p (some (.file data))) := by
      unfold write_file
      rw [hs]
      simp only [ok_bind]
      rcases hrem p hp with e | e
      · rw [e, hp]
        simp only [Int.toNat_natCast]
        rw [if_neg (by omega), readBytes_eq]
        rfl
      · rw [e]
        have : (fs.update p none).openWrite path = some p := by
          unfold FS.openWrite
          rw [FS.resolve_update h2 h3 (by simp), h1]
          simp only
          rw [FS.nodeAt_update h2, if_pos rfl]
          simp [FS.update, h4]
        rw [this]
        simp only [Int.toNat_natCast]
        rw [if_neg (by omega), readBytes_eq]
        simp only [ok_bind]
        rw [FS.update_update]
    refine ⟨_, hres, fun hr => FS.openRead_written hp hr data, ?_, ?_, ?_, fun path2 h => FS.openRead_other hp data h⟩
    · unfold FS.lookup
      rw [FS.resolve_update h2 h3 (by simp), h1]
      show FS.nodeAt _ p = _
      rw [FS.nodeAt_update h2, if_pos rfl]
    · intro q hq
      rw [FS.nodeAt_update h2, if_neg hq]
    · intro path2
      exact FS.resolve_update h2 h3 (by simp) path2
  · intro hn
    unfold write_file
    rw [hs]
    simp only [ok_bind]
    have : (if is_file fs path then fs.remove path else fs) = fs := by
      by_cases hf : is_file fs path = true
      · rw [if_pos hf]
        unfold FS.remove
        unfold FS.openWrite at hn
        cases hr : fs.resolve path with
        | none => rfl
        | some p =>
          simp only [hr] at hn
          split at hn
          · cases hn
          · rename_i h5
            simp only
            rw [if_neg h5]
      · rw [if_neg hf]
    rw [this, hn]

example : ∃ fs', write_file (oneFile b!"abc") b!"/f" (strdup b!"xy") 0 2 = ok fs' ∧ fs'.openRead b!"/f" = some b!"xy" := by
  obtain ⟨fs', h1, h2, -⟩ := (C59_write_partial (oneFile b!"abc") b!"/f" [] [some 0] b!"xy" ⟨b!"xy", by decide⟩).1 [b!"f"] (by decide)
  exact ⟨fs', h1, h2 (by decide)⟩

/-- C59, `write_file` on a block without a NUL after the data reads past it, for all data. -/
theorem C59_unterminated (fs : FS) (path : Str) (data : List Byte) (h : NulFree data) :
    write_file fs path (data.map some) 0 data.length = ub .oob := by
  have : cstr (data.map some) = ub .oob := by
    induction data with
    | nil => rfl
    | cons c d ih =>
      simp only [List.map_cons, cstr]
      rw [if_neg (h c (by simp)), ih (fun c hc => h c (by simp [hc]))]
      rfl
  unfold write_file strAt
  rw [if_pos (by omega), List.drop_zero, this]
  rfl

example : write_file (oneFile b!"abc") b!"/f" [some 120, some 121] 0 2 = ub .oob := C59_unterminated _ _ b!"xy" (by decide)

/-- C59, a negative size is taken for a huge one: whatever the block, `write_file` reads past its end. -/
theorem C59_negative (fs : FS) (path : Str) (p : List Str) (ptr : Buf) (off : Nat) (size : Int) (hs : size < 0)
    (hp : (if is_file fs path then fs.remove path else fs).openWrite path = some p) :
    ∃ f, write_file fs path ptr off size = ub f := by
  unfold write_file
  cases strAt ptr off with
  | ub f => exact ⟨f, rfl⟩
  | ok s =>
    refine ⟨.oob, ?_⟩
    rw [ok_bind]
    simp only
    rw [hp]
    simp only
    rw [if_pos hs]

example := C59_negative (oneFile b!"abc") b!"/f" [b!"f"] (strdup b!"xy") 0 (-1) (by decide) (by decide)

/-- C59, `read_file`: exactly the content (or its first `maxlen - 1` bytes) and a terminator; the rest of the
destination is unchanged. -/
theorem C59_read (fs : FS) (path : Str) (content : List Byte) (h : fs.openRead path = some content) (out : Buf)
    (maxlen : Nat) :
    (maxlen = 0 → content.length < out.length →
      read_file fs out path maxlen = ok (content.map some ++ some 0 :: out.drop (content.length + 1))) ∧
    (0 < maxlen → min content.length (maxlen - 1) < out.length →
      read_file fs out path maxlen = ok ((content.take (maxlen - 1)).map some ++
        some 0 :: out.drop (min content.length (maxlen - 1) + 1))) := by
  constructor
  · rintro rfl hl
    rw [read_file_eq h (by simpa [readLen] using hl)]
    simp [readLen]
  · intro hm hl
    have e : readLen content maxlen = min content.length (maxlen - 1) := by
      unfold readLen; rw [if_neg (by omega)]
    rw [read_file_eq h (by rw [e]; exact hl), e]
    congr 3
    rcases Nat.le_total content.length (maxlen - 1) with h2 | h2
    · rw [Nat.min_eq_left h2, List.take_of_length_le h2, List.take_of_length_le (by omega)]
    · rw [Nat.min_eq_right h2]

example : read_file (oneFile b!"abc") [none, none, none, some 9] b!"/f" 3 = ok [some 97, some 98, some 0, some 9] :=
  (C59_read (oneFile b!"abc") b!"/f" b!"abc" (by decide) [none, none, none, some 9] 3).2 (by decide) (by decide)

/-- C59, `read_file` into a block that is too small overruns it. -/
theorem C59_read_over (fs : FS) (path : Str) (content : List Byte) (h : fs.openRead path = some content) (out : Buf)
    (hl : out.length ≤ content.length) : read_file fs out path 0 = ub .oob :=
  read_file_over h (by simpa [readLen] using hl)

example : read_file (oneFile b!"abc") [none, none, none] b!"/f" 0 = ub .oob := C59_read_over _ _ b!"abc" (by decide) _ (by decide)

/-- C59, `find_in_file` on files below 8192 bytes: whether the text occurs before the first NUL. -/
theorem C59_find_partial (fs : FS) (path needle : Str) (content text : List Byte) (h : fs.openRead path = some content)
    (hl : content.length < 8192) (ht : BeforeNul content text) :
    ∃ r, find_in_file fs path needle = ok r ∧ (r = true ↔ Occurs needle text) := by
  rw [find_in_file_eq, h]
  simp only [if_pos hl]
  refine ⟨_, rfl, ?_⟩
  rw [strstr_occurs, beforeNul_unique (untilNul_before content) ht]

example : ∃ r, find_in_file (oneFile b!"abc") b!"/f" b!"bc" = ok r ∧ (r = true ↔ Occurs b!"bc" b!"abc") :=
  C59_find_partial _ _ _ b!"abc" b!"abc" (by decide) (by decide) ⟨by decide, Or.inl rfl⟩

/-- C59, `find_in_file` on longer files overruns its buffer. -/
theorem C59_find_over (fs : FS) (path needle : Str) (content : List Byte) (h : fs.openRead path = some content)
    (hl : 8192 ≤ content.length) : find_in_file fs path needle = ub .oob := by
  rw [find_in_file_eq, h]
  simp only
  rw [if_neg (by omega)]

example (content : List Byte) (h : content.length = 9000) : find_in_file (oneFile content) b!"/f" b!"x" = ub .oob :=
  C59_find_over _ _ _ content (by rfl) (by omega)

/-- Writing and reading back. -/
theorem C59_round_partial (fs : FS) (path : Str) (p : List Str) (data : List Byte) (post out : Buf)
    (hp : fs.openWrite path = some p) (hr : fs.canRead p = true) (hl : data.length < out.length) :
    ∃ fs', write_file fs path (data.map some ++ some 0 :: post) 0 data.length = ok fs' ∧
      read_file fs' out path 0 = ok (data.map some ++ some 0 :: out.drop (data.length + 1)) := by
  have hz : (strAt (([] : Buf) ++ (data.map some ++ some 0 :: post)) ([] : Buf).length).IsOk := by
    unfold strAt
    simp only [List.nil_append, List.length_nil, Nat.zero_le, if_true, List.drop_zero]
    exact ⟨_, cstr_untilNul data post⟩
  obtain ⟨fs', h1, h2, -⟩ := (C59_write_partial fs path [] (some 0 :: post) data hz).1 p hp
  exact ⟨fs', h1, (C59_read fs' path data (h2 hr) out 0).1 rfl hl⟩

example : (oneFile b!"abc").openRead b!"/f" = some b!"abc" := by decide
example : find_in_file (oneFile b!"abc") b!"/f" b!"bc" = ok true := by decide +kernel
example : (write_file (oneFile b!"abc") b!"/f" (strdup b!"xy\x00z") 0 4).bind (fun fs => ok (fs.openRead b!"/f")) =
    ok (some b!"xy\x00z") := by decide
example : (oneFile b!"abc").openWrite b!"/f" = some [b!"f"] := by decide

/-! ### C60 -/

/-- C60. `check_createdir` returns true exactly if the path is a directory afterwards; it changes nothing,
except for creating that directory where there was nothing. -/
theorem C60_createdir (fs : FS) (path : Str) :
    ((check_createdir fs path).1 = true ↔ (check_createdir fs path).2.lookup path = some .dir) ∧
    ((check_createdir fs path).2 = fs ∨
      ∃ p, fs.nodeAt p = none ∧ (check_createdir fs path).2.nodeAt p = some .dir ∧
        (∀ q, q ≠ p → (check_createdir fs path).2.nodeAt q = fs.nodeAt q) ∧
        (check_createdir fs path).2.resolve path = some p) := by
  have hd : is_dir fs path = true ↔ fs.lookup path = some .dir := by
    unfold is_dir
    cases fs.lookup path with
    | none => simp
    | some n => cases n <;> simp
  unfold check_createdir
  by_cases h : is_dir fs path = true
  · rw [if_pos h]
    simp [hd.mp h]
  · rw [if_neg h]
    cases hm : fs.mkdir path with
    | none =>
      simp only [Bool.false_eq_true, false_iff]
      exact ⟨fun e => h (hd.mpr e), Or.inl trivial⟩
    | some fs' =>
      simp only [true_iff]
      unfold FS.mkdir at hm
      cases hr : fs.resolve (FS.noTrail path) with
      | none => simp [hr] at hm
      | some p =>
        simp only [hr] at hm
        split at hm
        · rename_i hc
          simp only [Option.some.injEq] at hm
          subst hm
          have hpne : p ≠ [] := by rintro rfl; simp [FS.nodeAt] at hc
          have hnode : (fs.update p (some .dir)).nodeAt p = some .dir := by
            rw [FS.nodeAt_update hpne, if_pos rfl]
          obtain ⟨n, hn⟩ := FS.noTrail_split path
          have hne : FS.noTrail path ≠ [] := by
            intro e
            simp [FS.resolve, e] at hr
          have hres : (fs.update p (some .dir)).resolve path = some p := by
            unfold FS.resolve at hr ⊢
            rw [if_neg hne] at hr
            rw [if_neg (by rw [hn]; simp [hne]), hn, FS.comps_slashes, FS.walk_append,
              FS.walk_mkdir hc.1 _ _ _ hr]
            exact FS.walk_empties hnode n
          refine ⟨?_, Or.inr ⟨p, hc.1, hnode, ?_, hres⟩⟩
          · unfold FS.lookup
            rw [hres]
            exact hnode
          · intro q hq
            rw [FS.nodeAt_update hpne, if_neg hq]
        · cases hm

example : (check_createdir (oneFile b!"abc") b!"/d/").1 = true ∧ (check_createdir (oneFile b!"abc") b!"/f").1 = false := by
  decide

/-! ### C46 -/

/-- C46. For every root path that fits (the start-up code limits it to 255 bytes), both on the first and
on later calls: an address is admitted iff it is not in the deny file and either there is no allow file or
it is in it. -/
theorem C46_filter (fs : FS) (root ip : Str) (paths : AccessPaths) (hroot : root.length ≤ 255) (hip : ip ≠ [])
    (hp : paths = ⟨[], []⟩ ∨ paths = ⟨root ++ b!"/etc/allow", root ++ b!"/etc/deny"⟩)
    (h1 : ∀ c, fs.openRead (root ++ b!"/etc/deny") = some c → c.length < 8192)
    (h2 : ∀ c, fs.openRead (root ++ b!"/etc/allow") = some c → c.length < 8192) :
    ∃ r, allowed_address fs root paths ip = ok (r, ⟨root ++ b!"/etc/allow", root ++ b!"/etc/deny"⟩) ∧
      (r = true ↔ ¬ Listed fs (root ++ b!"/etc/deny") ip ∧
        ((∀ c, fs.lookup (root ++ b!"/etc/allow") ≠ some (.file c)) ∨ Listed fs (root ++ b!"/etc/allow") ip)) := by
  obtain ⟨rd, hd1, hd2⟩ := find_listed hip h1
  obtain ⟨ra, ha1, ha2⟩ := find_listed hip h2
  have hf : is_file fs (root ++ b!"/etc/allow") = false ↔ ∀ c, fs.lookup (root ++ b!"/etc/allow") ≠ some (.file c) := by
    have := @is_file_iff fs (root ++ b!"/etc/allow")
    cases h : is_file fs (root ++ b!"/etc/allow") with
    | true =>
      simp only [Bool.true_eq_false, false_iff, not_forall, not_not]
      exact this.mp h
    | false =>
      simp only [true_iff]
      intro c hc
      rw [this.mpr ⟨c, hc⟩] at h
      cases h
  have key : ∃ r, (find_in_file fs (root ++ b!"/etc/deny") ip >>= fun denied =>
      if denied = true then ok (false, AccessPaths.mk (root ++ b!"/etc/allow") (root ++ b!"/etc/deny")) else
      if (!is_file fs (root ++ b!"/etc/allow")) = true then ok (true, ⟨root ++ b!"/etc/allow", root ++ b!"/etc/deny"⟩) else
        find_in_file fs (root ++ b!"/etc/allow") ip >>= fun found =>
          ok (found, ⟨root ++ b!"/etc/allow", root ++ b!"/etc/deny"⟩)) =
        ok (r, ⟨root ++ b!"/etc/allow", root ++ b!"/etc/deny"⟩) ∧
      (r = true ↔ ¬ Listed fs (root ++ b!"/etc/deny") ip ∧
        ((∀ c, fs.lookup (root ++ b!"/etc/allow") ≠ some (.file c)) ∨ Listed fs (root ++ b!"/etc/allow") ip)) := by
    rw [hd1, ha1, ← hd2, ← ha2, ← hf]
    simp only [ok_bind]
    cases rd <;> cases ra <;> cases is_file fs (root ++ b!"/etc/allow") <;> simp
  obtain ⟨r, k1, k2⟩ := key
  refine ⟨r, ?_, k2⟩
  rw [← k1]
  unfold allowed_address
  rcases hp with rfl | rfl
  · simp only [List.length_nil, if_true]
    rw [fmtInto_ok (show (root ++ b!"/etc/allow").length + 1 ≤ 288 by simp; omega)]
    simp only [ok_bind]
    rw [fmtInto_ok (show (root ++ b!"/etc/deny").length + 1 ≤ 288 by simp; omega)]
    rfl
  · rw [if_neg (by simp)]
    rfl

/-- Without either file everyone is admitted; an address in the deny file is not. -/
example : (allowed_address (oneFile b!"abc") b!"/r" ⟨[], []⟩ b!"10.0.0.1").bind (fun x => ok x.1) = ok true := by decide +kernel
def denyFs (content : Str) : FS :=
  ⟨fun p => if p = [b!"r"] ∨ p = [b!"r", b!"etc"] then some .dir else
    if p = [b!"r", b!"etc", b!"deny"] then some (.file content) else none, fun _ => true, fun _ => true⟩
example : (allowed_address (denyFs b!"10.0.0.1\n") b!"/r" ⟨[], []⟩ b!"10.0.0.1").bind (fun x => ok x.1) = ok false := by
  decide +kernel
example : (denyFs b!"10.0.0.1\n").openRead (b!"/r" ++ b!"/etc/deny") = some b!"10.0.0.1\n" := by decide +kernel

/-! ### C47 -/

/-- C47 as claimed: an address counts as listed only if it is one of the lines. -/
def C47_statement : Prop :=
  ∀ (fs : FS) (path ip content : Str), fs.openRead path = some content → content.length < 8192 → NulFree content →
    ip ≠ [] → (10 : Byte) ∉ ip → find_in_file fs path ip = ok true → LineIn ip content

/-- C47 is false of the code: `10.0.0.1` is found in a file that lists `10.0.0.10`. -/
theorem C47_refuted : ¬ C47_statement := by
  intro h
  obtain ⟨a, b, h1, h2, h3, -⟩ := h (denyFs b!"10.0.0.10") b!"/r/etc/deny" b!"10.0.0.1" b!"10.0.0.10" (by decide +kernel)
    (by decide) (by decide) (by decide) (by decide) (by decide +kernel)
  have hl := congrArg List.length h1
  simp at hl
  rcases h2 with rfl | h2
  · simp at h1
    rcases h3 with rfl | h3
    · simp at hl
    · rw [← h1] at h3
      simp at h3
  · cases a with
    | nil => simp at h2
    | cons x a =>
      have : a = [] := by
        cases a with
        | nil => rfl
        | cons y a => simp at hl; omega
      subst this
      simp at h2
      subst h2
      simp at h1

/-- C47, what holds: an address is found exactly if some line contains it; in particular every listed address
is found, and if no line properly contains it, only listed ones are. Missing: addresses contained in longer
entries. -/
theorem C47_partial (fs : FS) (path ip content text : List Byte) (h : fs.openRead path = some content)
    (hl : content.length < 8192) (ht : BeforeNul content text) (hip : (10 : Byte) ∉ ip) :
    ∃ r, find_in_file fs path ip = ok r ∧ (r = true ↔ ∃ l, LineIn l text ∧ Occurs ip l) ∧
      (LineIn ip text → r = true) ∧
      ((∀ l, LineIn l text → Occurs ip l → l = ip) → (r = true ↔ LineIn ip text)) := by
  obtain ⟨r, h1, h2⟩ := C59_find_partial fs path ip content text h hl ht
  have h3 : r = true ↔ ∃ l, LineIn l text ∧ Occurs ip l := by rw [h2, occurs_line hip]
  have h4 : LineIn ip text → r = true := fun h => h3.mpr ⟨ip, h, [], [], by simp⟩
  refine ⟨r, h1, h3, h4, fun hall => ⟨fun hr => ?_, h4⟩⟩
  obtain ⟨l, hl1, hl2⟩ := h3.mp hr
  exact hall l hl1 hl2 ▸ hl1

example : LineIn b!"10.0.0.1" b!"10.0.0.9\n10.0.0.1\n" := ⟨b!"10.0.0.9\n", b!"\n", by decide, by decide, by decide, by decide⟩

end Wayuu
