import Verif.Lemmas.Upload
import Verif.Lemmas.Static
import Verif.Lemmas.Keeps
import Verif.Props.Evasion
import Verif.Props.Upload
/-
Property C115: what the server itself writes to the disk while it handles a request (ws.c:165-277, file_utils.c).
-/
namespace Wayuu
open C Spec

/-- The places for uploads: the folder and the files named after the thread and the digest of some content. -/
def UploadPlace (env : Env) (p : List Str) : Prop :=
  p = [b!"tmp", b!"wayuu"] ∨ ∃ content, p = [b!"tmp", b!"wayuu", env.tid ++ b!"-" ++ hexText (env.digest content)]

/-- The trees, and what may be read, differ in these places at most. -/
def SameBut (P : List Str → Prop) (a b : FS) : Prop := ∀ p, ¬ P p → b.nodeAt p = a.nodeAt p ∧ b.canRead p = a.canRead p

theorem SameBut.refl (P : List Str → Prop) (a : FS) : SameBut P a a := fun _ _ => ⟨rfl, rfl⟩
theorem SameBut.trans {P : List Str → Prop} {a b c : FS} (h : SameBut P a b) (h' : SameBut P b c) : SameBut P a c :=
  fun p hp => ⟨(h' p hp).1.trans (h p hp).1, (h' p hp).2.trans (h p hp).2⟩
theorem SameBut.of_eq {P : List Str → Prop} {a b : FS} (h : b = a) : SameBut P a b := h ▸ SameBut.refl P a
theorem SameBut.mono {P Q : List Str → Prop} {a b : FS} (h : SameBut P a b) (hpq : ∀ p, P p → Q p) : SameBut Q a b :=
  fun p hp => h p (fun h => hp (hpq p h))

theorem update_same {P : List Str → Prop} (fs : FS) (p : List Str) (n : Option Node) (h : P p) : SameBut P fs (fs.update p n) := by
  intro q hq
  refine ⟨?_, rfl⟩
  unfold FS.nodeAt FS.update
  split
  · rfl
  · have : q ≠ p := by rintro rfl; exact hq h
    simp [this]

/-- A path name of one folder level and a proper name. -/
theorem walk_names (fs : FS) : ∀ (cs cur q : List Str), (∀ c ∈ cs, c ≠ [] ∧ c ≠ b!"." ∧ c ≠ b!"..") → fs.walk cur cs = some q →
    q = cur ++ cs
  | [], cur, q, _, h => by
    simp only [FS.walk, Option.some.injEq] at h
    simp [h]
  | c :: cs, cur, q, hc, h => by
    unfold FS.walk at h
    obtain ⟨h1, h2, h3⟩ := hc c (by simp)
    split at h
    · cases h
    · simp only [h1, h2, or_self, if_false] at h
      rw [walk_names fs cs _ q (fun d hd => hc d (by simp [hd])) h]
      simp

theorem resolve_upload {fs : FS} {name : Str} {p : List Str} (hn : (47 : Byte) ∉ name) (h1 : name ≠ [] ∧ name ≠ b!"." ∧ name ≠ b!"..")
    (h : fs.resolve (b!"/tmp/wayuu" ++ b!"/" ++ name) = some p) : p = [b!"tmp", b!"wayuu", name] := by
  unfold FS.resolve at h
  rw [if_neg (by simp)] at h
  have : FS.comps (b!"/tmp/wayuu" ++ b!"/" ++ name) = [[], b!"tmp", b!"wayuu", name] := by
    rw [List.append_assoc, show b!"/" ++ name = 47 :: name from rfl, comps_append, comps_name hn]
    rfl
  rw [this] at h
  unfold FS.walk at h
  split at h
  · cases h
  · rw [if_pos (Or.inl rfl)] at h
    have := walk_names fs _ _ _ (by
      intro c hc
      rcases (show c = b!"tmp" ∨ c = b!"wayuu" ∨ c = name by simpa using hc) with rfl | rfl | rfl
      · decide
      · decide
      · exact h1) h
    exact this

theorem resolve_folder {fs : FS} {p : List Str} (h : fs.resolve (FS.noTrail b!"/tmp/wayuu") = some p) : p = [b!"tmp", b!"wayuu"] := by
  rw [show FS.noTrail b!"/tmp/wayuu" = b!"/tmp/wayuu" by decide] at h
  unfold FS.resolve at h
  rw [if_neg (by simp), show FS.comps b!"/tmp/wayuu" = [[], b!"tmp", b!"wayuu"] by decide] at h
  unfold FS.walk at h
  split at h
  · cases h
  · rw [if_pos (Or.inl rfl)] at h
    exact walk_names fs _ _ _ (by decide) h

theorem write_file_same {P : List Str → Prop} {fs fs' : FS} {filename : Str} {ptr : Buf} {off : Nat} {size : Int}
    (hP : ∀ fs p, FS.resolve fs filename = some p → P p) (h : write_file fs filename ptr off size = ok fs') : SameBut P fs fs' := by
  unfold write_file at h
  obtain ⟨_, -, h⟩ := bind_eq_ok.mp h
  dsimp only at h
  have k : SameBut P fs (if is_file fs filename = true then fs.remove filename else fs) := by
    split
    · unfold FS.remove
      split
      · exact SameBut.refl _ _
      · rename_i p hp
        split
        · exact update_same _ _ _ (hP _ _ hp)
        · exact SameBut.refl _ _
    · exact SameBut.refl _ _
  generalize (if is_file fs filename = true then fs.remove filename else fs) = fs1 at h k
  split at h
  · cases h; exact k
  · rename_i p hp
    split at h
    · cases h
    · obtain ⟨bytes, -, h⟩ := bind_eq_ok.mp h
      cases h
      refine k.trans (update_same _ _ _ (hP fs1 p ?_))
      unfold FS.openWrite at hp
      cases hr : fs1.resolve filename with
      | none => rw [hr] at hp; cases hp
      | some q =>
        rw [hr] at hp
        simp only at hp
        split at hp
        · cases hp; rfl
        · cases hp

theorem createdir_same {P : List Str → Prop} {fs : FS} (hP : P [b!"tmp", b!"wayuu"]) :
    SameBut P fs (check_createdir fs FILE_DOWNLOAD_TMP_DIR).2 := by
  unfold check_createdir
  split
  · exact SameBut.refl _ _
  · cases hm : fs.mkdir FILE_DOWNLOAD_TMP_DIR with
    | none => exact SameBut.refl _ _
    | some fs' =>
      show SameBut P fs fs'
      unfold FS.mkdir at hm
      cases hr : fs.resolve (FS.noTrail FILE_DOWNLOAD_TMP_DIR) with
      | none => rw [hr] at hm; cases hm
      | some p =>
        rw [hr] at hm
        simp only at hm
        split at hm
        · cases hm
          rw [resolve_folder hr]
          exact update_same _ _ _ hP
        · cases hm

theorem md5Hex_room : ∀ (ds : List Byte) (m m' : Buf) (i : Nat), md5Hex m ds i = ok m' →
    m'.length = m.length ∧ (ds ≠ [] → 2 * i + 2 * ds.length + 1 ≤ m.length)
  | [], m, m', i, h => by cases h; simp
  | d :: ds, m, m', i, h => by
    unfold md5Hex at h
    obtain ⟨m1, h1, h⟩ := bind_eq_ok.mp h
    obtain ⟨e1, e2⟩ := md5Hex_room ds m1 m' (i + 1) h
    unfold writeAt at h1
    have h2 : (fmtHex2 d).length = 2 := rfl
    split at h1
    · rename_i hle
      cases h1
      simp only [List.length_append, h2, List.length_singleton] at hle
      have : (List.take (2 * i) m ++ (fmtHex2 d ++ [0]).map some ++ m.drop (2 * i + (fmtHex2 d ++ [0]).length)).length = m.length := by
        simp [h2]; omega
      rw [this] at e1 e2
      refine ⟨e1, fun _ => ?_⟩
      by_cases hd : ds = []
      · subst hd; simp; omega
      · have := e2 hd
        simp only [List.length_cons]; omega
    · cases h1

theorem nulFree_hexText (ds : List Byte) : ∀ c ∈ hexText ds, c ≠ 0 ∧ c ≠ 47 := by
  have hex : ∀ n : Fin 16, (b!"0123456789abcdef").getD n 0 ≠ 0 ∧ (b!"0123456789abcdef").getD n 0 ≠ 47 := by decide
  intro c hc
  unfold hexText at hc
  obtain ⟨d, -, hd⟩ := List.mem_flatMap.mp hc
  unfold hex2 at hd
  have hlt := d.toNat_lt
  rcases (show c = _ ∨ c = _ by simpa using hd) with rfl | rfl
  · simpa using hex ⟨d.toNat / 16, by omega⟩
  · simpa using hex ⟨d.toNat % 16, by omega⟩

/-- If the result of `md5sum` fits into the 36 bytes it is the text of a digest. -/
theorem md5sum_text {digest : List Byte → List Byte} (h16 : ∀ x, (digest x).length = 16) {evpMax : Nat} {data out : Buf} {off : Nat}
    {len : Int} {s : Str} (h : md5sum digest evpMax (malloc 36) data off len = ok out) (hs : cstr out = ok s) :
    evpMax < 18 ∧ ∃ content, s = hexText (digest content) := by
  unfold md5sum at h
  obtain ⟨m0, h0, h⟩ := bind_eq_ok.mp h
  obtain ⟨bytes, -, h⟩ := bind_eq_ok.mp h
  obtain ⟨m1, h1, h⟩ := bind_eq_ok.mp h
  obtain ⟨o1, h2, h3⟩ := bind_eq_ok.mp h
  clear h
  unfold Buf.store at h0 h3
  split at h0
  swap
  · cases h0
  split at h3
  swap
  · cases h3
  rename_i hz hlt
  simp only [ok.injEq] at h0 h3
  subst h0 h3
  unfold copyCells at h2
  split at h2
  swap
  · cases h2
  rename_i hc
  simp only [ok.injEq] at h2
  subst h2
  have hl : (malloc 36).length = 36 := by decide
  rw [hl] at hc
  obtain ⟨r1, r2⟩ := md5Hex_room _ _ _ _ h1
  have hne : digest bytes ≠ [] := by intro e; have := h16 bytes; rw [e] at this; simp at this
  have r2 := r2 hne
  rw [h16] at r2
  simp only [List.length_set, malloc, List.length_replicate] at r1 r2
  have hlt' : evpMax * 2 < 36 := by
    simp only [List.length_append, List.length_take, List.length_drop, hl] at hlt
    omega
  refine ⟨by omega, bytes, ?_⟩
  obtain ⟨q, e1, e2, e3⟩ := md5Hex_eq (digest bytes) [] ((malloc (evpMax * 2 + 1)).set 0 (some 0)) 0 rfl
    (by simp [h16, malloc]; omega) ⟨_, rfl⟩
  obtain ⟨q', rfl⟩ := e3 hne
  rw [h1] at e1
  simp only [ok.injEq] at e1
  subst e1
  have e : (digest bytes).flatMap fmtHex2 = hexText (digest bytes) := by
    unfold Spec.hexText; congr 1; funext c; exact fmtHex2_eq c
  have hH : (hexText (digest bytes)).length = 32 := by rw [← e, length_hex, h16]
  have hnf : NulFree (hexText (digest bytes)) := fun c hc => (nulFree_hexText _ c hc).1
  rw [List.nil_append, e] at hs
  generalize hexText (digest bytes) = H at hs hH hnf
  have : ∃ r, (List.take 0 (malloc 36) ++ List.take (evpMax * 2) (List.drop 0 (List.map some H ++ some 0 :: q')) ++
      List.drop (0 + evpMax * 2) (malloc 36)).set (evpMax * 2) (some 0) = H.map some ++ some 0 :: r := by
    rcases (show evpMax * 2 = 32 ∨ evpMax * 2 = 34 by omega) with e | e
    · rw [e]
      refine ⟨(malloc 36).drop 33, ?_⟩
      rw [List.take_zero, List.nil_append, List.drop_zero, List.take_left' (by simpa using hH),
        List.set_append_right _ _ (by simp [hH])]
      simp only [List.length_map, hH]
      rfl
    · rw [e]
      refine ⟨(q'.take 1 ++ (malloc 36).drop 34).set 1 (some 0), ?_⟩
      rw [List.take_zero, List.nil_append, List.drop_zero, List.take_append, List.take_of_length_le (by simp [hH]), List.append_assoc,
        List.set_append_right _ _ (by simp [hH])]
      simp only [List.length_map, hH]
      rfl
  obtain ⟨r, hr⟩ := this
  rw [hr, cstr_mk hnf] at hs
  exact (ok.injEq _ _ ▸ hs).symm

/-- The name of an upload is a proper file name. -/
theorem upload_name {tid : Str} (htid : ∀ c ∈ tid, digit c) (content : List Byte) :
    (47 : Byte) ∉ tid ++ b!"-" ++ hexText content ∧ tid ++ b!"-" ++ hexText content ≠ [] ∧
      tid ++ b!"-" ++ hexText content ≠ b!"." ∧ tid ++ b!"-" ++ hexText content ≠ b!".." := by
  have hm : (45 : Byte) ∈ tid ++ b!"-" ++ hexText content := by simp
  refine ⟨?_, ?_, ?_, ?_⟩
  · intro h
    rcases List.mem_append.mp h with h | h
    · rcases List.mem_append.mp h with h | h
      · have := htid _ h
        revert this; unfold digit; decide
      · revert h; decide
    · exact (nulFree_hexText _ _ h).2 rfl
  all_goals
    intro e
    rw [e] at hm
    revert hm
    decide

theorem save_tmp_file_same {env : Env} (h16 : ∀ x, (env.digest x).length = 16) (htid : ∀ c ∈ env.tid, digit c) {fs fs' : FS}
    {tf tf' tmpdata : Buf} {field : Str} {sf ds : Nat} {n : Int}
    (h : save_tmp_file env fs tf field sf tmpdata ds n = ok (tf', fs')) : env.evpMax < 18 ∧ SameBut (UploadPlace env) fs fs' := by
  unfold save_tmp_file at h
  obtain ⟨_, -, h⟩ := bind_eq_ok.mp h
  obtain ⟨_, -, h⟩ := bind_eq_ok.mp h
  obtain ⟨_, -, h⟩ := bind_eq_ok.mp h
  obtain ⟨_, -, h⟩ := bind_eq_ok.mp h
  dsimp only at h
  obtain ⟨m, hm, h⟩ := bind_eq_ok.mp h
  obtain ⟨s, hs, h⟩ := bind_eq_ok.mp h
  obtain ⟨name, hn, h⟩ := bind_eq_ok.mp h
  obtain ⟨path, hp, h⟩ := bind_eq_ok.mp h
  obtain ⟨fs2, hw, h⟩ := bind_eq_ok.mp h
  obtain ⟨_, -, h⟩ := bind_eq_ok.mp h
  obtain ⟨_, -, h⟩ := bind_eq_ok.mp h
  cases h
  obtain ⟨hmax, content, rfl⟩ := md5sum_text h16 hm hs
  obtain ⟨-, rfl⟩ := fmtInto_eq_ok.mp hn
  obtain ⟨-, rfl⟩ := fmtInto_eq_ok.mp hp
  refine ⟨hmax, SameBut.trans ?_ (write_file_same ?_ hw)⟩
  · split
    · exact createdir_same (Or.inl rfl)
    · exact SameBut.refl _ _
  · intro fs p hr
    obtain ⟨n1, n2⟩ := upload_name htid (env.digest content)
    exact Or.inr ⟨content, resolve_upload n1 n2 hr⟩

/-- Places where a request without user code may change the tree: with the library's digest size none. -/
def ServerPlace (env : Env) (p : List Str) : Prop := env.evpMax < 18 ∧ UploadPlace env p

theorem part_parse_same {env : Env} (h16 : ∀ x, (env.digest x).length = 16) (htid : ∀ c ∈ env.tid, digit c) {fs fs' : FS}
    {tf tf' tmpdata : Buf} {n : Int} (h : part_parse env fs tf tmpdata n = ok (tf', fs')) : SameBut (ServerPlace env) fs fs' := by
  unfold part_parse at h
  obtain ⟨_, -, h⟩ := bind_eq_ok.mp h
  obtain ⟨_, -, h⟩ := bind_eq_ok.mp h
  split at h
  · cases h; exact SameBut.refl _ _
  obtain ⟨_, -, h⟩ := bind_eq_ok.mp h
  split at h
  · cases h; exact SameBut.refl _ _
  split at h
  · cases h
  dsimp only at h
  obtain ⟨_, -, h⟩ := bind_eq_ok.mp h
  obtain ⟨_, -, h⟩ := bind_eq_ok.mp h
  obtain ⟨_, -, h⟩ := bind_eq_ok.mp h
  obtain ⟨_, -, h⟩ := bind_eq_ok.mp h
  obtain ⟨_, -, h⟩ := bind_eq_ok.mp h
  split at h <;>
  · obtain ⟨_, -, h⟩ := bind_eq_ok.mp h
    obtain ⟨_, -, h⟩ := bind_eq_ok.mp h
    split at h
    · split at h
      · obtain ⟨_, -, h⟩ := bind_eq_ok.mp h
        obtain ⟨h1, h2⟩ := save_tmp_file_same h16 htid h
        exact h2.mono (fun p hp => ⟨h1, hp⟩)
      · obtain ⟨_, -, h⟩ := bind_eq_ok.mp h
        obtain ⟨_, -, h⟩ := bind_eq_ok.mp h
        obtain ⟨_, -, h⟩ := bind_eq_ok.mp h
        obtain ⟨_, -, h⟩ := bind_eq_ok.mp h
        cases h; exact SameBut.refl _ _
    · cases h; exact SameBut.refl _ _

theorem partsLoop_same {env : Env} (h16 : ∀ x, (env.digest x).length = 16) (htid : ∀ c ∈ env.tid, digit c) {form : Buf} {b : Str}
    {cl : Nat} : ∀ (n ptr : Nat) (tp tf tf' : Buf) (fs fs' : FS), partsLoop env form b cl n ptr tp tf fs = ok (tf', fs') →
      SameBut (ServerPlace env) fs fs'
  | 0, _, _, _, _, _, _, h => by cases h; exact SameBut.refl _ _
  | n + 1, ptr, tp, tf, tf', fs, fs', h => by
    unfold partsLoop at h
    split at h
    · cases h; exact SameBut.refl _ _
    obtain ⟨_, -, h⟩ := bind_eq_ok.mp h
    split at h
    · cases h; exact SameBut.refl _ _
    obtain ⟨_, -, h⟩ := bind_eq_ok.mp h
    split at h
    · cases h; exact SameBut.refl _ _
    dsimp only at h
    obtain ⟨_, -, h⟩ := bind_eq_ok.mp h
    obtain ⟨⟨tf1, fs1⟩, h1, h⟩ := bind_eq_ok.mp h
    dsimp only at h
    obtain ⟨_, -, h⟩ := bind_eq_ok.mp h
    exact (part_parse_same h16 htid h1).trans (partsLoop_same h16 htid n _ _ _ _ _ _ h)

theorem readForm_same {env : Env} (h16 : ∀ x, (env.digest x).length = 16) (htid : ∀ c ∈ env.tid, digit c) {st st' : St} {n : Int}
    {b : Str} (h : readForm env st n b = ok st') : SameBut (ServerPlace env) st.fs st'.fs := by
  unfold readForm at h
  split at h
  · obtain ⟨⟨form, inp⟩, -, h⟩ := bind_eq_ok.mp h
    dsimp only at h
    split at h
    · obtain ⟨⟨form, fs⟩, h1, h⟩ := bind_eq_ok.mp h
      cases h
      unfold multipart_parse at h1
      obtain ⟨⟨tf, fs1⟩, h2, h1⟩ := bind_eq_ok.mp h1
      obtain ⟨_, -, h1⟩ := bind_eq_ok.mp h1
      obtain ⟨_, -, h1⟩ := bind_eq_ok.mp h1
      cases h1
      exact partsLoop_same h16 htid _ _ _ _ _ _ _ h2
    · cases h; exact SameBut.refl _ _
  · cases h; exact SameBut.refl _ _

theorem log_access_sameFs {env : Env} {st st' : St} {status : Int} (h : log_access env st status = ok st') : st'.fs = st.fs := by
  unfold log_access at h
  obtain ⟨_, -, h⟩ := bind_eq_ok.mp h
  obtain ⟨_, -, h⟩ := bind_eq_ok.mp h
  obtain ⟨_, -, h⟩ := bind_eq_ok.mp h
  obtain ⟨_, -, h⟩ := bind_eq_ok.mp h
  cases h
  simp

theorem send_http_status_sameFs {env : Env} {st st' : St} {status : Int} {m : Str} (h : send_http_status env st status m = ok st') :
    st'.fs = st.fs := by
  unfold send_http_status at h
  split at h
  · cases h; rfl
  · obtain ⟨_, -, h⟩ := bind_eq_ok.mp h
    obtain ⟨_, -, h⟩ := bind_eq_ok.mp h
    obtain ⟨_, -, h⟩ := bind_eq_ok.mp h
    obtain ⟨s1, h1, h⟩ := bind_eq_ok.mp h
    obtain ⟨s2, h2, h⟩ := bind_eq_ok.mp h
    rw [log_access_sameFs h]
    unfold http_print_str at h1 h2
    exact (http_print_sameFs h2).trans (http_print_sameFs h1 :)

theorem direct_file_sameFs {env : Env} {st st' : St} {n : Int} {f : Str} (h : direct_file env st f = ok (n, st')) :
    st'.fs = st.fs := by
  unfold direct_file at h
  split at h
  · cases h; rfl
  · obtain ⟨⟨_, s1⟩, h1, h⟩ := bind_eq_ok.mp h
    obtain ⟨⟨_, s2⟩, h2, h⟩ := bind_eq_ok.mp h
    obtain ⟨_, -, h⟩ := bind_eq_ok.mp h
    obtain ⟨s3, h3, h⟩ := bind_eq_ok.mp h
    cases h
    rw [log_access_sameFs h3]
    refine Eq.trans (?_ : s2.fs = s1.fs) (return_headers_sameFs h1)
    unfold return_file at h2
    split at h2
    · obtain ⟨s4, h4, h2⟩ := bind_eq_ok.mp h2
      simp only [ok.injEq, Prod.mk.injEq] at h2
      rw [← h2.2]
      exact http_print_sameFs h4
    · cases h2; rfl

theorem static_sameFs {env : Env} {st st' : St} (h : handle_static_routes env st = ok st') : st'.fs = st.fs := by
  unfold handle_static_routes at h
  obtain ⟨p, -, h⟩ := bind_eq_ok.mp h
  obtain ⟨_, -, h⟩ := bind_eq_ok.mp h
  obtain ⟨⟨r, s1⟩, h1, h⟩ := bind_eq_ok.mp h
  have k1 := direct_file_sameFs h1
  dsimp only at h
  split at h
  · obtain ⟨_, -, h⟩ := bind_eq_ok.mp h
    obtain ⟨⟨_, s2⟩, h2, h⟩ := bind_eq_ok.mp h
    cases h
    exact (direct_file_sameFs h2).trans k1
  · cases h; exact k1

/-- User code changes files in these places only. -/
def UserWrites (env : Env) (Mine : List Str → Prop) : Prop :=
  (∀ id st st', env.handle id st = ok st' → SameBut Mine st.fs st'.fs) ∧
  ∀ id st st' b, env.filt id st = ok (st', b) → SameBut Mine st.fs st'.fs

theorem router_same {env : Env} {Mine : List Str → Prop} (hu : UserWrites env Mine) {st st' : St} {ev : List Event}
    (h : router_handle_request env st = ok (st', ev)) : SameBut (fun p => ev ≠ [] ∧ Mine p) st.fs st'.fs := by
  unfold router_handle_request at h
  obtain ⟨_, -, h⟩ := bind_eq_ok.mp h
  obtain ⟨⟨hd, fl, form⟩, -, h⟩ := bind_eq_ok.mp h
  dsimp only at h
  cases hd with
  | none =>
    obtain ⟨s1, h1, h⟩ := bind_eq_ok.mp h
    cases h
    unfold reject_routing_request bad_request at h1
    exact .of_eq (send_http_status_sameFs h1 :)
  | some hd =>
    cases fl with
    | none =>
      obtain ⟨s1, h1, h⟩ := bind_eq_ok.mp h
      cases h
      exact (hu.1 _ _ _ h1).mono (fun p hp => ⟨by simp, hp⟩)
    | some f =>
      obtain ⟨⟨s1, b⟩, h1, h⟩ := bind_eq_ok.mp h
      have k1 := hu.2 _ _ _ _ h1
      cases b with
      | false =>
        simp only [Bool.not_false, if_true, ok.injEq, Prod.mk.injEq] at h
        rw [← h.1, ← h.2]
        exact k1.mono (fun p hp => ⟨by simp, hp⟩)
      | true =>
        simp only [Bool.not_true, Bool.false_eq_true, if_false] at h
        obtain ⟨s2, h2, h⟩ := bind_eq_ok.mp h
        cases h
        exact (SameBut.trans k1 (hu.1 _ _ _ h2)).mono (fun p hp => ⟨by simp, hp⟩)

/-- The tree after a request. -/
theorem accept_same {env : Env} (h16 : ∀ x, (env.digest x).length = 16) (htid : ∀ c ∈ env.tid, digit c) {Mine : List Str → Prop}
    (hu : UserWrites env Mine) {st st' : St} {socket : Nat} {peer : Str} {ev : List Event}
    (h : accept_request env st socket peer = ok (st', ev)) :
    SameBut (fun p => ServerPlace env p ∨ ev ≠ [] ∧ Mine p) st.fs st'.fs := by
  obtain ⟨-, hc⟩ := accept_request_cases h
  cases hc with
  | badMethod buf inp rl method j st1 hr hm h1 => exact .of_eq (send_http_status_sameFs (show send_http_status _ _ _ _ = _ from h1) :)
  | tooMany buf inp rl method j url live st1 hr hm hurl hadd h1 => exact .of_eq (send_http_status_sameFs (show send_http_status _ _ _ _ = _ from h1) :)
  | served buf inp rl method j url live hd st1 ev hr hm hurl hadd hh h1 =>
    show SameBut _ st.fs st1.fs
    unfold dispatch at h1
    obtain ⟨⟨path, query⟩, -, h1⟩ := bind_eq_ok.mp h1
    dsimp only at h1
    split at h1
    · split at h1
      · obtain ⟨s1, h2, h1⟩ := bind_eq_ok.mp h1
        cases h1
        exact .of_eq (static_sameFs h2 :)
      · obtain ⟨s1, h2, h1⟩ := bind_eq_ok.mp h1
        cases h1
        exact .of_eq (send_http_status_sameFs (show send_http_status _ _ _ _ = _ from h2) :)
    · obtain ⟨p, -, h1⟩ := bind_eq_ok.mp h1
      unfold handle_api_request at h1
      obtain ⟨s1, h2, h1⟩ := bind_eq_ok.mp h1
      exact SameBut.trans ((readForm_same h16 htid h2).mono (fun p hp => Or.inl hp))
        ((router_same hu h1).mono (fun p hp => Or.inr hp))

/-- C115: whatever a client sends, the server changes no file (nor who may read it) outside of the folder for uploads, and there none but one named
after the thread and the digest of some content; anything else was changed by a handler or filter of the application. -/
theorem C115_writes (env : Env) (st st' : St) (socket : Nat) (peer : Str) (ev : List Event) (Mine : List Str → Prop)
    (h16 : ∀ x, (env.digest x).length = 16) (htid : ∀ c ∈ env.tid, digit c) (hu : UserWrites env Mine)
    (h : accept_request env st socket peer = ok (st', ev)) (p : List Str) (hp : ¬ UploadPlace env p) (hm : ev = [] ∨ ¬ Mine p) :
    st'.fs.nodeAt p = st.fs.nodeAt p ∧ st'.fs.canRead p = st.fs.canRead p := by
  refine accept_same h16 htid hu h p ?_
  rintro (⟨-, h⟩ | ⟨h1, h2⟩)
  · exact hp h
  · rcases hm with hm | hm
    · exact h1 hm
    · exact hm h2

/-- C115, with the library's size of digests: a request for which no user code runs changes no file at all. -/
theorem C115_nothing (env : Env) (st st' : St) (socket : Nat) (peer : Str) (Mine : List Str → Prop) (h18 : 18 ≤ env.evpMax)
    (h16 : ∀ x, (env.digest x).length = 16) (htid : ∀ c ∈ env.tid, digit c) (hu : UserWrites env Mine)
    (h : accept_request env st socket peer = ok (st', [])) (p : List Str) :
    st'.fs.nodeAt p = st.fs.nodeAt p ∧ st'.fs.canRead p = st.fs.canRead p := by
  refine accept_same h16 htid hu h p ?_
  rintro (⟨h, -⟩ | ⟨h1, -⟩)
  · omega
  · exact h1 rfl

/-- A client posts a file. -/
def postedSt : St :=
  { sampleSt with fs := uploadFs, live := [⟨0, [], []⟩], input := b!"POST /api/x HTTP/1.1\r\nContent-Type: multipart/form-data; boundary=xY\r\nContent-Length: 109\r\n\r\n" ++ uploadBody b!"me.png" [1, 0, 2] }

theorem no_writes {env : Env} (h1 : ∀ id st, env.handle id st = ok st) (h2 : ∀ id st, ∃ b, env.filt id st = ok (st, b)) :
    UserWrites env (fun _ => False) := by
  refine ⟨fun id st st' h => ?_, fun id st st' b h => ?_⟩
  · rw [h1] at h; cases h; exact SameBut.refl _ _
  · obtain ⟨b, e⟩ := h2 id st
    rw [e] at h; cases h; exact SameBut.refl _ _

example (p : List Str) (hp : ¬ UploadPlace (uploadEnv 17) p) : ∃ st' ev,
    accept_request (uploadEnv 17) postedSt 7 b!"10.0.0.1" = ok (st', ev) ∧ st'.fs.nodeAt p = postedSt.fs.nodeAt p ∧
      st'.fs.canRead p = postedSt.fs.canRead p := by
  have h : (accept_request (uploadEnv 17) postedSt 7 b!"10.0.0.1").bind (fun _ => ok ()) = ok () := by decide +kernel
  cases e : accept_request (uploadEnv 17) postedSt 7 b!"10.0.0.1" with
  | ub f => rw [e] at h; cases h
  | ok x =>
    exact ⟨x.1, x.2, rfl, C115_writes (uploadEnv 17) postedSt x.1 7 b!"10.0.0.1" x.2 (fun _ => False) (fun _ => rfl)
      (by unfold digit; decide) (no_writes (fun _ _ => rfl) (fun _ _ => ⟨_, rfl⟩)) e p hp (Or.inr id)⟩

/-- No route takes the request, yet its file stays. -/
example : (accept_request (uploadEnv 17) postedSt 7 b!"10.0.0.1").bind (fun x => ok (x.1.fs.nodeAt
    [b!"tmp", b!"wayuu", tmpName (uploadEnv 17) [1, 0, 2]], x.2.length)) = ok (some (.file [1, 0, 2]), 0) := by decide +kernel
example : uploadFs.nodeAt [b!"tmp", b!"wayuu", tmpName (uploadEnv 17) [1, 0, 2]] = none := by decide +kernel

/-- A page is asked for. -/
example (p : List Str) : ∃ st', accept_request (uploadEnv 64) (docsSt b!"/docs/index.html") 7 b!"10.0.0.1" = ok (st', []) ∧
    st'.fs.nodeAt p = (docsSt b!"/docs/index.html").fs.nodeAt p ∧
    st'.fs.canRead p = (docsSt b!"/docs/index.html").fs.canRead p := by
  have h : (accept_request (uploadEnv 64) (docsSt b!"/docs/index.html") 7 b!"10.0.0.1").bind (fun x => ok x.2.length) = ok 0 := by
    decide +kernel
  cases e : accept_request (uploadEnv 64) (docsSt b!"/docs/index.html") 7 b!"10.0.0.1" with
  | ub f => rw [e] at h; cases h
  | ok x =>
    obtain ⟨st', ev⟩ := x
    rw [e] at h
    have h : ev.length = 0 := ok.inj h
    obtain rfl := List.length_eq_zero_iff.mp h
    exact ⟨st', rfl, C115_nothing (uploadEnv 64) _ st' 7 b!"10.0.0.1" (fun _ => False) (by decide) (fun _ => rfl)
      (by unfold digit; decide) (no_writes (fun _ _ => rfl) (fun _ _ => ⟨_, rfl⟩)) e p⟩

end Wayuu
