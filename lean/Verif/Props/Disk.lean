import Verif.Model.Disk
import Verif.Props.Upload
import Verif.Props.Files
import Verif.Props.Saving
import Verif.Lemmas.StepsBound
/-
C161: files and settings on a disk that may be full.
-/
namespace Wayuu.Disk
open Wayuu C
open Spec

/-! ### trees that differ in the contents of files only -/

/-- Nothing, a folder or a file. -/
def kind : Option Node → Nat
  | none => 0
  | some .dir => 1
  | some (.file _) => 2

/-- Both the same, or two files of which the second has the first bytes of the first. -/
structure First (n m : Option Node) : Prop where
  kind : kind n = kind m
  part : ∀ x, n = some (.file x) → ∃ y, m = some (.file y) ∧ y <+: x

theorem First.refl (n : Option Node) : First n n := ⟨rfl, fun x h => ⟨x, h, List.prefix_refl x⟩⟩

/-- The same names, folders and permissions; files of the second may be cut short. -/
structure Alike (a b : FS) : Prop where
  node : ∀ p, First (a.node p) (b.node p)
  read : a.canRead = b.canRead
  write : a.canWrite = b.canWrite

theorem Alike.refl (a : FS) : Alike a a := ⟨fun _ => First.refl _, rfl, rfl⟩

theorem kind_dir {n : Option Node} : n = some .dir ↔ kind n = 1 := by
  rcases n with _ | (_ | _) <;> simp [kind]

theorem kind_none {n : Option Node} : n = none ↔ kind n = 0 := by
  rcases n with _ | (_ | _) <;> simp [kind]

theorem Alike.first {a b : FS} (h : Alike a b) (p : List Str) : First (a.nodeAt p) (b.nodeAt p) := by
  unfold FS.nodeAt
  split
  · exact First.refl _
  · exact h.node p

theorem Alike.at {a b : FS} (h : Alike a b) (p : List Str) : kind (a.nodeAt p) = kind (b.nodeAt p) := (h.first p).kind

theorem Alike.walk {a b : FS} (h : Alike a b) (cs : List Str) : ∀ cur, a.walk cur cs = b.walk cur cs := by
  induction cs with
  | nil => intro cur; rfl
  | cons c cs ih =>
    intro cur
    have hd : (a.nodeAt cur ≠ some .dir) ↔ (b.nodeAt cur ≠ some .dir) := by
      rw [ne_eq, ne_eq, kind_dir, kind_dir, h.at]
    simp only [FS.walk, hd, ih]

theorem Alike.resolve {a b : FS} (h : Alike a b) (path : Str) : a.resolve path = b.resolve path := by
  unfold FS.resolve
  rw [h.walk]

theorem Alike.look {a b : FS} (h : Alike a b) (path : Str) : First (a.lookup path) (b.lookup path) := by
  unfold FS.lookup
  rw [h.resolve]
  cases b.resolve path with
  | none => exact First.refl _
  | some p => exact h.first p

theorem Alike.lookup {a b : FS} (h : Alike a b) (path : Str) : kind (a.lookup path) = kind (b.lookup path) := (h.look path).kind

theorem is_dir_kind (fs : FS) (path : Str) : is_dir fs path = decide (kind (fs.lookup path) = 1) := by
  unfold is_dir
  rcases fs.lookup path with _ | (_ | _) <;> rfl

theorem is_file_kind (fs : FS) (path : Str) : is_file fs path = decide (kind (fs.lookup path) = 2) := by
  unfold is_file
  rcases fs.lookup path with _ | (_ | _) <;> rfl

theorem Alike.is_dir {a b : FS} (h : Alike a b) (path : Str) : is_dir a path = is_dir b path := by
  rw [is_dir_kind, is_dir_kind, h.lookup]

theorem Alike.is_file {a b : FS} (h : Alike a b) (path : Str) : is_file a path = is_file b path := by
  rw [is_file_kind, is_file_kind, h.lookup]

theorem Alike.update {a b : FS} (h : Alike a b) (p : List Str) {n m : Option Node} (e : First n m) : Alike (a.update p n) (b.update p m) := by
  refine ⟨fun q => ?_, h.read, h.write⟩
  unfold FS.update
  dsimp only
  split
  · exact e
  · exact h.node q

theorem Alike.openWrite {a b : FS} (h : Alike a b) (path : Str) : a.openWrite path = b.openWrite path := by
  unfold FS.openWrite
  rw [h.resolve]
  cases b.resolve path with
  | none => rfl
  | some p =>
    have hd : (a.nodeAt p ≠ some .dir) ↔ (b.nodeAt p ≠ some .dir) := by
      rw [ne_eq, ne_eq, kind_dir, kind_dir, h.at]
    simp only [hd, h.write]

theorem Alike.remove {a b : FS} (h : Alike a b) (path : Str) : Alike (a.remove path) (b.remove path) := by
  unfold FS.remove
  rw [h.resolve]
  cases b.resolve path with
  | none => exact h
  | some p =>
    have hd : (a.nodeAt p ≠ some .dir) ↔ (b.nodeAt p ≠ some .dir) := by
      rw [ne_eq, ne_eq, kind_dir, kind_dir, h.at]
    simp only [hd, h.write]
    split
    · exact h.update p (First.refl _)
    · exact h

theorem Alike.createdir {a b : FS} (h : Alike a b) (path : Str) : Alike (check_createdir a path).2 (check_createdir b path).2 := by
  unfold check_createdir
  rw [h.is_dir]
  split
  · exact h
  · unfold FS.mkdir
    rw [h.resolve]
    cases b.resolve (FS.noTrail path) with
    | none => exact h
    | some p =>
      have hd : (a.nodeAt p = none) ↔ (b.nodeAt p = none) := by rw [kind_none, kind_none, h.at]
      simp only [hd, h.write]
      by_cases hc : b.nodeAt p = none ∧ b.canWrite p = true
      · rw [if_pos hc, if_pos hc]; exact h.update p (First.refl _)
      · rw [if_neg hc, if_neg hc]; exact h

/-- Both are defined, with results in the relation, or both fail in the same way. -/
inductive Sim {α β : Type} (R : α → β → Prop) : C α → C β → Prop where
  | ok {a : α} {b : β} (h : R a b) : Sim R (ok a) (ok b)
  | ub (f : Fault) : Sim R (ub f) (ub f)

theorem Sim.bind {α β γ δ : Type} {R : α → β → Prop} {S : γ → δ → Prop} {c : C α} {c' : C β} {f : α → C γ} {g : β → C δ} (h : Sim R c c')
    (hf : ∀ a b, R a b → Sim S (f a) (g b)) : Sim S (c >>= f) (c' >>= g) := by
  cases h with
  | ok h => exact hf _ _ h
  | ub f => exact .ub f

theorem Sim.same {α γ δ : Type} {S : γ → δ → Prop} {c : C α} {f : α → C γ} {g : α → C δ} (hf : ∀ a, c = C.ok a → Sim S (f a) (g a)) :
    Sim S (c >>= f) (c >>= g) := by
  cases c with
  | ok a => exact hf a rfl
  | ub f => exact .ub f

/-- What is given to the handler is the same, and the trees differ in the contents of files only. -/
def Told (x y : Buf × FS) : Prop := x.1 = y.1 ∧ Alike x.2 y.2

theorem sim_write_file (d : Take) {a b : FS} (h : Alike a b) (filename : Str) (ptr : Buf) (off : Nat) (size : Int) :
    Sim (fun x y => Alike x y.1) (Wayuu.write_file a filename ptr off size) (write_file d b filename ptr off size) := by
  unfold Wayuu.write_file write_file
  refine Sim.same fun s _ => ?_
  have h' : Alike (if Wayuu.is_file a filename then a.remove filename else a) (if Wayuu.is_file b filename then b.remove filename else b) := by
    rw [h.is_file]
    split
    · exact h.remove _
    · exact h
  dsimp only
  rw [h'.openWrite]
  cases (if Wayuu.is_file b filename then b.remove filename else b).openWrite filename with
  | none => exact .ok h'
  | some p =>
    dsimp only
    split
    · exact .ub _
    · exact Sim.same fun bytes _ => .ok (h'.update _ ⟨rfl, fun x e => by
      cases e
      exact ⟨_, rfl, List.take_prefix _ _⟩⟩)

theorem sim_save (d : Take) (env : Env) {a b : FS} (h : Alike a b) (tmpfields : Buf) (field : Str) (start_file : Nat) (tmpdata : Buf) (data_start : Nat)
    (actuallength : Int) : Sim Told (Wayuu.save_tmp_file env a tmpfields field start_file tmpdata data_start actuallength)
      (save_tmp_file d env b tmpfields field start_file tmpdata data_start actuallength) := by
  unfold Wayuu.save_tmp_file save_tmp_file
  refine Sim.same fun s _ => Sim.same fun orig _ => Sim.same fun orig _ => Sim.same fun orig _ => ?_
  have h' : Alike (if (!Wayuu.is_dir a FILE_DOWNLOAD_TMP_DIR) = true then (check_createdir a FILE_DOWNLOAD_TMP_DIR).2 else a)
      (if (!Wayuu.is_dir b FILE_DOWNLOAD_TMP_DIR) = true then (check_createdir b FILE_DOWNLOAD_TMP_DIR).2 else b) := by
    rw [h.is_dir]
    split
    · exact h.createdir _
    · exact h
  dsimp only
  refine Sim.same fun md5 _ => Sim.same fun md5 _ => Sim.same fun f _ => Sim.same fun p _ => Sim.bind (sim_write_file d h' _ _ _ _) fun x y hxy => ?_
  obtain ⟨y, ms⟩ := y
  exact Sim.same fun o _ => Sim.same fun t _ => .ok ⟨rfl, hxy⟩

theorem sim_part (d : Take) (env : Env) {a b : FS} (h : Alike a b) (tmpfields tmpdata : Buf) (length : Int) :
    Sim Told (Wayuu.part_parse env a tmpfields tmpdata length) (part_parse d env b tmpfields tmpdata length) := by
  unfold Wayuu.part_parse part_parse
  refine Sim.same fun text _ => Sim.same fun start _ => ?_
  split
  · exact .ok ⟨rfl, h⟩
  refine Sim.same fun tail _ => ?_
  split
  · exact .ok ⟨rfl, h⟩
  split
  · exact .ub _
  dsimp only
  refine Sim.same fun f1 _ => Sim.same fun f2 _ => Sim.same fun f3 _ => Sim.same fun ds _ => Sim.same fun f _ => ?_
  split
  all_goals
    refine Sim.same fun t _ => Sim.same fun sf _ => ?_
    split
    · split
      · exact Sim.same fun field _ => sim_save d env h _ _ _ _ _ _
      · exact Sim.same fun v _ => Sim.same fun fi _ => Sim.same fun v _ => Sim.same fun t _ => .ok ⟨rfl, h⟩
    · exact .ok ⟨rfl, h⟩

theorem sim_loop (d : Nat → Take) (env : Env) (form : Buf) (boundary : Str) (cl n : Nat) : ∀ (ptr : Nat) (tmppart tmpfields : Buf) (a b : FS), Alike a b →
    Sim Told (Wayuu.partsLoop env form boundary cl n ptr tmppart tmpfields a) (partsLoop d env form boundary cl n ptr tmppart tmpfields b) := by
  induction n with
  | zero => intro ptr tmppart tmpfields a b h; exact .ok ⟨rfl, h⟩
  | succ n ih =>
    intro ptr tmppart tmpfields a b h
    unfold Wayuu.partsLoop partsLoop
    split
    · exact .ok ⟨rfl, h⟩
    refine Sim.same fun ps _ => ?_
    split
    · exact .ok ⟨rfl, h⟩
    refine Sim.same fun pe _ => ?_
    split
    · exact .ok ⟨rfl, h⟩
    dsimp only
    refine Sim.same fun tp _ => Sim.bind (sim_part (d n) env h _ _ _) fun x y hxy => ?_
    obtain ⟨x1, x2⟩ := x
    obtain ⟨y1, y2⟩ := y
    obtain ⟨rfl, h2⟩ := hxy
    exact Sim.same fun tp _ => ih _ _ _ _ _ h2

/-! ### a disk with room enough -/

theorem readBytes_len {b : Buf} {off n : Nat} {bs : List Byte} (h : readBytes b off n = ok bs) : bs.length = n := by
  induction n generalizing off bs with
  | zero => cases h; rfl
  | succ n ih =>
    unfold readBytes at h
    obtain ⟨c, -, h⟩ := bind_eq_ok.mp h
    obtain ⟨r, hr, h⟩ := bind_eq_ok.mp h
    cases h
    simp [ih hr]

theorem bind_congr' {α β : Type} {c : C α} {f g : α → C β} (h : ∀ a, c = ok a → f a = g a) : (c >>= f) = (c >>= g) := by
  cases c with
  | ok a => exact h a rfl
  | ub f => rfl

theorem write_file_room (d : Take) (fs : FS) (filename : Str) (ptr : Buf) (off : Nat) (size : Int) (h : size ≤ d.room) :
    ((write_file d fs filename ptr off size) >>= fun x => ok x.1) = Wayuu.write_file fs filename ptr off size := by
  unfold Wayuu.write_file write_file
  cases strAt ptr off with
  | ub f => rfl
  | ok s =>
    simp only [ok_bind]
    cases ho : (if is_file fs filename then fs.remove filename else fs).openWrite filename with
    | none => rfl
    | some p =>
      dsimp only
      by_cases hneg : size < 0
      · rw [if_pos hneg, if_pos hneg]
        rfl
      · rw [if_neg hneg, if_neg hneg]
        cases hb : readBytes ptr off size.toNat with
        | ub f => rfl
        | ok bs =>
          have := readBytes_len hb
          simp only [ok_bind]
          rw [List.take_of_length_le (by omega)]

theorem save_room (d : Take) (env : Env) (fs : FS) (tmpfields : Buf) (field : Str) (start_file : Nat) (tmpdata : Buf) (data_start : Nat)
    (actuallength : Int) (h : actuallength ≤ d.room) : save_tmp_file d env fs tmpfields field start_file tmpdata data_start actuallength =
      Wayuu.save_tmp_file env fs tmpfields field start_file tmpdata data_start actuallength := by
  unfold Wayuu.save_tmp_file save_tmp_file
  refine bind_congr' fun s _ => bind_congr' fun orig _ => bind_congr' fun orig _ => bind_congr' fun orig _ => ?_
  dsimp only
  refine bind_congr' fun md5 _ => bind_congr' fun md5 _ => bind_congr' fun f _ => bind_congr' fun p _ => ?_
  rw [← write_file_room d _ _ _ _ _ (by omega)]
  generalize write_file d _ _ _ _ _ = c
  cases c with
  | ub f => rfl
  | ok x => obtain ⟨x, ms⟩ := x; rfl

theorem part_room (d : Take) (env : Env) (fs : FS) (tmpfields tmpdata : Buf) (length : Int) (h : length ≤ d.room) :
    part_parse d env fs tmpfields tmpdata length = Wayuu.part_parse env fs tmpfields tmpdata length := by
  unfold Wayuu.part_parse part_parse
  simp only [save_room d env fs _ _ _ _ _ length h]

theorem loop_room (d : Nat → Take) (env : Env) (form : Buf) (boundary : Str) (cl n : Nat) (h : ∀ i, form.length ≤ (d i).room) :
    ∀ (ptr : Nat) (tmppart tmpfields : Buf) (fs : FS),
    partsLoop d env form boundary cl n ptr tmppart tmpfields fs = Wayuu.partsLoop env form boundary cl n ptr tmppart tmpfields fs := by
  induction n with
  | zero => intro ptr tmppart tmpfields fs; rfl
  | succ n ih =>
    intro ptr tmppart tmpfields fs
    unfold Wayuu.partsLoop partsLoop
    split
    · rfl
    refine bind_congr' fun ps _ => ?_
    split
    · rfl
    refine bind_congr' fun pe _ => ?_
    split
    · rfl
    dsimp only
    refine bind_congr' fun tp htp => ?_
    have hl := Steps.memcpyI_length htp
    rw [part_room (d n) env fs _ _ _ (by have := h n; omega)]
    refine bind_congr' fun x _ => ?_
    obtain ⟨x1, x2⟩ := x
    exact bind_congr' fun tp _ => ih _ _ _ _

/-! ### the property -/

/-- C161 in full: if not all of a file gets to the disk `write_file` leaves a message of an error, and if not all of the settings do
`write_conf` does not return 0. -/
def C161_statement : Prop :=
  (∀ (d : Take) (fs fs' : FS) (filename : Str) (ptr : Buf) (off : Nat) (size : Int) (data : List Byte) (ms : List Msg),
    d.ret ≤ d.room → readBytes ptr off size.toNat = ok data → write_file d fs filename ptr off size = ok (fs', ms) →
    fs'.lookup filename = some (.file data) ∨ ∃ m ∈ ms, 3 ≤ m.level) ∧
  ∀ (d : Take) (fs fs' : FS) (s : Serializable) (text : Str), confText s.items = ok text → write_conf d fs s = ok (0, fs') →
    fs'.lookup s.path.s = some (.file text)

/-- C161 is false: a full disk, to which three bytes are to be written. -/
theorem C161_refuted : ¬ C161_statement := by
  intro h
  obtain ⟨fs', hw, hn⟩ : ∃ fs', write_file ⟨0, 0⟩ uploadFs b!"/f" (b!"abc".map some ++ [some 0]) 0 3 = ok (fs', [⟨1, b!"write_file(filename=/f)"⟩]) ∧
      fs'.lookup b!"/f" = some (.file []) := ⟨uploadFs.update [b!"f"] (some (.file [])), rfl, by decide⟩
  rcases h.1 ⟨0, 0⟩ uploadFs fs' b!"/f" _ 0 3 b!"abc" _ (Nat.le_refl 0) rfl hw with h | ⟨m, hm, h⟩
  · rw [hn] at h
    revert h
    decide
  · revert m
    decide

/-- C161, what holds: with room for the bytes everything is as on a disk without limit, of which C12, C19, C59 and others speak. Missing:
what happens otherwise (`C161_silent`, `C161_form`, `C161_settings`: nothing is noticed). -/
theorem C161_partial (d : Take) (fs : FS) :
    (∀ filename ptr off (size : Int), size ≤ d.room →
      (write_file d fs filename ptr off size >>= fun x => ok x.1) = Wayuu.write_file fs filename ptr off size) ∧
    (∀ (s : Serializable) text, confText s.items = ok text → text.length ≤ d.room → write_conf d fs s = Wayuu.write_conf fs s) ∧
    ∀ (ds : Nat → Take) env form boundary n, (∀ i, form.length ≤ (ds i).room) →
      multipart_parse ds env fs form boundary n = Wayuu.multipart_parse env fs form boundary n := by
  refine ⟨fun filename ptr off size h => write_file_room d fs filename ptr off size h, fun s text ht h => ?_, fun ds env form boundary n h => ?_⟩
  · unfold write_conf Wayuu.write_conf
    cases ho : fs.openWrite s.path.s with
    | none => rfl
    | some p =>
      dsimp only
      rw [ht]
      simp only [ok_bind]
      rw [List.take_of_length_le h]
  · unfold multipart_parse Wayuu.multipart_parse
    rw [loop_room ds env form boundary n (n + 1) h]

/-- C161, files: whatever the disk takes of it, the messages are the same, and none of them tells of an error; the file has the bytes that
the disk took. -/
theorem C161_silent (d : Take) (fs : FS) (filename : Str) (pre post : Buf) (data : List Byte) (p : List Str)
    (hz : (strAt (pre ++ (data.map some ++ post)) pre.length).IsOk) (hp : fs.openWrite filename = some p) :
    ∃ fs', write_file d fs filename (pre ++ (data.map some ++ post)) pre.length data.length =
        ok (fs', [⟨1, b!"write_file(filename=" ++ filename ++ b!")"⟩]) ∧
      fs'.lookup filename = some (.file (data.take d.room)) ∧ ∀ q, q ≠ p → fs'.nodeAt q = fs.nodeAt q := by
  obtain ⟨s, hs⟩ := hz
  obtain ⟨h1, h2, h3, h4⟩ := FS.openWrite_some hp
  have hrem : (if is_file fs filename then fs.remove filename else fs) = fs ∨
      (if is_file fs filename then fs.remove filename else fs) = fs.update p none := by
    by_cases hf : is_file fs filename = true
    · right
      rw [if_pos hf]
      unfold FS.remove
      rw [h1]
      simp [h3, h4]
    · left
      rw [if_neg hf]
  refine ⟨fs.update p (some (.file (data.take d.room))), ?_, ?_, fun q hq => ?_⟩
  · unfold write_file
    rw [hs]
    simp only [ok_bind]
    rcases hrem with e | e
    · rw [e, hp]
      simp only [Int.toNat_natCast]
      rw [if_neg (by omega), readBytes_eq]
      rfl
    · rw [e]
      have : (fs.update p none).openWrite filename = some p := by
        unfold FS.openWrite
        rw [FS.resolve_update h2 h3 (by simp), h1]
        simp only
        rw [FS.nodeAt_update h2, if_pos rfl]
        simp [FS.update, h4]
      rw [this]
      simp only [Int.toNat_natCast]
      rw [if_neg (by omega), readBytes_eq]
      simp only [ok_bind]
      rw [FS.update_update]
      rfl
  · unfold FS.lookup
    rw [FS.resolve_update h2 h3 (by simp), h1]
    show FS.nodeAt _ p = _
    rw [FS.nodeAt_update h2, if_pos rfl]
  · rw [FS.nodeAt_update h2, if_neg hq]

example : ∃ fs', write_file ⟨2, 3⟩ (oneFile b!"old") b!"/f" (strdup b!"abc") 0 3 = ok (fs', [⟨1, b!"write_file(filename=/f)"⟩]) ∧
    fs'.lookup b!"/f" = some (.file b!"ab") := by
  obtain ⟨fs', h1, h2, -⟩ := C161_silent ⟨2, 3⟩ (oneFile b!"old") b!"/f" [] [some 0] b!"abc" [b!"f"] ⟨b!"abc", by decide⟩ (by decide)
  exact ⟨fs', h1, h2⟩

/-- C161, uploads: whatever the body is and whatever the disk takes of the files in it, the handler is told the same as with a disk that
takes all of them, and the tree has the same names, with files cut short; if it is undefined for the one disk it is for the other. -/
theorem C161_form (d : Nat → Take) (env : Env) (fs : FS) (form : Buf) (boundary : Str) (n : Nat) :
    (∀ f, Wayuu.multipart_parse env fs form boundary n = ub f ↔ multipart_parse d env fs form boundary n = ub f) ∧
    (∀ form1 fs1, Wayuu.multipart_parse env fs form boundary n = ok (form1, fs1) →
      ∃ fs2, multipart_parse d env fs form boundary n = ok (form1, fs2) ∧
        ∀ path, (fs1.lookup path = none ↔ fs2.lookup path = none) ∧ (fs1.lookup path = some .dir ↔ fs2.lookup path = some .dir) ∧
          ∀ x, fs1.lookup path = some (.file x) → ∃ y, fs2.lookup path = some (.file y) ∧ y <+: x) := by
  have h : Sim Told (Wayuu.multipart_parse env fs form boundary n) (multipart_parse d env fs form boundary n) := by
    unfold Wayuu.multipart_parse multipart_parse
    refine Sim.bind (sim_loop d env form boundary n (n + 1) 0 _ _ fs fs (Alike.refl fs)) fun x y hxy => ?_
    obtain ⟨x1, x2⟩ := x
    obtain ⟨y1, y2⟩ := y
    obtain ⟨rfl, h2⟩ := hxy
    exact Sim.same fun t _ => Sim.same fun f _ => .ok ⟨rfl, h2⟩
  constructor
  · intro f
    generalize Wayuu.multipart_parse env fs form boundary n = c1 at h
    generalize multipart_parse d env fs form boundary n = c2 at h
    cases h with
    | ok h => constructor <;> (intro h; cases h)
    | ub g => exact Iff.rfl
  · intro form1 fs1 e
    rw [e] at h
    cases hd : multipart_parse d env fs form boundary n with
    | ub f => rw [hd] at h; cases h
    | ok y =>
      obtain ⟨y1, y2⟩ := y
      rw [hd] at h
      cases h with
      | ok h =>
        obtain ⟨rfl, h2⟩ := h
        refine ⟨y2, rfl, fun path => ⟨?_, ?_, (h2.look path).part⟩⟩
        · rw [kind_none, kind_none, h2.lookup]
        · rw [kind_dir, kind_dir, h2.lookup]

/-- An upload of three bytes of which the disk takes one. -/
example : ∃ form fs', multipart_parse (fun _ => ⟨1, 3⟩) (uploadEnv 16) uploadFs ((uploadBody b!"me.png" [1, 0, 2]).map some ++ [some 0]) b!"--xY"
      (uploadBody b!"me.png" [1, 0, 2]).length = ok (form, fs') ∧
    cstr form = ok (b!"pic=me.png&tmpfile=" ++ tmpName (uploadEnv 16) [1, 0, 2]) ∧
    fs'.lookup (b!"/tmp/wayuu/" ++ tmpName (uploadEnv 16) [1, 0, 2]) = some (.file [1]) := by
  have e : (multipart_parse (fun _ => ⟨1, 3⟩) (uploadEnv 16) uploadFs ((uploadBody b!"me.png" [1, 0, 2]).map some ++ [some 0]) b!"--xY"
      (uploadBody b!"me.png" [1, 0, 2]).length).bind (fun x => ok (cstr x.1, x.2.lookup (b!"/tmp/wayuu/" ++ tmpName (uploadEnv 16) [1, 0, 2]))) =
      ok (ok (b!"pic=me.png&tmpfile=" ++ tmpName (uploadEnv 16) [1, 0, 2]), some (.file [1])) := by decide +kernel
  obtain ⟨⟨form, fs'⟩, h1, h2⟩ := bind_eq_ok.mp e
  simp only [C.ok.injEq, Prod.mk.injEq] at h2
  exact ⟨form, fs', h1, h2.1, h2.2⟩

/-- C161, settings: `write_conf` returns 0 whatever the disk takes, and what is read back is a first part of the settings, of which the last
may have a shorter value. It is noticed only if the cut falls into a key, when they are read. For every number of settings there is a disk that takes
just these. -/
theorem C161_settings (fs : FS) (path : Str) (items : List ConfItem) (flags : KeyFlags) (p : List Str)
    (hopen : fs.openWrite path = some p) (hread : fs.canRead p = true) (hpath : path.length ≤ 86)
    (hitems : ∀ it ∈ items, CleanItem it.key.s it.value.s it.multi ∧ it.Owned ∧ it.key.s.length + it.value.s.length + 1 ≤ 510 ∧
      ∃ f, flags.find? (fun f => f.1 = it.key.s) = some f ∧ f.2 = decide (it.multi ≠ [])) :
    (∀ d : Take, ∃ fs' calls good, write_conf d fs ⟨⟨true, path⟩, items⟩ = ok (0, fs') ∧ parse fs' path flags = ok (if good then 0 else -1, calls) ∧
      CutShort (items.map (fun it => (it.key.s, it.value.s, it.multi))) (calls.map (fun it => (it.key.s, it.value.s, it.multi))) good) ∧
    ∀ j, ∃ (d : Take) (fs' : FS) (calls : List ConfItem), write_conf d fs ⟨⟨true, path⟩, items⟩ = ok (0, fs') ∧ parse fs' path flags = ok (0, calls) ∧
      calls.map (fun it => (it.key.s, it.value.s, it.multi)) = (items.take j).map (fun it => (it.key.s, it.value.s, it.multi)) := by
  have hitems' : ∀ it ∈ items, CleanItem it.key.s it.value.s it.multi ∧ it.key.s.length + it.value.s.length + 1 ≤ 510 ∧
      ∃ f, flags.find? (fun f => f.1 = it.key.s) = some f ∧ f.2 = decide (it.multi ≠ []) :=
    fun it hit => ⟨(hitems it hit).1, (hitems it hit).2.2⟩
  obtain ⟨-, ht, -⟩ := confText_file flags items hitems'
  have hfree : free_serializable ⟨⟨true, path⟩, items⟩ = ok () := by
    simp only [free_serializable, freeStr, if_true]
    rw [freeItems_owned items (fun it hit => (hitems it hit).2.1)]
    rfl
  have hw : ∀ d : Take, write_conf d fs ⟨⟨true, path⟩, items⟩ = ok (0, fs.update p (some (.file ((textOf items).take d.room)))) := by
    intro d
    unfold write_conf
    simp only [hopen]
    rw [ht]
    simp only [ok_bind]
    rw [hfree]
    rfl
  constructor
  · intro d
    obtain ⟨es, good, a, b, c⟩ := cut_file flags items hitems' d.room
    obtain ⟨calls, h1, h2⟩ := C20_partial _ path _ flags es good (FS.openRead_written hopen hread _) a hpath c
    exact ⟨_, calls, good, hw d, h1, by rw [h2]; exact b⟩
  · intro j
    obtain ⟨es, -, a, b, c⟩ := confText_file flags (items.take j) (fun it hit => hitems' it (List.mem_of_mem_take hit))
    obtain ⟨calls, h1, h2⟩ := C20_partial _ path _ flags es true (FS.openRead_written hopen hread _) a hpath c
    have e2 : (textOf items).take (textOf (items.take j)).length = textOf (items.take j) := by
      have : textOf items = textOf (items.take j) ++ textOf (items.drop j) := by
        unfold textOf
        rw [← List.flatMap_append, List.take_append_drop]
      rw [this, List.take_left]
    refine ⟨⟨(textOf (items.take j)).length, 0⟩, _, calls, hw _, ?_, by rw [h2, b]⟩
    rw [e2]
    exact h1

theorem newItems_owned : ∀ it ∈ newItems, it.Owned := by
  intro it hit
  simp only [newItems, List.mem_cons, List.not_mem_nil, or_false] at hit
  rcases hit with rfl | rfl <;> exact ⟨fun _ => rfl, fun _ => rfl⟩

/-- Of two settings the disk takes one. -/
example : ∃ d fs' calls, write_conf d savedFs ⟨⟨true, b!"/f"⟩, newItems⟩ = ok (0, fs') ∧ parse fs' b!"/f" savedFlags = ok (0, calls) ∧
    calls.map (fun it => (it.key.s, it.value.s, it.multi)) = [(b!"a", b!"3", [])] :=
  (C161_settings savedFs b!"/f" newItems savedFlags [b!"f"] (by decide) rfl (by decide)
    (fun it hit => ⟨(newItems_clean it hit).1, newItems_owned it hit, (newItems_clean it hit).2⟩)).2 1
/-- Room for both. -/
example : write_conf ⟨8, 0⟩ savedFs ⟨⟨true, b!"/f"⟩, newItems⟩ = Wayuu.write_conf savedFs ⟨⟨true, b!"/f"⟩, newItems⟩ :=
  (C161_partial ⟨8, 0⟩ savedFs).2.1 _ b!"a=3\nb=4\n" (by decide) (by decide)

end Wayuu.Disk
