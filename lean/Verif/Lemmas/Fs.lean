import Verif.Model.Fs
import Verif.Lemmas.Buf
/-
Lemmas about the file system environment.
-/
namespace Wayuu
namespace FS

theorem nodeAt_update {fs : FS} {p q : List Str} {n : Option Node} (hp : p ≠ []) :
    (fs.update p n).nodeAt q = if q = p then n else fs.nodeAt q := by
  unfold nodeAt update
  by_cases hq : q = []
  · subst hq
    have : ¬ ([] : List Str) = p := fun e => hp e.symm
    simp [this]
  · simp [hq]

theorem walk_update {fs : FS} {p : List Str} {n : Option Node} (hp : p ≠ []) (h1 : fs.nodeAt p ≠ some .dir)
    (h2 : n ≠ some .dir) (cur : List Str) (cs : List Str) :
    (fs.update p n).walk cur cs = fs.walk cur cs := by
  induction cs generalizing cur with
  | nil => rfl
  | cons c cs ih =>
    have hd : ((fs.update p n).nodeAt cur ≠ some .dir) = (fs.nodeAt cur ≠ some .dir) := by
      rw [nodeAt_update hp]
      by_cases hc : cur = p
      · subst hc; simp [h1, h2]
      · simp [hc]
    simp only [walk, hd, ih]

theorem resolve_update {fs : FS} {p : List Str} {n : Option Node} (hp : p ≠ []) (h1 : fs.nodeAt p ≠ some .dir)
    (h2 : n ≠ some .dir) (path : Str) : (fs.update p n).resolve path = fs.resolve path := by
  simp only [resolve, walk_update hp h1 h2]

theorem openWrite_some {fs : FS} {path : Str} {p : List Str} (h : fs.openWrite path = some p) :
    fs.resolve path = some p ∧ p ≠ [] ∧ fs.nodeAt p ≠ some .dir ∧ fs.canWrite p = true := by
  unfold openWrite at h
  cases hr : fs.resolve path with
  | none => simp [hr] at h
  | some q =>
    simp only [hr] at h
    split at h
    · rename_i hc
      simp only [Option.some.injEq] at h
      subst h
      refine ⟨rfl, ?_, hc.1, by simpa using hc.2⟩
      rintro rfl
      exact hc.1 (by simp [nodeAt])
    · simp at h

/-- Reading back a file just written. -/
theorem fopenRead_of_openRead {fs : FS} {path : Str} {c : List Byte} (h : fs.openRead path = some c) :
    fs.fopenRead path = some c := by
  unfold openRead at h
  unfold fopenRead
  cases hr : fs.resolve path with
  | none => simp [hr] at h
  | some p =>
    simp only [hr] at h ⊢
    cases hn : fs.nodeAt p with
    | none => simp [hn] at h
    | some n => cases n <;> simp_all

theorem fopenRead_none {fs : FS} {path : Str} (h : fs.openRead path = none)
    (hd : ∀ p, fs.resolve path = some p → fs.nodeAt p = some .dir → fs.canRead p = false) : fs.fopenRead path = none := by
  unfold openRead at h
  unfold fopenRead
  cases hr : fs.resolve path with
  | none => rfl
  | some p =>
    simp only [hr] at h ⊢
    cases hn : fs.nodeAt p with
    | none => rfl
    | some n =>
      cases n with
      | file c => simpa [hn] using h
      | dir => simp [hd p hr hn]

theorem fopenRead_dir {fs : FS} {path : Str} {p : List Str} (h : fs.resolve path = some p) (hd : fs.nodeAt p = some .dir)
    (hc : fs.canRead p = true) : fs.fopenRead path = some [] := by
  simp [fopenRead, h, hd, hc]

theorem openRead_written {fs : FS} {path : Str} {p : List Str} (h : fs.openWrite path = some p)
    (hr : fs.canRead p = true) (content : List Byte) :
    (fs.update p (some (.file content))).openRead path = some content := by
  obtain ⟨h1, h2, h3, _⟩ := openWrite_some h
  unfold openRead
  rw [resolve_update h2 h3 (by simp), h1]
  simp only
  rw [nodeAt_update h2]
  simp [update, hr]

/-- Other files are unaffected. -/
theorem openRead_other {fs : FS} {path path2 : Str} {p : List Str} (h : fs.openWrite path = some p)
    (content : List Byte) (hne : fs.resolve path2 ≠ some p) :
    (fs.update p (some (.file content))).openRead path2 = fs.openRead path2 := by
  obtain ⟨h1, h2, h3, _⟩ := openWrite_some h
  unfold openRead
  rw [resolve_update h2 h3 (by simp)]
  cases hr : fs.resolve path2 with
  | none => rfl
  | some q =>
    have : q ≠ p := fun e => hne (by rw [hr, e])
    simp only
    rw [nodeAt_update h2, if_neg this]
    rfl

end FS
end Wayuu
