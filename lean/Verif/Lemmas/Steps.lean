import Verif.Model.Steps
/-
The counted functions compute what the others do; counting.
-/
namespace Wayuu.Steps
open C

theorem erase_pure {α : Type} (a : α) : erase (pure a : T α) = ok a := rfl
theorem erase_tick (n : Nat) : erase (tick n) = ok () := rfl
theorem erase_lift {α : Type} (x : C α) : erase (lift x) = x := by cases x <;> rfl
theorem erase_bind {α β : Type} (x : T α) (f : α → T β) : erase (x >>= f) = erase x >>= (fun a => erase (f a)) := by
  show C.bind (C.bind x _) _ = C.bind (C.bind x _) _
  cases x with
  | ub e => rfl
  | ok p =>
    show C.bind (C.bind (f p.1) _) _ = C.bind (f p.1) _
    cases f p.1 <;> rfl
theorem erase_ite {α : Type} (p : Prop) [Decidable p] (x y : T α) : erase (if p then x else y) = if p then erase x else erase y := by
  split <;> rfl

theorem ok_unit_bind {α : Type} (f : Unit → C α) : (ok () >>= f) = f () := rfl

/-- Simplification of an erased program. -/
macro "erased" : tactic => `(tactic| simp only [erase_pure, erase_tick, erase_lift, erase_bind, erase_ite, ok_bind, ub_bind, pure_eq])

theorem erase_strlen (b : Buf) : erase (strlen b) = cstr b := by
  unfold strlen
  erased
  cases cstr b <;> rfl

theorem erase_strlenAt (b : Buf) (i : Nat) : erase (strlenAt b i) = strAt b i := by
  unfold strlenAt
  erased
  cases strAt b i <;> rfl

theorem erase_zeroed (n : Nat) : erase (zeroed n) = ok (calloc n) := rfl

theorem erase_memcpyI (d s : Buf) (o : Nat) (n : Int) : erase (memcpyI d s o n) = Wayuu.memcpyI d s o n := by
  unfold memcpyI
  erased
  cases Wayuu.memcpyI d s o n <;> rfl

theorem erase_appendStr (d : Buf) (s : Str) : erase (appendStr d s) = Wayuu.appendStr d s := by
  unfold appendStr Wayuu.appendStr strcat
  erased
  rw [erase_strlen]

theorem erase_chopLoop (b : Buf) : ∀ n i, erase (chopLoop b n i) = Wayuu.chopLoop b n i
  | 0, _ => rfl
  | n + 1, i => by
    unfold chopLoop Wayuu.chopLoop
    erased
    simp only [erase_chopLoop b n]

theorem erase_chop_string (b : Buf) : erase (chop_string b) = Wayuu.chop_string b := by
  unfold chop_string Wayuu.chop_string
  erased
  simp only [erase_strlen, erase_chopLoop]

theorem erase_trimLeftScan (b : Buf) : ∀ n i, erase (trimLeftScan b n i) = Wayuu.trimLeftScan b n i
  | 0, _ => rfl
  | n + 1, i => by
    unfold trimLeftScan Wayuu.trimLeftScan
    erased
    simp only [erase_trimLeftScan b n]

theorem erase_trimRightScan (b : Buf) : ∀ n, erase (trimRightScan b n) = Wayuu.trimRightScan b n
  | 0 => rfl
  | n + 1 => by
    unfold trimRightScan Wayuu.trimRightScan
    erased
    simp only [erase_trimRightScan b n]

theorem erase_trimShift (b : Buf) (i : Nat) : erase (trimShift b i) = Wayuu.trimShift b i := by
  unfold trimShift Wayuu.trimShift
  erased
  simp only [erase_strlenAt]

theorem erase_trim (b : Buf) : erase (trim b) = Wayuu.trim b := by
  unfold trim Wayuu.trim
  erased
  simp only [erase_strlen, erase_trimLeftScan, erase_trimRightScan, erase_trimShift]

theorem erase_matchAt (b : Buf) : ∀ (s : Str) i, erase (matchAt b i s) = Wayuu.matchAt b i s
  | [], _ => rfl
  | c :: s, i => by
    unfold matchAt Wayuu.matchAt
    erased
    simp only [erase_matchAt b s]

theorem erase_findLoop (b : Buf) (s : Str) : ∀ n i, erase (findLoop b s n i) = Wayuu.findLoop b s n i
  | 0, _ => rfl
  | n + 1, i => by
    unfold findLoop Wayuu.findLoop
    erased
    simp only [erase_matchAt, erase_findLoop b s n]

theorem erase_find (b : Buf) (s : Str) (i n : Nat) : erase (text_find_after b s i n) = Wayuu.text_find_after b s i n :=
  erase_findLoop b s _ _

theorem erase_md5sum (d : List Byte → List Byte) (m : Nat) (o b : Buf) (i : Nat) (n : Int) :
    erase (md5sum d m o b i n) = Wayuu.md5sum d m o b i n := by
  unfold md5sum
  erased
  cases Wayuu.md5sum d m o b i n <;> rfl

theorem erase_write_file (fs : FS) (f : Str) (b : Buf) (i : Nat) (n : Int) : erase (write_file fs f b i n) = Wayuu.write_file fs f b i n := by
  unfold write_file
  erased
  unfold Wayuu.write_file
  cases strAt b i with
  | ub e => rfl
  | ok s =>
    simp only [ok_bind]
    exact bind_pure _

theorem erase_save (env : Env) (fs : FS) (t : Buf) (f : Str) (a : Nat) (d : Buf) (n : Nat) (l : Int) :
    erase (save_tmp_file env fs t f a d n l) = Wayuu.save_tmp_file env fs t f a d n l := by
  unfold save_tmp_file Wayuu.save_tmp_file
  erased
  simp only [erase_chop_string, erase_md5sum, erase_strlen, erase_write_file, erase_appendStr]

theorem erase_part_parse (env : Env) (fs : FS) (t d : Buf) (l : Int) :
    erase (part_parse env fs t d l) = Wayuu.part_parse env fs t d l := by
  unfold part_parse Wayuu.part_parse
  erased
  simp only [erase_strlen, erase_find, erase_strlenAt, erase_zeroed, erase_memcpyI, erase_chop_string, erase_appendStr, erase_save, ok_bind]

theorem erase_partsLoop (env : Env) (form : Buf) (boundary : Str) (len : Nat) : ∀ (n ptr : Nat) (p f : Buf) (fs : FS),
    erase (partsLoop env form boundary len n ptr p f fs) = Wayuu.partsLoop env form boundary len n ptr p f fs
  | 0, _, _, _, _ => rfl
  | n + 1, ptr, p, f, fs => by
    unfold partsLoop Wayuu.partsLoop
    erased
    simp only [erase_find, erase_memcpyI, erase_part_parse, erase_trim, erase_partsLoop env form boundary len n]

theorem erase_multipart (env : Env) (fs : FS) (form : Buf) (boundary : Str) (len : Nat) :
    erase (multipart_parse env fs form boundary len) = Wayuu.multipart_parse env fs form boundary len := by
  unfold multipart_parse Wayuu.multipart_parse
  erased
  simp only [erase_zeroed, erase_partsLoop, erase_strlen, ok_bind]

theorem erase_bodyLoop : ∀ (n : Nat) (inp : List Byte) (c : Byte) (form : Buf) (i : Nat),
    erase (bodyLoop n inp c form i) = Wayuu.bodyLoop n inp c form i
  | 0, _, _, _, _ => rfl
  | n + 1, inp, c, form, i => by
    unfold bodyLoop Wayuu.bodyLoop
    erased
    simp only [erase_bodyLoop n]
    cases inp <;> rfl

theorem erase_readForm (env : Env) (st : St) (n : Int) (boundary : Str) :
    erase (readForm env st n boundary) = Wayuu.readForm env st n boundary := by
  unfold readForm Wayuu.readForm
  erased
  simp only [erase_bodyLoop, erase_multipart]

theorem erase_dispatch (env : Env) (st : St) (url : Str) (n : Int) (boundary : Str) :
    erase (dispatch env st url n boundary) = Wayuu.dispatch env st url n boundary := by
  unfold dispatch Wayuu.dispatch handle_api_request Wayuu.handle_api_request
  erased
  simp only [erase_readForm]
  congr 1
  funext a
  split
  · split <;> rfl
  · rfl

theorem erase_accept (env : Env) (st : St) (socket : Nat) (peer : Str) :
    erase (accept_request env st socket peer) = Wayuu.accept_request env st socket peer := by
  unfold accept_request Wayuu.accept_request
  erased
  simp only [erase_dispatch]

end Wayuu.Steps
