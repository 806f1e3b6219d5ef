import Verif.Model.Fs
import Verif.Model.StringUtils
/-
Model of /repo/file_utils.c.
-/
namespace Wayuu
open C

/-- file_utils.c:54-62 `is_dir`. -/
def is_dir (fs : FS) (path : Str) : Bool :=
  match fs.lookup path with
  | some .dir => true
  | _ => false

/-- file_utils.c:64-71 `is_file`. -/
def is_file (fs : FS) (path : Str) : Bool :=
  match fs.lookup path with
  | some (.file _) => true
  | _ => false

/-- file_utils.c:45-52 `check_createdir`. -/
def check_createdir (fs : FS) (path : Str) : Bool × FS :=
  if is_dir fs path then (true, fs) else
  match fs.mkdir path with
  | some fs' => (true, fs')
  | none => (false, fs)

/-- file_utils.c:73-105 `read_file(out, path, maxlen)`. -/
def read_file (fs : FS) (out : Buf) (path : Str) (maxlen : Nat) : C Buf := do
  let out ← out.store 0 0
  if !is_file fs path then ok out else
  match fs.openRead path with
  | none => ok out
  | some content => do
    let length := content.length
    let length := if 0 < maxlen then (if maxlen - 1 < length then maxlen - 1 else length) else length
    let out ← writeAt out 0 (content.take length)
    out.store length 0

/-- file_utils.c:25-43 `find_in_file`. -/
def find_in_file (fs : FS) (path needle : Str) : C Bool :=
  if !is_file fs path then ok false else do
  let haystack ← read_file fs (calloc 8192) path 0
  let h ← cstr haystack
  ok (strstr h needle).isSome

/-- file_utils.c:107-126 `write_file(filename, ptr + off, size)`. `strlen(ptr)` is evaluated as an
argument of `log_debug`. A negative `size` becomes a huge `size_t`. -/
def write_file (fs : FS) (filename : Str) (ptr : Buf) (off : Nat) (size : Int) : C FS := do
  let _ ← strAt ptr off
  let fs := if is_file fs filename then fs.remove filename else fs
  match fs.openWrite filename with
  | none => ok fs
  | some p =>
    if size < 0 then ub .oob else do
    let bytes ← readBytes ptr off size.toNat
    ok (fs.update p (some (.file bytes)))

end Wayuu
