import Verif.Model.Messages
import Verif.Model.ConfParser
/-
Writing to a disk that may be full: the functions of file_utils.c, ws.c and conf_parser.c that write files, where the disk takes the first
`room` bytes of what a file is to contain. stdio hands the bytes over in pieces, of which the last goes at `fclose`, so what `fwrite`
returns (`ret`) need not be what gets to the disk; the results of `fprintf` and `fclose` are not looked at in the code.
-/
namespace Wayuu.Disk
open Wayuu C

/-- What the disk takes of a file, and what `fwrite` returns. -/
structure Take where
  room : Nat
  ret : Nat
deriving DecidableEq, Repr

/-- file_utils.c:107-126 `write_file(filename, ptr + off, size)` and its messages. `written` (line 120) has an unsigned type. -/
def write_file (d : Take) (fs : FS) (filename : Str) (ptr : Buf) (off : Nat) (size : Int) : C (FS × List Msg) := do
  let _ ← strAt ptr off
  let first := ⟨1, b!"write_file(filename=" ++ filename ++ b!")"⟩
  let fs := if is_file fs filename then fs.remove filename else fs
  match fs.openWrite filename with
  | none => ok (fs, [first, ⟨4, b!"There was an error opening file: " ++ filename⟩])
  | some p =>
    if size < 0 then ub .oob else do
    let bytes ← readBytes ptr off size.toNat
    let written : Nat := d.ret
    let ms := if written < 0 then [first, ⟨4, b!"There was an error writing file: " ++ filename⟩] else [first]
    ok (fs.update p (some (.file (bytes.take d.room))), ms)

/-- conf_parser.c:250-270 `write_conf`. -/
def write_conf (d : Take) (fs : FS) (s : Serializable) : C (Int × FS) :=
  match fs.openWrite s.path.s with
  | none => do
    let _ ← fmtInto 120 (b!"Unable to open file " ++ s.path.s ++ b!" for writing")
    ok (-1, fs)
  | some p => do
    let text ← confText s.items
    free_serializable s
    ok (0, fs.update p (some (.file (text.take d.room))))

/-- ws.c:216-242 `save_tmp_file`; returns `tmpfields` and the file system. -/
def save_tmp_file (d : Take) (env : Env) (fs : FS) (tmpfields : Buf) (field : Str) (start_file : Nat)
    (tmpdata : Buf) (data_start : Nat) (actuallength : Int) : C (Buf × FS) := do
  let s ← strAt tmpdata start_file
  let orig ← strncpyAt (malloc MAX_ORIG_FILENAME) 0 s MAX_ORIG_FILENAME
  let orig ← orig.store (MAX_ORIG_FILENAME - 1) 0
  let orig ← chop_string orig
  let fs := if !is_dir fs FILE_DOWNLOAD_TMP_DIR then (check_createdir fs FILE_DOWNLOAD_TMP_DIR).2 else fs
  let md5 ← md5sum env.digest env.evpMax (malloc 36) tmpdata data_start (actuallength - data_start - 2)
  let md5 ← cstr md5
  let tmpfile ← fmtInto 256 (env.tid ++ b!"-" ++ md5)
  let tmpfilepath ← fmtInto (FILE_DOWNLOAD_TMP_DIR.length + 264) (FILE_DOWNLOAD_TMP_DIR ++ b!"/" ++ tmpfile)
  let (fs, _) ← write_file d fs tmpfilepath tmpdata data_start (actuallength - data_start - 2)
  let orig ← cstr orig
  let tmpfields ← appendStr tmpfields (field ++ b!"=" ++ orig ++ b!"&tmpfile=" ++ tmpfile)
  ok (tmpfields, fs)

/-- ws.c:165-210 `part_parse`; returns `tmpfields` and the file system. -/
def part_parse (d : Take) (env : Env) (fs : FS) (tmpfields tmpdata : Buf) (length : Int) : C (Buf × FS) := do
  let text ← cstr tmpdata
  let start ← text_find_after tmpdata b!"form-data; name=\"" 0 text.length
  if start < 1 then ok (tmpfields, fs) else do
  let tail ← strAt tmpdata start.toNat
  if tail.length = 0 then ok (tmpfields, fs) else do
  if length + 1 < 0 then ub .oob else do
  let field := calloc (length + 1).toNat
  let bytes := length - start
  let field ← memcpyI field tmpdata start.toNat bytes
  let field ← field.storeI bytes 0
  let field ← chop_string field
  let data_start ← text_find_after tmpdata b!"\r\n\r\n" 0 length.toNat
  let f ← cstr tmpfields
  let tmpfields ← if 0 < f.length then appendStr tmpfields b!"&" else ok tmpfields
  let start_file ← text_find_after tmpdata b!"; filename=\"" 0 text.length
  if 0 < data_start then
    if 0 < start_file then do
      let field ← cstr field
      save_tmp_file d env fs tmpfields field start_file.toNat tmpdata data_start.toNat length
    else do
      let value ← memcpyI (calloc (length + 1).toNat) tmpdata data_start.toNat (length - data_start - 2)
      let field ← cstr field
      let value ← cstr value
      let tmpfields ← appendStr tmpfields (field ++ b!"=" ++ value)
      ok (tmpfields, fs)
  else ok (tmpfields, fs)

/-- ws.c:254-271, the loop of `multipart_parse`; `d` says what the disk takes in each round. -/
def partsLoop (d : Nat → Take) (env : Env) (form : Buf) (boundary : Str) (content_length : Nat) :
    Nat → Nat → Buf → Buf → FS → C (Buf × FS)
  | 0, _, _, tmpfields, fs => ok (tmpfields, fs)
  | n + 1, ptr, tmppart, tmpfields, fs =>
    if content_length ≤ ptr then ok (tmpfields, fs) else do
    let part_start ← text_find_after form boundary ptr content_length
    if part_start < 0 then ok (tmpfields, fs) else do
    let part_end ← text_find_after form boundary part_start.toNat content_length
    if part_end < 0 then ok (tmpfields, fs) else do
    let tmppart_len := part_end - part_start - boundary.length
    let tmppart ← memcpyI tmppart form part_start.toNat tmppart_len
    let (tmpfields, fs) ← part_parse (d n) env fs tmpfields tmppart tmppart_len
    let tmppart ← trim tmppart
    partsLoop d env form boundary content_length n (part_start.toNat + 1) tmppart tmpfields fs

/-- ws.c:244-277 `multipart_parse`; returns `form` and the file system. -/
def multipart_parse (d : Nat → Take) (env : Env) (fs : FS) (form : Buf) (boundary : Str) (content_length : Nat) :
    C (Buf × FS) := do
  let (tmpfields, fs) ← partsLoop d env form boundary content_length (content_length + 1) 0
    (calloc (content_length + 1)) (calloc (content_length + 1)) fs
  let t ← cstr tmpfields
  let form ← strcpyAt form 0 t
  ok (form, fs)

end Wayuu.Disk
