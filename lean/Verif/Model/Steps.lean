import Verif.Model.Ws
/-
The work of taking in the body of a request: ws.c:165-308 and the functions of string_utils.c and file_utils.c it uses, with a counter.
Counted are the bytes that loops and library functions look at or write: reads from the connection, byte comparisons of
`text_find_after`, bytes passed by `strlen`, copied by `memcpy`, `memmove`, `strncpy`, `strcpy` and `sprintf`, cleared by `calloc`,
hashed and written to files. System calls, the arithmetic in between, the lengths of the strings searched for and the formatting of the
digest are not counted.
-/
namespace Wayuu.Steps
open C

/-- A run that counts: a result and a number of steps, or undefined behaviour. -/
def T (α : Type) : Type := C (α × Nat)

instance : Monad T where
  pure a := (ok (a, 0) : C _)
  bind x f := C.bind x (fun p => C.bind (f p.1) (fun q => ok (q.1, p.2 + q.2)))

/-- `n` steps. -/
def tick (n : Nat) : T Unit := ok ((), n)
/-- Something that is not counted. -/
def lift {α : Type} (x : C α) : T α := C.bind x (fun a => ok (a, 0))
/-- The result without the counter. -/
def erase {α : Type} (x : T α) : C α := C.bind x (fun p => ok p.1)

/-- `strlen` of the string at the beginning of a block; the string is returned. -/
def strlen (b : Buf) : T Str := do
  let s ← lift (cstr b)
  tick (s.length + 1)
  pure s

/-- `strlen(b + off)`. -/
def strlenAt (b : Buf) (off : Nat) : T Str := do
  let s ← lift (strAt b off)
  tick (s.length + 1)
  pure s

/-- `calloc(n, 1)`. -/
def zeroed (n : Nat) : T Buf := do
  tick n
  pure (calloc n)

/-- `memcpy(dst, src + soff, n)`, see `Wayuu.memcpyI`. -/
def memcpyI (dst : Buf) (src : Buf) (soff : Nat) (n : Int) : T Buf := do
  let b ← lift (Wayuu.memcpyI dst src soff n)
  tick n.toNat
  pure b

/-- `sprintf(dst + strlen(dst), "%s", s)`. -/
def appendStr (dst : Buf) (s : Str) : T Buf := do
  let d ← strlen dst
  tick (s.length + 1)
  lift (strcpyAt dst d.length s)

/-- string_utils.c:31-38, the loop of `chop_string`. -/
def chopLoop (b : Buf) : Nat → Nat → T Buf
  | 0, _ => pure b
  | n + 1, i => do
    let c ← lift (b.load i)
    tick 1
    if schar c ≤ 34 then lift (b.store i 0) else chopLoop b n (i + 1)

/-- string_utils.c:28-39 `chop_string`. -/
def chop_string (data : Buf) : T Buf := do
  let s ← strlen data
  chopLoop data s.length 0

/-- string_utils.c:47-49. -/
def trimLeftScan (b : Buf) : Nat → Nat → T Nat
  | 0, i => pure i
  | n + 1, i => do
    let c ← lift (b.load i)
    tick 1
    if isSpace c then trimLeftScan b n (i + 1) else pure i

/-- string_utils.c:56-58. -/
def trimRightScan (b : Buf) : Nat → T Nat
  | 0 => pure 0
  | n + 1 => do
    let c ← lift (b.load n)
    tick 1
    if isSpace c then trimRightScan b n else pure (n + 1)

/-- string_utils.c:50-54. -/
def trimShift (str : Buf) (i : Nat) : T Buf :=
  if i ≠ 0 then do
    let m := (← strlenAt str i).length
    tick m
    let str ← lift (copyCells str 0 str i m)
    let k := (← strlenAt str i).length
    lift (str.store k 0)
  else pure str

/-- string_utils.c:41-60 `trim`. -/
def trim (str : Buf) : T Buf := do
  let len := (← strlen str).length
  let i ← trimLeftScan str len 0
  let str ← trimShift str i
  let len := (← strlen str).length
  let e ← trimRightScan str len
  lift (str.store e 0)

/-- string_utils.c:269-276, the comparison loop of `text_find_after`. -/
def matchAt (hay : Buf) (i : Nat) : Str → T Bool
  | [] => pure true
  | c :: r => do
    let h ← lift (hay.load i)
    tick 1
    if h ≠ c then pure false else matchAt hay (i + 1) r

/-- string_utils.c:266-279, the outer loop. -/
def findLoop (hay : Buf) (needle : Str) : Nat → Nat → T Int
  | 0, _ => pure (-1)
  | n + 1, i => do
    let found ← matchAt hay i needle
    if found then pure ((i : Int) + needle.length) else findLoop hay needle n (i + 1)

/-- string_utils.c:262-282 `text_find_after`. -/
def text_find_after (hay : Buf) (needle : Str) (start bytes : Nat) : T Int :=
  findLoop hay needle (bytes - start) start

/-- string_utils.c:94-131 `md5sum`: the bytes hashed and the bytes copied to the caller. -/
def md5sum (digest : List Byte → List Byte) (evpMax : Nat) (out data : Buf) (off : Nat) (len : Int) : T Buf := do
  let b ← lift (Wayuu.md5sum digest evpMax out data off len)
  tick (len.toNat + evpMax * 2)
  pure b

/-- file_utils.c:107-126 `write_file`: the `strlen` for the message and the bytes written. -/
def write_file (fs : FS) (filename : Str) (ptr : Buf) (off : Nat) (size : Int) : T FS := do
  let s ← lift (strAt ptr off)
  let fs ← lift (Wayuu.write_file fs filename ptr off size)
  tick (s.length + 1 + size.toNat)
  pure fs

/-- ws.c:216-242 `save_tmp_file`. -/
def save_tmp_file (env : Env) (fs : FS) (tmpfields : Buf) (field : Str) (start_file : Nat)
    (tmpdata : Buf) (data_start : Nat) (actuallength : Int) : T (Buf × FS) := do
  let s ← lift (strAt tmpdata start_file)
  let orig ← lift (strncpyAt (malloc MAX_ORIG_FILENAME) 0 s MAX_ORIG_FILENAME)
  tick MAX_ORIG_FILENAME
  let orig ← lift (orig.store (MAX_ORIG_FILENAME - 1) 0)
  let orig ← chop_string orig
  let fs := if !is_dir fs FILE_DOWNLOAD_TMP_DIR then (check_createdir fs FILE_DOWNLOAD_TMP_DIR).2 else fs
  let md5 ← md5sum env.digest env.evpMax (malloc 36) tmpdata data_start (actuallength - data_start - 2)
  let md5 ← strlen md5
  let tmpfile ← lift (fmtInto 256 (env.tid ++ b!"-" ++ md5))
  tick (tmpfile.length + 1)
  let tmpfilepath ← lift (fmtInto (FILE_DOWNLOAD_TMP_DIR.length + 264) (FILE_DOWNLOAD_TMP_DIR ++ b!"/" ++ tmpfile))
  tick (tmpfilepath.length + 1)
  let fs ← write_file fs tmpfilepath tmpdata data_start (actuallength - data_start - 2)
  let orig ← lift (cstr orig)
  let tmpfields ← appendStr tmpfields (field ++ b!"=" ++ orig ++ b!"&tmpfile=" ++ tmpfile)
  pure (tmpfields, fs)

/-- ws.c:165-210 `part_parse`. -/
def part_parse (env : Env) (fs : FS) (tmpfields tmpdata : Buf) (length : Int) : T (Buf × FS) := do
  let text ← strlen tmpdata
  let start ← text_find_after tmpdata b!"form-data; name=\"" 0 text.length
  if start < 1 then pure (tmpfields, fs) else do
  let tail ← strlenAt tmpdata start.toNat
  if tail.length = 0 then pure (tmpfields, fs) else do
  if length + 1 < 0 then lift (ub .oob) else do
  let field ← zeroed (length + 1).toNat
  let bytes := length - start
  let field ← memcpyI field tmpdata start.toNat bytes
  let field ← lift (field.storeI bytes 0)
  let field ← chop_string field
  let data_start ← text_find_after tmpdata b!"\r\n\r\n" 0 length.toNat
  let f ← strlen tmpfields
  let tmpfields ← if 0 < f.length then appendStr tmpfields b!"&" else pure tmpfields
  tick (text.length + 1)
  let start_file ← text_find_after tmpdata b!"; filename=\"" 0 text.length
  if 0 < data_start then
    if 0 < start_file then do
      let field ← lift (cstr field)
      save_tmp_file env fs tmpfields field start_file.toNat tmpdata data_start.toNat length
    else do
      let value ← zeroed (length + 1).toNat
      let value ← memcpyI value tmpdata data_start.toNat (length - data_start - 2)
      let field ← lift (cstr field)
      let value ← lift (cstr value)
      let tmpfields ← appendStr tmpfields (field ++ b!"=" ++ value)
      pure (tmpfields, fs)
  else pure (tmpfields, fs)

/-- ws.c:254-271, the loop of `multipart_parse`. -/
def partsLoop (env : Env) (form : Buf) (boundary : Str) (content_length : Nat) :
    Nat → Nat → Buf → Buf → FS → T (Buf × FS)
  | 0, _, _, tmpfields, fs => pure (tmpfields, fs)
  | n + 1, ptr, tmppart, tmpfields, fs =>
    if content_length ≤ ptr then pure (tmpfields, fs) else do
    let part_start ← text_find_after form boundary ptr content_length
    if part_start < 0 then pure (tmpfields, fs) else do
    let part_end ← text_find_after form boundary part_start.toNat content_length
    if part_end < 0 then pure (tmpfields, fs) else do
    tick (boundary.length + 1)
    let tmppart_len := part_end - part_start - boundary.length
    let tmppart ← memcpyI tmppart form part_start.toNat tmppart_len
    let (tmpfields, fs) ← part_parse env fs tmpfields tmppart tmppart_len
    let tmppart ← trim tmppart
    partsLoop env form boundary content_length n (part_start.toNat + 1) tmppart tmpfields fs

/-- ws.c:244-277 `multipart_parse`. -/
def multipart_parse (env : Env) (fs : FS) (form : Buf) (boundary : Str) (content_length : Nat) :
    T (Buf × FS) := do
  let tmppart ← zeroed (content_length + 1)
  let tmpfields ← zeroed (content_length + 1)
  let (tmpfields, fs) ← partsLoop env form boundary content_length (content_length + 1) 0 tmppart tmpfields fs
  let t ← strlen tmpfields
  let form ← lift (strcpyAt form 0 t)
  pure (form, fs)

/-- ws.c:297-302, reading the body: one step for each byte asked for, whether or not it comes. -/
def bodyLoop : Nat → List Byte → Byte → Buf → Nat → T (Buf × List Byte)
  | 0, inp, _, form, _ => pure (form, inp)
  | n + 1, inp, c, form, i => do
    let (c, inp) := match inp with
      | [] => (c, [])
      | x :: r => (x, r)
    tick 1
    let form ← lift (form.store i c)
    let form ← lift (form.store (i + 1) 0)
    bodyLoop n inp c form (i + 1)

/-- ws.c:292-308: the body is read and, if there is a boundary, parsed. -/
def readForm (env : Env) (st : St) (content_length : Int) (boundary : Str) : T St :=
  if 0 < content_length then do
    let n := content_length.toNat
    let (form, inp) ← bodyLoop n st.input 0 (malloc (n + 1)) 0
    let (form, fs) ← if 2 ≤ boundary.length then multipart_parse env st.fs form boundary n
      else pure (form, st.fs)
    pure { st with input := inp, fs := fs, req := { st.req with form := form } }
  else pure st

/-- ws.c:279-311 `handle_api_request`. What the router and user code do is not counted. -/
def handle_api_request (env : Env) (st : St) (content_length : Int) (boundary : Str) : T (St × List Event) := do
  let st ← readForm env st content_length boundary
  lift (router_handle_request env st)

/-- ws.c:624-652. -/
def dispatch (env : Env) (st : St) (url : Str) (content_length : Int) (boundary : Str) : T (St × List Event) := do
  let (path, query) ← lift (get_path_and_query_string url)
  let st := { st with req := { st.req with query_string := query } }
  if !startswith url API_MOUNT then do
    let st := { st with req := { st.req with path := path } }
    let st ← lift (if strcaseEq st.req.method b!"GET" then handle_static_routes env st else bad_request env st)
    pure (st, [])
  else do
    let p ← lift (strAt (strdup path) API_MOUNT.length)
    let st := { st with req := { st.req with path := p } }
    handle_api_request env st content_length boundary

/-- ws.c:463-656 `accept_request`; only the work on the body is counted. -/
def accept_request (env : Env) (st : St) (socket : Nat) (peer : Str) : T (St × List Event) := do
  let ip ← lift (fmtInto 24 peer)
  let st := { st with req := api_request_new socket ip }
  let (buf, inp, rl, method, j) ← lift (readRequestLine st.input)
  let st := { st with input := inp, req := { st.req with request_line := rl, method := method } }
  let allowed ← lift (startswithany method ALLOWED_HTTP_METHODS)
  if !allowed then do
    let st ← lift (bad_request env st)
    pure (connection_close st, [])
  else do
  let url ← lift (readUrl buf j)
  let st := { st with req := { st.req with url := url } }
  let (added, live) ← lift (connection_add env.limits st.live socket st.req.IP url)
  let st := { st with live := live }
  if !added then do
    let st ← lift (too_many_connections env st)
    pure (connection_close st, [])
  else do
  let h ← lift (parseHeaders buf st.input st.req.IP)
  let st := { st with
    input := h.input,
    req := { st.req with headers := h.headers, n_headers := h.headers.length,
                         content_type := h.content_type, IP := h.IP, session := h.session } }
  let (st, ev) ← dispatch env st url h.content_length h.boundary
  pure (connection_close st, ev)

end Wayuu.Steps
