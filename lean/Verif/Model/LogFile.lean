import Verif.Model.Log
/-
Model of /repo/log.c with its output stream: `log_set_file`, `log_close_file` and where `__logger` writes.
-/
namespace Wayuu.LogFile
open C

/-- log.c:36-37: the variable `LOG_FILE`. `closed` is a pointer that was given to `fclose`. -/
inductive Stream where
  | null
  | stderr
  | file (name : Str)
  | closed
deriving DecidableEq, Repr

/-- The variables of log.c, and what was written: to `stderr` and to each file. A file that `fopen` (mode "a+") opens again keeps what
it has. Not represented: that streams no longer used are never closed. -/
structure LState where
  level : Int
  stream : Stream
  err : List Str
  files : Str → List Str

/-- The values at program start (log.c:34, 37). -/
def LState.init : LState := ⟨LOG_INFO, .null, [], fun _ => []⟩

/-- Calls of the API in log.h. -/
inductive Call where
  /-- `log_info(...)` and the like, see `logger` -/
  | msg (level : Int) (ts tid loc text : Str)
  | set_level (level : Int)
  | set_file (name : Str)
  | close_file
deriving DecidableEq, Repr

/-- Appends lines to what was written to a stream. -/
def write (st : LState) (lines : List Str) : C LState :=
  match st.stream with
  | .null => ub .null
  | .closed => ub .badFree
  | .stderr => ok { st with err := st.err ++ lines }
  | .file f => ok { st with files := fun g => if g = f then st.files g ++ lines else st.files g }

/-- log.c:63-92 `__logger` with its stream: lines 70-73 choose `stderr` if there is no file yet. -/
def logMsg (st : LState) (level : Int) (ts tid loc text : Str) : C (LState × Exit) :=
  if level < st.level then ok (st, .returns) else do
  let st := if st.stream = .null then { st with stream := .stderr } else st
  let (l, e) ← logger ⟨st.level, []⟩ level ts tid loc text
  let st ← write st l.text
  ok (st, e)

/-- One call. `canOpen` says which files `fopen(name, "a+")` opens. -/
def call (canOpen : Str → Bool) (st : LState) : Call → C (LState × Exit)
  | .msg level ts tid loc text => logMsg st level ts tid loc text
  /- log.c:99-102 -/
  | .set_level l => ok ({ st with level := l }, .returns)
  /- log.c:104-112 -/
  | .set_file f =>
    if canOpen f then ok ({ st with stream := .file f }, .returns)
    else ok ({ st with stream := .null, err := st.err ++ [b!"ERROR SETTING LOG FILE: " ++ f ++ b!"\n"] }, .failure)
  /- log.c:114-117 -/
  | .close_file =>
    match st.stream with
    | .null => ub .null
    | .closed => ub .badFree
    | _ => ok ({ st with stream := .closed }, .returns)

/-- Calls one after the other, until the process ends. -/
def calls (canOpen : Str → Bool) (st : LState) : List Call → C (LState × Exit)
  | [] => ok (st, .returns)
  | c :: cs => do
    let (st, e) ← call canOpen st c
    if e = .returns then calls canOpen st cs else ok (st, e)

end Wayuu.LogFile
