import Verif.Model.LogFile
/-
/repo/log.c once more, with the files behind their names and the descriptors that are in use: others may rename the file of the server log, and each
`log_set_file` opens a stream that nothing closes (log.c:104-112).
-/
namespace Wayuu.LogRotate
open C LogFile

/-- log.c:36-37: the variable `LOG_FILE`; a stream belongs to a file, whatever its name is now. -/
inductive Stream where
  | null
  | stderr
  | file (id : Nat)
  | closed
deriving DecidableEq, Repr

/-- The variables of log.c, the text on `stderr`, all files in the order in which they were created, which file a name belongs to, and how many streams are
open. -/
structure DState where
  level : Int
  stream : Stream
  err : List Str
  files : List (List Str)
  names : Str → Option Nat
  opened : Nat

/-- The values at program start (log.c:34, 37). -/
def DState.init : DState := ⟨LOG_INFO, .null, [], [], fun _ => none, 0⟩

/-- Calls of the program, and renamings by others. -/
inductive Event where
  | call (c : Call)
  | rename (old new : Str)
deriving DecidableEq, Repr

/-- Appends lines to what was written to a stream; line 84 flushes it. -/
def write (st : DState) (lines : List Str) : C DState :=
  match st.stream with
  | .null => ub .null
  | .closed => ub .badFree
  | .stderr => ok { st with err := st.err ++ lines }
  | .file id => ok { st with files := st.files.modify id (· ++ lines) }

/-- log.c:63-92 `__logger`. -/
def logMsg (st : DState) (level : Int) (ts tid loc text : Str) : C (DState × Exit) :=
  if level < st.level then ok (st, .returns) else do
  let st := if st.stream = .null then { st with stream := .stderr } else st
  let (l, e) ← logger ⟨st.level, []⟩ level ts tid loc text
  let st ← write st l.text
  ok (st, e)

/-- log.c:104-112 `log_set_file`; at most `limit` streams can be open at a time. -/
def setFile (limit : Nat) (st : DState) (f : Str) : DState × Exit :=
  if st.opened < limit then
    match st.names f with
    | some id => ({ st with stream := .file id, opened := st.opened + 1 }, .returns)
    | none => ({ st with stream := .file st.files.length, files := st.files ++ [[]],
                         names := fun g => if g = f then some st.files.length else st.names g, opened := st.opened + 1 }, .returns)
  else ({ st with stream := .null, err := st.err ++ [b!"ERROR SETTING LOG FILE: " ++ f ++ b!"\n"] }, .failure)

/-- One event. -/
def event (limit : Nat) (st : DState) : Event → C (DState × Exit)
  | .call (.msg level ts tid loc text) => logMsg st level ts tid loc text
  /- log.c:99-102 -/
  | .call (.set_level l) => ok ({ st with level := l }, .returns)
  | .call (.set_file f) => ok (setFile limit st f)
  /- log.c:114-117 -/
  | .call .close_file =>
    match st.stream with
    | .null => ub .null
    | .closed => ub .badFree
    | .stderr => ok ({ st with stream := .closed }, .returns)
    | .file _ => ok ({ st with stream := .closed, opened := st.opened - 1 }, .returns)
  /- a file that had the new name loses it -/
  | .rename old new =>
    match st.names old with
    | none => ok (st, .returns)
    | some id => ok ({ st with names := fun g => if g = new then some id else if g = old then none else st.names g }, .returns)

/-- Events one after the other, until the process ends. -/
def run (limit : Nat) (st : DState) : List Event → C (DState × Exit)
  | [] => ok (st, .returns)
  | e :: es => do
    let (st, x) ← event limit st e
    if x = .returns then run limit st es else ok (st, x)

end Wayuu.LogRotate
