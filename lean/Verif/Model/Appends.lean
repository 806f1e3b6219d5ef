import Verif.Model.HttpUtils
import Verif.Model.Log
/-
Several threads writing to one log: the server log (log.c:63-92) and the access log (wayuu_log.c:38-57).
Every stdio call locks its stream, and a `write` to a file opened for appending is not interrupted by other
writes, so each piece of text reaches the log in one step; between two pieces other threads may run.
-/
namespace Wayuu.Appends
open Wayuu C

/-- A thread: the pieces of the call it is in, how many of them are written, and the calls to come. -/
structure Writer where
  call : List Str
  pos : Nat
  todo : List (List Str)
deriving DecidableEq, Repr

/-- The log and the threads. -/
structure ASt where
  out : Str
  writers : List Writer
deriving DecidableEq, Repr

/-- One step of thread `i`: write the next piece, or start the next call. -/
def step (s : ASt) (i : Nat) : Option ASt :=
  match s.writers[i]? with
  | none => none
  | some w =>
    match w.call[w.pos]? with
    | some p => some { out := s.out ++ p, writers := s.writers.set i { w with pos := w.pos + 1 } }
    | none =>
      match w.todo with
      | [] => none
      | c :: cs => some { s with writers := s.writers.set i { call := c, pos := 0, todo := cs } }

/-- Run a schedule (a list of thread numbers). -/
def run : ASt → List Nat → Option ASt
  | s, [] => some s
  | s, i :: is => (step s i).bind (fun s => run s is)

/-- Threads that have not started; `calls` has one list per thread. -/
def start (calls : List (List (List Str))) : ASt := ⟨[], calls.map fun c => ⟨[], 0, c⟩⟩

/-- A message of the server log. -/
structure Msg where
  level : Int
  ts : Str
  tid : Str
  loc : Str
  text : Str
deriving DecidableEq, Repr

/-- log.c:63-84: the three calls of `fprintf` a message consists of, none below the configured level. -/
def logPieces (level : Int) (m : Msg) : C (List Str) :=
  if m.level < level then ok [] else
  if m.level < 0 then ub .oob else
  match level_names[m.level.toNat]? with
  | none => ub .oob
  | some name =>
    ok [m.ts ++ b!" " ++ m.tid ++ b!" " ++ name ++ b!" " ++ m.loc ++ b!": ", m.text, b!"\n"]

/-- Size of a stdio buffer for a regular file (glibc: the block size of the file). -/
abbrev STDIO_BUFFER : Nat := 4096

/-- wayuu_log.c:46-50: one `fprintf` into a stream of its own, then `fclose`: what is passed to `write`. Full
buffers are written as they fill. First argument: fuel (the number of bytes). -/
def writes : Nat → Str → List Str
  | 0, _ => []
  | n + 1, s => if s = [] then [] else s.take STDIO_BUFFER :: writes n (s.drop STDIO_BUFFER)

/-- The `write` calls for one line of the access log. -/
def accessWrites (line : Str) : List Str := writes line.length line

end Wayuu.Appends
