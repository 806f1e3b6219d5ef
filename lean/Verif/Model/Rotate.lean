import Verif.Model.Appends
/-
wayuu_log.c:46-50 with the files behind the name of the access log: threads open it for every line, others may rename it meanwhile (as programs
do that rotate logs), and the disk may be full.
-/
namespace Wayuu.Rotate
open Wayuu C

/-- A thread: the file it has opened, with what is still to be passed to `write`, and the lines to come. -/
structure Thread where
  held : Option (Nat × List Str)
  todo : List Str
deriving DecidableEq, Repr

/-- All files that ever had the name of the access log, in the order in which they were created, and which of them has it. -/
structure RSt where
  files : List Str
  cur : Option Nat
  threads : List Thread
deriving DecidableEq, Repr

/-- What happens next: a thread goes on (if it is to open the file, `opens` says whether it can; if it is to write, `room` says how many bytes the disk takes, `none`
that it takes all), or the file is given another name. -/
inductive Act where
  | thread (i : Nat) (opens : Bool) (room : Option Nat)
  | rename
deriving DecidableEq, Repr

/-- What the disk takes of a text. After a short `write` stdio tries once more, which fails. -/
def taken (room : Option Nat) (text : Str) : Str :=
  match room with
  | none => text
  | some n => text.take n

/-- One step. -/
def step (s : RSt) : Act → Option RSt
  /- the file stays; threads that opened it go on writing to it -/
  | .rename => some { s with cur := none }
  | .thread i opens room =>
    match s.threads[i]? with
    | none => none
    | some t =>
      match t.held with
      /- wayuu_log.c:48-49 -/
      | some (f, p :: ps) =>
        some { s with files := s.files.modify f (· ++ taken room p), threads := s.threads.set i { t with held := some (f, ps) } }
      /- the end of `fclose` -/
      | some (_, []) => some { s with threads := s.threads.set i { t with held := none } }
      | none =>
        match t.todo with
        | [] => none
        | l :: ls =>
          /- wayuu_log.c:46-47: without a file the line is dropped -/
          if !opens then some { s with threads := s.threads.set i ⟨none, ls⟩ } else
          match s.cur with
          | some f => some { s with threads := s.threads.set i ⟨some (f, Appends.accessWrites l), ls⟩ }
          | none => some ⟨s.files ++ [[]], some s.files.length, s.threads.set i ⟨some (s.files.length, Appends.accessWrites l), ls⟩⟩

def run : RSt → List Act → Option RSt
  | s, [] => some s
  | s, a :: as => (step s a).bind (fun s => run s as)

/-- The beginning: no file yet, one list of lines for each thread. -/
def start (lines : List (List Str)) : RSt := ⟨[], none, lines.map fun ls => ⟨none, ls⟩⟩

end Wayuu.Rotate
