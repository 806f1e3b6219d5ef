import Verif.Model.Ws
/-
Unsynchronised accesses to shared data: the table of live connections and the hidden state of `strtok`.
-/
namespace Wayuu.Races
open Wayuu C

/-- ws.c:438-456 and 411-435: progress of one worker through `connection_add` and
`connection_close`. No lock protects the table, so other workers may run between any two steps. -/
inductive TPc where
  /-- before `connection_validate`, line 440 -/
  | start
  /-- validation succeeded -/
  | validated
  /-- a free slot was found, lines 443-445 -/
  | picked (slot : Nat)
  /-- the slot was written, lines 447-450; the request is being served -/
  | serving
  /-- validation failed or the table was full -/
  | refused
  /-- line 418: the socket was closed, the entry is still there -/
  | closing
  /-- line 419: `connection_del` done -/
  | finished
deriving DecidableEq, Repr

/-- A worker and its connection. -/
structure Thread where
  pc : TPc
  socket : Nat
  ip : Str
  path : Str
deriving DecidableEq, Repr

structure TSt where
  live : List Conn
  threads : List Thread
deriving DecidableEq, Repr

/-- Index of the first free slot (ws.c:443-445). -/
def firstFree : List Conn → Option Nat
  | [] => none
  | c :: r => if c.socket = 0 then some 0 else (firstFree r).map (· + 1)

/-- One step of worker `i`. -/
def step (limits : List PathLimit) (s : TSt) (i : Nat) : Option TSt :=
  match s.threads[i]? with
  | none => none
  | some t =>
    let set (pc : TPc) : List Thread := s.threads.set i { t with pc := pc }
    match t.pc with
    | .start =>
      if connection_validate limits s.live t.ip t.path then some { s with threads := set .validated }
      else some { s with threads := set .refused }
    | .validated =>
      match firstFree s.live with
      | none => some { s with threads := set .refused }
      | some k => some { s with threads := set (.picked k) }
    | .picked k => some { live := s.live.set k ⟨t.socket, t.path, t.ip⟩, threads := set .serving }
    | .serving => some { s with threads := set .closing }
    | .closing => some { live := connection_del t.socket s.live, threads := set .finished }
    | .refused => none
    | .finished => none

/-- Run a schedule (a list of worker numbers). -/
def run (limits : List PathLimit) : TSt → List Nat → Option TSt
  | s, [] => some s
  | s, i :: is => (step limits s i).bind (fun s => run limits s is)

/-- string_utils.c:171-191 `split` with `strtok`, whose saved position is one static variable of the
process: progress of one worker. `freed`: after string_utils.c:189. -/
structure Splitter where
  url : Str
  started : Bool
  tokens : List Str
  done : Bool
  freed : Bool
deriving DecidableEq, Repr

structure SSt where
  /-- the position saved by `strtok`: whose copy of its URL it points into, and the text from there on -/
  saved : Option (Nat × Str)
  threads : List Splitter
deriving DecidableEq, Repr

/-- Where a call of `strtok` by worker `i` goes on: the first call passes the worker's own copy of the URL, later ones
pass NULL (string_utils.c:176-183). Reading a copy that was freed is undefined. -/
def tokFrom (s : SSt) (i : Nat) (t : Splitter) : C (Nat × Str) :=
  if t.started then
    match s.saved with
    | none => ub .null
    | some (j, text) =>
      match s.threads[j]? with
      | some o => if o.freed then ub .oob else ok (j, text)
      | none => ub .oob
  else ok (i, t.url)

/-- One call of `strtok` by worker `i` (string_utils.c:176, 183), or, when it has returned NULL, `free(str_copy)` (189). A call is
taken for one step. At the end of the text the saved position stays there. -/
def tokStep (delim : Str) (s : SSt) (i : Nat) : Option (C SSt) :=
  match s.threads[i]? with
  | none => none
  | some t =>
    if t.freed then none
    else if t.done then some (ok { s with threads := s.threads.set i { t with freed := true } })
    else some (do
      let (j, text) ← tokFrom s i t
      match strtok text delim with
      | none => ok { saved := some (j, []), threads := s.threads.set i { t with started := true, done := true } }
      | some (tok, rest) =>
        ok { saved := some (j, rest), threads := s.threads.set i { t with started := true, tokens := t.tokens ++ [tok] } })

/-- Run a schedule (a list of worker numbers). -/
def tokRun (delim : Str) : SSt → List Nat → Option (C SSt)
  | s, [] => some (ok s)
  | s, i :: is =>
    match tokStep delim s i with
    | none => none
    | some (ub f) => some (ub f)
    | some (ok s) => tokRun delim s is

end Wayuu.Races
