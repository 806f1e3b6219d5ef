import Verif.Libc
/-
File system environment (no repository code): a tree of directories and regular files, without
symbolic links. Path names are walked component by component as POSIX prescribes.
-/
namespace Wayuu

inductive Node where
  | file (content : List Byte)
  | dir
deriving DecidableEq, Repr

/-- `node p` is the object at absolute location `p` (list of names from the root); the root `[]` is
always a directory. `canRead`/`canWrite` stand for the process' permissions on an object (for
`canWrite` on a location that does not exist: permission to create it). -/
structure FS where
  node : List Str → Option Node
  canRead : List Str → Bool
  canWrite : List Str → Bool

namespace FS

def nodeAt (fs : FS) (p : List Str) : Option Node := if p = [] then some .dir else fs.node p

/-- Split a path name at '/' (empty components kept). -/
def comps : Str → List Str
  | [] => [[]]
  | c :: r =>
    if c = 47 then [] :: comps r else
    match comps r with
    | [] => [[c]]
    | h :: t => (c :: h) :: t

/-- Walk the components from directory `cur`. Every object walked *through* must be a directory. -/
def walk (fs : FS) (cur : List Str) : List Str → Option (List Str)
  | [] => some cur
  | c :: r =>
    if fs.nodeAt cur ≠ some .dir then none
    else if c = [] ∨ c = b!"." then walk fs cur r
    else if c = b!".." then walk fs cur.dropLast r
    else walk fs (cur ++ [c]) r

/-- Location denoted by a path name (relative names are taken from the root directory). -/
def resolve (fs : FS) (path : Str) : Option (List Str) :=
  if path = [] then none else fs.walk [] (comps path)

/-- `stat`. -/
def lookup (fs : FS) (path : Str) : Option Node := (fs.resolve path).bind fs.nodeAt

def update (fs : FS) (p : List Str) (n : Option Node) : FS :=
  { fs with node := fun q => if q = p then n else fs.node q }

/-- A path name without its trailing slashes. -/
def noTrail (path : Str) : Str := (path.reverse.dropWhile (· == 47)).reverse

/-- `mkdir(path, mode)`: the new file system, or `none` on failure. Trailing slashes are allowed. -/
def mkdir (fs : FS) (path : Str) : Option FS :=
  match fs.resolve (noTrail path) with
  | none => none
  | some p => if fs.nodeAt p = none ∧ fs.canWrite p then some (fs.update p (some .dir)) else none

/-- `fopen(path, "r")` / `"rb"` and reading the whole content. This is for callers that have made sure that the path is
not a directory, or that do not tell an empty file from none; the others use `fopenRead`. -/
def openRead (fs : FS) (path : Str) : Option (List Byte) :=
  match fs.resolve path with
  | none => none
  | some p =>
    match fs.nodeAt p with
    | some (.file c) => if fs.canRead p then some c else none
    | _ => none

/-- `fopen(path, "r")`, and what can be read: opening a directory for reading succeeds, and reading it fails, which looks
like the end of an empty file to `fgets`. -/
def fopenRead (fs : FS) (path : Str) : Option (List Byte) :=
  match fs.resolve path with
  | none => none
  | some p =>
    match fs.nodeAt p with
    | some (.file c) => if fs.canRead p then some c else none
    | some .dir => if fs.canRead p then some [] else none
    | none => none

/-- `fopen(path, "w")` / `"wb+"`: location of the truncated or created file. -/
def openWrite (fs : FS) (path : Str) : Option (List Str) :=
  match fs.resolve path with
  | none => none
  | some p => if fs.nodeAt p ≠ some .dir ∧ fs.canWrite p then some p else none

/-- `remove(path)` of a regular file (failure leaves the tree unchanged). -/
def remove (fs : FS) (path : Str) : FS :=
  match fs.resolve path with
  | none => fs
  | some p => if fs.nodeAt p ≠ some .dir ∧ fs.canWrite p then fs.update p none else fs

end FS
end Wayuu
