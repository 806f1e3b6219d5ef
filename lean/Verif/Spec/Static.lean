import Verif.Model.Fs
/-
Static files. The only things taken from elsewhere are the file trees of Fs.lean (which are not part of the code).
-/
namespace Wayuu.Spec

/-- No component of the path name is "..". -/
def NoDotDot (path : List Byte) : Prop :=
  ¬ ∃ a b, path = a ++ b!".." ++ b ∧ (a = [] ∨ a.getLast? = some 47) ∧ (b = [] ∨ b.head? = some 47)

/-- The place in the tree a path name without ".." stands for: its components, without empty ones and ".". -/
def place (path : List Byte) : List (List Byte) := (FS.comps path).filter (fun c => decide (c ≠ [] ∧ c ≠ b!"."))

/-- Two file trees with the same objects and permissions under a place, and the same directories above it. -/
def SameUnder (loc : List (List Byte)) (fs fs' : FS) : Prop :=
  ∀ p, loc <+: p ∨ p <+: loc → fs.node p = fs'.node p ∧ fs.canRead p = fs'.canRead p

/-- The page a path asks for: "/" and "/index.html" the site index, "/favicon.ico" the icon, a folder (final '/') its
index.html, anything else itself. -/
def Page (index icon path page : List Byte) : Prop :=
  ((path = b!"/" ∨ path = b!"/index.html") ∧ page = index) ∨
  (path = b!"/favicon.ico" ∧ page = icon) ∨
  (path ≠ b!"/" ∧ path.getLast? = some 47 ∧ page = path ++ b!"index.html") ∨
  (path ≠ b!"/index.html" ∧ path ≠ b!"/favicon.ico" ∧ path.getLast? ≠ some 47 ∧ page = path)

/-- The file sent for a page: the page under the root if it is a file, otherwise the site index. -/
def Served (fs : FS) (root index page name : List Byte) : Prop :=
  ((∃ c, fs.lookup (root ++ b!"/" ++ page) = some (.file c)) ∧ name = root ++ b!"/" ++ page) ∨
  ((∀ c, fs.lookup (root ++ b!"/" ++ page) ≠ some (.file c)) ∧ name = root ++ b!"/" ++ index)

end Wayuu.Spec
