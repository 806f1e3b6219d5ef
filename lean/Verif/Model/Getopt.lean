import Verif.Model.Main
/-
The call `getopt(argc, argv, ":b:p:r:hdfv")` of main.c:61 (glibc, getopt(3)): from the words of the command line to the options the
loop of `main` sees. POSIXLY_CORRECT is not set, so words that are not options are passed over (glibc moves them to the end).
-/
namespace Wayuu
open C

/-- The option whose value is the next word. -/
inductive Need where
  | none | b | p | r
deriving DecidableEq, Repr

/-- The rest of a word after '-' (getopt(3)): what it yields, and whether the value of its last option is in the next word. -/
def cluster : Str → List Opt × Need
  | [] => ([], .none)
  | c :: rest =>
    if c = 98 then (if rest = [] then ([], .b) else ([.b rest], .none))
    else if c = 112 then (if rest = [] then ([], .p) else ([.p rest], .none))
    else if c = 114 then (if rest = [] then ([], .r) else ([.r rest], .none))
    else
      let o : Opt := if c = 104 then .h else if c = 100 then .d else if c = 102 then .f else if c = 118 then .v else .unknown c
      ((o :: (cluster rest).1), (cluster rest).2)

/-- All results of `getopt` for the words after the program name, until it returns -1. A word "--" ends the options; "-" alone is not
an option. -/
def getopt : Need → List Str → List Opt
  | .none, [] => []
  | _, [] => [.missing]
  | .b, w :: ws => .b w :: getopt .none ws
  | .p, w :: ws => .p w :: getopt .none ws
  | .r, w :: ws => .r w :: getopt .none ws
  | .none, w :: ws =>
    if w = b!"--" then []
    else match w with
      | 45 :: c :: cs => (cluster (c :: cs)).1 ++ getopt (cluster (c :: cs)).2 ws
      | _ => getopt .none ws

/-- main.c:45-109 from the command line. -/
def program (fs : FS) (argv : List Str) : C Start := main fs (getopt .none argv)

end Wayuu
