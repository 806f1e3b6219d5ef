import Verif.Spec.Main
/-
What the program is to say about itself. Taken from elsewhere: the text constants `b!`.
-/
namespace Wayuu.Spec

/-- The usage as README.md:17-25 has it, with the option -v. -/
def usageLines : List (List Byte) :=
  [ b!"USAGE: wayuu [-d] [-b ip_addr] [-p port] [-r root] [-f] [-v]",
    b!"Options:",
    b!"-d         : Enabled DEBUG mode",
    b!"-b ip_addr : Bind to IP address. Default: \"0.0.0.0\"",
    b!"-p port    : Bind to TCP port. Default: 4443",
    b!"-r root    : Use root as the root folder for WAYUU. Default: /etc/wayuu",
    b!"-f         : HTTP mode",
    b!"-v         : Print version and exits " ]

/-- Lines, each with its line end. -/
def asText : List (List Byte) → List Byte
  | [] => []
  | l :: ls => l ++ '\n'.toUInt8 :: asText ls

/-- A line of the text explains the option. -/
def Explains (lines : List (List Byte)) (c : Byte) : Prop := ∃ rest, ['-'.toUInt8, c, ' '.toUInt8] ++ rest ∈ lines

/-- One line for each root folder, in order, and nothing else. -/
inductive RootLines : List (List Byte) → List (List Byte) → Prop
  | nil : RootLines [] []
  | cons (stamp a : List Byte) {lines roots : List (List Byte)} : RootLines lines roots →
      RootLines ((stamp ++ b!": WAYUU ROOT now: " ++ a ++ b!"\n") :: lines) (a :: roots)

end Wayuu.Spec
