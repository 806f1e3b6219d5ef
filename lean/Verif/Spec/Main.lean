import Verif.Model.Main
/-
The command line as README.md:15-26 and main.c:33-43 document it. Taken from elsewhere: the type of options as `getopt`
delivers them, and file trees.
-/
namespace Wayuu.Spec

/-- The value the last relevant option gives, or the default if there is none. -/
def LastOf {α : Type} (sel : Opt → Option α) (opts : List Opt) (dflt v : α) : Prop :=
  (∃ a o b, opts = a ++ o :: b ∧ sel o = some v ∧ ∀ x ∈ b, sel x = none) ∨ (v = dflt ∧ ∀ x ∈ opts, sel x = none)

/-- `-b` -/
def addrOf : Opt → Option (List Byte)
  | .b a => some a
  | _ => none
/-- `-p` -/
def portOf : Opt → Option (List Byte)
  | .p a => some a
  | _ => none
/-- `-r` -/
def rootOf : Opt → Option (List Byte)
  | .r a => some a
  | _ => none

end Wayuu.Spec
