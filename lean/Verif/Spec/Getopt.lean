import Verif.Model.Main
/-
Command lines as the usage text has them (main.c:35-42, README.md:17-25), together with the usual freedom of writing options in one word
and a value without a space. Taken from elsewhere: the type of options.
-/
namespace Wayuu.Spec

/-- The letter of an option without a value. -/
def Flag : Byte → Opt → Prop
  | c, o => (c = 'd'.toUInt8 ∧ o = .d) ∨ (c = 'f'.toUInt8 ∧ o = .f) ∨ (c = 'h'.toUInt8 ∧ o = .h) ∨ (c = 'v'.toUInt8 ∧ o = .v)

/-- The letter of an option with a value. -/
def Valued : Byte → List Byte → Opt → Prop
  | c, a, o => (c = 'b'.toUInt8 ∧ o = .b a) ∨ (c = 'p'.toUInt8 ∧ o = .p a) ∨ (c = 'r'.toUInt8 ∧ o = .r a)

/-- A string of letters of options without value. -/
inductive Flags : List Byte → List Opt → Prop
  | nil : Flags [] []
  | cons {c o cs os} : Flag c o → Flags cs os → Flags (c :: cs) (o :: os)

/-- The words ask for the options, in that order. -/
inductive Written : List (List Byte) → List Opt → Prop
  /-- nothing -/
  | nil : Written [] []
  /-- `-df` -/
  | flags {c cs os ws more} : Flags (c :: cs) os → Written ws more → Written (('-'.toUInt8 :: c :: cs) :: ws) (os ++ more)
  /-- `-p80`, `-fp80` -/
  | attached {cs os c a o ws more} : Flags cs os → Valued c a o → a ≠ [] → Written ws more →
      Written (('-'.toUInt8 :: (cs ++ c :: a)) :: ws) (os ++ o :: more)
  /-- `-p 80`, `-fp 80` -/
  | separate {cs os c a o ws more} : Flags cs os → Valued c a o → Written ws more →
      Written (('-'.toUInt8 :: (cs ++ [c])) :: a :: ws) (os ++ o :: more)

end Wayuu.Spec
