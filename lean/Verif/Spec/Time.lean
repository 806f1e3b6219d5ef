import Verif.Model.Time
import Verif.Spec.Json
/-
The calendar, second by second.
-/
namespace Wayuu.Spec
open Wayuu

/-- The beginning of 1970. -/
def epoch : Tm := ⟨0, 0, 0, 1, 0, 1970⟩

/-- Lengths of the months in a common year. -/
def monthTable : List Nat := [31, 28, 31, 30, 31, 30, 31, 31, 30, 31, 30, 31]

/-- The last day of the month: every fourth year is a leap year, except for full centuries not divisible by 400. -/
def lastDay (x : Tm) : Nat :=
  if x.mon = 1 ∧ 4 ∣ x.year ∧ (100 ∣ x.year → 400 ∣ x.year) then 29 else monthTable.getD x.mon 0

/-- One second later. -/
def tick (x : Tm) : Tm :=
  if x.sec < 59 then { x with sec := x.sec + 1 }
  else if x.min < 59 then { x with sec := 0, min := x.min + 1 }
  else if x.hour < 23 then { x with sec := 0, min := 0, hour := x.hour + 1 }
  else if x.mday < lastDay x then { x with sec := 0, min := 0, hour := 0, mday := x.mday + 1 }
  else if x.mon < 11 then { x with sec := 0, min := 0, hour := 0, mday := 1, mon := x.mon + 1 }
  else ⟨0, 0, 0, 1, 0, x.year + 1⟩

/-- Date and time `t` seconds after the beginning of 1970 (UTC, no leap seconds). -/
def utc : Nat → Tm
  | 0 => epoch
  | t + 1 => tick (utc t)

/-- A number with exactly `k` digits. -/
def Digits (k : Nat) (s : List Byte) (n : Nat) : Prop := s.length = k ∧ (∀ c ∈ s, digit c) ∧ decimal s = n

/-- Month names. -/
def months : List (List Byte) :=
  [b!"Jan", b!"Feb", b!"Mar", b!"Apr", b!"May", b!"Jun", b!"Jul", b!"Aug", b!"Sep", b!"Oct", b!"Nov", b!"Dec"]

/-- Date and time in the access log: day/month/year:hour:minute:second zone. -/
def AccessStamp (s : List Byte) (x : Tm) : Prop :=
  ∃ d mo y h mi se, s = d ++ b!"/" ++ mo ++ b!"/" ++ y ++ b!":" ++ h ++ b!":" ++ mi ++ b!":" ++ se ++ b!" +0000" ∧
    Digits 2 d x.mday ∧ months[x.mon]? = some mo ∧ NatText y x.year ∧ Digits 2 h x.hour ∧ Digits 2 mi x.min ∧ Digits 2 se x.sec

/-- Date and time in the server log: day-month-year hour:minute:second, the year without its century. -/
def LogStamp (s : List Byte) (x : Tm) : Prop :=
  ∃ d mo y h mi se, s = d ++ b!"-" ++ mo ++ b!"-" ++ y ++ b!" " ++ h ++ b!":" ++ mi ++ b!":" ++ se ∧
    Digits 2 d x.mday ∧ Digits 2 mo (x.mon + 1) ∧ Digits 2 y (x.year % 100) ∧ Digits 2 h x.hour ∧ Digits 2 mi x.min ∧
    Digits 2 se x.sec

/-- Milliseconds written as seconds with three decimals. -/
def SecondsText (s : List Byte) (ms : Nat) : Prop :=
  ∃ a b, s = a ++ b!"." ++ b ∧ NatText a (ms / 1000) ∧ Digits 3 b (ms % 1000)

end Wayuu.Spec
