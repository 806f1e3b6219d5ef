import Verif.Model.Log
/-
Model of the time stamps of /repo/log.c and the response time of /repo/wayuu_log.c. The clock is a parameter: seconds or
milliseconds since 1970 (not negative).
-/
namespace Wayuu
open C

/-- The fields of `struct tm` in use; `tm_year` counted from 0, `tm_mon` from 0. -/
structure Tm where
  sec : Nat
  min : Nat
  hour : Nat
  mday : Nat
  mon : Nat
  year : Nat
deriving DecidableEq, Repr

/-- Leap years of the Gregorian calendar. -/
def isLeap (y : Nat) : Bool := y % 4 = 0 ∧ (y % 100 ≠ 0 ∨ y % 400 = 0)

/-- Days of year `y`. -/
def yearDays (y : Nat) : Nat := if isLeap y then 366 else 365

/-- Days of month `m` (from 0) of year `y`. -/
def monthDays (y m : Nat) : Nat :=
  match m with
  | 1 => if isLeap y then 29 else 28
  | 3 | 5 | 8 | 10 => 30
  | _ => 31

/-- `gmtime` (libc), the year: first argument: limit on the number of years to go through. -/
def gmYear : Nat → Nat → Nat → Nat × Nat
  | 0, d, y => (y, d)
  | n + 1, d, y => if d < yearDays y then (y, d) else gmYear n (d - yearDays y) (y + 1)

/-- `gmtime` (libc), the month. First argument: months left. -/
def gmMonth (y : Nat) : Nat → Nat → Nat → Nat × Nat
  | 0, d, m => (m, d)
  | n + 1, d, m => if d < monthDays y m then (m, d) else gmMonth y n (d - monthDays y m) (m + 1)

/-- `gmtime` (libc). -/
def gmtime (t : Nat) : Tm :=
  let days := t / 86400
  let (y, d) := gmYear (days + 1) days 1970
  let (m, d) := gmMonth y 12 d 0
  ⟨t % 60, t / 60 % 60, t / 3600 % 24, d + 1, m, y⟩

/-- `%d`, `%H`, … of `strftime`: two digits. -/
def twoDigits (n : Nat) : Str := [UInt8.ofNat (48 + n / 10), UInt8.ofNat (48 + n % 10)]

/-- `%b` of `strftime` in the C locale. -/
def monthName (m : Nat) : Str :=
  [b!"Jan", b!"Feb", b!"Mar", b!"Apr", b!"May", b!"Jun", b!"Jul", b!"Aug", b!"Sep", b!"Oct", b!"Nov", b!"Dec"].getD m b!"?"

/-- `strftime(out, 64, …)`: if the text does not fit, the contents of `out` are not determined. -/
def strftime64 (s : Str) : C Str := if s.length < 64 then ok s else ub .uninit

/-- `strftime` with "%d-%m-%y %H:%M:%S". -/
def stampLog (x : Tm) : C Str :=
  strftime64 (twoDigits x.mday ++ b!"-" ++ twoDigits (x.mon + 1) ++ b!"-" ++ twoDigits (x.year % 100) ++ b!" " ++
    twoDigits x.hour ++ b!":" ++ twoDigits x.min ++ b!":" ++ twoDigits x.sec)

/-- `strftime` with "%d/%b/%Y:%H:%M:%S %z". -/
def stampAccess (x : Tm) : C Str :=
  strftime64 (twoDigits x.mday ++ b!"/" ++ monthName x.mon ++ b!"/" ++ fmtNat x.year ++ b!":" ++
    twoDigits x.hour ++ b!":" ++ twoDigits x.min ++ b!":" ++ twoDigits x.sec ++ b!" +0000")

/-- log.c:39-48 `format_timestamp`, at time `t`. -/
def format_timestamp (t : Nat) : C Str := stampLog (gmtime t)

/-- log.c:53-61 `format_ts_common_log`, at time `t`. -/
def format_ts_common_log (t : Nat) : C Str := stampAccess (gmtime t)

/-- wayuu_log.c:59-67 `epoch_millis`, from the two fields of `struct timeval`; in `uint64_t`. -/
def epoch_millis (sec usec : Nat) : Nat := (sec * 1000 % 2 ^ 64 + usec / 1000) % 2 ^ 64

/-- wayuu_log.c:71: the difference in `uint64_t`. -/
def elapsed (now start : Nat) : Nat := (now + 2 ^ 64 - start % 2 ^ 64) % 2 ^ 64

/-- The integer nearest to `a / b`; if there are two, the even one. -/
def roundDiv (a b : Nat) : Nat :=
  if 2 * (a % b) < b then a / b else if b < 2 * (a % b) then a / b + 1 else if a / b % 2 = 0 then a / b else a / b + 1

/-- `num / den` as a `double`: rounded to 53 bits, as a fraction. `num / den` is zero or at least 1/1024. -/
def dbl (num den : Nat) : Nat × Nat :=
  let k := Nat.log2 (num * 1024 / den)
  if k ≤ 62 then (roundDiv (num * 2 ^ (62 - k)) den, 2 ^ (62 - k))
  else (roundDiv num (den * 2 ^ (k - 62)) * 2 ^ (k - 62), 1)

/-- wayuu_log.c:69-72 `response_time`, for a difference of `n` in `uint64_t`: the conversion to `double`, the division. -/
def response_time (n : Nat) : Nat × Nat :=
  let d := dbl n 1
  dbl d.1 (d.2 * 1000)

/-- Three digits. -/
def threeDigits (n : Nat) : Str := UInt8.ofNat (48 + n / 100) :: twoDigits (n % 100)

/-- `%.3f` of a `double` that is not negative: the exact value is rounded to thousandths. -/
def fmt3 (d : Nat × Nat) : Str :=
  let n := roundDiv (d.1 * 1000) d.2
  fmtNat (n / 1000) ++ b!"." ++ threeDigits (n % 1000)

/-- wayuu_log.c:49, the last field of the access log; `now`, `start`: values of `epoch_millis`. -/
def responseText (now start : Nat) : Str := fmt3 (response_time (elapsed now start))

/-! ### `gmtime` in several threads

`gmtime` returns a pointer to one static `struct tm`, the same for all threads; `format_timestamp` and
`format_ts_common_log` call it without a lock. -/

/-- The fields in the order in which both formats read them. -/
def Tm.get (x : Tm) : Nat → Nat
  | 0 => x.mday
  | 1 => x.mon
  | 2 => x.year
  | 3 => x.hour
  | 4 => x.min
  | _ => x.sec

/-- Write a field. -/
def Tm.set (x : Tm) (i v : Nat) : Tm :=
  match i with
  | 0 => { x with mday := v }
  | 1 => { x with mon := v }
  | 2 => { x with year := v }
  | 3 => { x with hour := v }
  | 4 => { x with min := v }
  | _ => { x with sec := v }

/-- A thread in log.c:53-61 (or 39-48): the result of `time`, the steps made — six writes by `gmtime`, six reads by
`strftime` — and the fields read. -/
structure Stamper where
  time : Nat
  pc : Nat
  got : Tm
deriving DecidableEq, Repr

/-- The static `struct tm` and the threads. -/
structure ClockSt where
  shared : Tm
  threads : List Stamper
deriving DecidableEq, Repr

/-- One step of thread `i`. -/
def ClockSt.step (s : ClockSt) (i : Nat) : Option ClockSt := do
  let t ← s.threads[i]?
  if t.pc < 6 then
    some ⟨s.shared.set t.pc ((gmtime t.time).get t.pc), s.threads.set i { t with pc := t.pc + 1 }⟩
  else if t.pc < 12 then
    some ⟨s.shared, s.threads.set i { t with pc := t.pc + 1, got := t.got.set (t.pc - 6) (s.shared.get (t.pc - 6)) }⟩
  else none

/-- Threads that take steps in the order given. -/
def ClockSt.run (s : ClockSt) : List Nat → Option ClockSt
  | [] => some s
  | i :: is => (s.step i).bind (·.run is)

end Wayuu
