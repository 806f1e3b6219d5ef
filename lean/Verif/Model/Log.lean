import Verif.Libc
/-
Model of /repo/log.c.
-/
namespace Wayuu
open C

/-- log.h:31-39 -/
abbrev LOG_TRACE : Int := 0
abbrev LOG_DEBUG : Int := 1
abbrev LOG_INFO : Int := 2
abbrev LOG_WARN : Int := 3
abbrev LOG_ERROR : Int := 4
abbrev LOG_FATAL : Int := 5

/-- log.c:30-31 `level_names`, padded as `%-5s` prints them (log.c:79). -/
def level_names : List Str := [b!"TRACE", b!"DEBUG", b!"INFO ", b!"WARN ", b!"ERROR", b!"FATAL"]

/-- log.c:33-37: the configured level and the text written to the log so far. -/
structure LogSt where
  level : Int
  text : List Str
deriving DecidableEq, Repr

/-- How a call ends: it returns, or the process exits with `EXIT_FAILURE` / `EXIT_SUCCESS`. -/
inductive Exit where
  | returns
  | failure
  | success
deriving DecidableEq, Repr

/-- log.c:63-92 `__logger`. `ts` is the formatted time, `tid` the thread, `loc` the text
`file:func:line` and `msg` the formatted message. Output goes to the one configured stream. -/
def logger (st : LogSt) (level : Int) (ts tid loc msg : Str) : C (LogSt × Exit) :=
  if level < st.level then ok (st, .returns) else
  if level < 0 then ub .oob else
  match level_names[level.toNat]? with
  | none => ub .oob
  | some name =>
    let line := ts ++ b!" " ++ tid ++ b!" " ++ name ++ b!" " ++ loc ++ b!": " ++ msg ++ b!"\n"
    let st := { st with text := st.text ++ [line] }
    if level = LOG_FATAL then ok (st, .failure) else ok (st, .returns)

/-- log.c:94-97 `log_level_is_enabled`. -/
def log_level_is_enabled (st : LogSt) (level : Int) : Bool := decide (level ≥ st.level)

/-- log.c:99-102 `log_set_level`. -/
def log_set_level (st : LogSt) (level : Int) : LogSt := { st with level := level }

end Wayuu
