import Verif.Model.Getopt
import Verif.Model.LogFile
/-
What /repo/main.c shows on the terminal: the option loop with the calls of `printf` and of the log. `Model/Main.lean` has the same
loop without them (`terminal_start` in Props/Terminal.lean: both come to the same end).
-/
namespace Wayuu
open C

/-- main.c:33-43 `print_usage` -/
def print_usage : Str :=
  b!"USAGE: wayuu [-d] [-b ip_addr] [-p port] [-r root] [-f] [-v]\n" ++
  b!"Options:\n" ++
  b!"-d         : Enabled DEBUG mode\n" ++
  b!"-b ip_addr : Bind to IP address. Default: \"0.0.0.0\"\n" ++
  b!"-p port    : Bind to TCP port. Default: 4443\n" ++
  b!"-r root    : Use root as the root folder for WAYUU. Default: /etc/wayuu\n" ++
  b!"-f         : HTTP mode\n" ++
  b!"-v         : Print version and exits \n"

/-- http_utils.h:35 -/
def WAYUU_WS_VERSION : Str := b!"1.5.0"

/-- What was written: to `stdout`, and by the log (to `stderr` until `log_set_file` is called). -/
structure Term where
  out : Str
  log : LogFile.LState

/-- At the start of `main`. -/
def Term.init : Term := ⟨[], .init⟩

/-- `printf` -/
def Term.print (t : Term) (s : Str) : Term := { t with out := t.out ++ s }

/-- main.c:61-105, the option loop. `ts n` is the time when `n` options are left, `tid` the thread. The program may also end
inside `log_fatal`. -/
def optLoopT (fs : FS) (ts : Nat → Str) (tid : Str) : List Opt → Cfg → Term → C (Term × Start)
  | [], c, t => ok (t, .launch c)
  | o :: os, c, t =>
    match o with
    | .d => optLoopT fs ts tid os { c with logLevel := LOG_DEBUG } { t with log := { t.log with level := LOG_DEBUG } }
    | .f => optLoopT fs ts tid os { c with ssl := false } t
    | .h => ok (t.print print_usage, .exit .success)
    | .v => ok (t.print (WAYUU_WS_VERSION ++ b!"\n"), .exit .success)
    | .b a => do
      let a ← fmtInto 24 a
      optLoopT fs ts tid os { c with bindAddr := a } t
    | .p a => optLoopT fs ts tid os { c with port := atoi a } t
    | .r a => do
      let a ← fmtInto ROOT_PATH_MAX a
      let c := { c with wsRoot := a }
      let (log, _) ← LogFile.logMsg t.log LOG_INFO (ts os.length) tid b!"main.c:main:88" (b!"WAYUU ROOT now: " ++ a)
      let t := { t with log := log }
      if !is_dir fs a then do
        let (log, e) ← LogFile.logMsg t.log LOG_FATAL (ts os.length) tid b!"main.c:main:91"
          (b!"Unable to start, root directory doesn't exist: " ++ a)
        let t := { t with log := log }
        if e = .returns then optLoopT fs ts tid os c t else ok (t, .exit e)
      else optLoopT fs ts tid os c t
    | .missing => optLoopT fs ts tid os c (t.print b!"option needs a value\n")
    | .unknown x => ok (t.print (b!"unknown option: " ++ [x] ++ b!"\n"), .exit .failure)

/-- main.c:45-105 from the command line. -/
def terminal (fs : FS) (ts : Nat → Str) (tid : Str) (argv : List Str) : C (Term × Start) := do
  let c ← defaultCfg
  optLoopT fs ts tid (getopt .none argv) c .init

end Wayuu
