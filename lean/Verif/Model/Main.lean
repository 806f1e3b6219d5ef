import Verif.Model.Ws
import Verif.Model.Log
/-
Model of /repo/main.c and of the paths derived from the configuration.
-/
namespace Wayuu
open C

/-- ws.h:38-44, 62-63 -/
abbrev DEFAULT_PORT : Int := 4443
def DEFAULT_ROOT : Str := b!"/etc/wayuu"
def DEFAULT_STATIC_ROOT : Str := b!"www"
def DEFAULT_BIND_ADDRESS : Str := b!"127.0.0.1"
def DEFAULT_WWW_INDEX : Str := b!"/index.html"
def DEFAULT_FAVICON_URL : Str := b!"/favicon.ico"

/-- The options as `getopt(argc, argv, ":b:p:r:hdfv")` reports them, in order. -/
inductive Opt where
  | d | f | h | v
  | b (arg : Str)
  | p (arg : Str)
  | r (arg : Str)
  /-- ':' – an option lacks its argument -/
  | missing
  /-- '?' – unknown option, `optopt` -/
  | unknown (c : Byte)
deriving DecidableEq, Repr

/-- The globals set by `main` (`bind_addr` and `ws_port` are its local variables). -/
structure Cfg where
  port : Int
  wsRoot : Str
  staticRoot : Str
  wwwIndex : Str
  favicon : Str
  bindAddr : Str
  ssl : Bool
  logLevel : Int
deriving DecidableEq, Repr

/-- Result of the option loop. -/
inductive Start where
  | launch (c : Cfg)
  | exit (e : Exit)
deriving DecidableEq, Repr

/-- main.c:48-54 (`WAYUU_SSL_ON` is true and the level is INFO by default). -/
def defaultCfg : C Cfg := do
  let wsRoot ← fmtInto ROOT_PATH_MAX DEFAULT_ROOT
  let staticRoot ← fmtInto (2 * ROOT_PATH_MAX) (DEFAULT_ROOT ++ b!"/" ++ DEFAULT_STATIC_ROOT)
  let wwwIndex ← fmtInto ROOT_PATH_MAX DEFAULT_WWW_INDEX
  let favicon ← fmtInto ROOT_PATH_MAX DEFAULT_FAVICON_URL
  let bindAddr ← fmtInto 24 DEFAULT_BIND_ADDRESS
  ok { port := DEFAULT_PORT, wsRoot := wsRoot, staticRoot := staticRoot, wwwIndex := wwwIndex,
       favicon := favicon, bindAddr := bindAddr, ssl := true, logLevel := LOG_INFO }

/-- main.c:61-105, the option loop. -/
def optLoop (fs : FS) : List Opt → Cfg → C Start
  | [], c => ok (.launch c)
  | o :: os, c =>
    match o with
    | .d => optLoop fs os { c with logLevel := LOG_DEBUG }
    | .f => optLoop fs os { c with ssl := false }
    | .h => ok (.exit .success)
    | .v => ok (.exit .success)
    | .b a => do
      let a ← fmtInto 24 a
      optLoop fs os { c with bindAddr := a }
    | .p a => optLoop fs os { c with port := atoi a }
    | .r a => do
      let a ← fmtInto ROOT_PATH_MAX a
      let c := { c with wsRoot := a }
      if !is_dir fs a then do
        let (_, e) ← logger ⟨c.logLevel, []⟩ LOG_FATAL [] [] [] []
        if e = .returns then optLoop fs os c else ok (.exit e)
      else optLoop fs os c
    | .missing => optLoop fs os c
    | .unknown _ => ok (.exit .failure)

/-- main.c:45-109, up to `ws_launch`. -/
def main (fs : FS) (opts : List Opt) : C Start := do
  let c ← defaultCfg
  optLoop fs opts c

/-- ws.c:149-150: certificate and key (`configure_context`). -/
def certPath (c : Cfg) : C Str := fmtInto (ROOT_PATH_MAX + 32) (c.wsRoot ++ b!"/ssl/cert.pem")
def keyPath (c : Cfg) : C Str := fmtInto (ROOT_PATH_MAX + 32) (c.wsRoot ++ b!"/ssl/key.pem")

/-- ws.c:749: the port actually bound, `htons` of an `int`. -/
def boundPort (c : Cfg) : Nat := (c.port % 65536).toNat

end Wayuu
