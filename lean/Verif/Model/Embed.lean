import Verif.Model.Main
/-
A program that embeds the server (README.md, "Embedded usage"): it is linked without /repo/main.c, so the globals of
/repo/ws.c:43-47 have the values C gives them, empty strings, unless the program sets them.
-/
namespace Wayuu.Embed
open Wayuu C

/-- ws.c:43-47 -/
structure Globals where
  wsRoot : Str
  favicon : Str
  wwwIndex : Str
  staticRoot : Str
deriving DecidableEq, Repr

/-- Before any assignment. -/
def initial : Globals := ⟨[], [], [], []⟩

/-- What a program does about them before it calls `ws_launch`. -/
inductive Assign where
  /-- `strcpy(WAYUU_WS_ROOT, s)` -/
  | root (s : Str)
  /-- `strcpy(WAYUU_STATIC_ROOT, s)` -/
  | static (s : Str)
  /-- `strcpy(WWW_INDEX, s)` -/
  | index (s : Str)
  /-- `strcpy(FAVICON_URL, s)` -/
  | icon (s : Str)
deriving DecidableEq, Repr

/-- One assignment; the arrays have the sizes of ws.c:43-47. -/
def Assign.run (g : Globals) : Assign → C Globals
  | .root s => do let s ← fmtInto ROOT_PATH_MAX s; ok { g with wsRoot := s }
  | .static s => do let s ← fmtInto (2 * ROOT_PATH_MAX) s; ok { g with staticRoot := s }
  | .index s => do let s ← fmtInto ROOT_PATH_MAX s; ok { g with wwwIndex := s }
  | .icon s => do let s ← fmtInto ROOT_PATH_MAX s; ok { g with favicon := s }

/-- The globals after the program's assignments. -/
def globals (as : List Assign) : C Globals := as.foldlM Assign.run initial

/-- The environment requests are served in. -/
def serving (g : Globals) (env : Env) : Env :=
  { env with staticRoot := g.staticRoot, wwwIndex := g.wwwIndex, favicon := g.favicon }

end Wayuu.Embed
