import Verif.Model.Startup
import Verif.Spec.Listen
import Verif.Spec.Limits
/-
What the server needs in order to start. Taken from the model: the types of systems, file trees and settings.
-/
namespace Wayuu.Spec
open Wayuu Startup

/-- The things without which the server does not start. -/
inductive Need where
  | log | folder | context | cert | key | socket | port | listen
deriving DecidableEq

/-- In the order in which they are looked for. -/
def needs (ssl : Bool) : List Need :=
  if ssl then [.log, .folder, .context, .cert, .key, .socket, .port, .listen] else [.log, .folder, .socket, .port, .listen]

/-- The folder for uploads exists or can be made. -/
def FolderReady (fs : FS) : Prop := fs.lookup b!"/tmp/wayuu" = some .dir ∨ (fs.mkdir b!"/tmp/wayuu").isSome = true

/-- The file can be read, with a content that is good. -/
def Readable (fs : FS) (path : List Byte) (good : List Byte → Bool) : Prop :=
  ∃ content, fs.openRead path = some content ∧ good content = true

/-- The file tree after the folder for uploads has been made, if that was necessary. -/
def WithFolder (fs fs' : FS) : Prop :=
  (fs.lookup b!"/tmp/wayuu" = some .dir ∧ fs' = fs) ∨
    (fs.lookup b!"/tmp/wayuu" ≠ some .dir ∧ fs.mkdir b!"/tmp/wayuu" = some fs')

/-- The need is met, for a server under `root` at the given address and port. `fs'` is the tree with the folder. -/
def Met (w : Sys) (fs fs' : FS) (root : List Byte) (addr port : Nat) : Need → Prop
  | .log => w.append b!"/var/log/wayuu.log" = true
  | .folder => FolderReady fs
  | .context => w.context = true
  | .cert => Readable fs' (root ++ b!"/ssl/cert.pem") w.certOk
  | .key => Readable fs' (root ++ b!"/ssl/key.pem") w.keyOk
  | .socket => w.socket = true
  | .port => w.os.bind addr port = true
  | .listen => w.listens = true

/-- `word` is part of `line`. -/
def WordIn (word line : List Byte) : Prop := ∃ x y, line = x ++ word ++ y

/-- The line names what is missing. -/
def NamesNeed (root : List Byte) (port : Nat) (line : List Byte) : Need → Prop
  | .log => WordIn b!"/var/log/wayuu.log" line
  | .folder => WordIn b!"/tmp/wayuu" line
  | .context => WordIn b!"SSL context" line
  | .cert => WordIn (root ++ b!"/ssl/cert.pem") line
  | .key => WordIn (root ++ b!"/ssl/key.pem") line
  | .socket => WordIn b!"obtain socket" line
  | .port => ∃ t, NatText t port ∧ WordIn (b!"bind to port " ++ t) line
  | .listen => WordIn b!"listening to socket" line

end Wayuu.Spec
