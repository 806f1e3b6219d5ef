import Verif.Spec.Announced
import Verif.Spec.Static
import Verif.Spec.PageSession
import Verif.Spec.Log
/-
Specification: what a connection leads to, as a function of the bytes that come in, of the routes, the limits and the connections
there are, and of the files of the site. Nothing here refers to the model of the code.
-/
namespace Wayuu.Spec

/-- What the header lines tell, whatever their bytes. -/
structure Told where
  noted : Noted
  session : List Byte
  address : List Byte
  ctype : Option (List Byte)

/-- One line. All lines are laid over one array, and values are looked for at fixed distances from its beginning: behind a line that
is too short the bytes of earlier lines count. -/
def Told.line (s : Told) (line : List Byte) : Told :=
  let array := line ++ 0 :: s.noted.array.drop (line.length + 1)
  let text := uptoNul line
  { noted := s.noted.line line
    session :=
      if starts b!"X-Session:" text || starts b!"Authorization:" text then ((text.drop 10).dropWhile ws).rdropWhile ws
      else if starts b!"Cookie:" text && s.session = [] && (uptoNul (array.drop 18)).length < 64 then uptoNul (array.drop 18)
      else s.session
    address := if starts b!"X-Real-IP:" text then (uptoNul ((s.noted.line line).array.drop 11)).take 24 else s.address
    ctype := if starts b!"Content-Type:" text then some ((uptoNul (array.drop 14)).takeWhile (· ≠ 59)) else s.ctype }

/-- All lines. -/
def told (peer line : List Byte) (lines : List (List Byte)) : Told :=
  lines.foldl Told.line ⟨⟨b!"A" ++ 0 :: (padded line).drop 2, [], -1⟩, [], peer, none⟩

/-- The request as user code gets it (texts without their NULs). -/
structure Handed where
  line : List Byte
  url : List Byte
  method : List Byte
  path : List Byte
  query : List Byte
  headers : List (List Byte × List Byte)
  session : List Byte
  address : List Byte
  ctype : Option (List Byte)
  form : List Byte

/-- What a connection leads to: an answer without content; the file of this name, sent with this session; or a call of this handler
(after this filter, if there is one) with this request. -/
inductive Ending where
  | status (code : Nat)
  | page (name session : List Byte)
  | code (handler : Nat) (filter : Option Nat) (request : Handed)

/-- The site: where its files are, its index and icon, and whether the bytes that happen to be on the stack end with '/'. -/
structure Site where
  root : List Byte
  index : List Byte
  icon : List Byte
  slash : Bool

/-- The page asked for. -/
def Site.page (s : Site) (path : List Byte) : List Byte :=
  if path = b!"/" ∨ path = b!"/index.html" then s.index
  else if path = b!"/favicon.ico" then s.icon
  else if s.slash then path ++ b!"index.html" else path

/-- The form a handler gets: the text stored, and the parameter of the route behind it. -/
def Template.form (t : Template) (target stored : List Byte) : List Byte :=
  match t with
  | .const _ => uptoNul stored
  | .param pre name => joined (uptoNul stored) ++ name ++ b!"=" ++ target.drop pre.length

open Classical in
/-- What these bytes lead to. -/
def LeadsTo (limits : List PathLimit) (live : List Conn) (peer : List Byte) (regs : List Registration) (site : Site) (fs : FS)
    (input : List Byte) (o : Ending) : Prop :=
  ∃ line rest lines body hs method url after pieces,
    LineOf input 1023 line rest ∧ Section rest lines body ∧ Named lines hs ∧ Words line method url after ∧ Runs b!"?" url pieces ∧
    if ¬ Supported method then o = .status 400
    else if ¬ Admits limits live peer url then o = .status 429
    else if ¬ CasePrefix b!"/api" url then
      if CaseEq method b!"GET" then
        ∃ name, Served fs site.root site.index (site.page (pieces.head?.getD [])) name ∧ o = .page name (told peer line lines).session
      else o = .status 400
    else
      ∃ mount path, pieces.head? = some (mount ++ path) ∧ mount.length = 4 ∧
        (((∀ r, FirstMatch regs (method ++ b!":" ++ path) r → r.handler = none) ∧ o = .status 400) ∨
         ∃ r h stored, FirstMatch regs (method ++ b!":" ++ path) r ∧ r.handler = some h ∧
          StoredForm (noted line lines).boundary (noted line lines).length body stored ∧
          o = .code h r.filter
            { line := (uptoNul line).take ((uptoNul line).length - 2), url := url
              method := method, path := path, query := (pieces.drop 1).head?.getD [], headers := hs.take 20
              session := (told peer line lines).session, address := (told peer line lines).address
              ctype := (told peer line lines).ctype
              form := r.template.form (method ++ b!":" ++ path) stored })

/-- The entry of the access log for this input: if the request was admitted, with the address and the headers its lines tell. -/
def LineFor (limits : List PathLimit) (live : List Conn) (peer input ts rt : List Byte) (status length : Nat) (entry : List Byte) : Prop :=
  ∃ line rest lines body hs method url after,
    LineOf input 1023 line rest ∧ Section rest lines body ∧ Named lines hs ∧ Words line method url after ∧
    (Supported method ∧ Admits limits live peer url → ∃ referer ua,
      FirstHeader (hs.take 20) b!"Referer" referer ∧ FirstHeader (hs.take 20) b!"User-Agent" ua ∧
      AccessLine entry (told peer line lines).address ts ((uptoNul line).take ((uptoNul line).length - 2)) status length
        (referer.getD []) (ua.getD []) rt) ∧
    (¬ (Supported method ∧ Admits limits live peer url) →
      AccessLine entry peer ts ((uptoNul line).take ((uptoNul line).length - 2)) status length [] [] rt)

end Wayuu.Spec
