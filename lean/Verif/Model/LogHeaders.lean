import Verif.Model.Messages
/-
Model of `http_log_headers` (/repo/http_utils.c:508-518).
-/
namespace Wayuu
open C

/-- http_utils.c:513-516, the loop of `http_log_headers`: `n` more entries from `i`. -/
def logHeadersLoop (headers : List Header) : Nat → Nat → C (List Msg)
  | 0, _ => ok []
  | n + 1, i =>
    match headers[i]? with
    | none => ub .oob
    | some h => do
      let name ← cstr h.name
      let value ← cstr h.value
      let more ← logHeadersLoop headers n (i + 1)
      ok (⟨1, b!"HEADER: " ++ name ++ b!", VALUE: " ++ value⟩ :: more)

/-- http_utils.c:508-518 `http_log_headers`, with `LEVEL` set to `level`: the messages passed to `__logger`. -/
def http_log_headers (level : Nat) (req : Req) : C (List Msg) :=
  if level ≤ 1 then do
    let more ← logHeadersLoop req.headers req.n_headers 0
    ok (⟨1, b!"Found " ++ fmtNat req.n_headers ++ b!" headers"⟩ :: more)
  else ok []

end Wayuu
