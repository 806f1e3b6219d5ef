import Verif.Model.Ws
import Verif.Lemmas.Http
/-
Concrete environments and states, used by the examples beside the theorems and by counterexamples.
-/
namespace Wayuu
open C

/-- A request without headers. -/
def sampleReq : Req := { api_request_new 7 b!"10.0.0.1" with method := b!"GET", path := b!"/a" }

/-- A state with nothing sent and an empty file system. -/
def sampleSt : St :=
  { req := sampleReq, input := [], out := [], log := [], fs := ⟨fun _ => none, fun _ => true, fun _ => true⟩,
    live := [], closed := [] }

/-- A configuration without routes or rules. Handlers and filters do nothing; filters accept. -/
def sampleEnv : Env :=
  { staticRoot := b!"/www", wwwIndex := b!"index.html", favicon := b!"favicon.ico", limits := [], routes := [],
    handle := fun _ st => ok st, filt := fun _ st => ok (st, true), digest := fun _ => List.replicate 16 0,
    evpMax := 64, tid := b!"140", ts := b!"now", rt := b!"1", logOk := true, junk := [65, 0] }

theorem sample_headers : sampleReq.HasHeaders [] := noHeaders rfl rfl

end Wayuu
