import Verif.Tv
/-!
# Model of `gen/tests.go` and `gen/fuzz.go`: which functions are emitted

The text of these functions is modelled in `Verif/GenTestText`.
-/
namespace Verif.Effects
open Verif Verif.Tv

/-- Bytes. `[]byte`, gen/tests.go. -/
abbrev Bytes := List UInt8

/-- gen/tests.go:36-43 `constrained`: `len(v.Constraints) > 0`. -/
def constrained : List Tv.Vector → Bool
  | [] => false
  | v :: vs => if v.cst.scopes.entries.length > 0 then true else constrained vs

/-- A test function (gen/tests.go:15-30): its name, its cases, and the function it calls. -/
structure TestFn where
  name : String
  cases : List Bytes
  calls : String
deriving DecidableEq, Repr

/-- gen/tests.go:10-31 the loop of `CorpusTests`; `nm` is gen/core.go:88-90 `name`. -/
def corpusTests (nm : String → String) : Corpus → List TestFn
  | [] => []
  | s :: ss =>
    if constrained s.vectors then corpusTests nm ss
    else ⟨"Test" ++ nm s.type ++ "Corpus", s.vectors.map (·.data), "Parse" ++ nm s.type⟩ ::
      corpusTests nm ss

/-- A fuzzing function (gen/fuzz.go:17-21): its name and the function it calls. -/
structure FuzzFn where
  name : String
  calls : String
deriving DecidableEq, Repr

/-- gen/fuzz.go:13-22 the loop of `Fuzzers`. -/
def fuzzers (nm : String → String) : Corpus → List FuzzFn
  | [] => []
  | s :: ss =>
    if constrained s.vectors then fuzzers nm ss
    else ⟨"Fuzz" ++ nm s.type, "Parse" ++ nm s.type⟩ :: fuzzers nm ss

end Verif.Effects
