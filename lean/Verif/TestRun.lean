import Verif.Effects
import Verif.GoSem
/-!
# What running generated tests and fuzzing functions gives

The bodies of these functions are fixed (gen/tests.go:17-30, gen/fuzz.go:17-21) but for the name they call and
the bytes of the cases, so they are given a meaning directly. `Verif/GoReadTest` says which Go text has this meaning.
-/
namespace Verif.Effects
open Verif Verif.Go

/-- The function a test or fuzzing function calls (gen/tests.go:26, gen/fuzz.go:18), applied to the bytes `d`
alone. Names are resolved among the constructors of the package (gen/decl.go:122); that the number of arguments is
right is checked when running, where Go checks it when compiling. A composite literal has no spare capacity. -/
def callParse (M : Mach) (fuel : Nat) (fn : String) (d : Bytes) : CallOut :=
  match M.prog.ctors.find? (fun c => "Parse" ++ c.type = fn) with
  | none => .stuck "undefined"
  | some c => runCtor M fuel c.type (.bytes d []) []

/-- Outcome of a test. Of the functions printed by gen/tests.go. -/
inductive TestOut where
  | pass
  | fatal (m : String)
  | panic (m : String)
  | stuck (m : String)
  | timeout
deriving DecidableEq, Repr

/-- gen/tests.go:25-28 the loop of a test function. -/
def runCases (M : Mach) (fuel : Nat) (fn : String) : List Bytes → TestOut
  | [] => .pass
  | d :: ds =>
    match callParse M fuel fn d with
    | .done _ _ none => runCases M fuel fn ds
    | .done _ _ (some m) => .fatal m
    | .panic m => .panic m
    | .stuck m => .stuck m
    | .timeout => .timeout

/-- gen/tests.go:15-30: a test function, run. -/
def runTest (M : Mach) (fuel : Nat) (t : TestFn) : TestOut := runCases M fuel t.calls t.cases

/-- Outcome of a fuzzing function. Of the functions printed by gen/fuzz.go:13-25. -/
inductive FuzzOut where
  | ret (n : Nat)
  | panic (m : String)
  | stuck (m : String)
  | timeout
deriving DecidableEq, Repr

/-- gen/fuzz.go:17-21: a fuzzing function, run on `d`. -/
def runFuzz (M : Mach) (fuel : Nat) (f : FuzzFn) (d : Bytes) : FuzzOut :=
  match callParse M fuel f.calls d with
  | .done _ _ none => .ret 1
  | .done _ _ (some _) => .ret 0
  | .panic m => .panic m
  | .stuck m => .stuck m
  | .timeout => .timeout

end Verif.Effects
