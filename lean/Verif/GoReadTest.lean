import Verif.GoRead
import Verif.TestFns
/-!
# Specification: Go text that is tests and fuzzing functions

Which declarations, in the syntax of `Verif/GoRead`, are the functions that `Verif/TestRun` gives a meaning to, and which
build constraints a file has (documentation of `go/build`, "Build Constraints"). Written without reference to what the generator
prints.
-/
namespace Verif.Go.Read
open Verif Verif.Effects

/-- The bytes of a literal `[]byte{…}` of number literals. -/
def dataOf : GExpr → Option Bytes
  | .lit (some (.slice (.name b))) es =>
    if b = "byte" then es.mapM fun e => match e with
      | (none, .int k) => if k < 256 then some (UInt8.ofNat k) else none
      | _ => none
    else none
  | _ => none

/-- An element `{ F: data }` of a list of cases. -/
def caseOf (F : String) : Option String × GExpr → Option Bytes
  | (none, .lit none [(some k, e)]) => if k = F then dataOf e else none
  | _ => none

/-- A function with the single parameter `t *testing.T` and no results that goes through a list of cases and has `t.Fatal`
called with the error that the function called returns for the data of a case. The variables must not hide the function called,
each other or `nil`. -/
def testOf : GDecl → Option TestFn
  | .func x [(t, .ptr (.qual p T))] []
      [.define [.id cs] [.lit (some (.slice (.struct [(F, .slice (.name b))]))) es],
       .range [.id u, .id c] (.id cs')
         [.define [.id u', .id e] [.call (.id fn) [.sel (.id c') F']],
          .ifS (.binary .ne (.id e') (.id nl)) [.expr (.call (.sel (.id t') m) [.id e''])]]] =>
    if p = "testing" ∧ T = "T" ∧ b = "byte" ∧ u = "_" ∧ u' = "_" ∧ cs' = cs ∧ c' = c ∧ F' = F ∧ e' = e ∧ e'' = e ∧ nl = "nil" ∧
        t' = t ∧ m = "Fatal" ∧ [t, cs, c, e, fn, nl, u, p, b].Nodup then do
      some ⟨x, ← es.mapM (caseOf F), fn⟩
    else none
  | _ => none

/-- A function with the single parameter `d []byte` and the result `int` that returns 0 if the function called returns an error
for `d` and else 1. -/
def fuzzOf : GDecl → Option FuzzFn
  | .func x [(d, .slice (.name b))] [.name i]
      [.define [.id u, .id e] [.call (.id fn) [.id d']],
       .ifS (.binary .ne (.id e') (.id nl)) [.ret [.int 0]],
       .ret [.int 1]] =>
    if b = "byte" ∧ i = "int" ∧ u = "_" ∧ d' = d ∧ e' = e ∧ nl = "nil" ∧ [d, e, fn, nl, u].Nodup then some ⟨x, fn⟩ else none
  | _ => none

/-- Read the text of a file of tests. -/
def readTests (n : Nat) (text : List Char) : Option (String × List TestFn) := do
  let ts ← tokens text
  let (pkg, ds) ← pFile n ts
  some (pkg, ← ds.mapM testOf)

/-- Read the text of a file of fuzzing functions. -/
def readFuzz (n : Nat) (text : List Char) : Option (String × List FuzzFn) := do
  let ts ← tokens text
  let (pkg, ds) ← pFile n ts
  some (pkg, ← ds.mapM fuzzOf)

/-! ## Build constraints -/

/-- The lines of a text. -/
def lines : List Char → List (List Char)
  | [] => [[]]
  | c :: cs =>
    if c = '\n' then [] :: lines cs
    else match lines cs with
      | l :: ls => (c :: l) :: ls
      | [] => [[c]]

/-- White space only. -/
def blank (l : List Char) : Bool := l.all fun c => c = ' ' || c = '\t' || c = '\r'

/-- Lines that are blank or a line comment. -/
def topLine (l : List Char) : Bool := blank l || ['/', '/'].isPrefixOf l

/-- The build constraints `// +build …` of a file: only blank lines and line comments come before them and a blank line comes
after them and before the package clause. -/
def buildLines (text : List Char) : List (List Char) :=
  let top := (lines text).takeWhile topLine
  ((top.reverse.dropWhile fun l => !blank l).filter fun l => "// +build ".toList.isPrefixOf l).reverse.map fun l => l.drop 10

end Verif.Go.Read
