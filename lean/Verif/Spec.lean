import Verif.Ast
/-!
# Specification vocabulary: what integers, integer lists and union cases mean

Independent of the model of the code: these definitions say what the manual says
(docs/manual.html, "integer constraints", "unions"), not how /repo computes it.
-/
namespace Verif.Spec
open Verif.Ast

/-- Value of an integer expression, given constant values (specification of ast.Integer,
ast/types.go:135-146). -/
def ival (K : String → Option Int) : Integer → Option Int
  | .constRef n => K n
  | .literal v => some v

/-- Lower and upper bound denoted by a range entry (specification of ast/types.go:148-152). -/
def bounds (K : String → Option Int) (r : IntegerRange) : Option (Int × Int) :=
  match ival K r.low with
  | none => none
  | some lo =>
    match r.high with
    | none => some (lo, lo)
    | some h => (ival K h).map (fun hi => (lo, hi))

/-- Whether `x` is one of the integers denoted by a range entry. -/
def rangeHas (K : String → Option Int) (x : Int) (r : IntegerRange) : Bool :=
  match bounds K r with
  | none => false
  | some (lo, hi) => lo ≤ x && x ≤ hi

/-- Whether `x` is listed in an integer list (specification of ast/types.go:181-184). -/
def listHas (K : String → Option Int) (l : IntegerList) (x : Int) : Bool :=
  l.ranges.any (rangeHas K x)

/-- Whether a union case lists `x`; the default case lists nothing. -/
def caseHas (K : String → Option Int) (x : Int) (c : UnionCase) : Bool :=
  match c.case with
  | none => false
  | some l => listHas K l x

/-- The case of a union selected by tag value `x`: the first one listing `x`, else the default
(the last one, should there be several), else none. -/
def selectCase (K : String → Option Int) (cs : List UnionCase) (x : Int) : Option UnionCase :=
  (cs.find? (caseHas K x)).or (cs.reverse.find? (fun c => c.case.isNone))

/-- All constants used are declared and all values are non-negative 63-bit integers, as for every
list the parser produces from declared constants (trunnel.pigeon:469-471). -/
def ListOK (K : String → Option Int) (l : IntegerList) : Prop :=
  ∀ r ∈ l.ranges, ∃ lo hi, bounds K r = some (lo, hi) ∧ 0 ≤ lo ∧ lo < 2 ^ 63 ∧ 0 ≤ hi ∧ hi < 2 ^ 63

end Verif.Spec
