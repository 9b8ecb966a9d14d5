import Verif.Inspect
/-!
# Model of `tv/constraints.go`

`Constraints` is a map of maps.  A Go map is a reference; here a store is a value, and references to
stores are modelled in `Verif/Tv`.  Traversals (`range` over a map) happen in an arbitrary order.
-/
namespace Verif.Tv
open Verif Verif.Ast Verif.Inspect

/-- tv/constraints.go:10 `Constraints`. -/
structure Cst where
  scopes : GoMap (GoMap Int)
deriving Repr, DecidableEq

namespace Cst

/-- tv/constraints.go:13-15 `NewConstraints`. -/
def empty : Cst := ⟨.empty⟩

/-- tv/constraints.go:18-25 `Lookup`; also 28-30 `LookupLocal` (with `s = ""`). -/
def lookup (c : Cst) (s k : String) : Option Int :=
  match c.scopes.get s with
  | none => none
  | some values => values.get k

/-- tv/constraints.go:33-35 `LookupRef`. -/
def lookupRef (c : Cst) (r : IDRef) : Option Int := c.lookup r.scope r.name

/-- tv/constraints.go:38-47 `Set`: the store afterwards, and whether it returned without error. -/
def set (c : Cst) (s k : String) (v : Int) : Cst × Bool :=
  let c : Cst := match c.scopes.get s with
    | none => ⟨c.scopes.set s .empty⟩
    | some _ => c
  let values := (c.scopes.get s).getD .empty
  match values.get k with
  | some u => if u ≠ v then (c, false) else (⟨c.scopes.set s (values.set k v)⟩, true)
  | none => (⟨c.scopes.set s (values.set k v)⟩, true)

/-- tv/constraints.go:50-52 `SetRef`. -/
def setRef (c : Cst) (r : IDRef) (v : Int) : Cst × Bool := c.set r.scope r.name v

/-- tv/constraints.go:56-64 `LookupOrCreate`: the store afterwards and the value returned, or the panic
of line 61. -/
def lookupOrCreate (c : Cst) (s k : String) (v : Int) : Res (Cst × Int) :=
  match c.lookup s k with
  | some u => .ok (c, u)
  | none =>
    match c.set s k v with
    | (c, true) => .ok (c, v)
    | (_, false) => .panic "conflicting constraint"

/-- tv/constraints.go:67-69 `LookupOrCreateRef`. -/
def lookupOrCreateRef (c : Cst) (r : IDRef) (v : Int) : Res (Cst × Int) :=
  c.lookupOrCreate r.scope r.name v

/-- tv/constraints.go:72-74 `ClearScope`: `delete(c, s)`. -/
def clearScope (c : Cst) (s : String) : Cst := ⟨⟨c.scopes.entries.filter (fun e => e.1 ≠ s)⟩⟩

/-- tv/constraints.go:77-79 `ClearLocal`. -/
def clearLocal (c : Cst) : Cst := c.clearScope ""

/-- tv/constraints.go:84-88 the inner loop of `Update`: store afterwards, and no error so far. -/
def updateScope (s : String) : Cst → List (String × Int) → Cst × Bool
  | c, [] => (c, true)
  | c, (k, v) :: es =>
    match c.set s k v with
    | (c, false) => (c, false)
    | (c, true) => updateScope s c es

/-- tv/constraints.go:83-89 the outer loop of `Update`; the inner map of the `i`-th scope visited is
traversed in order number `t + 1 + i`. -/
def updateScopes (o : IterOrder) : Nat → Cst → List (String × GoMap Int) → Cst × Bool
  | _, c, [] => (c, true)
  | t, c, (s, values) :: es =>
    match updateScope s c (o.ord t values.entries) with
    | (c, false) => (c, false)
    | (c, true) => updateScopes o (t + 1) c es

/-- tv/constraints.go:82-91 `Update` of `c` with `d`, the map of maps traversed in order number `t`. -/
def update (o : IterOrder) (t : Nat) (c d : Cst) : Cst × Bool :=
  updateScopes o (t + 1) c (o.ord t d.scopes.entries)

/-- tv/constraints.go:94-100 `Clone`; an error of `Update` panics. -/
def clone (o : IterOrder) (t : Nat) (c : Cst) : Res Cst :=
  match update o t empty c with
  | (m, true) => .ok m
  | (_, false) => .panic "conflicting constraint"

/-- tv/constraints.go:104-108 `CloneGlobal`. -/
def cloneGlobal (o : IterOrder) (t : Nat) (c : Cst) : Res Cst := do
  let g ← c.clone o t
  .ok g.clearLocal

/-- tv/constraints.go:111-117 `Merge`; the two traversals are numbered from `t` and `t'`. -/
def merge (o : IterOrder) (t t' : Nat) (c other : Cst) : Res Cst := do
  let m ← c.clone o t
  match m.update o t' other with
  | (m, true) => .ok m
  | (_, false) => .err "conflicting constraint"

end Cst
end Verif.Tv
