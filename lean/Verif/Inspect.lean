import Verif.Ast
import Verif.Intervals
/-!
# Model of `inspect/inspect.go` and `inspect/branches.go`
-/
namespace Verif.Inspect
open Verif Verif.Ast Verif.Intervals

/-- Go `map[string]V`, as an association list with at most one entry per key (inspect.go:53-57). -/
structure GoMap (α : Type) where
  entries : List (String × α)
deriving Repr, DecidableEq

namespace GoMap
variable {α : Type}

/-- `map[string]V{}` (inspect.go:62-64). -/
def empty : GoMap α := ⟨[]⟩

/-- `v, ok := m[k]` (inspect.go:132). -/
def get (m : GoMap α) (k : String) : Option α := m.entries.lookup k

/-- Replace the entry for `k`, or append one. Assignment to a map entry, inspect/inspect.go:20,33,47,125,162,183. -/
def setList (k : String) (v : α) : List (String × α) → List (String × α)
  | [] => [(k, v)]
  | (k', v') :: es => if k = k' then (k, v) :: es else (k', v') :: setList k v es

/-- `m[k] = v` (inspect.go:125). -/
def set (m : GoMap α) (k : String) (v : α) : GoMap α := ⟨setList k v m.entries⟩

end GoMap

/-- Go's map iteration order is unspecified: an arbitrary rearrangement chosen for each traversal
(`n` distinguishes traversals). The traversals at inspect/inspect.go:90,100,110,139. -/
structure IterOrder where
  ord : Nat → {α : Type} → List α → List α
  perm : ∀ n {α : Type} (l : List α), (ord n l).Perm l

/-- The common loop of `Structs`, `Contexts` and `Constants` (inspect.go:15-21, 28-34, 42-48): fail if
the name is already present, otherwise record it. `key` and `val` pick the name and what is stored. -/
def loadMap {α β : Type} (msg : String) (key : β → String) (val : β → α) :
    GoMap α → List β → Res (GoMap α)
  | m, [] => .ok m
  | m, d :: ds =>
    match m.get (key d) with
    | some _ => .err msg
    | none => loadMap msg key val (m.set (key d) (val d)) ds

/-- inspect.go:13-23 `Structs`. -/
def structs (f : File) : Res (GoMap Struct) :=
  loadMap "duplicate struct name" (·.name) id .empty f.structs

/-- inspect.go:26-36 `Contexts`. -/
def contexts (f : File) : Res (GoMap Context) :=
  loadMap "duplicate context name" (·.name) id .empty f.contexts

/-- inspect.go:40-50 `Constants`. -/
def constants (f : File) : Res (GoMap Int) :=
  loadMap "duplicate constant name" (·.name) (·.value) .empty f.constants

/-- inspect.go:53-57 `Resolver`. -/
structure Resolver where
  structs : GoMap Struct
  contexts : GoMap Context
  constants : GoMap Int
deriving Repr, DecidableEq

/-- inspect.go:60-66 `NewResolverEmpty`. -/
def newResolverEmpty : Resolver := ⟨.empty, .empty, .empty⟩

namespace Resolver

/-- inspect.go:131-134 `Struct`. -/
def struct (r : Resolver) (n : String) : Option Struct := r.structs.get n

/-- inspect.go:167-170 `Context`. -/
def context (r : Resolver) (n : String) : Option Context := r.contexts.get n

/-- inspect.go:188-191 `Constant`. -/
def constant (r : Resolver) (n : String) : Option Int := r.constants.get n

/-- inspect.go:121-127 `AddStruct`. -/
def addStruct (r : Resolver) (s : Struct) : Res Resolver :=
  match r.struct s.name with
  | some e =>
    if !e.extern then .err "cannot override non-extern struct"
    else .ok { r with structs := r.structs.set s.name s }
  | none => .ok { r with structs := r.structs.set s.name s }

/-- inspect.go:158-164 `AddContext`. -/
def addContext (r : Resolver) (c : Context) : Res Resolver :=
  match r.context c.name with
  | some _ => .err "cannot override context"
  | none => .ok { r with contexts := r.contexts.set c.name c }

/-- inspect.go:179-185 `SetConstant`. -/
def setConstant (r : Resolver) (n : String) (v : Int) : Res Resolver :=
  match r.constants.get n with
  | some e => if e ≠ v then .err "cannot override constant"
    else .ok { r with constants := r.constants.set n v }
  | none => .ok { r with constants := r.constants.set n v }

/-- inspect.go:173-175 `AddConstant`. -/
def addConstant (r : Resolver) (c : Constant) : Res Resolver := r.setConstant c.name c.value

/-- inspect.go:90-94 the loop over the struct map's values. -/
def addStructs (r : Resolver) : List (String × Struct) → Res Resolver
  | [] => .ok r
  | (_, s) :: ss => do
    let r ← r.addStruct s
    r.addStructs ss

/-- inspect.go:100-104 the loop over the context map's values. -/
def addContexts (r : Resolver) : List (String × Context) → Res Resolver
  | [] => .ok r
  | (_, c) :: cs => do
    let r ← r.addContext c
    r.addContexts cs

/-- inspect.go:110-114 the loop over the constant map. -/
def setConstants (r : Resolver) : List (String × Int) → Res Resolver
  | [] => .ok r
  | (n, v) :: cs => do
    let r ← r.setConstant n v
    r.setConstants cs

/-- inspect.go:85-117 `AddFile`; the three `range` loops over maps use iteration orders `3k`, `3k+1`,
`3k+2`. On error the Go resolver is left partly updated but callers drop it (inspect.go:77-79). -/
def addFile (o : IterOrder) (k : Nat) (r : Resolver) (f : File) : Res Resolver := do
  let ss ← Inspect.structs f
  let r ← r.addStructs (o.ord (3 * k) ss.entries)
  let cs ← Inspect.contexts f
  let r ← r.addContexts (o.ord (3 * k + 1) cs.entries)
  let vs ← Inspect.constants f
  r.setConstants (o.ord (3 * k + 2) vs.entries)

/-- inspect.go:76-80 the loop of `NewResolverFiles`. -/
def addFiles (o : IterOrder) : Nat → Resolver → List File → Res Resolver
  | _, r, [] => .ok r
  | k, r, f :: fs => do
    let r ← r.addFile o k f
    addFiles o (k + 1) r fs

/-- inspect.go:146-155 `StructNonExtern`. -/
def structNonExtern (r : Resolver) (n : String) : Res Struct :=
  match r.struct n with
  | none => .err "struct not found"
  | some s => if s.extern then .err "struct is external" else .ok s

/-- inspect.go:194-207 `Integer`. -/
def integer (r : Resolver) : Integer → Res Int
  | .constRef n =>
    match r.constant n with
    | none => .err "constant undefined"
    | some v => .ok v
  | .literal v => .ok v

/-- `uint64(x)` for an `int64` x (inspect.go:218,225). -/
def castU64 (x : Int) : UInt64 := UInt64.ofNat (x % 2 ^ 64).toNat

/-- inspect.go:212-226 the loop of `Intervals`, one interval per range. -/
def rangeIntervals (r : Resolver) : List IntegerRange → Res (List Interval)
  | [] => .ok []
  | rng :: rest => do
    let lo ← r.integer rng.low
    let i ← match rng.high with
      | none => single (castU64 lo)
      | some h => do
        let hi ← r.integer h
        range (castU64 lo) (castU64 hi)
    let is ← rangeIntervals r rest
    .ok (i :: is)

/-- inspect.go:210-231 `Intervals`. -/
def intervals (r : Resolver) (l : IntegerList) : Res Set := do
  let is ← r.rangeIntervals l.ranges
  let b ← overlaps is
  if b then .err "overlapping intervals" else newSet is

end Resolver

/-- inspect.go:74-82 `NewResolverFiles`. -/
def newResolverFiles (o : IterOrder) (fs : List File) : Res Resolver :=
  Resolver.addFiles o 0 newResolverEmpty fs

/-- inspect.go:69-71 `NewResolver`. -/
def newResolver (o : IterOrder) (f : File) : Res Resolver := newResolverFiles o [f]

/-- inspect.go:262-270 `structFields`. -/
def structFields (s : Struct) : List Field :=
  s.ms.filterMap fun
    | .leaf (.field f) => some f
    | _ => none

/-- inspect.go:247-258 the search loop of `IntType`. -/
def findIntType (n : String) : List Field → Res IntType
  | [] => .err "could not resolve reference"
  | f :: fs =>
    if f.name ≠ n then findIntType n fs
    else match f.type with
      | .base (.int t) => .ok t
      | _ => .err "referenced field does not have integer type"

/-- inspect.go:235-259 `IntType`. -/
def Resolver.intType (r : Resolver) (ref : IDRef) (local_ : Struct) : Res IntType :=
  if ref.scope = "" then findIntType ref.name (structFields local_)
  else match r.context ref.scope with
    | none => .err "could not find context"
    | some c => findIntType ref.name c.members

/-- branches.go:9-12 `Branch`. -/
structure Branch where
  set : Set
  case : UnionCase
deriving Repr, DecidableEq

/-- branches.go:31-48 the loop of `NewBranches`. `dset` is `dflt.Set`, `dcase` is `dflt.Case`;
the returned list is what the loop appends to `b.branches`. -/
def branchLoop (r : Resolver) : (dset : Set) → (dcase : Option UnionCase) → List UnionCase →
    Res (List Branch × Set × Option UnionCase)
  | dset, dcase, [] => .ok ([], dset, dcase)
  | dset, dcase, c :: cs =>
    match c.case with
    | none => branchLoop r dset (some c) cs
    | some l => do
      let s ← r.intervals l
      let dset ← dset.subtract s
      let (bs, d) ← branchLoop r dset dcase cs
      .ok (⟨s, c⟩ :: bs, d)

/-- branches.go:20-55 `NewBranches`. -/
def newBranches (r : Resolver) (s : Struct) (u : UnionMember) : Res (List Branch) := do
  let t ← r.intType u.tag s
  let dset ← Intervals.intType t.size
  let (bs, dset, dcase) ← branchLoop r dset none u.cases
  match dcase with
  | some c => .ok (bs ++ [⟨dset, c⟩])
  | none => .ok bs

/-- branches.go:58-65 `Lookup`. -/
def lookupBranch (bs : List Branch) (x : Int) : Option Branch :=
  bs.find? (fun b => b.set.contains (Resolver.castU64 x))

end Verif.Inspect
