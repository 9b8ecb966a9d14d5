import Verif.Constraints
/-!
# Model of `tv/generator.go`, `tv/selector.go` and the lookup part of `tv/corpus.go`

Constraint stores and byte slices are shared by reference in the Go code, and sharing is observable
(stores are updated in place, and `append` writes into spare capacity).  So stores and byte arrays
live in a heap.  All slices in this file start at offset 0 of their array, so a slice is an array and
a length.
-/
namespace Verif.Tv
open Verif Verif.Ast Verif.Inspect Verif.Intervals

/-- Errors: fault/fault.go:7 `ErrNotImplemented`, which gen/core.go:55 tells apart, and all others. -/
inductive GErr where
  | notImplemented
  | other (m : String)
deriving Repr, DecidableEq

/-- Outcome of a generator function: tv/generator.go:160 `([]Vector, error)`, a panic, or not finished
within the given number of steps. -/
inductive Out (α : Type) where
  | ok (a : α)
  | err (e : GErr)
  | panic (m : String)
  | timeout
deriving Repr, DecidableEq

/-- A byte slice (tv/generator.go:13): its array and length. The capacity is the array's size. -/
structure Slice where
  arr : Nat
  len : Nat
deriving Repr, DecidableEq

/-- tv/generator.go:12-15 `Vector`: a slice and a reference to a store. -/
structure Vec where
  data : Slice
  cst : Nat
deriving Repr, DecidableEq

/-- What generation depends on besides the files: the random source (tv/generator.go:49), map
iteration orders, how `append` grows arrays (capacity and needed size to new capacity), the selector
(tv/generator.go:48, `k` numbering its calls) and a bound on redraws of
internal/intervals/intervals.go:230. -/
structure Env where
  R : RandSrc
  order : IterOrder
  grow : Nat → Nat → Nat
  grow_ge : ∀ c n, n ≤ grow c n
  sel : Nat → List Vec → List Vec
  draws : Nat

/-- Memory, `g.constraints` (tv/generator.go:45), state of the random source, and how many map
traversals and selector calls happened. -/
structure St (E : Env) where
  maps : List Cst
  arrs : List (List UInt8)
  cur : Nat
  rnd : E.R.σ
  iter : Nat
  calls : Nat

/-- Generator actions. Methods of `generator`, tv/generator.go:43-393. -/
def TM (E : Env) (α : Type) : Type := St E → Out (α × St E)

namespace TM
variable {E : Env} {α β : Type}

/-- Sequencing: `if err != nil { return nil, err }` (tv/generator.go:128-130). -/
def bind (x : TM E α) (f : α → TM E β) : TM E β := fun st =>
  match x st with
  | .ok (a, st) => f a st
  | .err e => .err e
  | .panic m => .panic m
  | .timeout => .timeout

instance : Monad (TM E) where
  pure a := fun st => .ok (a, st)
  bind := bind

/-- A call of a function of package inspect, whose errors are never `ErrNotImplemented`
(tv/generator.go:195-198, 220-223, 241-244, 275-278). -/
def ofRes (r : Res α) : TM E α := fun st =>
  match r with
  | .ok a => .ok (a, st)
  | .err m => .err (.other m)
  | .panic m => .panic m

/-- Return an error. tv/generator.go:176,208,254,257,315. -/
def fail (e : GErr) : TM E α := fun _ => .err e

end TM

variable {E : Env}

/-! ## Memory -/

/-- The store a reference points to. tv/constraints.go:10. -/
def St.map (st : St E) (r : Nat) : Cst := st.maps.getD r .empty

/-- The bytes of a slice. `Vector.Data`, tv/generator.go:11-15. -/
def St.read (st : St E) (s : Slice) : List UInt8 := (st.arrs.getD s.arr []).take s.len

/-- `make(map…)` and friends: a new store. tv/constraints.go:13-15. -/
def newMap (c : Cst) : TM E Nat := fun st => .ok (st.maps.length, { st with maps := st.maps ++ [c] })

/-- Replace the contents of a store. tv/constraints.go:18-117. -/
def putMap (r : Nat) (c : Cst) : TM E Unit := fun st => .ok ((), { st with maps := st.maps.set r c })

/-- Read a store. tv/constraints.go:18-117. -/
def getMap (r : Nat) : TM E Cst := fun st => .ok (st.map r, st)

/-- `g.constraints` (tv/generator.go:45). -/
def getCur : TM E Nat := fun st => .ok (st.cur, st)

/-- `g.constraints = r` (tv/generator.go:144). -/
def setCur (r : Nat) : TM E Unit := fun st => .ok ((), { st with cur := r })

/-- A new slice with these bytes and no spare capacity: `make([]byte, n)` (tv/generator.go:349) and
`[]byte{}` (tv/generator.go:123). -/
def newSlice (bs : List UInt8) : TM E Slice := fun st =>
  .ok (⟨st.arrs.length, bs.length⟩, { st with arrs := st.arrs ++ [bs] })

/-- Go's `append(s, bs...)` (tv/generator.go:34, 151): in place if the capacity suffices, otherwise into
a new array. -/
def appendSlice (s : Slice) (bs : List UInt8) : TM E Slice := fun st =>
  let a := st.arrs.getD s.arr []
  let n := s.len + bs.length
  if n ≤ a.length then
    .ok (⟨s.arr, n⟩, { st with arrs := st.arrs.set s.arr (a.take s.len ++ bs ++ a.drop n) })
  else
    .ok (⟨st.arrs.length, n⟩, { st with
      arrs := st.arrs ++ [a.take s.len ++ bs ++ List.replicate (E.grow a.length n - n) 0] })

/-- Read a slice. tv/generator.go:11-15. -/
def getSlice (s : Slice) : TM E (List UInt8) := fun st => .ok (st.read s, st)

/-- Start `n` map traversals: the number of the first. The ranges over maps in tv/constraints.go:83-84. -/
def ticks (n : Nat) : TM E Nat := fun st => .ok (st.iter, { st with iter := st.iter + n })

/-- `Clone` (tv/constraints.go:94-100) of the store at `r` into a new store. -/
def cloneRef (r : Nat) : TM E Nat := do
  let c ← getMap r
  let t ← ticks (c.scopes.entries.length + 1)
  let m ← TM.ofRes (c.clone E.order t)
  newMap m

/-- `CloneGlobal` (tv/constraints.go:104-108) of the store at `r` into a new store. -/
def cloneGlobalRef (r : Nat) : TM E Nat := do
  let c ← getMap r
  let t ← ticks (c.scopes.entries.length + 1)
  let m ← TM.ofRes (c.cloneGlobal E.order t)
  newMap m

/-- `Merge` (tv/constraints.go:111-117) of the stores at `a` and `b` into a new store. -/
def mergeRef (a b : Nat) : TM E Nat := do
  let c ← getMap a
  let d ← getMap b
  let t ← ticks (c.scopes.entries.length + 1)
  let t' ← ticks (d.scopes.entries.length + 1)
  let m ← TM.ofRes (c.merge E.order t t' d)
  newMap m

/-- `LookupOrCreateRef` (tv/constraints.go:67-69) on the store at `a`. -/
def lookupOrCreateAt (a : Nat) (r : IDRef) (v : Int) : TM E Int := do
  let c ← getMap a
  let (c, x) ← TM.ofRes (c.lookupOrCreateRef r v)
  putMap a c
  pure x

/-- `ClearLocal` (tv/constraints.go:77-79) on the store at `a`. -/
def clearLocalAt (a : Nat) : TM E Unit := do
  let c ← getMap a
  putMap a c.clearLocal

/-! ## Randomness -/

/-- tv/generator.go:355-357 `randbtw`. -/
def randbtw (a b : Nat) : TM E Nat := fun st =>
  let (k, s) := E.R.intn (b - a + 1) st.rnd
  .ok (a + k, { st with rnd := s })

/-- tv/generator.go:367-371 `randread`: `n` bytes (the source never fails). -/
def randread (n : Nat) : TM E (List UInt8) := fun st =>
  let (b, s) := E.R.read n st.rnd
  .ok (b, { st with rnd := s })

/-- tv/generator.go:376 `alpha`. -/
def alpha : List UInt8 := (List.range 26).map (fun i => UInt8.ofNat (97 + i))

/-- tv/generator.go:379-381 the loop of `randnulterm`. -/
def randletters : Nat → TM E (List UInt8)
  | 0 => pure []
  | n + 1 => do
    let i ← randbtw 0 25
    let rest ← randletters n
    pure (alpha.getD i 0 :: rest)

/-- internal/intervals/intervals.go:196-220 `RandomWithGenerator` on the generator's source. -/
def randomIn (s : Set) : TM E UInt64 := fun st =>
  match s.random E.R E.draws st.rnd with
  | none => .timeout
  | some (.ok x, r) => .ok (x, { st with rnd := r })
  | some (.err m, _) => .err (.other m)
  | some (.panic m, _) => .panic m

/-- `int64(r)` for a `uint64` (tv/generator.go:225, 296). -/
def castI64 (x : UInt64) : Int := if x.toNat < 2 ^ 63 then x.toNat else (x.toNat : Int) - 2 ^ 64

/-- tv/generator.go:385-393 `intbytes`: `n` bytes, the last being `byte(x)`; `x >>= 8` is floor division. -/
def intbytesN : Nat → Int → List UInt8
  | 0, _ => []
  | n + 1, x => intbytesN n (x / 256) ++ [UInt8.ofNat (x % 256).toNat]

/-- tv/generator.go:385-393 `intbytes`. -/
def intbytes (x : Int) (bits : Nat) : List UInt8 := intbytesN (bits / 8) x

/-! ## Vectors -/

/-- tv/generator.go:341-346 `vector`. -/
def vector (bs : List UInt8) : TM E Vec := do
  let s ← newSlice bs
  let c ← getCur
  pure ⟨s, c⟩

/-- tv/generator.go:336-338 `empty`. -/
def emptyVec : TM E Vec := vector []

/-- tv/generator.go:28-38 the inner loop of `cross`. -/
def crossOne (u : Vec) : List Vec → TM E (List Vec)
  | [] => pure []
  | w :: b => do
    let m ← mergeRef u.cst w.cst
    let d ← getSlice w.data
    let s ← appendSlice u.data d
    let rest ← crossOne u b
    pure (⟨s, m⟩ :: rest)

/-- tv/generator.go:25-41 `cross`. -/
def cross : List Vec → List Vec → TM E (List Vec)
  | [], _ => pure []
  | u :: a, b => do
    let p ← crossOne u b
    let rest ← cross a b
    pure (p ++ rest)

/-- tv/generator.go:155 a call of the selector. -/
def select (vs : List Vec) : TM E (List Vec) := fun st =>
  .ok (E.sel st.calls vs, { st with calls := st.calls + 1 })

/-- tv/generator.go:150-153: each vector's data is put before `d`. -/
def appendAll (d : Slice) : List Vec → TM E (List Vec)
  | [] => pure []
  | mv :: mvs => do
    let bs ← getSlice d
    let s ← appendSlice mv.data bs
    let rest ← appendAll d mvs
    pure (⟨s, mv.cst⟩ :: rest)

/-- tv/generator.go:143-154: `act` is `g.member(ms[i])`. -/
def extendAll (act : TM E (List Vec)) : List Vec → TM E (List Vec)
  | [] => pure []
  | v :: vs => do
    setCur v.cst
    let mvs ← act
    let ext ← appendAll v.data mvs
    let rest ← extendAll act vs
    pure (ext ++ rest)

/-- tv/generator.go:139-158 `members`, given the members last to first; `f` is `g.member`. -/
def membersLoop {α : Type} (f : α → TM E (List Vec)) : List α → List Vec → TM E (List Vec)
  | [], vs => pure vs
  | m :: ms, vs => do
    let ext ← extendAll (f m) vs
    let vs ← select ext
    membersLoop f ms vs

/-- tv/generator.go:212-232 `intType`. -/
def genInt (r : Resolver) (name : String) (t : IntType) : TM E (List Vec) := do
  let c ← getCur
  let m ← getMap c
  let b ← match m.lookup "" name with
    | some x => pure (intbytes x t.size)
    | none =>
      match t.constraint with
      | some l => do
        let s ← TM.ofRes (r.intervals l)
        let x ← randomIn s
        pure (intbytes (castI64 x) t.size)
      | none => randread (t.size / 8)
  let v ← vector b
  pure [v]

/-- Nested structs: tv/generator.go:194-199, with `S` for `g.structure`. -/
def genStructRef (r : Resolver) (S : Struct → TM E (List Vec)) (n : String) : TM E (List Vec) := do
  let s ← TM.ofRes (r.structNonExtern n)
  S s

/-- tv/generator.go:180-199 `field` for the types an array element can have. -/
def genBase (r : Resolver) (S : Struct → TM E (List Vec)) (name : String) : Base → TM E (List Vec)
  | .int t => genInt r name t
  | .char => genInt r name U8
  | .struct n => genStructRef r S n

/-- tv/generator.go:260-270 the loop of `array`. -/
def arrayLoop (elem : TM E (List Vec)) : Nat → List Vec → TM E (List Vec)
  | 0, v => pure v
  | n + 1, v => do
    let w ← elem
    let v ← cross w v
    let v ← select v
    arrayLoop elem n v

/-- tv/generator.go:201-205: the argument of `array`. -/
inductive Count where
  | size (i : Integer)
  | con (c : Option LengthConstraint)

/-- tv/generator.go:238-258: the number of elements. -/
def arrayCount (r : Resolver) (iv : Vec) : Count → TM E Int
  | .size i => TM.ofRes (r.integer i)
  | .con (some (.idRef ref)) => do
    let k ← randbtw 1 20
    lookupOrCreateAt iv.cst ref k
  | .con none => do
    let k ← randbtw 1 20
    pure (k : Int)
  | .con (some (.leftover _)) => TM.fail .notImplemented

/-- tv/generator.go:234-272 `array`. -/
def genArray (r : Resolver) (S : Struct → TM E (List Vec)) (b : Base) (c : Count) :
    TM E (List Vec) := do
  let iv ← emptyVec
  let n ← arrayCount r iv c
  arrayLoop (genBase r S "" b) n.toNat [iv]

/-- tv/generator.go:375-383 `randnulterm(2, 20)`. -/
def randnulterm : TM E (List UInt8) := do
  let n ← randbtw 2 20
  let s ← randletters n
  pure (s ++ [0])

/-- tv/generator.go:180-210 `field`. -/
def genField (r : Resolver) (S : Struct → TM E (List Vec)) (f : Field) : TM E (List Vec) :=
  match f.type with
  | .base b => genBase r S f.name b
  | .ptr => do
    let v ← emptyVec
    pure [v]
  | .nulterm => do
    let s ← randnulterm
    let v ← vector s
    pure [v]
  | .fixedArray b n => genArray r S b (.size n)
  | .varArray b c => genArray r S b (.con c)

/-- tv/generator.go:160-178 `member`, for all but unions. -/
def genLeaf (r : Resolver) (S : Struct → TM E (List Vec)) : Leaf → TM E (List Vec)
  | .field f => genField r S f
  | .ignore => do
    let v ← emptyVec
    let n ← randbtw 1 7
    let b ← randread n
    let w ← vector b
    pure [v, w]
  | .fail => pure []
  | .eos => do
    let v ← emptyVec
    pure [v]

/-- tv/generator.go:318-330 the loop of `lenconstrain`. -/
def lenLoop (ref : IDRef) : List Vec → TM E (List Vec)
  | [] => pure []
  | v :: vs => do
    let cst ← cloneRef v.cst
    let m ← lookupOrCreateAt cst ref v.data.len
    let rest ← lenLoop ref vs
    pure (if m ≠ v.data.len then rest else ⟨v.data, cst⟩ :: rest)

/-- tv/generator.go:312-333 `lenconstrain`. -/
def lenconstrain (c : LengthConstraint) (vs : List Vec) : TM E (List Vec) :=
  match c with
  | .idRef ref => lenLoop ref vs
  | .leftover _ => TM.fail .notImplemented

/-- tv/generator.go:294-302 the loop of `union`; the arguments of `LookupOrCreateRef` (line 296) are
evaluated before the call, so a value is always drawn. -/
def branchesLoop (r : Resolver) (S : Struct → TM E (List Vec)) (tag : IDRef) (base : Nat) :
    List Branch → TM E (List Vec)
  | [] => pure []
  | b :: bs => do
    let c ← cloneRef base
    setCur c
    let x ← randomIn b.set
    let _ ← lookupOrCreateAt c tag (castI64 x)
    let v ← emptyVec
    let vs ← membersLoop (genLeaf r S) b.case.members.reverse [v]
    let rest ← branchesLoop r S tag base bs
    pure (vs ++ rest)

/-- tv/generator.go:280-289: the branches to visit, `none` if the tag's value selects nothing. -/
def branchOptions (bs : List Branch) : Option Int → Option (List Branch)
  | none => some bs
  | some t =>
    match lookupBranch bs t with
    | none => none
    | some b => some [b]

/-- tv/generator.go:274-310 `union` in struct `s`. -/
def genUnion (r : Resolver) (S : Struct → TM E (List Vec)) (s : Struct) (u : UnionMember) :
    TM E (List Vec) := do
  let bs ← TM.ofRes (newBranches r s u)
  let c ← getCur
  let m ← getMap c
  match branchOptions bs (m.lookupRef u.tag) with
  | none => pure []
  | some opts => do
    let base ← cloneRef c
    let results ← branchesLoop r S u.tag base opts
    match u.length with
    | some c => lenconstrain c results
    | none => pure results

/-- tv/generator.go:160-178 `member` in struct `s`. -/
def genMember (r : Resolver) (S : Struct → TM E (List Vec)) (s : Struct) : Member → TM E (List Vec)
  | .leaf l => genLeaf r S l
  | .union u => genUnion r S s u

/-- tv/generator.go:132-134. -/
def clearAll : List Vec → TM E Unit
  | [] => pure ()
  | v :: vs => do
    clearLocalAt v.cst
    clearAll vs

/-- tv/generator.go:118-137 `structure`. `g.strct` is an argument of `genMember` here: it is set on
entry and restored on normal return, and nothing reads it after an error. `fuel` bounds the nesting
depth. -/
def structure_ (r : Resolver) : Nat → Struct → TM E (List Vec)
  | 0, _ => fun _ => .timeout
  | fuel + 1, s => do
    let c ← getCur
    let g ← cloneGlobalRef c
    let d ← newSlice []
    let vs ← membersLoop (genMember r (structure_ r fuel) s) s.ms.reverse [⟨d, g⟩]
    let c ← getCur
    clearLocalAt c
    clearAll vs
    pure vs

/-- tv/corpus.go:18-21 `Suite`, by reference. -/
structure SuiteRef where
  type : String
  vectors : List Vec

/-- tv/generator.go:98-113 the loops of `files`, over the structs of all files. -/
def suites (r : Resolver) (fuel : Nat) : List Struct → TM E (List SuiteRef)
  | [] => pure []
  | s :: ss =>
    if s.extern then suites r fuel ss
    else do
      let c ← newMap .empty
      setCur c
      let vs ← structure_ r fuel s
      let rest ← suites r fuel ss
      pure (⟨s.name, vs⟩ :: rest)

/-- A vector as the caller of `GenerateFiles` sees it (tv/generator.go:12-15). -/
structure Vector where
  data : List UInt8
  cst : Cst
deriving Repr, DecidableEq

/-- tv/corpus.go:18-21 `Suite`. -/
structure Suite where
  type : String
  vectors : List Vector
deriving Repr, DecidableEq

/-- tv/corpus.go:13-15 `Corpus`. -/
abbrev Corpus := List Suite

/-- Read a vector from memory. tv/generator.go:11-15. -/
def St.vector (st : St E) (v : Vec) : Vector := ⟨st.read v.data, st.map v.cst⟩

/-- The state `GenerateFiles` starts from (tv/generator.go:59-62). -/
def St.init (s : E.R.σ) : St E := ⟨[], [], 0, s, 0, 0⟩

/-- tv/generator.go:58-67, 91-116 `GenerateFiles`; the corpus is read from memory at the end. -/
def generateFiles (E : Env) (fuel : Nat) (seed : E.R.σ) (fs : List File) : Out Corpus :=
  match newResolverFiles E.order fs with
  | .err m => .err (.other m)
  | .panic m => .panic m
  | .ok r =>
    match suites (E := E) r fuel (fs.flatMap (·.structs)) (St.init seed) with
    | .ok (ss, st) => .ok (ss.map fun s => ⟨s.type, s.vectors.map st.vector⟩)
    | .err e => .err e
    | .panic m => .panic m
    | .timeout => .timeout

/-! ## Selectors -/

/-- tv/selector.go:19 `Exhaustive`. -/
def exhaustive {α : Type} (vs : List α) : List α := vs

/-- tv/selector.go:22-35 `RandomSampleSelector`, with `perm m` the result of `rand.Perm(m)` (a
permutation of `0, …, m-1`). An index out of range would panic; `none` stands for that. -/
def randomSample {α : Type} (n : Nat) (perm : Nat → List Nat) (vs : List α) : Option (List α) :=
  let m := vs.length
  if m ≤ n then some vs
  else
    let pi := perm m
    (List.range n).mapM fun i => do vs[← pi[i]?]?

/-! ## Corpus -/

/-- tv/corpus.go:24-26 `AddSuite`. -/
def addSuite (c : Corpus) (s : Suite) : Corpus := c ++ [s]

/-- tv/corpus.go:30-35 `AddVectors`. -/
def addVectors (c : Corpus) (n : String) (vs : List Vector) : Corpus := addSuite c ⟨n, vs⟩

/-- tv/corpus.go:38-45 `Vectors`; `none` is nil. -/
def corpusVectors : Corpus → String → Option (List Vector)
  | [], _ => none
  | s :: ss, n => if s.type = n then some s.vectors else corpusVectors ss n

end Verif.Tv
