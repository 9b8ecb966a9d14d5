import Verif.Base
/-!
# Model of `internal/intervals/intervals.go`
-/
namespace Verif.Intervals
open Verif

/-- internal/intervals/intervals.go:15-18 `Interval`. -/
structure Interval where
  lo : UInt64
  hi : UInt64
deriving Repr, DecidableEq

/-- Only `Range` builds intervals outside the package, and it panics unless `l ≤ h`
(intervals.go:21-26); so `Valid` is the type's representation invariant. -/
def Interval.Valid (i : Interval) : Prop := i.lo ≤ i.hi

instance (i : Interval) : Decidable i.Valid := inferInstanceAs (Decidable (_ ≤ _))

/-- intervals.go:21-26 `Range`. -/
def range (l h : UInt64) : Res Interval :=
  if h < l then .panic "bad range" else .ok ⟨l, h⟩

/-- intervals.go:29-31 `Single`. -/
def single (x : UInt64) : Res Interval := range x x

/-- Go's `uint64(1) << n` for a `uint` count: zero once `n ≥ 64` (Go spec; Lean's own `<<<` reduces
the count modulo 64, hence the guard). internal/intervals/intervals.go:35. -/
def goShl1 (n : Nat) : UInt64 := if n < 64 then UInt64.ofNat (2 ^ n) else 0

/-- intervals.go:34-36 `Bits`. `(1<<n)-1` with wrapping subtraction. -/
def bits (n : Nat) : Res Interval := range 0 (goShl1 n - 1)

/-- `math.MaxUint64`. internal/intervals/intervals.go:45. -/
def maxU64 : UInt64 := 0xFFFFFFFFFFFFFFFF

/-- intervals.go:44-46 `OpenRight`. -/
def openRight (l : UInt64) : Res Interval := range l maxU64

/-- intervals.go:39-41 `OpenLeft`. -/
def openLeft (h : UInt64) : Res Interval := range 0 h

/-- intervals.go:49-51 `Size` (wraps to 0 for the full interval). -/
def Interval.size (i : Interval) : UInt64 := i.hi - i.lo + 1

/-- intervals.go:54-56 `Interval.Single`. -/
def Interval.isSingle (i : Interval) : Bool := i.size == 1

/-- intervals.go:59-61 `Interval.Contains`. -/
def Interval.contains (i : Interval) (x : UInt64) : Bool := i.lo ≤ x && x ≤ i.hi

/-- intervals.go:63-70 `Interval.String`. -/
def Interval.toString (i : Interval) : String :=
  if i.isSingle then s!"{i.lo.toNat}" else s!"{i.lo.toNat}-{i.hi.toNat}"

/-- intervals.go:173-176 `edge`. -/
structure Edge where
  x : UInt64
  d : Int
deriving Repr, DecidableEq

/-- intervals.go:183-186 `edges.Less`. -/
def Edge.less (a b : Edge) : Bool := a.x < b.x || (a.x == b.x && b.d < a.d)

/-- The non-strict order induced by `Less` (`a` may precede `b`). internal/intervals/intervals.go:154,183. -/
def Edge.le (a b : Edge) : Bool := !(Edge.less b a)

/-- intervals.go:140-147 `intervaledges`. -/
def intervaledges : List Interval → List Edge
  | [] => []
  | i :: is => ⟨i.lo, 1⟩ :: ⟨i.hi, -1⟩ :: intervaledges is

/-- Insertion into a sorted list (part of the sorting contract of intervals.go:154). -/
def insertEdge (e : Edge) : List Edge → List Edge
  | [] => [e]
  | f :: fs => if Edge.le e f then e :: f :: fs else f :: insertEdge e fs

/-- intervals.go:154 `sort.Sort(edges(es))`. `sort.Sort` is not stable, but `Less` is total on the
pairs `(x, d)`, so every sorted permutation is the same list (`sortEdges_unique`). -/
def sortEdges : List Edge → List Edge
  | [] => []
  | e :: es => insertEdge e (sortEdges es)

/-- intervals.go:155-170, the sweep over sorted edges. The Go loop appends to `result`; here the
produced interval is consed onto what the rest of the loop produces. -/
def sweep (thresh : Int) : List Edge → (n : Int) → (inside : Bool) → (start : UInt64) →
    Res (List Interval)
  | [], _, _, _ => .ok []
  | e :: es, n, inside, start =>
    let n := n + e.d
    if !inside && n ≥ thresh then
      sweep thresh es n true e.x
    else if inside && n < thresh then do
      let i ← range start e.x
      let rest ← sweep thresh es n false start
      .ok (i :: rest)
    else
      sweep thresh es n inside start

/-- intervals.go:149-171 `thresholds`. -/
def thresholds (thresh : Int) (intervalsets : List (List Interval)) : Res (List Interval) :=
  sweep thresh (sortEdges (intervalsets.flatMap intervaledges)) 0 false 0

/-- intervals.go:73-76 `Overlaps`. -/
def overlaps (is : List Interval) : Res Bool := do
  let r ← thresholds 2 [is]
  .ok (r.length > 0)

/-- intervals.go:80-82 `Simplify`. -/
def simplify (is : List Interval) : Res (List Interval) := thresholds 1 [is]

/-- intervals.go:85-87 `Set`. -/
structure Set where
  intervals : List Interval
deriving Repr, DecidableEq

/-- intervals.go:91-93 `NewSet`. -/
def newSet (is : List Interval) : Res Set := do
  let r ← simplify is
  .ok ⟨r⟩

/-- intervals.go:96-98 `IntType`. -/
def intType (n : Nat) : Res Set := do
  let b ← bits n
  newSet [b]

/-- intervals.go:109-116 `Set.Contains`. -/
def Set.contains (s : Set) (x : UInt64) : Bool := s.intervals.any (·.contains x)

/-- intervals.go:100-106 `Set.String`. -/
def Set.toString (s : Set) : String := ",".intercalate (s.intervals.map Interval.toString)

/-- intervals.go:125-138 `complement`, the loop from counter `s`. -/
def complementFrom : UInt64 → List Interval → Res (List Interval)
  | s, [] => if s != 0 then do
      let i ← openRight s
      .ok [i]
    else .ok []
  | s, i :: is =>
    if i.lo > s then do
      let c ← range s (i.lo - 1)
      let rest ← complementFrom (i.hi + 1) is
      .ok (c :: rest)
    else complementFrom (i.hi + 1) is

/-- intervals.go:125-138 `complement`. -/
def complement (is : List Interval) : Res (List Interval) := complementFrom 0 is

/-- intervals.go:119-121 `Set.Subtract` (returns the new value of the receiver). -/
def Set.subtract (s other : Set) : Res Set := do
  let c ← complement other.intervals
  let r ← thresholds 2 [s.intervals, c]
  .ok ⟨r⟩

/-! ## Randomness -/

/-- The part of `random.Interface` (github.com/mmcloughlin/random, same as `math/rand.Rand`) that
/repo uses: `Int63` (intervals.go:239), `Intn` (tv/generator.go:356,380), `Read`
(tv/generator.go:368). `σ` is the generator state; the laws are the documented contracts. -/
structure RandSrc where
  σ : Type
  int63 : σ → UInt64 × σ
  intn : Nat → σ → Nat × σ
  read : Nat → σ → List UInt8 × σ
  int63_lt : ∀ s, (int63 s).1.toNat < 2 ^ 63
  intn_lt : ∀ n s, 0 < n → (intn n s).1 < n
  read_length : ∀ n s, (read n s).1.length = n

/-- intervals.go:238-240 `randuint64`: two draws, left operand first. -/
def randuint64 (R : RandSrc) (s : R.σ) : UInt64 × R.σ :=
  let (a, s) := R.int63 s
  let (b, s) := R.int63 s
  ((a >>> 31) ||| (b <<< 32), s)

/-- intervals.go:225-227 the loop `for mask > n { mask >>= 1 }`; structurally bounded by 64 halvings
(`shrinkMask_le` shows the loop has then ended). -/
def shrinkMask : Nat → UInt64 → UInt64 → UInt64
  | 0, mask, _ => mask
  | k + 1, mask, n => if mask > n then shrinkMask k (mask >>> 1) n else mask

/-- intervals.go:224-228 the mask used for rejection sampling below `n`. -/
def randMask (n : UInt64) : UInt64 := (shrinkMask 64 0xFFFFFFFFFFFFFFFF n) <<< 1 ||| 1

/-- intervals.go:230-235 the rejection loop; `fuel` counts iterations, `none` = still looping. -/
def randLoop (R : RandSrc) (n mask : UInt64) : Nat → R.σ → Option (UInt64 × R.σ)
  | 0, _ => none
  | fuel + 1, s =>
    let (w, s) := randuint64 R s
    let r := w &&& mask
    if r < n then some (r, s) else randLoop R n mask fuel s

/-- intervals.go:223-236 `randuint64n`, run for at most `fuel` draws. -/
def randuint64n (R : RandSrc) (n : UInt64) (fuel : Nat) (s : R.σ) : Option (UInt64 × R.σ) :=
  randLoop R n (randMask n) fuel s

/-- intervals.go:200-203 `step`. -/
structure Step where
  upper : UInt64
  delta : UInt64
deriving Repr, DecidableEq

/-- intervals.go:204-212 the loop building `steps`. -/
def mkSteps : UInt64 → List Interval → List Step
  | _, [] => []
  | cuml, i :: is =>
    let cuml := cuml + i.size
    ⟨cuml, i.hi - cuml + 1⟩ :: mkSteps cuml is

/-- intervals.go:205-212 the final value of `cuml`. -/
def total : UInt64 → List Interval → UInt64
  | cuml, [] => cuml
  | cuml, i :: is => total (cuml + i.size) is

/-- intervals.go:214-218 the loop picking the step containing `r`. -/
def pickStep (r : UInt64) : List Step → Res UInt64
  | [] => .panic "unreachable"
  | st :: rest => if r < st.upper then .ok (r + st.delta) else pickStep r rest

/-- intervals.go:196-220 `RandomWithGenerator`, at most `fuel` draws; `none` = still looping. -/
def Set.random (R : RandSrc) (s : Set) (fuel : Nat) (st : R.σ) : Option (Res UInt64 × R.σ) :=
  if s.intervals.length == 0 then some (.panic "empty set", st)
  else
    match randuint64n R (total 0 s.intervals) fuel st with
    | none => none
    | some (r, st) => some (pickStep r (mkSteps 0 s.intervals), st)

end Verif.Intervals
