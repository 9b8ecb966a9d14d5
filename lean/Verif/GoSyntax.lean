import Verif.Base
/-!
# The subset of Go emitted by `gen/decl.go`

Syntax only.  One constructor per form of text the generator prints; the cited lines are the
`printf` calls that produce it.
-/
namespace Verif.Go

/-- Types printed by `tipe` (gen/decl.go:339-358) and `error` (gen/decl.go:184).
`byte` and `uint8` are the same Go type; both spellings are kept. -/
inductive GTy where
  | string
  | uint (bits : Nat)
  | byte
  | int
  | ptr (T : String)
  | array (n : Int) (elem : GTy)
  | slice (elem : GTy)
  | error
deriving Repr, DecidableEq

/-- Expressions (gen/decl.go:122-337). `bad` stands for text that is not an expression: the empty
condition printed for an empty integer list (gen/decl.go:336). -/
inductive Expr where
  | bad
  | var (x : String)
  | field (e : Expr) (f : String)
  | index (e i : Expr)
  | lit (n : Int)
  | len (e : Expr)
  | add (a b : Expr)
  | sub (a b : Expr)
  | lt (a b : Expr)
  | le (a b : Expr)
  | gt (a b : Expr)
  | eq (a b : Expr)
  | and (a b : Expr)
  | or (a b : Expr)
  | not (a : Expr)
  | toInt (e : Expr)
  | toStr (e : Expr)
  | sliceFrom (e i : Expr)
  | sliceTo (e i : Expr)
  | indexByte0 (e : Expr)
  | beUint (bits : Nat) (e : Expr)
  | emptyBytes
  | make (elem : GTy) (n : Expr)
  | new (T : String)
  | append (a b : Expr)
  | notNil (e : Expr)
deriving Repr, DecidableEq

/-- Assignable locations: a variable, `r.F` (gen/decl.go:146) or `r.F[idx]` (gen/decl.go:224,231). -/
inductive LV where
  | var (x : String)
  | field (x f : String)
  | index (x f i : String)
deriving Repr, DecidableEq

/-- A location read as an expression. `lhs` at gen/decl.go:146,190,244. -/
def LV.expr : LV → Expr
  | .var x => .var x
  | .field x f => .field (.var x) f
  | .index x f i => .index (.field (.var x) f) (.var i)

/-- Statements. Those printed at gen/decl.go:121-316. -/
inductive Stmt where
  /-- `x := e` (gen/decl.go:122,133,170,295) -/
  | define (x : String) (e : Expr)
  /-- `var x T` (gen/decl.go:184,242) -/
  | varDecl (x : String) (t : GTy)
  /-- `l = e` -/
  | assign (l : LV) (e : Expr)
  /-- `l, m = e, f` (gen/decl.go:172) -/
  | assign2 (l m : LV) (e f : Expr)
  /-- `d, e = l.Parse(data, args...)` (gen/decl.go:190) -/
  | callParse (d e : String) (l : LV) (data : Expr) (args : List String)
  /-- `_, e := l.Parse(data, args...)` (gen/decl.go:123) -/
  | callDefine (e : String) (l : LV) (data : Expr) (args : List String)
  /-- `if c { ... }` -/
  | ifS (c : Expr) (body : List Stmt)
  /-- `{ ... }` (gen/decl.go:143,164) -/
  | block (body : List Stmt)
  /-- `for x := 0; x < n; x++ { ... }` (gen/decl.go:223,230) -/
  | forIdx (x : String) (n : Expr) (body : List Stmt)
  /-- `for c { ... }` (gen/decl.go:241) -/
  | forC (c : Expr) (body : List Stmt)
  /-- `switch { case c: ... default: ... }` (gen/decl.go:265-276) -/
  | switch (clauses : List (Option Expr × List Stmt))
  /-- `return nil, errors.New(msg)` -/
  | retNew (msg : String)
  /-- `return nil, x` (gen/decl.go:124,191) -/
  | retErr (x : String)
  /-- `return e, nil` (gen/decl.go:125,138) -/
  | ret (e : Expr)

/-- `type T struct { ... }` (gen/decl.go:63-69, 85-91). -/
structure TypeDecl where
  name : String
  fields : List (String × GTy)
deriving Repr, DecidableEq

/-- `func (recv *T) Parse(data []byte, params...) ([]byte, error) { body }` (gen/decl.go:130-140).
A parameter is a name and a type name. -/
structure Method where
  type : String
  recv : String
  params : List (String × String)
  body : List Stmt

/-- `func ParseT(data []byte, params...) (*T, error) { body }` (gen/decl.go:119-127). -/
structure Ctor where
  type : String
  params : List (String × String)
  body : List Stmt

/-- A generated file: declarations in order of emission, by kind. Printed by gen/decl.go:30-83. -/
structure Prog where
  types : List TypeDecl
  methods : List Method
  ctors : List Ctor

end Verif.Go
