/-!
# Model of `ast/types.go`

Restriction: in Go, `Member`, `Type`, `ArrayBase`, `Integer` and `LengthConstraint` are
`interface{}`.  Here they are closed inductive types listing exactly the alternatives the grammar
(`parse/trunnel.pigeon`) can build.  In particular array elements are integers, `char` or structs,
and unions do not occur inside union cases (trunnel.pigeon:356).
-/
namespace Verif.Ast

/-- ast/types.go:135-146 `Integer`, `IntegerConstRef`, `IntegerLiteral`. `int64` values are `Int`. -/
inductive Integer where
  | constRef (name : String)
  | literal (value : Int)
deriving Repr, DecidableEq

/-- ast/types.go:148-152 `IntegerRange`; `high = none` is a single integer (nil). -/
structure IntegerRange where
  low : Integer
  high : Option Integer
deriving Repr, DecidableEq

/-- ast/types.go:181-184 `IntegerList`. -/
structure IntegerList where
  ranges : List IntegerRange
deriving Repr, DecidableEq

/-- ast/types.go:202-206 `IDRef`. -/
structure IDRef where
  scope : String
  name : String
deriving Repr, DecidableEq

/-- ast/types.go:193-200 `LengthConstraint`: `Leftover` or `IDRef` (Go's nil is `Option.none`). -/
inductive LengthConstraint where
  | leftover (num : Integer)
  | idRef (r : IDRef)
deriving Repr, DecidableEq

/-- ast/types.go:74-78 `IntType`. -/
structure IntType where
  size : Nat
  constraint : Option IntegerList
deriving Repr, DecidableEq

/-- ast/types.go:80-86 `U8`. -/
def U8 : IntType := ⟨8, none⟩

/-- Element types: ast/types.go:74-78 `IntType`, 88-91 `StructRef`, 99-100 `CharType`, which are the
alternatives of `ArrayBase` (trunnel.pigeon:232-234). -/
inductive Base where
  | int (t : IntType)
  | char
  | struct (name : String)
deriving Repr, DecidableEq

/-- ast/types.go:68-115 `Type`: `IntType`, `CharType`, `StructRef` (via `base`), `Ptr`,
`NulTermString`, `FixedArrayMember`, `VarArrayMember`. -/
inductive Ty where
  | base (b : Base)
  | ptr
  | nulterm
  | fixedArray (b : Base) (size : Integer)
  | varArray (b : Base) (c : Option LengthConstraint)
deriving Repr, DecidableEq

/-- ast/types.go:51-55 `Field`. -/
structure Field where
  name : String
  type : Ty
deriving Repr, DecidableEq

/-- The members that may occur in a union case: ast/types.go:51-55 `Field`, 65-66 `EOS`,
126-130 `Fail`, `Ignore`. -/
inductive Leaf where
  | field (f : Field)
  | eos
  | ignore
  | fail
deriving Repr, DecidableEq

/-- ast/types.go:120-124 `UnionCase`; `case = none` is the default case (nil). -/
structure UnionCase where
  case : Option IntegerList
  members : List Leaf
deriving Repr, DecidableEq

/-- ast/types.go:57-63 `UnionMember`. -/
structure UnionMember where
  name : String
  tag : IDRef
  length : Option LengthConstraint
  cases : List UnionCase
deriving Repr, DecidableEq

/-- ast/types.go:48-49 `Member`. -/
inductive Member where
  | leaf (l : Leaf)
  | union (u : UnionMember)
deriving Repr, DecidableEq

/-- ast/types.go:15-19 `Constant`. -/
structure Constant where
  name : String
  value : Int
deriving Repr, DecidableEq

/-- ast/types.go:21-25 `Context`. -/
structure Context where
  name : String
  members : List Field
deriving Repr, DecidableEq

/-- ast/types.go:27-32 `Struct`; `members = none` is a nil slice (extern). -/
structure Struct where
  name : String
  contexts : List String
  members : Option (List Member)
deriving Repr, DecidableEq

/-- ast/types.go:34-37 `Struct.Extern`. -/
def Struct.extern (s : Struct) : Bool := s.members.isNone

/-- `range s.Members`: ranging over a nil slice visits nothing (used at inspect/inspect.go:264). -/
def Struct.ms (s : Struct) : List Member := s.members.getD []

/-- ast/types.go:39-43 `Pragma`. -/
structure Pragma where
  type : String
  options : List String
deriving Repr, DecidableEq

/-- ast/types.go:4-10 `File`. -/
structure File where
  constants : List Constant
  contexts : List Context
  structs : List Struct
  pragmas : List Pragma
deriving Repr, DecidableEq

end Verif.Ast
