import Verif.Ast
/-!
# The source language

A specification of trunnel's source language that does not mention the parser: syntax trees, how a tree
is spelled, which texts are layouts of a spelling, and which file a tree denotes. It follows the grammar given in the
comments of `parse/trunnel.pigeon` (the lines starting `//  `), which describe the language of the original trunnel.
-/
namespace Verif.Syntax
open Verif.Ast

/-! ## Characters and tokens -/

/-- Letters, digits and underscore. -/
def isIdChar (c : Char) : Bool := c.isAlphanum || c = '_'

/-- Letters and underscore. -/
def isIdStart (c : Char) : Bool := c.isAlpha || c = '_'

/-- Upper case letters, digits and underscore. -/
def isConstChar (c : Char) : Bool := c.isUpper || c.isDigit || c = '_'

/-- Upper case letters and underscore. -/
def isConstStart (c : Char) : Bool := c.isUpper || c = '_'

/-- `ID`. -/
def IsIdent (n : String) : Prop := ∃ c cs, n.toList = c :: cs ∧ isIdStart c = true ∧ ∀ x ∈ cs, isIdChar x = true

/-- `CONST_ID`. -/
def IsConst (n : String) : Prop :=
  ∃ c cs, n.toList = c :: cs ∧ isConstStart c = true ∧ ∀ x ∈ cs, isConstChar x = true

/-- The value of a hexadecimal digit. -/
def digitValue (c : Char) : Nat :=
  if c.isDigit then c.toNat - 48 else if c.isLower then c.toNat - 87 else c.toNat - 55

/-- The number written by digits in some base. -/
def number (base : Nat) (ds : List Char) : Nat := ds.foldl (fun n c => n * base + digitValue c) 0

/-- Hexadecimal digits. -/
def isHexDigit (c : Char) : Bool := c.isDigit || ('a' ≤ c && c ≤ 'f') || ('A' ≤ c && c ≤ 'F')

/-- Octal digits. -/
def isOctDigit (c : Char) : Bool := '0' ≤ c && c ≤ '7'

/-- `INT`: a decimal literal without leading zero, an octal literal with one, or a hexadecimal literal; the value
fits a signed 64-bit integer. -/
inductive IsLiteral : List Char → Nat → Prop
  | zero : IsLiteral ['0'] 0
  | dec (c : Char) (ds : List Char) : c.isDigit = true → c ≠ '0' → (∀ x ∈ ds, x.isDigit = true) →
      number 10 (c :: ds) < 2 ^ 63 → IsLiteral (c :: ds) (number 10 (c :: ds))
  | oct (ds : List Char) : ds ≠ [] → (∀ x ∈ ds, isOctDigit x = true) → number 8 ds < 2 ^ 63 →
      IsLiteral ('0' :: ds) (number 8 ds)
  | hex (ds : List Char) : ds ≠ [] → (∀ x ∈ ds, isHexDigit x = true) → number 16 ds < 2 ^ 63 →
      IsLiteral ('0' :: 'x' :: ds) (number 16 ds)

/-! ## Gaps -/

/-- The text `s` starts with some white space and comments, and `s'` is what remains. A line comment ends before a
newline or at the end of the text. -/
inductive Gap : List Char → List Char → Prop
  | done (s) : Gap s s
  | white (c) (s s') : c ∈ [' ', '\t', '\r', '\n'] → Gap s s' → Gap (c :: s) s'
  | block (body s s') : ¬ ['*', '/'] <:+: body → Gap s s' → Gap ('/' :: '*' :: (body ++ '*' :: '/' :: s)) s'
  | line (body s s') : '\n' ∉ body → (s = [] ∨ ∃ t, s = '\n' :: t) → Gap s s' → Gap ('/' :: '/' :: (body ++ s)) s'

/-! ## Spellings -/

/-- What a spelling consists of. -/
inductive Piece where
  /-- Exactly this text. -/
  | tok (s : String)
  /-- An identifier; it extends as far as possible. -/
  | id (n : String)
  /-- The name of a constant. -/
  | cid (n : String)
  /-- A literal of this value. -/
  | int (v : Int)
  /-- White space and comments, possibly none. -/
  | gap
  /-- White space and comments, at least one. -/
  | gap1
  /-- A side condition. -/
  | need (p : Prop)

/-- The text `s` starts with the piece and `s'` remains. -/
def Piece.At : Piece → List Char → List Char → Prop
  | .tok t, s, s' => s = t.toList ++ s'
  | .id n, s, s' => IsIdent n ∧ s = n.toList ++ s' ∧ ∀ c t, s' = c :: t → isIdChar c = false
  | .cid n, s, s' => IsConst n ∧ s = n.toList ++ s'
  | .int v, s, s' => ∃ t n, IsLiteral t n ∧ v = n ∧ s = t ++ s'
  | .gap, s, s' => Gap s s'
  | .gap1, s, s' => Gap s s' ∧ s ≠ s'
  | .need p, s, s' => p ∧ s = s'

/-- The text `s` starts with the pieces, one after the other, and `s'` remains. -/
def Layout : List Piece → List Char → List Char → Prop
  | [], s, s' => s = s'
  | p :: ps, s, s' => ∃ s1, p.At s s1 ∧ Layout ps s1 s'

/-! ## Syntax trees -/

/-- `IntType`. -/
inductive Width where
  | w8 | w16 | w32 | w64
deriving DecidableEq, Repr

/-- Number of bits. -/
def Width.bits : Width → Nat
  | .w8 => 8
  | .w16 => 16
  | .w32 => 32
  | .w64 => 64

/-- The keyword. -/
def Width.word : Width → String
  | .w8 => "u8"
  | .w16 => "u16"
  | .w32 => "u32"
  | .w64 => "u64"

section
variable (ι : Type)

/-- A struct named, or declared in place; `ι` is the type of structs declared in place. -/
inductive Ref where
  | name (n : String)
  | decl (d : ι)

/-- `ArrayBase`. -/
inductive Elem where
  | int (w : Width)
  | char
  | ref (r : Ref ι)

/-- `SMFixedArray`, `SMVarArray`, `SMInteger`, `SMString`, `SMStruct`: the members allowed in unions as well. -/
inductive SField where
  | fixed (b : Elem ι) (n : String) (k : Integer)
  | var (b : Elem ι) (n : String) (l : LengthConstraint)
  | int (w : Width) (n : String) (c : Option IntegerList)
  | str (n : String)
  | struct (r : Ref ι) (n : String)

/-- `OptExtentSpec`: `...` or an array without length. -/
inductive Extent where
  | dots
  | rest (b : Elem ι) (n : String)

/-- `UnionFields`. -/
inductive Body where
  | empty
  | fail
  | ignore
  | fields (fs : List (SField ι)) (e : Option (Extent ι))

/-- `UnionMember`; no list of values is `default`. -/
structure SCase where
  case : Option IntegerList
  body : Body ι

/-- `StructMember`. -/
inductive SMember where
  | field (f : SField ι)
  | ptr (n : String)
  | union (n : String) (tag : IDRef) (len : Option LengthConstraint) (cases : List (SCase ι))

/-- `StructEnding`: `eos` or an array without length. -/
inductive Ending where
  | eos
  | rest (b : Elem ι) (n : String)

/-- `StructDecl`. No contexts: no `with context`. -/
structure SStruct where
  name : String
  contexts : List String
  members : List (SMember ι)
  ending : Option (Ending ι)

/-- `Declaration`; `semi` tells whether the optional semicolon is there. -/
inductive Decl where
  | const (n : String) (v : Int)
  | context (n : String) (fs : List (Width × String)) (semi : Bool)
  | struct (s : SStruct ι) (semi : Bool)
  | extern (n : String) (contexts : List String)
  | pragma (n : String) (opts : List String)

end

/-- Structs with structs declared in place up to the given depth. -/
def Tree : Nat → Type
  | 0 => Empty
  | k + 1 => SStruct (Tree k)

/-! ## The spelling of a tree -/

/-- `Integer`. -/
def integer : Integer → List Piece
  | .constRef n => [.cid n]
  | .literal v => [.int v]

/-- `IntListMember`. -/
def range (r : IntegerRange) : List Piece :=
  integer r.low ++
    match r.high with
    | none => []
    | some h => [.gap, .tok "..", .gap] ++ integer h

/-- More elements of a list separated by commas. -/
def more {α : Type} (f : α → List Piece) : List α → List Piece
  | [] => []
  | a :: as => [.gap, .tok ",", .gap] ++ f a ++ more f as

/-- A non-empty list separated by commas. -/
def commas {α : Type} (f : α → List Piece) : List α → List Piece
  | [] => [.need False]
  | a :: as => f a ++ more f as

/-- `IntList`. -/
def intList (l : IntegerList) : List Piece := commas range l.ranges

/-- `IDList`. -/
def idList (l : List String) : List Piece := commas (fun n => [.id n]) l

/-- `IDRef`; the empty string stands for no scope. -/
def idRef (r : IDRef) : List Piece := if r.scope = "" then [.id r.name] else [.id r.scope, .tok ".", .id r.name]

/-- The length of an array or union. -/
def length : LengthConstraint → List Piece
  | .leftover i => .tok "..-" :: integer i
  | .idRef r => idRef r

/-- Whether a length looks like a constant: such a length is read as the size of a fixed array. -/
def likeConst : LengthConstraint → Prop
  | .leftover _ => False
  | .idRef r => r.scope = "" ∧ IsConst r.name

/-- `OptWithContext`. -/
def withContext : List String → List Piece
  | [] => []
  | l => [.gap1, .tok "with", .gap1, .tok "context", .gap1] ++ idList l

section
variable {ι : Type} (inner : ι → List Piece)

/-- A struct named or declared in place. -/
def Ref.spell : Ref ι → List Piece
  | .name n => [.tok "struct", .gap1, .id n]
  | .decl d => inner d

/-- `ArrayBase`. -/
def Elem.spell : Elem ι → List Piece
  | .int w => [.tok w.word]
  | .char => [.tok "char"]
  | .ref r => r.spell inner

/-- An array without length. -/
def remainder (b : Elem ι) (n : String) : List Piece :=
  b.spell inner ++ [.gap1, .id n, .gap, .tok "[", .gap, .tok "]"]

/-- The members allowed in unions as well. -/
def SField.spell : SField ι → List Piece
  | .fixed b n k => b.spell inner ++ [.gap1, .id n, .gap, .tok "["] ++ integer k ++ [.tok "]"]
  | .var b n l => .need (¬ likeConst l) :: b.spell inner ++ [.gap1, .id n, .gap, .tok "["] ++ length l ++ [.tok "]"]
  | .int w n none => [.tok w.word, .gap, .id n]
  | .int w n (some l) =>
    [.tok w.word, .gap, .id n, .gap1, .tok "IN", .gap1, .tok "[", .gap] ++ intList l ++ [.gap, .tok "]"]
  | .str n => [.tok "nulterm", .gap1, .id n]
  | .struct r n => r.spell inner ++ [.gap1, .id n]

/-- `OptExtentSpec`. -/
def Extent.spell : Extent ι → List Piece
  | .dots => [.tok "...", .gap, .tok ";"]
  | .rest b n => remainder inner b n ++ [.gap, .tok ";"]

/-- Fields, each followed by a gap. -/
def fieldsSpell : List (SField ι) → List Piece
  | [] => []
  | f :: fs => f.spell inner ++ [.gap, .tok ";", .gap] ++ fieldsSpell fs

/-- `UnionFields`, followed by a gap. -/
def Body.spell : Body ι → List Piece
  | .empty => [.tok ";", .gap]
  | .fail => [.tok "fail", .gap, .tok ";", .gap]
  | .ignore => [.tok "ignore", .gap, .tok ";", .gap]
  | .fields fs e => fieldsSpell inner fs ++
      match e with
      | none => []
      | some e => e.spell inner ++ [.gap]

/-- `UnionMember`, followed by a gap. -/
def SCase.spell (c : SCase ι) : List Piece :=
  (match c.case with
    | none => [.tok "default"]
    | some l => intList l) ++ [.gap, .tok ":", .gap] ++ c.body.spell inner

/-- `UnionMembers`. -/
def casesSpell : List (SCase ι) → List Piece
  | [] => []
  | c :: cs => c.spell inner ++ casesSpell cs

/-- `StructMember`. -/
def SMember.spell : SMember ι → List Piece
  | .field f => f.spell inner
  | .ptr n => [.tok "@ptr", .gap1, .id n]
  | .union n t l cs =>
    [.tok "union", .gap1, .id n, .gap, .tok "["] ++ idRef t ++ [.tok "]", .gap] ++
      (match l with
        | none => []
        | some l => [.tok "with", .gap1, .tok "length", .gap1] ++ length l ++ [.gap]) ++
      [.tok "{", .gap] ++ casesSpell inner cs ++ [.tok "}"]

/-- Members, each followed by a gap. -/
def membersSpell : List (SMember ι) → List Piece
  | [] => []
  | m :: ms => m.spell inner ++ [.gap, .tok ";", .gap] ++ membersSpell ms

/-- `StructEnding`, followed by a gap. -/
def Ending.spell : Ending ι → List Piece
  | .eos => [.tok "eos", .gap, .tok ";", .gap]
  | .rest b n => remainder inner b n ++ [.gap, .tok ";", .gap]

/-- `StructDecl`. -/
def SStruct.spell (s : SStruct ι) : List Piece :=
  [.tok "struct", .gap1, .id s.name] ++ withContext s.contexts ++ [.gap, .tok "{", .gap] ++
    membersSpell inner s.members ++
    (match s.ending with
      | none => []
      | some e => e.spell inner) ++ [.tok "}"]

end

/-- The spelling of a struct declared in place. -/
def Tree.spell : (k : Nat) → Tree k → List Piece
  | 0, t => nomatch t
  | k + 1, t => SStruct.spell (Tree.spell k) t

/-- `ContextMembers`, each followed by a gap. -/
def contextSpell : List (Width × String) → List Piece
  | [] => []
  | (w, n) :: fs => [.tok w.word, .gap1, .id n, .gap, .tok ";", .gap] ++ contextSpell fs

/-- The optional semicolon. -/
def semicolon (semi : Bool) : List Piece := if semi then [.gap, .tok ";"] else []

/-- `Declaration`. -/
def Decl.spell {k : Nat} : Decl (Tree k) → List Piece
  | .const n v => [.tok "const", .gap1, .cid n, .gap, .tok "=", .gap, .int v, .gap, .tok ";"]
  | .context n fs semi =>
    [.tok "context", .gap1, .id n, .gap1, .tok "{", .gap] ++ contextSpell fs ++ [.tok "}"] ++ semicolon semi
  | .struct s semi => SStruct.spell (Tree.spell k) s ++ semicolon semi
  | .extern n l => [.tok "extern", .gap1, .tok "struct", .gap1, .id n] ++ withContext l ++ [.gap, .tok ";"]
  | .pragma n l => [.tok "trunnel", .gap1, .id n, .gap1] ++ idList l ++ [.gap, .tok ";"]

/-- Declarations, each followed by a gap. -/
def declsSpell {k : Nat} : List (Decl (Tree k)) → List Piece
  | [] => []
  | d :: ds => d.spell ++ [.gap] ++ declsSpell ds

/-- `File`. -/
def fileSpell {k : Nat} (ds : List (Decl (Tree k))) : List Piece := .gap :: declsSpell ds

/-- The text is a way to write the declarations. -/
def Writes {k : Nat} (ds : List (Decl (Tree k))) (s : List Char) : Prop := Layout (fileSpell ds) s []

/-! ## The meaning of a tree -/

section
variable {ι : Type} (inner : ι → Struct × List Struct)

/-- The structs a reference declares: those declared inside first. -/
def Ref.hoist : Ref ι → List Struct
  | .name _ => []
  | .decl d => (inner d).2 ++ [(inner d).1]

/-- The struct a reference names. -/
def Ref.target : Ref ι → String
  | .name n => n
  | .decl d => (inner d).1.name

/-- The structs an element type declares. -/
def Elem.hoist : Elem ι → List Struct
  | .ref r => r.hoist inner
  | _ => []

/-- The element type. -/
def Elem.base : Elem ι → Base
  | .int w => .int ⟨w.bits, none⟩
  | .char => .char
  | .ref r => .struct (r.target inner)

/-- The structs a field declares. -/
def SField.hoist : SField ι → List Struct
  | .fixed b _ _ => b.hoist inner
  | .var b _ _ => b.hoist inner
  | .struct r _ => r.hoist inner
  | _ => []

/-- The field. -/
def SField.field : SField ι → Field
  | .fixed b n k => ⟨n, .fixedArray (b.base inner) k⟩
  | .var b n l => ⟨n, .varArray (b.base inner) (some l)⟩
  | .int w n c => ⟨n, .base (.int ⟨w.bits, c⟩)⟩
  | .str n => ⟨n, .nulterm⟩
  | .struct r n => ⟨n, .base (.struct (r.target inner))⟩

/-- The structs an extent declares. -/
def Extent.hoist : Extent ι → List Struct
  | .dots => []
  | .rest b _ => b.hoist inner

/-- The last member of a union case. -/
def Extent.leaf : Extent ι → Leaf
  | .dots => .ignore
  | .rest b n => .field ⟨n, .varArray (b.base inner) none⟩

/-- The structs a union case declares. -/
def Body.hoist : Body ι → List Struct
  | .fields fs e => fs.flatMap (SField.hoist inner) ++ (e.map (Extent.hoist inner)).getD []
  | _ => []

/-- The members of a union case. -/
def Body.leaves : Body ι → List Leaf
  | .empty => []
  | .fail => [.fail]
  | .ignore => [.ignore]
  | .fields fs e => fs.map (fun f => .field (f.field inner)) ++ (e.map (Extent.leaf inner)).toList

/-- The structs a member declares. -/
def SMember.hoist : SMember ι → List Struct
  | .field f => f.hoist inner
  | .ptr _ => []
  | .union _ _ _ cs => cs.flatMap (fun c => c.body.hoist inner)

/-- The member. -/
def SMember.member : SMember ι → Member
  | .field f => .leaf (.field (f.field inner))
  | .ptr n => .leaf (.field ⟨n, .ptr⟩)
  | .union n t l cs => .union ⟨n, t, l, cs.map (fun c => ⟨c.case, c.body.leaves inner⟩)⟩

/-- The structs an ending declares. -/
def Ending.hoist : Ending ι → List Struct
  | .eos => []
  | .rest b _ => b.hoist inner

/-- The last member of a struct. -/
def Ending.member : Ending ι → Member
  | .eos => .leaf .eos
  | .rest b n => .leaf (.field ⟨n, .varArray (b.base inner) none⟩)

/-- The structs declared inside a struct. -/
def SStruct.hoist (s : SStruct ι) : List Struct :=
  s.members.flatMap (SMember.hoist inner) ++ (s.ending.map (Ending.hoist inner)).getD []

/-- The struct itself. -/
def SStruct.struct (s : SStruct ι) : Struct :=
  ⟨s.name, s.contexts, some (s.members.map (SMember.member inner) ++ (s.ending.map (Ending.member inner)).toList)⟩

end

/-- The meaning of a struct declared in place: the struct and those declared inside it. -/
def Tree.mean : (k : Nat) → Tree k → Struct × List Struct
  | 0, t => nomatch t
  | k + 1, t => (SStruct.struct (Tree.mean k) t, SStruct.hoist (Tree.mean k) t)

section
variable {k : Nat}

/-- The constant declared, if any. -/
def Decl.constant : Decl (Tree k) → List Constant
  | .const n v => [⟨n, v⟩]
  | _ => []

/-- The context declared, if any. -/
def Decl.ctx : Decl (Tree k) → List Context
  | .context n fs _ => [⟨n, fs.map (fun f => ⟨f.2, .base (.int ⟨f.1.bits, none⟩)⟩)⟩]
  | _ => []

/-- The struct declared, if any. -/
def Decl.structs : Decl (Tree k) → List Struct
  | .struct s _ => [s.struct (Tree.mean k)]
  | .extern n l => [⟨n, l, none⟩]
  | _ => []

/-- The pragma declared, if any. -/
def Decl.prag : Decl (Tree k) → List Pragma
  | .pragma n l => [⟨n, l⟩]
  | _ => []

/-- The structs declared inside. -/
def Decl.hoist : Decl (Tree k) → List Struct
  | .struct s _ => s.hoist (Tree.mean k)
  | _ => []

/-- The file a list of declarations denotes: structs declared in place come after all others. -/
def denote (ds : List (Decl (Tree k))) : File where
  constants := ds.flatMap Decl.constant
  contexts := ds.flatMap Decl.ctx
  structs := ds.flatMap Decl.structs ++ ds.flatMap Decl.hoist
  pragmas := ds.flatMap Decl.prag

end

end Verif.Syntax
