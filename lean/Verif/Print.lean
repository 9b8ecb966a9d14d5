import Verif.Syntax
/-!
# Well-formed files and how to write them out

A specification that does not mention the parser: the structural rules of the language, as conditions on a file
(`GoodFile`), and a printer (`printFile`). Neither exists in the Go code.
-/
namespace Verif.Syntax
open Verif.Ast

/-! ## The structural rules -/

/-- Literals fit a signed 64-bit integer and are not negative. -/
def GoodInteger : Integer → Prop
  | .literal v => 0 ≤ v ∧ v < 2 ^ 63
  | .constRef n => IsConst n

/-- Both ends of a range. -/
def GoodRange (r : IntegerRange) : Prop := GoodInteger r.low ∧ ∀ h, r.high = some h → GoodInteger h

/-- Lists of ranges are not empty. -/
def GoodList (l : IntegerList) : Prop := l.ranges ≠ [] ∧ ∀ r ∈ l.ranges, GoodRange r

/-- A name, or a name in a context. -/
def GoodRef (r : IDRef) : Prop := (r.scope = "" ∨ IsIdent r.scope) ∧ IsIdent r.name

/-- The length of an array or a union. -/
def GoodLength : LengthConstraint → Prop
  | .leftover i => GoodInteger i
  | .idRef r => GoodRef r

/-- The sizes of integers. -/
def GoodSize (n : Nat) : Prop := n = 8 ∨ n = 16 ∨ n = 32 ∨ n = 64

/-- The element types of arrays: integers have no constraint here. -/
def GoodElem : Base → Prop
  | .int t => GoodSize t.size ∧ t.constraint = none
  | .char => True
  | .struct n => IsIdent n

/-- The types a field may have anywhere in a struct or a union. -/
def PlainType : Ty → Prop
  | .base (.int t) => GoodSize t.size ∧ ∀ l, t.constraint = some l → GoodList l
  | .base .char => False
  | .base (.struct n) => IsIdent n
  | .ptr => False
  | .nulterm => True
  | .fixedArray b k => GoodElem b ∧ GoodInteger k
  | .varArray b (some l) => GoodElem b ∧ GoodLength l ∧ ¬ likeConst l
  | .varArray _ none => False

/-- The fields allowed anywhere in a struct or a union. -/
def PlainField (f : Field) : Prop := IsIdent f.name ∧ PlainType f.type

/-- A member allowed anywhere in a union case. -/
def Plain (l : Leaf) : Prop := ∃ f, l = .field f ∧ PlainField f

/-- An array that extends to the end. -/
def IsRest (l : Leaf) : Prop := ∃ n b, l = .field ⟨n, .varArray b none⟩ ∧ IsIdent n ∧ GoodElem b

/-- The members of a union case: `fail` is alone; `...`, `ignore` and arrays that extend to the end come last. -/
def GoodCase (ms : List Leaf) : Prop :=
  ms = [.fail] ∨
    ∃ fs last, ms = fs ++ last ∧ (∀ l ∈ fs, Plain l) ∧ (last = [] ∨ last = [.ignore] ∨ ∃ r, last = [r] ∧ IsRest r)

/-- Unions. -/
def GoodUnion (u : UnionMember) : Prop :=
  IsIdent u.name ∧ GoodRef u.tag ∧ (∀ l, u.length = some l → GoodLength l) ∧
    ∀ c ∈ u.cases, (∀ l, c.case = some l → GoodList l) ∧ GoodCase c.members

/-- A member allowed anywhere in a struct. -/
def GoodMember : Member → Prop
  | .leaf l => Plain l ∨ ∃ n, l = .field ⟨n, .ptr⟩ ∧ IsIdent n
  | .union u => GoodUnion u

/-- The members of a struct: `eos` and arrays that extend to the end come last. -/
def GoodMembers (ms : List Member) : Prop :=
  ∃ init last, ms = init ++ last ∧ (∀ m ∈ init, GoodMember m) ∧
    (last = [] ∨ last = [.leaf .eos] ∨ ∃ r, last = [.leaf r] ∧ IsRest r)

/-- Structs, extern or not. -/
def GoodStruct (s : Struct) : Prop :=
  IsIdent s.name ∧ (∀ c ∈ s.contexts, IsIdent c) ∧ ∀ ms, s.members = some ms → GoodMembers ms

/-- Contexts contain integers without constraint only. -/
def GoodContext (c : Context) : Prop :=
  IsIdent c.name ∧ ∀ f ∈ c.members, IsIdent f.name ∧ ∃ n, GoodSize n ∧ f.type = .base (.int ⟨n, none⟩)

/-- Constants. -/
def GoodConstant (c : Constant) : Prop := IsConst c.name ∧ 0 ≤ c.value ∧ c.value < 2 ^ 63

/-- Pragmas have at least one option. -/
def GoodPragma (p : Pragma) : Prop := IsIdent p.type ∧ p.options ≠ [] ∧ ∀ o ∈ p.options, IsIdent o

/-- The structural rules. -/
def GoodFile (f : File) : Prop :=
  (∀ c ∈ f.constants, GoodConstant c) ∧ (∀ c ∈ f.contexts, GoodContext c) ∧ (∀ s ∈ f.structs, GoodStruct s) ∧
    ∀ p ∈ f.pragmas, GoodPragma p

/-! ## A printer -/

/-- One string after the other. -/
def concat : List String → String
  | [] => ""
  | a :: as => a ++ concat as

/-- The rest of a list separated by commas. -/
def commaTail : List String → String
  | [] => ""
  | a :: as => ", " ++ (a ++ commaTail as)

/-- A list separated by commas. -/
def commaJoin : List String → String
  | [] => ""
  | a :: as => a ++ commaTail as

/-- Literals are written in decimal. -/
def printInteger : Integer → String
  | .constRef n => n
  | .literal v => v.toNat.repr

/-- Ranges. -/
def printRange (r : IntegerRange) : String :=
  printInteger r.low ++
    match r.high with
    | none => ""
    | some h => ".." ++ printInteger h

/-- Lists of ranges. -/
def printList (l : IntegerList) : String := commaJoin (l.ranges.map printRange)

/-- References. -/
def printRef (r : IDRef) : String := if r.scope = "" then r.name else r.scope ++ ("." ++ r.name)

/-- Lengths. -/
def printLength : LengthConstraint → String
  | .leftover i => "..-" ++ printInteger i
  | .idRef r => printRef r

/-- Element types. -/
def printElem : Base → String
  | .int t => "u" ++ t.size.repr
  | .char => "char"
  | .struct n => "struct " ++ n

/-- Fields. -/
def printField (f : Field) : String :=
  match f.type with
  | .base (.int t) => "u" ++ (t.size.repr ++ (" " ++ (f.name ++
      match t.constraint with
      | none => ""
      | some l => " IN [" ++ (printList l ++ "]"))))
  | .base .char => "char " ++ f.name
  | .base (.struct n) => "struct " ++ (n ++ (" " ++ f.name))
  | .ptr => "@ptr " ++ f.name
  | .nulterm => "nulterm " ++ f.name
  | .fixedArray b k => printElem b ++ (" " ++ (f.name ++ ("[" ++ (printInteger k ++ "]"))))
  | .varArray b (some l) => printElem b ++ (" " ++ (f.name ++ ("[" ++ (printLength l ++ "]"))))
  | .varArray b none => printElem b ++ (" " ++ (f.name ++ "[]"))

/-- Members other than unions. -/
def printLeaf : Leaf → String
  | .field f => printField f ++ ";\n"
  | .eos => "eos;\n"
  | .ignore => "...;\n"
  | .fail => "fail;\n"

/-- Union cases. -/
def printCase (c : UnionCase) : String :=
  (match c.case with
    | none => "default"
    | some l => printList l) ++
    (":\n" ++ if c.members = [] then ";\n" else concat (c.members.map printLeaf))

/-- Members. -/
def printMember : Member → String
  | .leaf l => printLeaf l
  | .union u => "union " ++ (u.name ++ ("[" ++ (printRef u.tag ++ ("] " ++
      ((match u.length with
        | none => ""
        | some l => "with length " ++ (printLength l ++ " ")) ++ ("{\n" ++ (concat (u.cases.map printCase) ++ "};\n")))))))

/-- The contexts of a struct. -/
def printWith : List String → String
  | [] => ""
  | l => " with context " ++ commaJoin l

/-- Structs. -/
def printStruct (s : Struct) : String :=
  match s.members with
  | none => "extern struct " ++ (s.name ++ (printWith s.contexts ++ ";\n"))
  | some ms => "struct " ++ (s.name ++ (printWith s.contexts ++ (" {\n" ++ (concat (ms.map printMember) ++ "}\n"))))

/-- Contexts. -/
def printContext (c : Context) : String :=
  "context " ++ (c.name ++ (" {\n" ++ (concat (c.members.map (fun f => printField f ++ ";\n")) ++ "}\n")))

/-- Constants. -/
def printConstant (c : Constant) : String := "const " ++ (c.name ++ (" = " ++ (c.value.toNat.repr ++ ";\n")))

/-- Pragmas. -/
def printPragma (p : Pragma) : String := "trunnel " ++ (p.type ++ (" " ++ (commaJoin p.options ++ ";\n")))

/-- Files. -/
def printFile (f : File) : String :=
  concat (f.constants.map printConstant) ++ (concat (f.contexts.map printContext) ++
    (concat (f.structs.map printStruct) ++ concat (f.pragmas.map printPragma)))

end Verif.Syntax
