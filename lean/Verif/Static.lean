import Verif.Decode
/-!
# Specification: well-formed formats

Conditions on trunnel source under which the emitted code is meant to work.  They are about the
source (and the Go names of its identifiers) only.  Formats violating them are accepted by the
generator too; what goes wrong there is shown by counterexamples in `Verif/Props`.
-/
namespace Verif.Wire
open Verif.Ast Verif.Go Verif.Spec

/-- Identifiers with a meaning of their own in emitted code: variables it declares, the blank
identifier, predeclared identifiers and packages it uses, and Go's keywords. -/
def reserved : List String :=
  ["cur", "data", "restore", "idx", "tmp", "err", "_",
   "len", "make", "append", "new", "nil", "string", "int", "byte", "error", "uint8", "uint16", "uint32",
   "uint64", "errors", "binary", "bytes",
   "break", "case", "chan", "const", "continue", "default", "defer", "else", "fallthrough", "for", "func",
   "go", "goto", "if", "import", "interface", "map", "package", "range", "return", "select", "struct",
   "switch", "type", "var"]

/-- The receiver name of a struct's method: the first letter of its name in lower case. -/
def firstLetter (s : Struct) : String := String.ofList (s.name.toList.take 1 |>.map Char.toLower)

/-- Sizes of integer types. -/
def SizeOK (t : IntType) : Prop := t.size = 8 ∨ t.size = 16 ∨ t.size = 32 ∨ t.size = 64

/-- Every constant in a list is declared, and the list is not empty. -/
def ListDecl (K : String → Option Int) (l : IntegerList) : Prop :=
  l.ranges ≠ [] ∧ ∀ r ∈ l.ranges, ∃ p, bounds K r = some p

/-- A constraint, if present, is a non-empty list of declared integers. -/
def ConstraintOK (t : IntType) : Prop := ∀ l, t.constraint = some l → l.ranges ≠ []

/-- Field types holding one number (of a proper width). -/
def IntLike : Ty → Prop
  | .base (.int t) => SizeOK t
  | .base .char | .ptr => True
  | _ => False

/-- An element or plain field type used in struct `s`: nested structs are declared and need only
contexts `s` has. -/
def BaseOK (Γ : Fmt) (s : Struct) : Base → Prop
  | .int t => SizeOK t ∧ ConstraintOK t
  | .char => True
  | .struct n => ∃ s', Γ.structs n = some s' ∧ ∀ c ∈ s'.contexts, c ∈ s.contexts

/-- A reference names a number field of the struct, or of a context of the struct. -/
def RefOK (Γ : Fmt) (s : Struct) (r : IDRef) : Prop :=
  if r.scope = "" then ∃ f ∈ fieldsOf s.ms, f.name = r.name ∧ IntLike f.type
  else r.scope ∈ s.contexts ∧ ∃ C, Γ.contexts r.scope = some C ∧
    ∃ f ∈ C.members, f.name = r.name ∧ IntLike f.type

/-- A size or excess denotes a non-negative 63-bit integer. -/
def NatOK (Γ : Fmt) (i : Integer) : Prop := ∃ x, ival Γ.K i = some x ∧ 0 ≤ x ∧ x < 2 ^ 63

/-- A length constraint is a proper reference or excess. -/
def LenOK (Γ : Fmt) (s : Struct) : LengthConstraint → Prop
  | .leftover k => NatOK Γ k
  | .idRef r => RefOK Γ s r

/-- A field type used in struct `s`. The last condition excludes a struct whose receiver is called
`i` (its name starts with i) and that contains a nul-terminated string. -/
def TyOK (Γ : Fmt) (s : Struct) : Ty → Prop
  | .base b => BaseOK Γ s b
  | .ptr => True
  | .fixedArray b n => BaseOK Γ s b ∧ NatOK Γ n
  | .varArray b none => BaseOK Γ s b
  | .varArray b (some c) => BaseOK Γ s b ∧ LenOK Γ s c
  | .nulterm => firstLetter s ≠ "i"

/-- A leaf member of struct `s`. -/
def LeafOK (Γ : Fmt) (s : Struct) : Leaf → Prop
  | .field f => TyOK Γ s f.type
  | _ => True

/-- A member of struct `s`. -/
def MemberOK (Γ : Fmt) (s : Struct) : Member → Prop
  | .leaf l => LeafOK Γ s l
  | .union u => RefOK Γ s u.tag ∧ (∀ c, u.length = some c → LenOK Γ s c) ∧
    ∀ c ∈ u.cases, (∀ l, c.case = some l → l.ranges ≠ []) ∧ ∀ l ∈ c.members, LeafOK Γ s l

/-- A struct is well-formed: members are, Go field names are distinct, and the receiver and context
names do not clash. -/
structure StructOK (Γ : Fmt) (s : Struct) : Prop where
  members : ∀ m ∈ s.ms, MemberOK Γ s m
  fields : ((fieldsOf s.ms).map (fun f => Γ.nm f.name)).Nodup
  recv : firstLetter s ∉ reserved
  ctxs : ∀ c ∈ s.contexts, c ∉ reserved ∧ c ≠ firstLetter s

/-- A format is well-formed: structs are filed under their names, and those defined here are
well-formed. -/
structure FmtOK (Γ : Fmt) : Prop where
  name : ∀ n s, Γ.structs n = some s → s.name = n
  structs : ∀ n s, Γ.structs n = some s → s.extern = false → StructOK Γ s

/-- Values a number field can have. -/
def NumOK : Ty → Int → Prop
  | .base (.int t), x => 0 ≤ x ∧ x < 2 ^ t.size
  | .base .char, x => 0 ≤ x ∧ x < 2 ^ 8
  | .ptr, x => 0 ≤ x ∧ x < 2 ^ 63
  | _, _ => True

/-- Context values conform to the context declarations. -/
def CtxOK (Γ : Fmt) (ctx : Ctx) : Prop :=
  ∀ c C, Γ.contexts c = some C → ∀ f ∈ C.members, IntLike f.type →
    ∃ x, getF (ctx c) (Γ.nm f.name) = some (.num x) ∧ NumOK f.type x

/-- Values of the Go type of a field, as far as it matters here. -/
def Shape (Γ : Fmt) : Ty → Val → Prop
  | .base (.int t), v => ∃ x, v = .num x ∧ NumOK (.base (.int t)) x
  | .base .char, v => ∃ x, v = .num x ∧ NumOK (.base .char) x
  | .base (.struct _), _ => True
  | .ptr, v => ∃ x, v = .num x ∧ NumOK .ptr x
  | .nulterm, _ => True
  | .fixedArray _ n, v => ∃ vs, v = .array vs ∧ ival Γ.K n = some (vs.length : Int)
  | .varArray _ _, _ => True

/-- A record has the fields of struct `s`, of their types. -/
def Typed (Γ : Fmt) (s : Struct) (o : Fields) : Prop :=
  ∀ f ∈ fieldsOf s.ms, ∃ v, getF o (Γ.nm f.name) = some v ∧ Shape Γ f.type v

/-- The last declaration with a given name. Declarations of the same name in one format agree, or all
but the last are `extern`. -/
def lastDecl {α : Type} (key : α → String) (l : List α) (n : String) : Option α :=
  l.reverse.find? (fun a => key a = n)

/-- The format described by a list of files, given the Go names of identifiers and the behaviour of
user code. -/
def fmtOf (nm : String → String) (ext : Ext) (fs : List File) : Fmt where
  K := fun n => (lastDecl (·.name) (fs.flatMap (·.constants)) n).map (·.value)
  contexts := lastDecl (·.name) (fs.flatMap (·.contexts))
  structs := lastDecl (·.name) (fs.flatMap (·.structs))
  nm := nm
  ext := ext

/-- Names of the contexts and defined structs of a file. -/
def typeNames (f : File) : List String :=
  f.contexts.map (·.name) ++ (f.structs.filter (fun s => !s.extern)).map (·.name)

/-- Files are well-formed: the structs defined are, the Go type names are distinct, and no struct left
extern shares a Go name with them. -/
structure FilesOK (nm : String → String) (ext : Ext) (fs : List File) : Prop where
  structs : ∀ n s, (fmtOf nm ext fs).structs n = some s → s.extern = false → StructOK (fmtOf nm ext fs) s
  types : (fs.flatMap (fun f => (typeNames f).map nm)).Nodup
  externs : ∀ n s, (fmtOf nm ext fs).structs n = some s → s.extern = true →
    nm n ∉ fs.flatMap (fun f => (typeNames f).map nm)

/-! ## Order of references

A reference to a field of the struct reads what was parsed before. -/

/-- Fields of the same struct a reference names. -/
def refNames (r : IDRef) : List String := if r.scope = "" then [r.name] else []

/-- Fields of the same struct a length constraint names. -/
def lenRefs : LengthConstraint → List String
  | .idRef r => refNames r
  | .leftover _ => []

/-- Fields of the same struct a field type names. -/
def tyRefs : Ty → List String
  | .varArray _ (some c) => lenRefs c
  | _ => []

/-- Fields of the same struct a leaf names. -/
def leafRefs : Leaf → List String
  | .field f => tyRefs f.type
  | _ => []

/-- Names of the fields of leaves. -/
def leafNames (ls : List Leaf) : List String := (leafFields ls).map (·.name)

/-- Names of the fields of a member. -/
def memberNames (m : Member) : List String := (memberFields m).map (·.name)

/-- Fields of the same struct a member names. -/
def memberRefs : Member → List String
  | .leaf l => leafRefs l
  | .union u => refNames u.tag ++ (match u.length with | some c => lenRefs c | none => []) ++
      u.cases.flatMap (fun c => c.members.flatMap leafRefs)

/-- No leaf names a field of its own or of a later leaf. -/
def LeavesOrd : List Leaf → Prop
  | [] => True
  | l :: ls => (∀ n ∈ leafRefs l, n ∉ leafNames (l :: ls)) ∧ LeavesOrd ls

/-- No member of the union names its own or a later field; tag and length are outside the union. -/
def MemberOrd : Member → Prop
  | .leaf l => LeavesOrd [l]
  | .union u => (∀ n ∈ refNames u.tag, n ∉ memberNames (.union u)) ∧
      (∀ c, u.length = some c → ∀ n ∈ lenRefs c, n ∉ memberNames (.union u)) ∧
      ∀ c ∈ u.cases, LeavesOrd c.members

/-- No member names a field of a later member. -/
def MembersOrd : List Member → Prop
  | [] => True
  | m :: ms => MemberOrd m ∧ (∀ n ∈ memberRefs m, ∀ m' ∈ ms, n ∉ memberNames m') ∧ MembersOrd ms

/-- In every struct, references only go back. -/
def OrdOK (Γ : Fmt) : Prop := ∀ n s, Γ.structs n = some s → s.extern = false → MembersOrd s.ms

end Verif.Wire
