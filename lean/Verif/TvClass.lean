import Verif.Tv
import Verif.Check
import Verif.Closed
import Verif.Term
import Mathlib.Data.List.Perm.Subperm
/-!
# Specification: formats for which test vectors are meant to be encodings

Conditions on trunnel source only.  `tv/generator.go` produces vectors for other formats too; what goes
wrong there is shown by counterexamples in `Verif/Props/TvValid.lean`.
-/
namespace Verif.Tv
open Verif Verif.Ast Verif.Go Verif.Spec Verif.Wire

/-! ## References still to be met

The generator works from the last member to the first, and a member that refers to a field of the same
struct fixes the value that field will get. -/

/-- Local names that leaves refer to and do not define before. -/
def needLeaves : List Leaf → List String
  | [] => []
  | l :: ls => leafRefs l ++ (needLeaves ls).filter (fun k => k ∉ leafNames [l])

/-- Local names a member refers to, other than fields defined before in the same union case. -/
def memberNeeds : Member → List String
  | .leaf l => leafRefs l
  | .union u => refNames u.tag ++ (match u.length with | some c => lenRefs c | none => []) ++
      u.cases.flatMap (fun c => needLeaves c.members)

/-- Local names that members refer to and do not define before. -/
def needs : List Member → List String
  | [] => []
  | m :: ms => memberNeeds m ++ (needs ms).filter (fun k => k ∉ memberNames m)

/-! ## Integers -/

/-- Upper bounds in a list have at most `n` bits. -/
def Below (K : String → Option Int) (l : IntegerList) (n : Nat) : Prop :=
  ∀ r ∈ l.ranges, ∀ p, bounds K r = some p → p.2 < 2 ^ n

/-- A list that can be drawn from: not empty, and of values of the type. -/
def ListGen (K : String → Option Int) (l : IntegerList) (n : Nat) : Prop :=
  l.ranges ≠ [] ∧ ListOK K l ∧ Below K l n

/-- An integer type whose constraint, if any, can be drawn from. -/
def IntGen (K : String → Option Int) (t : IntType) : Prop :=
  SizeOK t ∧ ∀ l, t.constraint = some l → ListGen K l t.size

/-- The number of elements of an array (drawn from 1 to 20) can be stored in a field of this type. The
field has at most 32 bits. -/
def CountTy (K : String → Option Int) : Ty → Prop
  | .base (.int t) => SizeOK t ∧ t.size ≤ 32 ∧
      ∀ l, t.constraint = some l → ∀ x ∈ List.range' 1 20, listHas K l (x : Int) = true
  | .base .char => True
  | _ => False

/-- A reference to a field that can hold the number of elements of an array. -/
def CountRef (Γ : Fmt) (s : Struct) (r : IDRef) : Prop :=
  if r.scope = "" then ∃ f ∈ fieldsOf s.ms, f.name = r.name ∧ CountTy Γ.K f.type
  else ∃ C, Γ.contexts r.scope = some C ∧ ∃ f ∈ C.members, f.name = r.name ∧ IntLike f.type ∧ Narrow f.type

/-- The length of any piece of fewer than `B` bytes can be stored in a field of this type. -/
def LenTy (B : Nat) : Ty → Prop
  | .base (.int t) => SizeOK t ∧ t.constraint = none ∧ B ≤ 2 ^ t.size
  | .base .char => B ≤ 2 ^ 8
  | _ => False

/-- A reference to a field that can hold a length. -/
def LenRef (B : Nat) (s : Struct) (r : IDRef) : Prop :=
  r.scope = "" → ∃ f ∈ fieldsOf s.ms, f.name = r.name ∧ LenTy B f.type

/-! ## Types and leaves -/

/-- An element of an array. `C` are structs whose extent does not depend on what follows, `O` structs with
one shape only. -/
def ElemGen (Γ : Fmt) (C O : String → Prop) : Base → Prop
  | .int t => IntGen Γ.K t
  | .char => True
  | .struct n => C n ∧ O n

/-- A field type, followed by members that refer to the names in `p`: a nested struct would lose them. -/
def TyGen (Γ : Fmt) (s : Struct) (C O : String → Prop) (p : List String) : Ty → Prop
  | .base (.int t) => IntGen Γ.K t
  | .base .char => True
  | .base (.struct _) => p = []
  | .ptr => True
  | .nulterm => True
  | .fixedArray b n => ElemGen Γ C O b ∧ NatOK Γ n
  | .varArray b (some (.idRef r)) => ElemGen Γ C O b ∧ CountRef Γ s r
  | .varArray _ (some (.leftover _)) => True
  | .varArray b none => ElemGen Γ C O b ∧ TyConsumes Γ (.base b)

/-- A leaf followed by members that refer to the names in `p`. -/
def LeafGen (Γ : Fmt) (s : Struct) (C O : String → Prop) (p : List String) : Leaf → Prop
  | .field f => TyGen Γ s C O p f.type
  | _ => True

/-- Leaves of a union case, followed by what refers to the names in `p`. Only the last may depend on
what follows. -/
def LeavesGen (Γ : Fmt) (s : Struct) (C O : String → Prop) (p : List String) : List Leaf → Prop
  | [] => True
  | l :: ls => (ls ≠ [] → LeafClosed C l) ∧ LeafGen Γ s C O (needLeaves ls ++ p) l ∧ LeavesGen Γ s C O p ls

/-! ## Unions -/

/-- Ranges without a common value. -/
def Apart (K : String → Option Int) (r r' : IntegerRange) : Prop :=
  ∀ p, bounds K r = some p → ∀ q, bounds K r' = some q → p.2 < q.1 ∨ q.2 < p.1

/-- Cases without a common value. -/
def CasesApart (K : String → Option Int) (cs : List UnionCase) : Prop :=
  cs.Pairwise fun c c' => ∀ l, c.case = some l → ∀ l', c'.case = some l' →
    ∀ r ∈ l.ranges, ∀ r' ∈ l'.ranges, Apart K r r'

/-- Integer lists such that every range of the first is within a range of the second. -/
def Within (K : String → Option Int) (l l' : IntegerList) : Prop :=
  ∀ r ∈ l.ranges, ∃ r' ∈ l'.ranges, ∃ p, bounds K r = some p ∧ ∃ q, bounds K r' = some q ∧ q.1 ≤ p.1 ∧ p.2 ≤ q.2

/-- The tag of a union is in a context, or a field whose values include those of the cases. The tag's
constraint is ignored when a tag is chosen, so if there is one, the cases must be within it. -/
def TagGen (Γ : Fmt) (s : Struct) (u : UnionMember) : Prop :=
  u.tag.scope = "" → ∀ f ∈ fieldsOf s.ms, f.name = u.tag.name →
    match f.type with
    | .base (.int t) => SizeOK t ∧ (∀ c ∈ u.cases, ∀ l, c.case = some l → Below Γ.K l t.size) ∧
        ∀ l, t.constraint = some l → ∀ c ∈ u.cases, c.members = [.fail] ∨
          ∃ l', c.case = some l' ∧ Within Γ.K l' l
    | _ => True

/-- A member followed by members that refer to the names in `p`. -/
def MemberGen (Γ : Fmt) (B : Nat) (s : Struct) (C O : String → Prop) (p : List String) : Member → Prop
  | .leaf l => LeafGen Γ s C O p l
  | .union u => (∀ k ∈ p, k ∉ memberNames (.union u)) ∧ TagGen Γ s u ∧
      (∀ r, u.length = some (.idRef r) → LenRef B s r) ∧ CasesApart Γ.K u.cases ∧
      (∀ c ∈ u.cases, ∀ l, c.case = some l → l.ranges ≠ [] ∧ ListOK Γ.K l) ∧
      ∀ c ∈ u.cases, c.members = [.fail] ∨ LeavesGen Γ s C O (refNames u.tag ++ p) c.members

/-- Members of a struct. Only the last may depend on what follows. -/
def MembersGen (Γ : Fmt) (B : Nat) (s : Struct) (C O : String → Prop) : List Member → Prop
  | [] => True
  | m :: ms => (ms ≠ [] → MemberClosed C m) ∧ MemberGen Γ B s C O (needs ms) m ∧ MembersGen Γ B s C O ms

/-! ## Structs -/

/-- A member with one shape only: neither a union nor `ignore`. -/
def OneMember (O : String → Prop) : Member → Prop
  | .leaf (.field f) => ∀ n, f.type = .base (.struct n) → O n
  | .leaf .ignore => False
  | .leaf _ => True
  | .union _ => False

/-- `O` are structs with one shape only. -/
def OneShape (Γ : Fmt) (O : String → Prop) : Prop :=
  ∀ n s, O n → Γ.structs n = some s → s.extern = false → ∀ m ∈ s.ms, OneMember O m

/-- A struct for which vectors of fewer than `B` bytes are meant to be encodings. -/
structure StructGen (Γ : Fmt) (B : Nat) (C O : String → Prop) (s : Struct) : Prop where
  nonempty : s.ms ≠ []
  named : ∀ f ∈ fieldsOf s.ms, f.name ≠ ""
  met : needs s.ms = []
  members : MembersGen Γ B s C O s.ms

/-- A format for which vectors of fewer than `B` bytes are meant to be encodings: `C` are structs whose
extent does not depend on what follows, `O` structs with one shape only. -/
structure FmtGen (Γ : Fmt) (B : Nat) (C O : String → Prop) : Prop where
  bound : B ≤ 2 ^ 63
  closed : Closed Γ C
  one : OneShape Γ O
  contexts : ∀ c D, Γ.contexts c = some D → ∀ f ∈ D.members, ∀ t, f.type = .base (.int t) → SizeOK t
  structs : ∀ n s, Γ.structs n = some s → s.extern = false → StructGen Γ B C O s

/-! ## What a vector records -/

/-- The field value that a recorded integer stands for: `int64` seen as `uint64`. -/
def asField (x : Int) : Int := x % 2 ^ 64

/-- Context values are as recorded: each context variable in the store has the value recorded. -/
def Meets (Γ : Fmt) (ctx : Ctx) (c : Cst) : Prop :=
  ∀ s k x, s ≠ "" → c.lookup s k = some x → getF (ctx s) (Γ.nm k) = some (.num (asField x))

/-- A selector that only drops and reorders vectors, as tv/selector.go:19 `Exhaustive` and 22-35
`RandomSampleSelector` do. -/
def Selects (E : Env) : Prop := ∀ k vs, (E.sel k vs).Subperm vs

end Verif.Tv
