import Verif.Spec
import Verif.GoSem
/-!
# Specification: what a trunnel format means

`Enc` relates a value to its encodings, following docs/manual.html.  It does not mention the
generator or the emitted code.  A to-the-end construct depends on what follows, so encodings are
described by the input before and the input left after.

Structs may contain themselves; the relation for structs is the least one, reached by finite nesting
depth `d`.
-/
namespace Verif.Wire
open Verif.Ast Verif.Go Verif.Spec

/-- A format: values of constants, declared contexts and structs, Go names of identifiers, and what
user code for extern structs accepts. -/
structure Fmt where
  K : String → Option Int
  contexts : String → Option Context
  structs : String → Option Struct
  nm : String → String
  ext : Ext

/-- Values of context variables: for each context, its fields. -/
abbrev Ctx := String → Fields

/-- Bytes. -/
abbrev Bytes := List UInt8

/-- Fields of a member list inside a union case. -/
def leafFields (ls : List Leaf) : List Field :=
  ls.filterMap fun
    | .field f => some f
    | _ => none

/-- Fields a member contributes to its struct; union cases contribute theirs. -/
def memberFields : Member → List Field
  | .leaf l => leafFields [l]
  | .union u => u.cases.flatMap (fun c => leafFields c.members)

/-- All fields of a struct. -/
def fieldsOf (ms : List Member) : List Field := ms.flatMap memberFields

/-- Value of an absent element or field of this base type. -/
def zeroBase : Base → Val
  | .int _ => .num 0
  | .char => .num 0
  | .struct _ => .nil

/-- Value of an absent field of this type. -/
def zeroTy (Γ : Fmt) : Ty → Val
  | .base b => zeroBase b
  | .ptr => .num 0
  | .nulterm => .str []
  | .fixedArray b n => .array (List.replicate ((ival Γ.K n).getD 0).toNat (zeroBase b))
  | .varArray _ _ => .nil

/-- The number a tag or length reference denotes, in record `o`. -/
def refVal (Γ : Fmt) (ctx : Ctx) (o : Fields) (r : IDRef) : Option Int :=
  match getF (if r.scope = "" then o else ctx r.scope) (Γ.nm r.name) with
  | some (.num x) => some x
  | _ => none

/-- Relation for structs: name, value, input before, input after. -/
abbrev SRel := String → Val → Bytes → Bytes → Prop

/-- Integers are big-endian and satisfy their constraint; `char` is one byte. -/
def EncBase (Γ : Fmt) (P : SRel) : Base → Val → Bytes → Bytes → Prop
  | .int t, v, i, r => ∃ bs, i = bs ++ r ∧ bs.length = t.size / 8 ∧ v = .num (beNat bs) ∧
      ∀ l, t.constraint = some l → listHas Γ.K l (beNat bs) = true
  | .char, v, i, r => ∃ b : UInt8, i = b :: r ∧ v = .num b.toNat
  | .struct n, v, i, r => P n v i r

/-- Elements one after the other. -/
def EncList (Γ : Fmt) (P : SRel) (b : Base) : List Val → Bytes → Bytes → Prop
  | [], i, r => i = r
  | v :: vs, i, r => ∃ m, EncBase Γ P b v i m ∧ EncList Γ P b vs m r

/-- Elements up to the end of the input: another element as long as input remains. -/
def EncRem (Γ : Fmt) (P : SRel) (b : Base) : List Val → Bytes → Prop
  | [], i => i = []
  | v :: vs, i => i ≠ [] ∧ ∃ m, EncBase Γ P b v i m ∧ EncRem Γ P b vs m

/-- `win` is the part of `i` a length constraint delimits, `r` what follows it. -/
def Window (Γ : Fmt) (ctx : Ctx) (o : Fields) (c : LengthConstraint) (i win r : Bytes) : Prop :=
  i = win ++ r ∧
  match c with
  | .leftover k => ival Γ.K k = some (r.length : Int)
  | .idRef ref => refVal Γ ctx o ref = some (win.length : Int)

/-- Encoding of a field type. `D` is the length of the struct's whole input; a `@ptr` records the
distance from its start, computed as that length less what is left. -/
def EncTy (Γ : Fmt) (P : SRel) (ctx : Ctx) (D : Nat) (o : Fields) : Ty → Val → Bytes → Bytes → Prop
  | .base b, v, i, r => EncBase Γ P b v i r
  | .ptr, v, i, r => r = i ∧ v = .num ((D : Int) - i.length)
  | .nulterm, v, i, r => ∃ s, v = .str s ∧ (0 : UInt8) ∉ s ∧ i = s ++ 0 :: r
  | .fixedArray b n, v, i, r => ∃ vs, v = .array vs ∧ ival Γ.K n = some (vs.length : Int) ∧
      EncList Γ P b vs i r
  | .varArray b (some (.idRef ref)), v, i, r => ∃ vs, v = .slice vs ∧
      refVal Γ ctx o ref = some (vs.length : Int) ∧ EncList Γ P b vs i r
  | .varArray b (some (.leftover k)), v, i, r => ∃ vs win, v = .slice vs ∧
      Window Γ ctx o (.leftover k) i win r ∧ EncRem Γ P b vs win
  | .varArray b none, v, i, r => ∃ vs, v = .slice vs ∧ EncRem Γ P b vs i ∧ r = []

/-- Encoding of a member of a union case, or an ordinary member, of record `o`. -/
def EncLeaf (Γ : Fmt) (P : SRel) (ctx : Ctx) (D : Nat) (o : Fields) : Leaf → Bytes → Bytes → Prop
  | .field f, i, r => ∃ v, getF o (Γ.nm f.name) = some v ∧ EncTy Γ P ctx D o f.type v i r
  | .eos, i, r => i = [] ∧ r = []
  | .ignore, _, r => r = []
  | .fail, _, _ => False

/-- Members one after the other. -/
def EncLeaves (Γ : Fmt) (P : SRel) (ctx : Ctx) (D : Nat) (o : Fields) :
    List Leaf → Bytes → Bytes → Prop
  | [], i, r => i = r
  | l :: ls, i, r => ∃ m, EncLeaf Γ P ctx D o l i m ∧ EncLeaves Γ P ctx D o ls m r

/-- The members of the case the tag selects; fields of the other cases are absent. With no matching
case and no default there is nothing. -/
def EncCases (Γ : Fmt) (P : SRel) (ctx : Ctx) (D : Nat) (o : Fields) (u : UnionMember)
    (i r : Bytes) : Prop :=
  ∃ x, refVal Γ ctx o u.tag = some x ∧
    (match selectCase Γ.K u.cases x with
     | some c => EncLeaves Γ P ctx D o c.members i r
     | none => i = r) ∧
    ∀ c ∈ u.cases, some c ≠ selectCase Γ.K u.cases x → ∀ f ∈ leafFields c.members,
      getF o (Γ.nm f.name) = some (zeroTy Γ f.type)

/-- Encoding of a struct member. A union with a length fills exactly its window. -/
def EncMember (Γ : Fmt) (P : SRel) (ctx : Ctx) (D : Nat) (o : Fields) : Member → Bytes → Bytes → Prop
  | .leaf l, i, r => EncLeaf Γ P ctx D o l i r
  | .union u, i, r =>
    match u.length with
    | none => EncCases Γ P ctx D o u i r
    | some c => ∃ win, Window Γ ctx o c i win r ∧ EncCases Γ P ctx D o u win []

/-- Members one after the other. -/
def EncMembers (Γ : Fmt) (P : SRel) (ctx : Ctx) (D : Nat) (o : Fields) :
    List Member → Bytes → Bytes → Prop
  | [], i, r => i = r
  | m :: ms, i, r => ∃ k, EncMember Γ P ctx D o m i k ∧ EncMembers Γ P ctx D o ms k r

/-- A record has exactly the struct's fields, in order. -/
def HasFields (Γ : Fmt) (s : Struct) (o : Fields) : Prop :=
  o.map (·.1) = (fieldsOf s.ms).map (fun f => Γ.nm f.name)

/-- Encoding of a struct, at nesting depth at most `d`. An extern struct is whatever user code
accepts. -/
def EncStruct (Γ : Fmt) (ctx : Ctx) : Nat → SRel
  | 0, _, _, _, _ => False
  | d + 1, n, v, i, r => ∃ s, Γ.structs n = some s ∧
      if s.extern then
        ∃ k, Γ.ext (Γ.nm n) (s.contexts.map (fun c => .struct (ctx c))) i = .ok (v, k) ∧ r = i.drop k
      else ∃ o, v = .obj (Γ.nm n) o ∧ HasFields Γ s o ∧
        EncMembers Γ (EncStruct Γ ctx d) ctx i.length o s.ms i r

/-- Struct `n` with value `v` encodes as the bytes of `i` up to its suffix `r`. -/
def Enc (Γ : Fmt) (ctx : Ctx) (n : String) (v : Val) (i r : Bytes) : Prop :=
  ∃ d, EncStruct Γ ctx d n v i r

end Verif.Wire
