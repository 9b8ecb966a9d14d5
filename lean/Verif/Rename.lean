import Verif.GenOrder
/-!
# Names of structs, members and constants replaced by others

For C82. *Specification*: the replacement. The rest shows what the generator makes of it.
-/
namespace Verif.Rename
open Verif Verif.Ast

variable (ρ : String → String)

/-- An integer (ast/types.go:135-146) with the constant renamed. -/
def int : Integer → Integer
  | .constRef n => .constRef (ρ n)
  | .literal v => .literal v

/-- In ranges, ast/types.go:148-152. -/
def range (r : IntegerRange) : IntegerRange := ⟨int ρ r.low, r.high.map (int ρ)⟩

/-- In lists, ast/types.go:181-184. -/
def list (l : IntegerList) : IntegerList := ⟨l.ranges.map (range ρ)⟩

/-- References to fields (ast/types.go:202-206); contexts keep their names. -/
def idRef (r : IDRef) : IDRef := ⟨r.scope, ρ r.name⟩

/-- In lengths, ast/types.go:193-200. -/
def len : LengthConstraint → LengthConstraint
  | .leftover k => .leftover (int ρ k)
  | .idRef r => .idRef (idRef ρ r)

/-- In element types, ast/types.go:74-100. -/
def base : Base → Base
  | .int t => .int ⟨t.size, t.constraint.map (list ρ)⟩
  | .char => .char
  | .struct n => .struct (ρ n)

/-- In types, ast/types.go:68-115. -/
def ty : Ty → Ty
  | .base b => .base (base ρ b)
  | .ptr => .ptr
  | .nulterm => .nulterm
  | .fixedArray b n => .fixedArray (base ρ b) (int ρ n)
  | .varArray b c => .varArray (base ρ b) (c.map (len ρ))

/-- In fields, ast/types.go:51-55. -/
def field (f : Field) : Field := ⟨ρ f.name, ty ρ f.type⟩

/-- In members of union cases, ast/types.go:51-66,126-130. -/
def leaf : Leaf → Leaf
  | .field f => .field (field ρ f)
  | l => l

/-- In union cases, ast/types.go:120-124. -/
def case (c : UnionCase) : UnionCase := ⟨c.case.map (list ρ), c.members.map (leaf ρ)⟩

/-- In members, ast/types.go:48-63. -/
def member : Member → Member
  | .leaf l => .leaf (leaf ρ l)
  | .union u => .union ⟨ρ u.name, idRef ρ u.tag, u.length.map (len ρ), u.cases.map (case ρ)⟩

/-- In structs, ast/types.go:27-32; the contexts keep their names. -/
def struct (s : Struct) : Struct := ⟨ρ s.name, s.contexts, s.members.map (fun ms => ms.map (member ρ))⟩

/-- In contexts (ast/types.go:21-25), which keep their names. -/
def context (c : Context) : Context := ⟨c.name, c.members.map (field ρ)⟩

/-- In declarations of constants, ast/types.go:15-19. -/
def constant (c : Constant) : Constant := ⟨ρ c.name, c.value⟩

/-- In files, ast/types.go:4-10. -/
def file (f : File) : File :=
  ⟨f.constants.map (constant ρ), f.contexts.map (context ρ), f.structs.map (struct ρ), f.pragmas⟩

/-- The first letter of a name, in lower case. -/
def initial (n : String) : Option Char := n.toList.head?.map Char.toLower

/-- The names the generator prints as they are: those of contexts of a struct, and the initial of the struct, which is the name of the
receiver. -/
def Keeps (s : Struct) : Prop := (∀ n ∈ s.contexts, ρ n = n) ∧ initial (ρ s.name) = initial s.name

end Verif.Rename

namespace Verif.Gen
open Verif Verif.Ast Verif.Inspect Verif.Tv Verif.Go

section rename
variable {ρ : String → String} {r r' : Resolver} {nm : String → String}
  (hK : ∀ i, r'.integer (Rename.int ρ i) = r.integer i)
  (hS : ∀ n, r'.struct (ρ n) = (r.struct n).map (Rename.struct ρ))

include hK in
theorem integer_ren (i : Integer) : integer ⟨r', nm⟩ (Rename.int ρ i) = integer ⟨r, nm ∘ ρ⟩ i := by
  simp only [integer, hK]

include hK in
theorem clause_ren (v : Expr) (x : IntegerRange) : clause ⟨r', nm⟩ v (Rename.range ρ x) = clause ⟨r, nm ∘ ρ⟩ v x := by
  obtain ⟨lo, hi⟩ := x
  cases hi <;> simp only [clause, Rename.range, Option.map, integer_ren hK]

include hK in
theorem clauses_ren (v : Expr) (l : List IntegerRange) :
    clauses ⟨r', nm⟩ v (l.map (Rename.range ρ)) = clauses ⟨r, nm ∘ ρ⟩ v l := by
  induction l with
  | nil => rfl
  | cons a l ih => simp only [List.map_cons, clauses, clause_ren hK, ih]

include hK in
theorem conditional_ren (v : Expr) (l : IntegerList) :
    conditional ⟨r', nm⟩ v (Rename.list ρ l) = conditional ⟨r, nm ∘ ρ⟩ v l := by
  simp only [conditional, Rename.list, clauses_ren hK]

theorem tipeBase_ren (b : Base) : tipeBase ⟨r', nm⟩ (Rename.base ρ b) = tipeBase ⟨r, nm ∘ ρ⟩ b := by
  cases b <;> rfl

include hK in
theorem tipe_ren (t : Ty) : tipe ⟨r', nm⟩ (Rename.ty ρ t) = tipe ⟨r, nm ∘ ρ⟩ t := by
  cases t <;> simp only [Rename.ty, tipe, tipeBase_ren (r := r) (r' := r'), integer_ren hK]

theorem contextSignature_ren (l : List String) (hl : ∀ n ∈ l, ρ n = n) :
    contextSignature ⟨r', nm⟩ l = contextSignature ⟨r, nm ∘ ρ⟩ l := by
  induction l with
  | nil => rfl
  | cons a l ih =>
    have h1 := hl a List.mem_cons_self
    have h2 := ih fun n hn => hl n (List.mem_cons_of_mem _ hn)
    simp only [contextSignature, List.map_cons, Function.comp_apply, h1] at h2 ⊢
    rw [h2]

theorem ref_ren (recv : String) (x : IDRef) : Gen.ref ⟨r', nm⟩ recv (Rename.idRef ρ x) = Gen.ref ⟨r, nm ∘ ρ⟩ recv x := rfl

include hK in
theorem parseIntType_ren (lhs : LV) (t : IntType) :
    parseIntType ⟨r', nm⟩ lhs ⟨t.size, t.constraint.map (Rename.list ρ)⟩ = parseIntType ⟨r, nm ∘ ρ⟩ lhs t := by
  obtain ⟨n, c⟩ := t
  cases c <;> simp only [parseIntType, intCheck, intRead, Option.map, conditional_ren hK]

include hK hS in
theorem parseBase_ren (lhs : LV) (b : Base) : parseBase ⟨r', nm⟩ lhs (Rename.base ρ b) = parseBase ⟨r, nm ∘ ρ⟩ lhs b := by
  cases b with
  | int t => simp only [Rename.base, parseBase, parseIntType_ren hK]
  | char => exact parseIntType_ren hK lhs U8
  | struct n =>
    simp only [Rename.base, parseBase, hS]
    cases r.struct n <;> rfl

include hK in
theorem extent_ren (recv : String) (c : LengthConstraint) :
    extent ⟨r', nm⟩ recv (Rename.len ρ c) = extent ⟨r, nm ∘ ρ⟩ recv c := by
  cases c <;> simp only [Rename.len, extent, integer_ren hK, ref_ren (r := r) (r' := r')]

include hK in
theorem constrained_ren (recv : String) (c : LengthConstraint) (b : Res (List Stmt)) :
    constrained ⟨r', nm⟩ recv (Rename.len ρ c) b = constrained ⟨r, nm ∘ ρ⟩ recv c b := by
  simp only [constrained, extent_ren hK]

include hK hS in
theorem parseFixed_ren (lhs : LV) (b : Base) (n : Integer) :
    parseFixed ⟨r', nm⟩ lhs (Rename.base ρ b) (Rename.int ρ n) = parseFixed ⟨r, nm ∘ ρ⟩ lhs b n := by
  simp only [parseFixed, integer_ren hK, parseBase_ren hK hS]

include hK hS in
theorem parseRem_ren (lhs : LV) (b : Base) : parseRem ⟨r', nm⟩ lhs (Rename.base ρ b) = parseRem ⟨r, nm ∘ ρ⟩ lhs b := by
  simp only [parseRem, parseBase_ren hK hS, tipeBase_ren (r := r) (r' := r')]

include hK hS in
theorem parseVar_ren (recv : String) (lhs : LV) (b : Base) (c : Option LengthConstraint) :
    parseVar ⟨r', nm⟩ recv lhs (Rename.base ρ b) (c.map (Rename.len ρ)) = parseVar ⟨r, nm ∘ ρ⟩ recv lhs b c := by
  rcases c with _ | c
  · simp only [Option.map, parseVar, parseRem_ren hK hS]
  · cases c with
    | leftover k =>
      have := constrained_ren (nm := nm) hK recv (.leftover k) (parseRem ⟨r, nm ∘ ρ⟩ lhs b)
      simpa only [Option.map, Rename.len, parseVar, parseRem_ren hK hS] using this
    | idRef x => simp only [Option.map, Rename.len, parseVar, parseBase_ren hK hS,
        tipeBase_ren (r := r) (r' := r'), ref_ren (r := r) (r' := r')]

include hK hS in
theorem parseType_ren (recv : String) (lhs : LV) (t : Ty) :
    parseType ⟨r', nm⟩ recv lhs (Rename.ty ρ t) = parseType ⟨r, nm ∘ ρ⟩ recv lhs t := by
  cases t <;> simp only [Rename.ty, parseType, parseBase_ren hK hS, parseFixed_ren hK hS, parseVar_ren hK hS]

include hK hS in
theorem parseLeaf_ren (recv : String) (l : Leaf) :
    parseLeaf ⟨r', nm⟩ recv (Rename.leaf ρ l) = parseLeaf ⟨r, nm ∘ ρ⟩ recv l := by
  cases l <;> simp only [Rename.leaf, Rename.field, parseLeaf, parseType_ren hK hS, Function.comp_apply]

include hK hS in
theorem parseLeaves_ren (recv : String) (l : List Leaf) :
    parseLeaves ⟨r', nm⟩ recv (l.map (Rename.leaf ρ)) = parseLeaves ⟨r, nm ∘ ρ⟩ recv l := by
  induction l with
  | nil => rfl
  | cons a l ih => simp only [List.map_cons, parseLeaves, parseLeaf_ren hK hS, ih]

include hK hS in
theorem parseCases_ren (recv : String) (tag : Expr) (l : List UnionCase) :
    parseCases ⟨r', nm⟩ recv tag (l.map (Rename.case ρ)) = parseCases ⟨r, nm ∘ ρ⟩ recv tag l := by
  induction l with
  | nil => rfl
  | cons a l ih =>
    obtain ⟨c, ms⟩ := a
    cases c <;> simp only [List.map_cons, parseCases, caseHead, Rename.case, Option.map, conditional_ren hK,
      parseLeaves_ren hK hS, ih]

include hK hS in
theorem parseUnion_ren (recv : String) (u : UnionMember) :
    parseUnion ⟨r', nm⟩ recv ⟨ρ u.name, Rename.idRef ρ u.tag, u.length.map (Rename.len ρ), u.cases.map (Rename.case ρ)⟩ =
      parseUnion ⟨r, nm ∘ ρ⟩ recv u := by
  obtain ⟨n, t, c, cs⟩ := u
  cases c <;> simp only [parseUnion, parseSwitch, Option.map, parseCases_ren hK hS, constrained_ren hK,
    ref_ren (r := r) (r' := r')]

include hK hS in
theorem parseMembers_ren (recv : String) (l : List Member) :
    parseMembers ⟨r', nm⟩ recv (l.map (Rename.member ρ)) = parseMembers ⟨r, nm ∘ ρ⟩ recv l := by
  induction l with
  | nil => rfl
  | cons a l ih =>
    cases a <;> simp only [List.map_cons, Rename.member, parseMembers, parseMember, parseLeaf_ren hK hS,
      parseUnion_ren hK hS, ih]

omit hK hS in
theorem ms_ren (s : Struct) : (Rename.struct ρ s).ms = s.ms.map (Rename.member ρ) := by
  obtain ⟨n, c, m⟩ := s
  cases m <;> rfl

omit hK hS in
theorem extern_ren (s : Struct) : (Rename.struct ρ s).extern = s.extern := by
  obtain ⟨n, c, m⟩ := s
  cases m <;> rfl

include hK hS in
theorem parse_ren (recv : String) (s : Struct) (hl : ∀ n ∈ s.contexts, ρ n = n) :
    parse ⟨r', nm⟩ recv (Rename.struct ρ s) = parse ⟨r, nm ∘ ρ⟩ recv s := by
  have e : (Rename.struct ρ s).contexts = s.contexts := rfl
  simp only [parse, ms_ren, parseMembers_ren hK hS, e, contextSignature_ren (r := r) (r' := r') _ hl]
  rfl

theorem parseConstructor_ren (recv : String) (s : Struct) (hl : ∀ n ∈ s.contexts, ρ n = n) :
    parseConstructor ⟨r', nm⟩ recv (Rename.struct ρ s) = parseConstructor ⟨r, nm ∘ ρ⟩ recv s := by
  have e : (Rename.struct ρ s).contexts = s.contexts := rfl
  simp only [parseConstructor, e, contextSignature_ren (r := r) (r' := r') _ hl]
  rfl

include hK in
theorem fieldDecl_ren (f : Field) : fieldDecl ⟨r', nm⟩ (Rename.field ρ f) = fieldDecl ⟨r, nm ∘ ρ⟩ f := by
  simp only [fieldDecl, Rename.field, tipe_ren hK, Function.comp_apply]

include hK in
theorem leafDecls_ren (l : List Leaf) : leafDecls ⟨r', nm⟩ (l.map (Rename.leaf ρ)) = leafDecls ⟨r, nm ∘ ρ⟩ l := by
  induction l with
  | nil => rfl
  | cons a l ih => cases a <;> simp only [List.map_cons, Rename.leaf, leafDecls, fieldDecl_ren hK, ih]

include hK in
theorem caseDecls_ren (l : List UnionCase) : caseDecls ⟨r', nm⟩ (l.map (Rename.case ρ)) = caseDecls ⟨r, nm ∘ ρ⟩ l := by
  induction l with
  | nil => rfl
  | cons a l ih => simp only [List.map_cons, Rename.case, caseDecls, leafDecls_ren hK, ih]

include hK in
theorem structMemberDecl_ren (m : Member) :
    structMemberDecl ⟨r', nm⟩ (Rename.member ρ m) = structMemberDecl ⟨r, nm ∘ ρ⟩ m := by
  rcases m with l | u
  · cases l <;> simp only [Rename.member, Rename.leaf, structMemberDecl, fieldDecl_ren hK]
  · simp only [Rename.member, structMemberDecl, caseDecls_ren hK]

include hK in
theorem memberDecls_ren (l : List Member) :
    memberDecls ⟨r', nm⟩ (l.map (Rename.member ρ)) = memberDecls ⟨r, nm ∘ ρ⟩ l := by
  induction l with
  | nil => rfl
  | cons a l ih => simp only [List.map_cons, memberDecls, structMemberDecl_ren hK, ih]

theorem receiver_ren (s : Struct) (hi : Rename.initial (ρ s.name) = Rename.initial s.name) :
    receiver (Rename.struct ρ s) = receiver s := by
  simp only [Rename.initial] at hi
  simp only [receiver, Rename.struct]
  cases h1 : (ρ s.name).toList <;> cases h2 : s.name.toList <;> simp_all

include hK hS in
theorem structure_ren (s : Struct) (hs : Rename.Keeps ρ s) :
    structure_ ⟨r', nm⟩ (Rename.struct ρ s) = structure_ ⟨r, nm ∘ ρ⟩ s := by
  simp only [structure_, extern_ren, receiver_ren s hs.2, structDecl, ms_ren, memberDecls_ren hK, parse_ren hK hS _ s hs.1,
    parseConstructor_ren (r := r) (r' := r') _ s hs.1]
  rfl

include hK in
theorem context_ren (c : Context) (hc : ρ c.name = c.name) :
    context ⟨r', nm⟩ (Rename.context ρ c) = context ⟨r, nm ∘ ρ⟩ c := by
  have e : (c.members.map (Rename.field ρ)).map Leaf.field = (c.members.map Leaf.field).map (Rename.leaf ρ) := by
    simp only [List.map_map]; rfl
  simp only [context, Rename.context, e, leafDecls_ren hK, Function.comp_apply, hc]

include hK in
theorem fileContexts_ren (l : List Context) (hc : ∀ c ∈ l, ρ c.name = c.name) :
    fileContexts ⟨r', nm⟩ (l.map (Rename.context ρ)) = fileContexts ⟨r, nm ∘ ρ⟩ l := by
  induction l with
  | nil => rfl
  | cons a l ih =>
    simp only [List.map_cons, fileContexts, context_ren hK a (hc a List.mem_cons_self),
      ih fun c h => hc c (List.mem_cons_of_mem _ h)]

include hK hS in
theorem fileStructs_ren (l : List Struct) (hs : ∀ s ∈ l, Rename.Keeps ρ s) :
    fileStructs ⟨r', nm⟩ (l.map (Rename.struct ρ)) = fileStructs ⟨r, nm ∘ ρ⟩ l := by
  induction l with
  | nil => rfl
  | cons a l ih =>
    simp only [List.map_cons, fileStructs, structure_ren hK hS a (hs a List.mem_cons_self),
      ih fun c h => hs c (List.mem_cons_of_mem _ h)]

include hK hS in
theorem fileList_ren (l : List File) (hc : ∀ c ∈ l.flatMap (·.contexts), ρ c.name = c.name)
    (hs : ∀ s ∈ l.flatMap (·.structs), Rename.Keeps ρ s) :
    fileList ⟨r', nm⟩ (l.map (Rename.file ρ)) = fileList ⟨r, nm ∘ ρ⟩ l := by
  induction l with
  | nil => rfl
  | cons a l ih =>
    simp only [List.flatMap_cons, List.mem_append] at hc hs
    simp only [List.map_cons, fileList, file, Rename.file, fileContexts_ren hK a.contexts fun c h => hc c (.inl h),
      fileStructs_ren hK hS a.structs fun c h => hs c (.inl h), ih (fun c h => hc c (.inr h)) fun c h => hs c (.inr h)]

end rename
end Verif.Gen

namespace Verif.GenText
open Verif Verif.Ast Verif.Inspect Verif.Tv Verif.Gen

section rename
variable {ρ : String → String} {r r' : Resolver} {nm : String → String}
  (hK : ∀ i, r'.integer (Rename.int ρ i) = r.integer i)
  (hS : ∀ n, r'.struct (ρ n) = (r.struct n).map (Rename.struct ρ))

include hK in
theorem integer_ren (i : Integer) : integer ⟨r', nm⟩ (Rename.int ρ i) = integer ⟨r, nm ∘ ρ⟩ i := by
  simp only [integer, Gen.integer, hK]

include hK in
theorem clause_ren (v : Text) (x : IntegerRange) : clause ⟨r', nm⟩ v (Rename.range ρ x) = clause ⟨r, nm ∘ ρ⟩ v x := by
  obtain ⟨lo, hi⟩ := x
  cases hi <;> simp only [clause, Rename.range, Option.map, integer_ren hK]

include hK in
theorem clauses_ren (v : Text) (l : List IntegerRange) :
    clauses ⟨r', nm⟩ v (l.map (Rename.range ρ)) = clauses ⟨r, nm ∘ ρ⟩ v l := by
  induction l with
  | nil => rfl
  | cons a l ih => simp only [List.map_cons, clauses, clause_ren hK, ih]

include hK in
theorem conditional_ren (v : Text) (l : IntegerList) :
    conditional ⟨r', nm⟩ v (Rename.list ρ l) = conditional ⟨r, nm ∘ ρ⟩ v l := by
  simp only [conditional, Rename.list, clauses_ren hK]

theorem tipeBase_ren (b : Base) : tipeBase ⟨r', nm⟩ (Rename.base ρ b) = tipeBase ⟨r, nm ∘ ρ⟩ b := by
  cases b <;> rfl

include hK in
theorem tipe_ren (t : Ty) : tipe ⟨r', nm⟩ (Rename.ty ρ t) = tipe ⟨r, nm ∘ ρ⟩ t := by
  cases t <;> simp only [Rename.ty, tipe, tipeBase_ren (r := r) (r' := r'), integer_ren hK]

theorem contextSignature_ren (l : List String) (hl : ∀ n ∈ l, ρ n = n) :
    contextSignature ⟨r', nm⟩ l = contextSignature ⟨r, nm ∘ ρ⟩ l := by
  induction l with
  | nil => rfl
  | cons a l ih =>
    have h1 := hl a List.mem_cons_self
    have h2 := ih fun n hn => hl n (List.mem_cons_of_mem _ hn)
    simp only [contextSignature, List.map_cons, Function.comp_apply, h1] at h2 ⊢
    rw [h2]

theorem ref_ren (recv : String) (x : IDRef) : GenText.ref ⟨r', nm⟩ recv (Rename.idRef ρ x) = GenText.ref ⟨r, nm ∘ ρ⟩ recv x := rfl

include hK in
theorem parseIntType_ren (lhs : Text) (t : IntType) :
    parseIntType ⟨r', nm⟩ lhs ⟨t.size, t.constraint.map (Rename.list ρ)⟩ = parseIntType ⟨r, nm ∘ ρ⟩ lhs t := by
  obtain ⟨n, c⟩ := t
  cases c <;> simp only [parseIntType, intCheck, intRead, Option.map, conditional_ren hK]

include hK hS in
theorem parseBase_ren (lhs : Text) (b : Base) : parseBase ⟨r', nm⟩ lhs (Rename.base ρ b) = parseBase ⟨r, nm ∘ ρ⟩ lhs b := by
  cases b with
  | int t => simp only [Rename.base, parseBase, parseIntType_ren hK]
  | char => exact parseIntType_ren hK lhs U8
  | struct n =>
    simp only [Rename.base, parseBase, hS]
    cases r.struct n <;> rfl

include hK in
theorem extent_ren (recv : String) (c : LengthConstraint) :
    extent ⟨r', nm⟩ recv (Rename.len ρ c) = extent ⟨r, nm ∘ ρ⟩ recv c := by
  cases c <;> simp only [Rename.len, extent, integer_ren hK, ref_ren (r := r) (r' := r')]

include hK in
theorem constrained_ren (recv : String) (c : LengthConstraint) (b : Res Text) :
    constrained ⟨r', nm⟩ recv (Rename.len ρ c) b = constrained ⟨r, nm ∘ ρ⟩ recv c b := by
  simp only [constrained, extent_ren hK]

include hK hS in
theorem parseFixed_ren (lhs : Text) (b : Base) (n : Integer) :
    parseFixed ⟨r', nm⟩ lhs (Rename.base ρ b) (Rename.int ρ n) = parseFixed ⟨r, nm ∘ ρ⟩ lhs b n := by
  simp only [parseFixed, integer_ren hK, parseBase_ren hK hS]

include hK hS in
theorem parseRem_ren (lhs : Text) (b : Base) : parseRem ⟨r', nm⟩ lhs (Rename.base ρ b) = parseRem ⟨r, nm ∘ ρ⟩ lhs b := by
  simp only [parseRem, parseBase_ren hK hS, tipeBase_ren (r := r) (r' := r')]

include hK hS in
theorem parseVar_ren (recv : String) (lhs : Text) (b : Base) (c : Option LengthConstraint) :
    parseVar ⟨r', nm⟩ recv lhs (Rename.base ρ b) (c.map (Rename.len ρ)) = parseVar ⟨r, nm ∘ ρ⟩ recv lhs b c := by
  rcases c with _ | c
  · simp only [Option.map, parseVar, parseRem_ren hK hS]
  · cases c with
    | leftover k =>
      have := constrained_ren (nm := nm) hK recv (.leftover k) (parseRem ⟨r, nm ∘ ρ⟩ lhs b)
      simpa only [Option.map, Rename.len, parseVar, parseRem_ren hK hS] using this
    | idRef x => simp only [Option.map, Rename.len, parseVar, parseBase_ren hK hS,
        tipeBase_ren (r := r) (r' := r'), ref_ren (r := r) (r' := r')]

include hK hS in
theorem parseType_ren (recv : String) (lhs : Text) (t : Ty) :
    parseType ⟨r', nm⟩ recv lhs (Rename.ty ρ t) = parseType ⟨r, nm ∘ ρ⟩ recv lhs t := by
  cases t <;> simp only [Rename.ty, parseType, parseBase_ren hK hS, parseFixed_ren hK hS, parseVar_ren hK hS]

include hK hS in
theorem parseLeaf_ren (recv : String) (l : Leaf) :
    parseLeaf ⟨r', nm⟩ recv (Rename.leaf ρ l) = parseLeaf ⟨r, nm ∘ ρ⟩ recv l := by
  cases l <;> simp only [Rename.leaf, Rename.field, parseLeaf, parseType_ren hK hS, Function.comp_apply]

include hK hS in
theorem parseLeaves_ren (recv : String) (l : List Leaf) :
    parseLeaves ⟨r', nm⟩ recv (l.map (Rename.leaf ρ)) = parseLeaves ⟨r, nm ∘ ρ⟩ recv l := by
  induction l with
  | nil => rfl
  | cons a l ih => simp only [List.map_cons, parseLeaves, parseLeaf_ren hK hS, ih]

include hK hS in
theorem parseCases_ren (recv : String) (tag : Text) (l : List UnionCase) :
    parseCases ⟨r', nm⟩ recv tag (l.map (Rename.case ρ)) = parseCases ⟨r, nm ∘ ρ⟩ recv tag l := by
  induction l with
  | nil => rfl
  | cons a l ih =>
    obtain ⟨c, ms⟩ := a
    cases c <;> simp only [List.map_cons, parseCases, caseHead, Rename.case, Option.map, conditional_ren hK,
      parseLeaves_ren hK hS, ih]

include hK hS in
theorem parseUnion_ren (recv : String) (u : UnionMember) :
    parseUnion ⟨r', nm⟩ recv ⟨ρ u.name, Rename.idRef ρ u.tag, u.length.map (Rename.len ρ), u.cases.map (Rename.case ρ)⟩ =
      parseUnion ⟨r, nm ∘ ρ⟩ recv u := by
  obtain ⟨n, t, c, cs⟩ := u
  cases c <;> simp only [parseUnion, parseSwitch, Option.map, parseCases_ren hK hS, constrained_ren hK,
    ref_ren (r := r) (r' := r')]

include hK hS in
theorem parseMembers_ren (recv : String) (l : List Member) :
    parseMembers ⟨r', nm⟩ recv (l.map (Rename.member ρ)) = parseMembers ⟨r, nm ∘ ρ⟩ recv l := by
  induction l with
  | nil => rfl
  | cons a l ih =>
    cases a <;> simp only [List.map_cons, Rename.member, parseMembers, parseMember, parseLeaf_ren hK hS,
      parseUnion_ren hK hS, ih]

omit hK hS in
theorem ms_ren (s : Struct) : (Rename.struct ρ s).ms = s.ms.map (Rename.member ρ) := by
  obtain ⟨n, c, m⟩ := s
  cases m <;> rfl

omit hK hS in
theorem extern_ren (s : Struct) : (Rename.struct ρ s).extern = s.extern := by
  obtain ⟨n, c, m⟩ := s
  cases m <;> rfl

include hK hS in
theorem parse_ren (recv : String) (s : Struct) (hl : ∀ n ∈ s.contexts, ρ n = n) :
    parse ⟨r', nm⟩ recv (Rename.struct ρ s) = parse ⟨r, nm ∘ ρ⟩ recv s := by
  have e : (Rename.struct ρ s).contexts = s.contexts := rfl
  simp only [parse, ms_ren, parseMembers_ren hK hS, e, contextSignature_ren (r := r) (r' := r') _ hl]
  rfl

theorem parseConstructor_ren (recv : String) (s : Struct) (hl : ∀ n ∈ s.contexts, ρ n = n) :
    parseConstructor ⟨r', nm⟩ recv (Rename.struct ρ s) = parseConstructor ⟨r, nm ∘ ρ⟩ recv s := by
  have e : (Rename.struct ρ s).contexts = s.contexts := rfl
  simp only [parseConstructor, e, contextSignature_ren (r := r) (r' := r') _ hl]
  rfl

include hK in
theorem fieldDecl_ren (f : Field) : fieldDecl ⟨r', nm⟩ (Rename.field ρ f) = fieldDecl ⟨r, nm ∘ ρ⟩ f := by
  simp only [fieldDecl, Rename.field, tipe_ren hK, Function.comp_apply]

include hK in
theorem leafDecls_ren (l : List Leaf) : leafDecls ⟨r', nm⟩ (l.map (Rename.leaf ρ)) = leafDecls ⟨r, nm ∘ ρ⟩ l := by
  induction l with
  | nil => rfl
  | cons a l ih => cases a <;> simp only [List.map_cons, Rename.leaf, leafDecls, fieldDecl_ren hK, ih]

include hK in
theorem caseDecls_ren (l : List UnionCase) : caseDecls ⟨r', nm⟩ (l.map (Rename.case ρ)) = caseDecls ⟨r, nm ∘ ρ⟩ l := by
  induction l with
  | nil => rfl
  | cons a l ih => simp only [List.map_cons, Rename.case, caseDecls, leafDecls_ren hK, ih]

include hK in
theorem structMemberDecl_ren (m : Member) :
    structMemberDecl ⟨r', nm⟩ (Rename.member ρ m) = structMemberDecl ⟨r, nm ∘ ρ⟩ m := by
  rcases m with l | u
  · cases l <;> simp only [Rename.member, Rename.leaf, structMemberDecl, fieldDecl_ren hK]
  · simp only [Rename.member, structMemberDecl, caseDecls_ren hK]

include hK in
theorem memberDecls_ren (l : List Member) :
    memberDecls ⟨r', nm⟩ (l.map (Rename.member ρ)) = memberDecls ⟨r, nm ∘ ρ⟩ l := by
  induction l with
  | nil => rfl
  | cons a l ih => simp only [List.map_cons, memberDecls, structMemberDecl_ren hK, ih]

include hK hS in
theorem structure_ren (s : Struct) (hs : Rename.Keeps ρ s) :
    structure_ ⟨r', nm⟩ (Rename.struct ρ s) = structure_ ⟨r, nm ∘ ρ⟩ s := by
  simp only [structure_, extern_ren, receiver_ren s hs.2, structDecl, ms_ren, memberDecls_ren hK, parse_ren hK hS _ s hs.1,
    parseConstructor_ren (r := r) (r' := r') _ s hs.1]
  rfl

include hK in
theorem context_ren (c : Context) (hc : ρ c.name = c.name) :
    context ⟨r', nm⟩ (Rename.context ρ c) = context ⟨r, nm ∘ ρ⟩ c := by
  have e : (c.members.map (Rename.field ρ)).map Leaf.field = (c.members.map Leaf.field).map (Rename.leaf ρ) := by
    simp only [List.map_map]; rfl
  simp only [context, Rename.context, e, leafDecls_ren hK, Function.comp_apply, hc]

include hK in
theorem fileContexts_ren (l : List Context) (hc : ∀ c ∈ l, ρ c.name = c.name) :
    fileContexts ⟨r', nm⟩ (l.map (Rename.context ρ)) = fileContexts ⟨r, nm ∘ ρ⟩ l := by
  induction l with
  | nil => rfl
  | cons a l ih =>
    simp only [List.map_cons, fileContexts, context_ren hK a (hc a List.mem_cons_self),
      ih fun c h => hc c (List.mem_cons_of_mem _ h)]

include hK hS in
theorem fileStructs_ren (l : List Struct) (hs : ∀ s ∈ l, Rename.Keeps ρ s) :
    fileStructs ⟨r', nm⟩ (l.map (Rename.struct ρ)) = fileStructs ⟨r, nm ∘ ρ⟩ l := by
  induction l with
  | nil => rfl
  | cons a l ih =>
    simp only [List.map_cons, fileStructs, structure_ren hK hS a (hs a List.mem_cons_self),
      ih fun c h => hs c (List.mem_cons_of_mem _ h)]

include hK hS in
theorem fileList_ren (l : List File) (hc : ∀ c ∈ l.flatMap (·.contexts), ρ c.name = c.name)
    (hs : ∀ s ∈ l.flatMap (·.structs), Rename.Keeps ρ s) :
    fileList ⟨r', nm⟩ (l.map (Rename.file ρ)) = fileList ⟨r, nm ∘ ρ⟩ l := by
  induction l with
  | nil => rfl
  | cons a l ih =>
    simp only [List.flatMap_cons, List.mem_append] at hc hs
    simp only [List.map_cons, fileList, file, Rename.file, fileContexts_ren hK a.contexts fun c h => hc c (.inl h),
      fileStructs_ren hK hS a.structs fun c h => hs c (.inl h), ih (fun c h => hc c (.inr h)) fun c h => hs c (.inr h)]

end rename
end Verif.GenText
