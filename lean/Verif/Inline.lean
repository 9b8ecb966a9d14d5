import Verif.GenOrder
/-!
# Constants replaced by their values

For C81. *Specification*: the replacement. The rest shows that the generator does not see it.
-/
namespace Verif.Inline
open Verif Verif.Ast

variable (K : String → Option Int)

/-- An integer (ast/types.go:135-146) without the constants that have a value. -/
def int : Integer → Integer
  | .constRef n => match K n with
    | some v => .literal v
    | none => .constRef n
  | .literal v => .literal v

/-- In ranges, ast/types.go:148-152. -/
def range (r : IntegerRange) : IntegerRange := ⟨int K r.low, r.high.map (int K)⟩

/-- In lists, ast/types.go:181-184. -/
def list (l : IntegerList) : IntegerList := ⟨l.ranges.map (range K)⟩

/-- In lengths, ast/types.go:193-200. -/
def len : LengthConstraint → LengthConstraint
  | .leftover k => .leftover (int K k)
  | .idRef r => .idRef r

/-- In element types, ast/types.go:74-100. -/
def base : Base → Base
  | .int t => .int ⟨t.size, t.constraint.map (list K)⟩
  | .char => .char
  | .struct n => .struct n

/-- In types, ast/types.go:68-115. -/
def ty : Ty → Ty
  | .base b => .base (base K b)
  | .ptr => .ptr
  | .nulterm => .nulterm
  | .fixedArray b n => .fixedArray (base K b) (int K n)
  | .varArray b c => .varArray (base K b) (c.map (len K))

/-- In fields, ast/types.go:51-55. -/
def field (f : Field) : Field := ⟨f.name, ty K f.type⟩

/-- In members of union cases, ast/types.go:51-66,126-130. -/
def leaf : Leaf → Leaf
  | .field f => .field (field K f)
  | l => l

/-- In union cases, ast/types.go:120-124. -/
def case (c : UnionCase) : UnionCase := ⟨c.case.map (list K), c.members.map (leaf K)⟩

/-- In members, ast/types.go:48-63. -/
def member : Member → Member
  | .leaf l => .leaf (leaf K l)
  | .union u => .union ⟨u.name, u.tag, u.length.map (len K), u.cases.map (case K)⟩

/-- In structs, ast/types.go:27-32. -/
def struct (s : Struct) : Struct := ⟨s.name, s.contexts, s.members.map (fun ms => ms.map (member K))⟩

/-- In contexts, ast/types.go:21-25. -/
def context (c : Context) : Context := ⟨c.name, c.members.map (field K)⟩

/-- In files (ast/types.go:4-10), which then declare no constants. -/
def file (f : File) : File := ⟨[], f.contexts.map (context K), f.structs.map (struct K), f.pragmas⟩

end Verif.Inline

namespace Verif.Gen
open Verif Verif.Ast Verif.Inspect Verif.Tv Verif.Go

section inline
variable {K : String → Option Int} {r r' : Resolver} {nm : String → String}
  (hK : ∀ i, r'.integer (Inline.int K i) = r.integer i)
  (hS : ∀ n, r'.struct n = (r.struct n).map (Inline.struct K))

include hK in
theorem integer_inl (i : Integer) : integer ⟨r', nm⟩ (Inline.int K i) = integer ⟨r, nm⟩ i := by
  simp only [integer, hK]

include hK in
theorem clause_inl (v : Expr) (x : IntegerRange) : clause ⟨r', nm⟩ v (Inline.range K x) = clause ⟨r, nm⟩ v x := by
  obtain ⟨lo, hi⟩ := x
  cases hi <;> simp only [clause, Inline.range, Option.map, integer_inl hK]

include hK in
theorem clauses_inl (v : Expr) (l : List IntegerRange) :
    clauses ⟨r', nm⟩ v (l.map (Inline.range K)) = clauses ⟨r, nm⟩ v l := by
  induction l with
  | nil => rfl
  | cons a l ih => simp only [List.map_cons, clauses, clause_inl hK, ih]

include hK in
theorem conditional_inl (v : Expr) (l : IntegerList) :
    conditional ⟨r', nm⟩ v (Inline.list K l) = conditional ⟨r, nm⟩ v l := by
  simp only [conditional, Inline.list, clauses_inl hK]

theorem tipeBase_inl (b : Base) : tipeBase ⟨r', nm⟩ (Inline.base K b) = tipeBase ⟨r, nm⟩ b := by
  cases b <;> rfl

include hK in
theorem tipe_inl (t : Ty) : tipe ⟨r', nm⟩ (Inline.ty K t) = tipe ⟨r, nm⟩ t := by
  cases t <;> simp only [Inline.ty, tipe, tipeBase_inl (r := r) (r' := r'), integer_inl hK]

theorem contextSignature_inl (l : List String) : contextSignature ⟨r', nm⟩ l = contextSignature ⟨r, nm⟩ l := by
  induction l with
  | nil => rfl
  | cons a l ih => first | rfl | simp only [contextSignature, ih]

theorem ref_inl (recv : String) (x : IDRef) : Gen.ref ⟨r', nm⟩ recv x = Gen.ref ⟨r, nm⟩ recv x := rfl

include hK in
theorem parseIntType_inl (lhs : LV) (t : IntType) :
    parseIntType ⟨r', nm⟩ lhs ⟨t.size, t.constraint.map (Inline.list K)⟩ = parseIntType ⟨r, nm⟩ lhs t := by
  obtain ⟨n, c⟩ := t
  cases c <;> simp only [parseIntType, intCheck, intRead, Option.map, conditional_inl hK]

include hK hS in
theorem parseBase_inl (lhs : LV) (b : Base) : parseBase ⟨r', nm⟩ lhs (Inline.base K b) = parseBase ⟨r, nm⟩ lhs b := by
  cases b with
  | int t => simp only [Inline.base, parseBase, parseIntType_inl hK]
  | char => exact parseIntType_inl hK lhs U8
  | struct n =>
    simp only [Inline.base, parseBase, hS]
    cases r.struct n <;> rfl

include hK in
theorem extent_inl (recv : String) (c : LengthConstraint) :
    extent ⟨r', nm⟩ recv (Inline.len K c) = extent ⟨r, nm⟩ recv c := by
  cases c <;> simp only [Inline.len, extent, integer_inl hK, ref_inl (r := r) (r' := r')]

include hK in
theorem constrained_inl (recv : String) (c : LengthConstraint) (b : Res (List Stmt)) :
    constrained ⟨r', nm⟩ recv (Inline.len K c) b = constrained ⟨r, nm⟩ recv c b := by
  simp only [constrained, extent_inl hK]

include hK hS in
theorem parseFixed_inl (lhs : LV) (b : Base) (n : Integer) :
    parseFixed ⟨r', nm⟩ lhs (Inline.base K b) (Inline.int K n) = parseFixed ⟨r, nm⟩ lhs b n := by
  simp only [parseFixed, integer_inl hK, parseBase_inl hK hS]

include hK hS in
theorem parseRem_inl (lhs : LV) (b : Base) : parseRem ⟨r', nm⟩ lhs (Inline.base K b) = parseRem ⟨r, nm⟩ lhs b := by
  simp only [parseRem, parseBase_inl hK hS, tipeBase_inl (r := r) (r' := r')]

include hK hS in
theorem parseVar_inl (recv : String) (lhs : LV) (b : Base) (c : Option LengthConstraint) :
    parseVar ⟨r', nm⟩ recv lhs (Inline.base K b) (c.map (Inline.len K)) = parseVar ⟨r, nm⟩ recv lhs b c := by
  rcases c with _ | c
  · simp only [Option.map, parseVar, parseRem_inl hK hS]
  · cases c with
    | leftover k =>
      have := constrained_inl (nm := nm) hK recv (.leftover k) (parseRem ⟨r, nm⟩ lhs b)
      simpa only [Option.map, Inline.len, parseVar, parseRem_inl hK hS] using this
    | idRef x => simp only [Option.map, Inline.len, parseVar, parseBase_inl hK hS,
        tipeBase_inl (r := r) (r' := r'), ref_inl (r := r) (r' := r')]

include hK hS in
theorem parseType_inl (recv : String) (lhs : LV) (t : Ty) :
    parseType ⟨r', nm⟩ recv lhs (Inline.ty K t) = parseType ⟨r, nm⟩ recv lhs t := by
  cases t <;> simp only [Inline.ty, parseType, parseBase_inl hK hS, parseFixed_inl hK hS, parseVar_inl hK hS]

include hK hS in
theorem parseLeaf_inl (recv : String) (l : Leaf) :
    parseLeaf ⟨r', nm⟩ recv (Inline.leaf K l) = parseLeaf ⟨r, nm⟩ recv l := by
  cases l <;> simp only [Inline.leaf, Inline.field, parseLeaf, parseType_inl hK hS]

include hK hS in
theorem parseLeaves_inl (recv : String) (l : List Leaf) :
    parseLeaves ⟨r', nm⟩ recv (l.map (Inline.leaf K)) = parseLeaves ⟨r, nm⟩ recv l := by
  induction l with
  | nil => rfl
  | cons a l ih => simp only [List.map_cons, parseLeaves, parseLeaf_inl hK hS, ih]

include hK hS in
theorem parseCases_inl (recv : String) (tag : Expr) (l : List UnionCase) :
    parseCases ⟨r', nm⟩ recv tag (l.map (Inline.case K)) = parseCases ⟨r, nm⟩ recv tag l := by
  induction l with
  | nil => rfl
  | cons a l ih =>
    obtain ⟨c, ms⟩ := a
    cases c <;> simp only [List.map_cons, parseCases, caseHead, Inline.case, Option.map, conditional_inl hK,
      parseLeaves_inl hK hS, ih]

include hK hS in
theorem parseUnion_inl (recv : String) (u : UnionMember) :
    parseUnion ⟨r', nm⟩ recv ⟨u.name, u.tag, u.length.map (Inline.len K), u.cases.map (Inline.case K)⟩ =
      parseUnion ⟨r, nm⟩ recv u := by
  obtain ⟨n, t, c, cs⟩ := u
  cases c <;> simp only [parseUnion, parseSwitch, Option.map, parseCases_inl hK hS, constrained_inl hK,
    ref_inl (r := r) (r' := r')]

include hK hS in
theorem parseMembers_inl (recv : String) (l : List Member) :
    parseMembers ⟨r', nm⟩ recv (l.map (Inline.member K)) = parseMembers ⟨r, nm⟩ recv l := by
  induction l with
  | nil => rfl
  | cons a l ih =>
    cases a <;> simp only [List.map_cons, Inline.member, parseMembers, parseMember, parseLeaf_inl hK hS,
      parseUnion_inl hK hS, ih]

omit hK hS in
theorem ms_inl (s : Struct) : (Inline.struct K s).ms = s.ms.map (Inline.member K) := by
  obtain ⟨n, c, m⟩ := s
  cases m <;> rfl

omit hK hS in
theorem extern_inl (s : Struct) : (Inline.struct K s).extern = s.extern := by
  obtain ⟨n, c, m⟩ := s
  cases m <;> rfl

include hK hS in
theorem parse_inl (recv : String) (s : Struct) : parse ⟨r', nm⟩ recv (Inline.struct K s) = parse ⟨r, nm⟩ recv s := by
  simp only [parse, ms_inl, parseMembers_inl hK hS, contextSignature_inl (r := r) (r' := r')]
  rfl

theorem parseConstructor_inl (recv : String) (s : Struct) :
    parseConstructor ⟨r', nm⟩ recv (Inline.struct K s) = parseConstructor ⟨r, nm⟩ recv s := by
  simp only [parseConstructor, contextSignature_inl (r := r) (r' := r')]
  rfl

include hK in
theorem fieldDecl_inl (f : Field) : fieldDecl ⟨r', nm⟩ (Inline.field K f) = fieldDecl ⟨r, nm⟩ f := by
  simp only [fieldDecl, Inline.field, tipe_inl hK]

include hK in
theorem leafDecls_inl (l : List Leaf) : leafDecls ⟨r', nm⟩ (l.map (Inline.leaf K)) = leafDecls ⟨r, nm⟩ l := by
  induction l with
  | nil => rfl
  | cons a l ih => cases a <;> simp only [List.map_cons, Inline.leaf, leafDecls, fieldDecl_inl hK, ih]

include hK in
theorem caseDecls_inl (l : List UnionCase) : caseDecls ⟨r', nm⟩ (l.map (Inline.case K)) = caseDecls ⟨r, nm⟩ l := by
  induction l with
  | nil => rfl
  | cons a l ih => simp only [List.map_cons, Inline.case, caseDecls, leafDecls_inl hK, ih]

include hK in
theorem structMemberDecl_inl (m : Member) :
    structMemberDecl ⟨r', nm⟩ (Inline.member K m) = structMemberDecl ⟨r, nm⟩ m := by
  rcases m with l | u
  · cases l <;> simp only [Inline.member, Inline.leaf, structMemberDecl, fieldDecl_inl hK]
  · simp only [Inline.member, structMemberDecl, caseDecls_inl hK]

include hK in
theorem memberDecls_inl (l : List Member) :
    memberDecls ⟨r', nm⟩ (l.map (Inline.member K)) = memberDecls ⟨r, nm⟩ l := by
  induction l with
  | nil => rfl
  | cons a l ih => simp only [List.map_cons, memberDecls, structMemberDecl_inl hK, ih]

theorem receiver_inl (s : Struct) : receiver (Inline.struct K s) = receiver s := rfl

include hK hS in
theorem structure_inl (s : Struct) : structure_ ⟨r', nm⟩ (Inline.struct K s) = structure_ ⟨r, nm⟩ s := by
  simp only [structure_, extern_inl, receiver_inl, structDecl, ms_inl, memberDecls_inl hK, parse_inl hK hS,
    parseConstructor_inl (r := r) (r' := r')]
  rfl

include hK in
theorem context_inl (c : Context) : context ⟨r', nm⟩ (Inline.context K c) = context ⟨r, nm⟩ c := by
  have e : (c.members.map (Inline.field K)).map Leaf.field = (c.members.map Leaf.field).map (Inline.leaf K) := by
    simp only [List.map_map]; rfl
  simp only [context, Inline.context, e, leafDecls_inl hK]

include hK in
theorem fileContexts_inl (l : List Context) :
    fileContexts ⟨r', nm⟩ (l.map (Inline.context K)) = fileContexts ⟨r, nm⟩ l := by
  induction l with
  | nil => rfl
  | cons a l ih => simp only [List.map_cons, fileContexts, context_inl hK, ih]

include hK hS in
theorem fileStructs_inl (l : List Struct) :
    fileStructs ⟨r', nm⟩ (l.map (Inline.struct K)) = fileStructs ⟨r, nm⟩ l := by
  induction l with
  | nil => rfl
  | cons a l ih => simp only [List.map_cons, fileStructs, structure_inl hK hS, ih]

include hK hS in
theorem fileList_inl (l : List File) : fileList ⟨r', nm⟩ (l.map (Inline.file K)) = fileList ⟨r, nm⟩ l := by
  induction l with
  | nil => rfl
  | cons a l ih => simp only [List.map_cons, fileList, file, Inline.file, fileContexts_inl hK, fileStructs_inl hK hS, ih]

end inline
end Verif.Gen

namespace Verif.GenText
open Verif Verif.Ast Verif.Inspect Verif.Tv Verif.Gen

section inline
variable {K : String → Option Int} {r r' : Resolver} {nm : String → String}
  (hK : ∀ i, r'.integer (Inline.int K i) = r.integer i)
  (hS : ∀ n, r'.struct n = (r.struct n).map (Inline.struct K))

include hK in
theorem integer_inl (i : Integer) : integer ⟨r', nm⟩ (Inline.int K i) = integer ⟨r, nm⟩ i := by
  simp only [integer, Gen.integer, hK]

include hK in
theorem clause_inl (v : Text) (x : IntegerRange) : clause ⟨r', nm⟩ v (Inline.range K x) = clause ⟨r, nm⟩ v x := by
  obtain ⟨lo, hi⟩ := x
  cases hi <;> simp only [clause, Inline.range, Option.map, integer_inl hK]

include hK in
theorem clauses_inl (v : Text) (l : List IntegerRange) :
    clauses ⟨r', nm⟩ v (l.map (Inline.range K)) = clauses ⟨r, nm⟩ v l := by
  induction l with
  | nil => rfl
  | cons a l ih => simp only [List.map_cons, clauses, clause_inl hK, ih]

include hK in
theorem conditional_inl (v : Text) (l : IntegerList) :
    conditional ⟨r', nm⟩ v (Inline.list K l) = conditional ⟨r, nm⟩ v l := by
  simp only [conditional, Inline.list, clauses_inl hK]

theorem tipeBase_inl (b : Base) : tipeBase ⟨r', nm⟩ (Inline.base K b) = tipeBase ⟨r, nm⟩ b := by
  cases b <;> rfl

include hK in
theorem tipe_inl (t : Ty) : tipe ⟨r', nm⟩ (Inline.ty K t) = tipe ⟨r, nm⟩ t := by
  cases t <;> simp only [Inline.ty, tipe, tipeBase_inl (r := r) (r' := r'), integer_inl hK]

theorem contextSignature_inl (l : List String) : contextSignature ⟨r', nm⟩ l = contextSignature ⟨r, nm⟩ l := by
  induction l with
  | nil => rfl
  | cons a l ih => first | rfl | simp only [contextSignature, ih]

theorem ref_inl (recv : String) (x : IDRef) : GenText.ref ⟨r', nm⟩ recv x = GenText.ref ⟨r, nm⟩ recv x := rfl

include hK in
theorem parseIntType_inl (lhs : Text) (t : IntType) :
    parseIntType ⟨r', nm⟩ lhs ⟨t.size, t.constraint.map (Inline.list K)⟩ = parseIntType ⟨r, nm⟩ lhs t := by
  obtain ⟨n, c⟩ := t
  cases c <;> simp only [parseIntType, intCheck, intRead, Option.map, conditional_inl hK]

include hK hS in
theorem parseBase_inl (lhs : Text) (b : Base) : parseBase ⟨r', nm⟩ lhs (Inline.base K b) = parseBase ⟨r, nm⟩ lhs b := by
  cases b with
  | int t => simp only [Inline.base, parseBase, parseIntType_inl hK]
  | char => exact parseIntType_inl hK lhs U8
  | struct n =>
    simp only [Inline.base, parseBase, hS]
    cases r.struct n <;> rfl

include hK in
theorem extent_inl (recv : String) (c : LengthConstraint) :
    extent ⟨r', nm⟩ recv (Inline.len K c) = extent ⟨r, nm⟩ recv c := by
  cases c <;> simp only [Inline.len, extent, integer_inl hK, ref_inl (r := r) (r' := r')]

include hK in
theorem constrained_inl (recv : String) (c : LengthConstraint) (b : Res Text) :
    constrained ⟨r', nm⟩ recv (Inline.len K c) b = constrained ⟨r, nm⟩ recv c b := by
  simp only [constrained, extent_inl hK]

include hK hS in
theorem parseFixed_inl (lhs : Text) (b : Base) (n : Integer) :
    parseFixed ⟨r', nm⟩ lhs (Inline.base K b) (Inline.int K n) = parseFixed ⟨r, nm⟩ lhs b n := by
  simp only [parseFixed, integer_inl hK, parseBase_inl hK hS]

include hK hS in
theorem parseRem_inl (lhs : Text) (b : Base) : parseRem ⟨r', nm⟩ lhs (Inline.base K b) = parseRem ⟨r, nm⟩ lhs b := by
  simp only [parseRem, parseBase_inl hK hS, tipeBase_inl (r := r) (r' := r')]

include hK hS in
theorem parseVar_inl (recv : String) (lhs : Text) (b : Base) (c : Option LengthConstraint) :
    parseVar ⟨r', nm⟩ recv lhs (Inline.base K b) (c.map (Inline.len K)) = parseVar ⟨r, nm⟩ recv lhs b c := by
  rcases c with _ | c
  · simp only [Option.map, parseVar, parseRem_inl hK hS]
  · cases c with
    | leftover k =>
      have := constrained_inl (nm := nm) hK recv (.leftover k) (parseRem ⟨r, nm⟩ lhs b)
      simpa only [Option.map, Inline.len, parseVar, parseRem_inl hK hS] using this
    | idRef x => simp only [Option.map, Inline.len, parseVar, parseBase_inl hK hS,
        tipeBase_inl (r := r) (r' := r'), ref_inl (r := r) (r' := r')]

include hK hS in
theorem parseType_inl (recv : String) (lhs : Text) (t : Ty) :
    parseType ⟨r', nm⟩ recv lhs (Inline.ty K t) = parseType ⟨r, nm⟩ recv lhs t := by
  cases t <;> simp only [Inline.ty, parseType, parseBase_inl hK hS, parseFixed_inl hK hS, parseVar_inl hK hS]

include hK hS in
theorem parseLeaf_inl (recv : String) (l : Leaf) :
    parseLeaf ⟨r', nm⟩ recv (Inline.leaf K l) = parseLeaf ⟨r, nm⟩ recv l := by
  cases l <;> simp only [Inline.leaf, Inline.field, parseLeaf, parseType_inl hK hS]

include hK hS in
theorem parseLeaves_inl (recv : String) (l : List Leaf) :
    parseLeaves ⟨r', nm⟩ recv (l.map (Inline.leaf K)) = parseLeaves ⟨r, nm⟩ recv l := by
  induction l with
  | nil => rfl
  | cons a l ih => simp only [List.map_cons, parseLeaves, parseLeaf_inl hK hS, ih]

include hK hS in
theorem parseCases_inl (recv : String) (tag : Text) (l : List UnionCase) :
    parseCases ⟨r', nm⟩ recv tag (l.map (Inline.case K)) = parseCases ⟨r, nm⟩ recv tag l := by
  induction l with
  | nil => rfl
  | cons a l ih =>
    obtain ⟨c, ms⟩ := a
    cases c <;> simp only [List.map_cons, parseCases, caseHead, Inline.case, Option.map, conditional_inl hK,
      parseLeaves_inl hK hS, ih]

include hK hS in
theorem parseUnion_inl (recv : String) (u : UnionMember) :
    parseUnion ⟨r', nm⟩ recv ⟨u.name, u.tag, u.length.map (Inline.len K), u.cases.map (Inline.case K)⟩ =
      parseUnion ⟨r, nm⟩ recv u := by
  obtain ⟨n, t, c, cs⟩ := u
  cases c <;> simp only [parseUnion, parseSwitch, Option.map, parseCases_inl hK hS, constrained_inl hK,
    ref_inl (r := r) (r' := r')]

include hK hS in
theorem parseMembers_inl (recv : String) (l : List Member) :
    parseMembers ⟨r', nm⟩ recv (l.map (Inline.member K)) = parseMembers ⟨r, nm⟩ recv l := by
  induction l with
  | nil => rfl
  | cons a l ih =>
    cases a <;> simp only [List.map_cons, Inline.member, parseMembers, parseMember, parseLeaf_inl hK hS,
      parseUnion_inl hK hS, ih]

omit hK hS in
theorem ms_inl (s : Struct) : (Inline.struct K s).ms = s.ms.map (Inline.member K) := by
  obtain ⟨n, c, m⟩ := s
  cases m <;> rfl

omit hK hS in
theorem extern_inl (s : Struct) : (Inline.struct K s).extern = s.extern := by
  obtain ⟨n, c, m⟩ := s
  cases m <;> rfl

include hK hS in
theorem parse_inl (recv : String) (s : Struct) : parse ⟨r', nm⟩ recv (Inline.struct K s) = parse ⟨r, nm⟩ recv s := by
  simp only [parse, ms_inl, parseMembers_inl hK hS, contextSignature_inl (r := r) (r' := r')]
  rfl

theorem parseConstructor_inl (recv : String) (s : Struct) :
    parseConstructor ⟨r', nm⟩ recv (Inline.struct K s) = parseConstructor ⟨r, nm⟩ recv s := by
  simp only [parseConstructor, contextSignature_inl (r := r) (r' := r')]
  rfl

include hK in
theorem fieldDecl_inl (f : Field) : fieldDecl ⟨r', nm⟩ (Inline.field K f) = fieldDecl ⟨r, nm⟩ f := by
  simp only [fieldDecl, Inline.field, tipe_inl hK]

include hK in
theorem leafDecls_inl (l : List Leaf) : leafDecls ⟨r', nm⟩ (l.map (Inline.leaf K)) = leafDecls ⟨r, nm⟩ l := by
  induction l with
  | nil => rfl
  | cons a l ih => cases a <;> simp only [List.map_cons, Inline.leaf, leafDecls, fieldDecl_inl hK, ih]

include hK in
theorem caseDecls_inl (l : List UnionCase) : caseDecls ⟨r', nm⟩ (l.map (Inline.case K)) = caseDecls ⟨r, nm⟩ l := by
  induction l with
  | nil => rfl
  | cons a l ih => simp only [List.map_cons, Inline.case, caseDecls, leafDecls_inl hK, ih]

include hK in
theorem structMemberDecl_inl (m : Member) :
    structMemberDecl ⟨r', nm⟩ (Inline.member K m) = structMemberDecl ⟨r, nm⟩ m := by
  rcases m with l | u
  · cases l <;> simp only [Inline.member, Inline.leaf, structMemberDecl, fieldDecl_inl hK]
  · simp only [Inline.member, structMemberDecl, caseDecls_inl hK]

include hK in
theorem memberDecls_inl (l : List Member) :
    memberDecls ⟨r', nm⟩ (l.map (Inline.member K)) = memberDecls ⟨r, nm⟩ l := by
  induction l with
  | nil => rfl
  | cons a l ih => simp only [List.map_cons, memberDecls, structMemberDecl_inl hK, ih]

theorem receiver_inl (s : Struct) : receiver (Inline.struct K s) = receiver s := rfl

include hK hS in
theorem structure_inl (s : Struct) : structure_ ⟨r', nm⟩ (Inline.struct K s) = structure_ ⟨r, nm⟩ s := by
  simp only [structure_, extern_inl, receiver_inl, structDecl, ms_inl, memberDecls_inl hK, parse_inl hK hS,
    parseConstructor_inl (r := r) (r' := r')]
  rfl

include hK in
theorem context_inl (c : Context) : context ⟨r', nm⟩ (Inline.context K c) = context ⟨r, nm⟩ c := by
  have e : (c.members.map (Inline.field K)).map Leaf.field = (c.members.map Leaf.field).map (Inline.leaf K) := by
    simp only [List.map_map]; rfl
  simp only [context, Inline.context, e, leafDecls_inl hK]

include hK in
theorem fileContexts_inl (l : List Context) :
    fileContexts ⟨r', nm⟩ (l.map (Inline.context K)) = fileContexts ⟨r, nm⟩ l := by
  induction l with
  | nil => rfl
  | cons a l ih => simp only [List.map_cons, fileContexts, context_inl hK, ih]

include hK hS in
theorem fileStructs_inl (l : List Struct) :
    fileStructs ⟨r', nm⟩ (l.map (Inline.struct K)) = fileStructs ⟨r, nm⟩ l := by
  induction l with
  | nil => rfl
  | cons a l ih => simp only [List.map_cons, fileStructs, structure_inl hK hS, ih]

include hK hS in
theorem fileList_inl (l : List File) : fileList ⟨r', nm⟩ (l.map (Inline.file K)) = fileList ⟨r, nm⟩ l := by
  induction l with
  | nil => rfl
  | cons a l ih => simp only [List.map_cons, fileList, file, Inline.file, fileContexts_inl hK, fileStructs_inl hK hS, ih]

end inline
end Verif.GenText
