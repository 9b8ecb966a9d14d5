import Verif.GenTestText
import Verif.TvOrder
/-!
# The text printed by the generator depends on the answers of the resolver only

For C79: the generators (gen/decl.go) look names up in the resolver and never list its maps.
-/
namespace Verif.GenText
open Verif Verif.Ast Verif.Inspect Verif.Gen Verif.Tv

variable {r r' : Resolver} {nm : String → String} (h : SameRes r r')
include h

theorem integer_likeRes (i : Integer) : integer ⟨r, nm⟩ i = integer ⟨r', nm⟩ i := by
  simp only [integer, Gen.integer, h.integer]

theorem clause_likeRes (v : Text) (x : IntegerRange) : clause ⟨r, nm⟩ v x = clause ⟨r', nm⟩ v x := by
  simp only [clause, integer_likeRes h]

theorem clauses_likeRes (v : Text) (l : List IntegerRange) : clauses ⟨r, nm⟩ v l = clauses ⟨r', nm⟩ v l := by
  induction l with
  | nil => rfl
  | cons a l ih => simp only [clauses, clause_likeRes h, ih]

theorem conditional_likeRes (v : Text) (l : IntegerList) : conditional ⟨r, nm⟩ v l = conditional ⟨r', nm⟩ v l := by
  simp only [conditional, clauses_likeRes h]

omit h in
theorem tipeBase_likeRes (b : Base) : tipeBase ⟨r, nm⟩ b = tipeBase ⟨r', nm⟩ b := by
  cases b <;> rfl

theorem tipe_likeRes (t : Ty) : tipe ⟨r, nm⟩ t = tipe ⟨r', nm⟩ t := by
  cases t <;> simp only [tipe, tipeBase_likeRes (r := r) (r' := r'), integer_likeRes h]

omit h in
theorem contextSignature_likeRes (l : List String) : contextSignature ⟨r, nm⟩ l = contextSignature ⟨r', nm⟩ l := by
  induction l with
  | nil => rfl
  | cons a l ih => simp only [contextSignature, ih]

omit h in
theorem ref_likeRes (recv : String) (x : IDRef) : GenText.ref ⟨r, nm⟩ recv x = GenText.ref ⟨r', nm⟩ recv x := rfl

theorem parseIntType_likeRes (lhs : Text) (t : IntType) :
    parseIntType ⟨r, nm⟩ lhs t = parseIntType ⟨r', nm⟩ lhs t := by
  simp only [parseIntType, intCheck, conditional_likeRes h]

theorem parseBase_likeRes (lhs : Text) (b : Base) : parseBase ⟨r, nm⟩ lhs b = parseBase ⟨r', nm⟩ lhs b := by
  cases b <;> simp only [parseBase, parseIntType_likeRes h, h.1]

theorem extent_likeRes (recv : String) (c : LengthConstraint) :
    extent ⟨r, nm⟩ recv c = extent ⟨r', nm⟩ recv c := by
  cases c <;> simp only [extent, integer_likeRes h, ref_likeRes (r := r) (r' := r')]

theorem constrained_likeRes (recv : String) (c : LengthConstraint) (b : Res Text) :
    constrained ⟨r, nm⟩ recv c b = constrained ⟨r', nm⟩ recv c b := by
  simp only [constrained, extent_likeRes h]

theorem parseFixed_likeRes (lhs : Text) (b : Base) (n : Integer) :
    parseFixed ⟨r, nm⟩ lhs b n = parseFixed ⟨r', nm⟩ lhs b n := by
  simp only [parseFixed, integer_likeRes h, parseBase_likeRes h]

theorem parseRem_likeRes (lhs : Text) (b : Base) : parseRem ⟨r, nm⟩ lhs b = parseRem ⟨r', nm⟩ lhs b := by
  simp only [parseRem, parseBase_likeRes h, tipeBase_likeRes (r := r) (r' := r')]

theorem parseVar_likeRes (recv : String) (lhs : Text) (b : Base) (c : Option LengthConstraint) :
    parseVar ⟨r, nm⟩ recv lhs b c = parseVar ⟨r', nm⟩ recv lhs b c := by
  rcases c with _ | c
  · simp only [parseVar, parseRem_likeRes h]
  · cases c <;> simp only [parseVar, parseRem_likeRes h, parseBase_likeRes h, constrained_likeRes h,
      tipeBase_likeRes (r := r) (r' := r'), ref_likeRes (r := r) (r' := r')]

theorem parseType_likeRes (recv : String) (lhs : Text) (t : Ty) :
    parseType ⟨r, nm⟩ recv lhs t = parseType ⟨r', nm⟩ recv lhs t := by
  cases t <;> simp only [parseType, parseBase_likeRes h, parseFixed_likeRes h, parseVar_likeRes h]

theorem parseLeaf_likeRes (recv : String) (l : Leaf) : parseLeaf ⟨r, nm⟩ recv l = parseLeaf ⟨r', nm⟩ recv l := by
  cases l <;> simp only [parseLeaf, parseType_likeRes h]

theorem parseLeaves_likeRes (recv : String) (l : List Leaf) :
    parseLeaves ⟨r, nm⟩ recv l = parseLeaves ⟨r', nm⟩ recv l := by
  induction l with
  | nil => rfl
  | cons a l ih => simp only [parseLeaves, parseLeaf_likeRes h, ih]

theorem parseCases_likeRes (recv : String) (tag : Text) (l : List UnionCase) :
    parseCases ⟨r, nm⟩ recv tag l = parseCases ⟨r', nm⟩ recv tag l := by
  induction l with
  | nil => rfl
  | cons a l ih => simp only [parseCases, caseHead, conditional_likeRes h, parseLeaves_likeRes h, ih]

theorem parseSwitch_likeRes (recv : String) (u : UnionMember) :
    parseSwitch ⟨r, nm⟩ recv u = parseSwitch ⟨r', nm⟩ recv u := by
  simp only [parseSwitch, parseCases_likeRes h, ref_likeRes (r := r) (r' := r')]

theorem parseUnion_likeRes (recv : String) (u : UnionMember) :
    parseUnion ⟨r, nm⟩ recv u = parseUnion ⟨r', nm⟩ recv u := by
  simp only [parseUnion, parseSwitch_likeRes h, constrained_likeRes h]

theorem parseMembers_likeRes (recv : String) (l : List Member) :
    parseMembers ⟨r, nm⟩ recv l = parseMembers ⟨r', nm⟩ recv l := by
  induction l with
  | nil => rfl
  | cons a l ih =>
    cases a <;> simp only [parseMembers, parseMember, parseLeaf_likeRes h, parseUnion_likeRes h, ih]

theorem parse_likeRes (recv : String) (s : Struct) : parse ⟨r, nm⟩ recv s = parse ⟨r', nm⟩ recv s := by
  simp only [parse, parseMembers_likeRes h, contextSignature_likeRes (r := r) (r' := r')]

omit h in
theorem parseConstructor_likeRes (recv : String) (s : Struct) :
    parseConstructor ⟨r, nm⟩ recv s = parseConstructor ⟨r', nm⟩ recv s := by
  simp only [parseConstructor, contextSignature_likeRes (r := r) (r' := r')]

theorem leafDecls_likeRes (l : List Leaf) : leafDecls ⟨r, nm⟩ l = leafDecls ⟨r', nm⟩ l := by
  induction l with
  | nil => rfl
  | cons a l ih => cases a <;> simp only [leafDecls, fieldDecl, tipe_likeRes h, ih]

theorem caseDecls_likeRes (l : List UnionCase) : caseDecls ⟨r, nm⟩ l = caseDecls ⟨r', nm⟩ l := by
  induction l with
  | nil => rfl
  | cons a l ih => simp only [caseDecls, leafDecls_likeRes h, ih]

theorem structMemberDecl_likeRes (m : Member) : structMemberDecl ⟨r, nm⟩ m = structMemberDecl ⟨r', nm⟩ m := by
  rcases m with l | u
  · cases l <;> simp only [structMemberDecl, fieldDecl, tipe_likeRes h]
  · simp only [structMemberDecl, caseDecls_likeRes h]

theorem memberDecls_likeRes (l : List Member) : memberDecls ⟨r, nm⟩ l = memberDecls ⟨r', nm⟩ l := by
  induction l with
  | nil => rfl
  | cons a l ih => simp only [memberDecls, structMemberDecl_likeRes h, ih]

theorem structure_likeRes (s : Struct) : structure_ ⟨r, nm⟩ s = structure_ ⟨r', nm⟩ s := by
  simp only [structure_, structDecl, memberDecls_likeRes h, parse_likeRes h, parseConstructor_likeRes (r := r) (r' := r')]

theorem fileContexts_likeRes (l : List Context) : fileContexts ⟨r, nm⟩ l = fileContexts ⟨r', nm⟩ l := by
  induction l with
  | nil => rfl
  | cons a l ih => simp only [fileContexts, context, leafDecls_likeRes h, ih]

theorem fileStructs_likeRes (l : List Struct) : fileStructs ⟨r, nm⟩ l = fileStructs ⟨r', nm⟩ l := by
  induction l with
  | nil => rfl
  | cons a l ih => simp only [fileStructs, structure_likeRes h, ih]

theorem fileList_likeRes (l : List File) : fileList ⟨r, nm⟩ l = fileList ⟨r', nm⟩ l := by
  induction l with
  | nil => rfl
  | cons a l ih => simp only [fileList, file, fileContexts_likeRes h, fileStructs_likeRes h, ih]

end Verif.GenText
