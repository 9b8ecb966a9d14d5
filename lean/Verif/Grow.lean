import Verif.GenTextOrder
import Verif.RefineProg
/-!
# Generation with more declarations

For C83. What is generated for a declaration stays the same when others are added.
-/
namespace Verif
open Verif.Ast Verif.Inspect

/-- The second outcome is the first if that is a normal return. -/
def Res.Le {α : Type} (a b : Res α) : Prop := ∀ y, a = .ok y → b = .ok y

theorem Res.Le.refl {α : Type} (a : Res α) : a.Le a := fun _ h => h

theorem Res.Le.bind {α β : Type} {a b : Res α} {f g : α → Res β} (h : a.Le b) (hf : ∀ x, (f x).Le (g x)) : (a >>= f).Le (b >>= g) := by
  intro y hy
  obtain ⟨x, h1, h2⟩ := Res.bind_eq_ok.1 hy
  exact Res.bind_eq_ok.2 ⟨x, h x h1, hf x y h2⟩

/-- What one resolver (inspect/inspect.go:60-71) knows the other knows too, as far as the generator asks. -/
structure Grows (r r' : Resolver) : Prop where
  integer : ∀ i v, r.integer i = .ok v → r'.integer i = .ok v
  struct : ∀ n s, r.struct n = some s → ∃ s', r'.struct n = some s' ∧ s'.contexts = s.contexts

end Verif

namespace Verif.Gen
open Verif Verif.Ast Verif.Inspect Verif.Go

section
variable {r r' : Resolver} {nm : String → String} (h : Grows r r')
include h

theorem integer_grow (i : Integer) : (integer ⟨r, nm⟩ i).Le (integer ⟨r', nm⟩ i) := by
  intro y hy
  simp only [integer] at hy ⊢
  cases hi : r.integer i with
  | ok v => rw [hi] at hy; rw [h.integer i v hi]; exact hy
  | err m => rw [hi] at hy; cases hy
  | panic m => rw [hi] at hy; cases hy

theorem clause_grow (v : Expr) (x : IntegerRange) : (clause ⟨r, nm⟩ v x).Le (clause ⟨r', nm⟩ v x) := by
  obtain ⟨lo, hi⟩ := x
  cases hi with
  | none => exact .bind (integer_grow h _) fun _ => .refl _
  | some hi => exact .bind (integer_grow h _) fun _ => .bind (integer_grow h _) fun _ => .refl _

theorem clauses_grow (v : Expr) (l : List IntegerRange) : (clauses ⟨r, nm⟩ v l).Le (clauses ⟨r', nm⟩ v l) := by
  induction l with
  | nil => exact .refl _
  | cons a l ih => exact .bind (clause_grow h v a) fun _ => .bind ih fun _ => .refl _

theorem conditional_grow (v : Expr) (l : IntegerList) : (conditional ⟨r, nm⟩ v l).Le (conditional ⟨r', nm⟩ v l) :=
  .bind (clauses_grow h v _) fun _ => .refl _

omit h in
theorem tipeBase_grow (b : Base) : tipeBase ⟨r, nm⟩ b = tipeBase ⟨r', nm⟩ b := by cases b <;> rfl

theorem tipe_grow (t : Ty) : (tipe ⟨r, nm⟩ t).Le (tipe ⟨r', nm⟩ t) := by
  cases t with
  | base b => rw [tipe, tipe, tipeBase_grow (r := r) (r' := r')]; exact .refl _
  | fixedArray b n =>
    rw [tipe, tipe, tipeBase_grow (r := r) (r' := r')]
    exact .bind (integer_grow h _) fun _ => .refl _
  | varArray b c => rw [tipe, tipe, tipeBase_grow (r := r) (r' := r')]; exact .refl _
  | _ => exact .refl _

theorem parseIntType_grow (lhs : LV) (t : IntType) : (parseIntType ⟨r, nm⟩ lhs t).Le (parseIntType ⟨r', nm⟩ lhs t) := by
  refine .bind ?_ fun _ => .refl _
  unfold intCheck
  cases t.constraint with
  | none => exact .refl _
  | some l => exact .bind (conditional_grow h _ l) fun _ => .refl _

theorem parseBase_grow (lhs : LV) (b : Base) : (parseBase ⟨r, nm⟩ lhs b).Le (parseBase ⟨r', nm⟩ lhs b) := by
  cases b with
  | int t => exact parseIntType_grow h lhs t
  | char => exact parseIntType_grow h lhs U8
  | struct n =>
    intro y hy
    simp only [parseBase] at hy ⊢
    cases hs : r.struct n with
    | none => rw [hs] at hy; cases hy
    | some s =>
      obtain ⟨s', hs', hc⟩ := h.struct n s hs
      rw [hs] at hy
      rw [hs', ← hy]
      simp only [hc]

theorem extent_grow (recv : String) (c : LengthConstraint) : (extent ⟨r, nm⟩ recv c).Le (extent ⟨r', nm⟩ recv c) := by
  cases c with
  | leftover k => exact .bind (integer_grow h k) fun _ => .refl _
  | idRef x => exact .refl _

theorem constrained_grow (recv : String) (c : LengthConstraint) {b b' : Res (List Stmt)} (hb : b.Le b') :
    (constrained ⟨r, nm⟩ recv c b).Le (constrained ⟨r', nm⟩ recv c b') :=
  .bind (extent_grow h recv c) fun _ => .bind hb fun _ => .refl _

theorem parseFixed_grow (lhs : LV) (b : Base) (n : Integer) : (parseFixed ⟨r, nm⟩ lhs b n).Le (parseFixed ⟨r', nm⟩ lhs b n) :=
  .bind (integer_grow h n) fun _ => .bind (parseBase_grow h _ b) fun _ => .refl _

theorem parseRem_grow (lhs : LV) (b : Base) : (parseRem ⟨r, nm⟩ lhs b).Le (parseRem ⟨r', nm⟩ lhs b) := by
  rw [parseRem, parseRem, tipeBase_grow (r := r) (r' := r')]
  exact .bind (parseBase_grow h _ b) fun _ => .refl _

theorem parseVar_grow (recv : String) (lhs : LV) (b : Base) (c : Option LengthConstraint) :
    (parseVar ⟨r, nm⟩ recv lhs b c).Le (parseVar ⟨r', nm⟩ recv lhs b c) := by
  rcases c with _ | c
  · exact parseRem_grow h lhs b
  · cases c with
    | leftover k => exact constrained_grow h recv _ (parseRem_grow h lhs b)
    | idRef x =>
      simp only [parseVar, tipeBase_grow (r := r) (r' := r')]
      exact .bind (parseBase_grow h _ b) fun _ => .refl _

theorem parseType_grow (recv : String) (lhs : LV) (t : Ty) : (parseType ⟨r, nm⟩ recv lhs t).Le (parseType ⟨r', nm⟩ recv lhs t) := by
  cases t with
  | base b => exact parseBase_grow h lhs b
  | fixedArray b n => exact parseFixed_grow h lhs b n
  | varArray b c => exact parseVar_grow h recv lhs b c
  | _ => exact .refl _

theorem parseLeaf_grow (recv : String) (l : Leaf) : (parseLeaf ⟨r, nm⟩ recv l).Le (parseLeaf ⟨r', nm⟩ recv l) := by
  cases l with
  | field f => exact .bind (parseType_grow h recv _ f.type) fun _ => .refl _
  | _ => exact .refl _

theorem parseLeaves_grow (recv : String) (l : List Leaf) : (parseLeaves ⟨r, nm⟩ recv l).Le (parseLeaves ⟨r', nm⟩ recv l) := by
  induction l with
  | nil => exact .refl _
  | cons a l ih => exact .bind (parseLeaf_grow h recv a) fun _ => .bind ih fun _ => .refl _

theorem caseHead_grow (tag : Expr) (c : UnionCase) : (caseHead ⟨r, nm⟩ tag c).Le (caseHead ⟨r', nm⟩ tag c) := by
  unfold caseHead
  cases c.case with
  | none => exact .refl _
  | some l => exact .bind (conditional_grow h tag l) fun _ => .refl _

theorem parseCases_grow (recv : String) (tag : Expr) (l : List UnionCase) :
    (parseCases ⟨r, nm⟩ recv tag l).Le (parseCases ⟨r', nm⟩ recv tag l) := by
  induction l with
  | nil => exact .refl _
  | cons a l ih =>
    exact .bind (caseHead_grow h tag a) fun _ => .bind (parseLeaves_grow h recv a.members) fun _ => .bind ih fun _ => .refl _

theorem parseUnion_grow (recv : String) (u : UnionMember) : (parseUnion ⟨r, nm⟩ recv u).Le (parseUnion ⟨r', nm⟩ recv u) := by
  have hs : (parseSwitch ⟨r, nm⟩ recv u).Le (parseSwitch ⟨r', nm⟩ recv u) :=
    .bind (parseCases_grow h recv _ u.cases) fun _ => .refl _
  unfold parseUnion
  cases u.length with
  | none => exact hs
  | some c => exact constrained_grow h recv c hs

theorem parseMembers_grow (recv : String) (l : List Member) : (parseMembers ⟨r, nm⟩ recv l).Le (parseMembers ⟨r', nm⟩ recv l) := by
  induction l with
  | nil => exact .refl _
  | cons a l ih =>
    refine .bind ?_ fun _ => .bind ih fun _ => .refl _
    cases a with
    | leaf a => exact parseLeaf_grow h recv a
    | union u => exact .bind (parseUnion_grow h recv u) fun _ => .refl _

omit h in
theorem contextSignature_grow (l : List String) : contextSignature ⟨r, nm⟩ l = contextSignature ⟨r', nm⟩ l := by
  induction l with
  | nil => rfl
  | cons a l ih => first | rfl | simp only [contextSignature, ih]

theorem parse_grow (recv : String) (s : Struct) : (parse ⟨r, nm⟩ recv s).Le (parse ⟨r', nm⟩ recv s) := by
  rw [parse, parse, contextSignature_grow (r := r) (r' := r')]
  exact .bind (parseMembers_grow h recv s.ms) fun _ => .refl _

theorem fieldDecl_grow (f : Field) : (fieldDecl ⟨r, nm⟩ f).Le (fieldDecl ⟨r', nm⟩ f) :=
  .bind (tipe_grow h f.type) fun _ => .refl _

theorem leafDecls_grow (l : List Leaf) : (leafDecls ⟨r, nm⟩ l).Le (leafDecls ⟨r', nm⟩ l) := by
  induction l with
  | nil => exact .refl _
  | cons a l ih =>
    cases a with
    | field f => exact .bind (fieldDecl_grow h f) fun _ => .bind ih fun _ => .refl _
    | _ => exact ih

theorem caseDecls_grow (l : List UnionCase) : (caseDecls ⟨r, nm⟩ l).Le (caseDecls ⟨r', nm⟩ l) := by
  induction l with
  | nil => exact .refl _
  | cons a l ih => exact .bind (leafDecls_grow h a.members) fun _ => .bind ih fun _ => .refl _

theorem structMemberDecl_grow (m : Member) : (structMemberDecl ⟨r, nm⟩ m).Le (structMemberDecl ⟨r', nm⟩ m) := by
  rcases m with l | u
  · cases l with
    | field f => exact .bind (fieldDecl_grow h f) fun _ => .refl _
    | _ => exact .refl _
  · exact caseDecls_grow h u.cases

theorem memberDecls_grow (l : List Member) : (memberDecls ⟨r, nm⟩ l).Le (memberDecls ⟨r', nm⟩ l) := by
  induction l with
  | nil => exact .refl _
  | cons a l ih => exact .bind (structMemberDecl_grow h a) fun _ => .bind ih fun _ => .refl _

omit h in
theorem parseConstructor_grow (recv : String) (s : Struct) : parseConstructor ⟨r, nm⟩ recv s = parseConstructor ⟨r', nm⟩ recv s := by
  rw [parseConstructor, parseConstructor, contextSignature_grow (r := r) (r' := r')]

theorem structure_grow (s : Struct) : (structure_ ⟨r, nm⟩ s).Le (structure_ ⟨r', nm⟩ s) := by
  unfold structure_
  split
  · exact .refl _
  · refine .bind (.refl _) fun recv => ?_
    rw [parseConstructor_grow (r := r) (r' := r')]
    exact .bind (.bind (memberDecls_grow h s.ms) fun _ => .refl _) fun _ => .bind (parse_grow h recv s) fun _ => .refl _

theorem fileContexts_grow (l : List Context) : (fileContexts ⟨r, nm⟩ l).Le (fileContexts ⟨r', nm⟩ l) := by
  induction l with
  | nil => exact .refl _
  | cons a l ih =>
    exact .bind (.bind (leafDecls_grow h _) fun _ => .refl _) fun _ => .bind ih fun _ => .refl _

theorem fileStructs_grow (l : List Struct) : (fileStructs ⟨r, nm⟩ l).Le (fileStructs ⟨r', nm⟩ l) := by
  induction l with
  | nil => exact .refl _
  | cons a l ih => exact .bind (structure_grow h a) fun _ => .bind ih fun _ => .refl _

theorem fileList_grow (l : List File) : (fileList ⟨r, nm⟩ l).Le (fileList ⟨r', nm⟩ l) := by
  induction l with
  | nil => exact .refl _
  | cons a l ih =>
    exact .bind (.bind (fileContexts_grow h _) fun _ => .bind (fileStructs_grow h _) fun _ => .refl _) fun _ =>
      .bind ih fun _ => .refl _

end

theorem fileList_join {g : Cfg} : ∀ {fs gs : List File} {p : Prog}, fileList g (fs ++ gs) = .ok p ↔
    ∃ a b, fileList g fs = .ok a ∧ fileList g gs = .ok b ∧ p = append a b := by
  intro fs
  induction fs with
  | nil =>
    intro gs p
    simp only [List.nil_append]
    constructor
    · exact fun h => ⟨_, p, rfl, h, by simp [append]⟩
    · rintro ⟨a, b, h1, h2, rfl⟩
      cases h1
      simpa [append] using h2
  | cons f fs ih =>
    intro gs p
    simp only [List.cons_append, fileList, Res.bind_eq_ok]
    constructor
    · rintro ⟨a, h1, q, h2, h3⟩
      obtain ⟨b, c, h4, h5, rfl⟩ := ih.1 h2
      cases h3
      exact ⟨_, c, ⟨a, h1, b, h4, rfl⟩, h5, by simp [append]⟩
    · rintro ⟨x, c, ⟨a, h1, b, h4, h6⟩, h5, rfl⟩
      cases h6
      exact ⟨a, h1, _, ih.2 ⟨b, c, h4, h5, rfl⟩, by simp [append]⟩

end Verif.Gen

namespace Verif.GenText
open Verif Verif.Ast Verif.Inspect Verif.Gen

section
variable {r r' : Resolver} {nm : String → String} (h : Grows r r')
include h

theorem integer_grow (i : Integer) : (integer ⟨r, nm⟩ i).Le (integer ⟨r', nm⟩ i) :=
  .bind (Gen.integer_grow h i) fun _ => .refl _

theorem clause_grow (v : Text) (x : IntegerRange) : (clause ⟨r, nm⟩ v x).Le (clause ⟨r', nm⟩ v x) := by
  obtain ⟨lo, hi⟩ := x
  cases hi with
  | none => exact .bind (integer_grow h _) fun _ => .refl _
  | some hi => exact .bind (integer_grow h _) fun _ => .bind (integer_grow h _) fun _ => .refl _

theorem clauses_grow (v : Text) (l : List IntegerRange) : (clauses ⟨r, nm⟩ v l).Le (clauses ⟨r', nm⟩ v l) := by
  induction l with
  | nil => exact .refl _
  | cons a l ih => exact .bind (clause_grow h v a) fun _ => .bind ih fun _ => .refl _

theorem conditional_grow (v : Text) (l : IntegerList) : (conditional ⟨r, nm⟩ v l).Le (conditional ⟨r', nm⟩ v l) :=
  .bind (clauses_grow h v _) fun _ => .refl _

omit h in
theorem tipeBase_grow (b : Base) : tipeBase ⟨r, nm⟩ b = tipeBase ⟨r', nm⟩ b := by cases b <;> rfl

theorem tipe_grow (t : Ty) : (tipe ⟨r, nm⟩ t).Le (tipe ⟨r', nm⟩ t) := by
  cases t with
  | base b => rw [tipe, tipe, tipeBase_grow (r := r) (r' := r')]; exact .refl _
  | fixedArray b n =>
    rw [tipe, tipe, tipeBase_grow (r := r) (r' := r')]
    exact .bind (integer_grow h _) fun _ => .refl _
  | varArray b c => rw [tipe, tipe, tipeBase_grow (r := r) (r' := r')]; exact .refl _
  | _ => exact .refl _

theorem parseIntType_grow (lhs : Text) (t : IntType) : (parseIntType ⟨r, nm⟩ lhs t).Le (parseIntType ⟨r', nm⟩ lhs t) := by
  refine .bind ?_ fun _ => .refl _
  unfold intCheck
  cases t.constraint with
  | none => exact .refl _
  | some l => exact .bind (conditional_grow h _ l) fun _ => .refl _

theorem parseBase_grow (lhs : Text) (b : Base) : (parseBase ⟨r, nm⟩ lhs b).Le (parseBase ⟨r', nm⟩ lhs b) := by
  cases b with
  | int t => exact parseIntType_grow h lhs t
  | char => exact parseIntType_grow h lhs U8
  | struct n =>
    intro y hy
    simp only [parseBase] at hy ⊢
    cases hs : r.struct n with
    | none => rw [hs] at hy; cases hy
    | some s =>
      obtain ⟨s', hs', hc⟩ := h.struct n s hs
      rw [hs] at hy
      rw [hs', ← hy]
      simp only [hc]

theorem extent_grow (recv : String) (c : LengthConstraint) : (extent ⟨r, nm⟩ recv c).Le (extent ⟨r', nm⟩ recv c) := by
  cases c with
  | leftover k => exact .bind (integer_grow h k) fun _ => .refl _
  | idRef x => exact .refl _

theorem constrained_grow (recv : String) (c : LengthConstraint) {b b' : Res Text} (hb : b.Le b') :
    (constrained ⟨r, nm⟩ recv c b).Le (constrained ⟨r', nm⟩ recv c b') :=
  .bind (extent_grow h recv c) fun _ => .bind hb fun _ => .refl _

theorem parseFixed_grow (lhs : Text) (b : Base) (n : Integer) : (parseFixed ⟨r, nm⟩ lhs b n).Le (parseFixed ⟨r', nm⟩ lhs b n) :=
  .bind (integer_grow h n) fun _ => .bind (parseBase_grow h _ b) fun _ => .refl _

theorem parseRem_grow (lhs : Text) (b : Base) : (parseRem ⟨r, nm⟩ lhs b).Le (parseRem ⟨r', nm⟩ lhs b) := by
  rw [parseRem, parseRem, tipeBase_grow (r := r) (r' := r')]
  exact .bind (parseBase_grow h _ b) fun _ => .refl _

theorem parseVar_grow (recv : String) (lhs : Text) (b : Base) (c : Option LengthConstraint) :
    (parseVar ⟨r, nm⟩ recv lhs b c).Le (parseVar ⟨r', nm⟩ recv lhs b c) := by
  rcases c with _ | c
  · exact parseRem_grow h lhs b
  · cases c with
    | leftover k => exact constrained_grow h recv _ (parseRem_grow h lhs b)
    | idRef x =>
      simp only [parseVar, tipeBase_grow (r := r) (r' := r')]
      exact .bind (parseBase_grow h _ b) fun _ => .refl _

theorem parseType_grow (recv : String) (lhs : Text) (t : Ty) : (parseType ⟨r, nm⟩ recv lhs t).Le (parseType ⟨r', nm⟩ recv lhs t) := by
  cases t with
  | base b => exact parseBase_grow h lhs b
  | fixedArray b n => exact parseFixed_grow h lhs b n
  | varArray b c => exact parseVar_grow h recv lhs b c
  | _ => exact .refl _

theorem parseLeaf_grow (recv : String) (l : Leaf) : (parseLeaf ⟨r, nm⟩ recv l).Le (parseLeaf ⟨r', nm⟩ recv l) := by
  cases l with
  | field f => exact .bind (parseType_grow h recv _ f.type) fun _ => .refl _
  | _ => exact .refl _

theorem parseLeaves_grow (recv : String) (l : List Leaf) : (parseLeaves ⟨r, nm⟩ recv l).Le (parseLeaves ⟨r', nm⟩ recv l) := by
  induction l with
  | nil => exact .refl _
  | cons a l ih => exact .bind (parseLeaf_grow h recv a) fun _ => .bind ih fun _ => .refl _

theorem caseHead_grow (tag : Text) (c : UnionCase) : (caseHead ⟨r, nm⟩ tag c).Le (caseHead ⟨r', nm⟩ tag c) := by
  unfold caseHead
  cases c.case with
  | none => exact .refl _
  | some l => exact .bind (conditional_grow h tag l) fun _ => .refl _

theorem parseCases_grow (recv : String) (tag : Text) (l : List UnionCase) :
    (parseCases ⟨r, nm⟩ recv tag l).Le (parseCases ⟨r', nm⟩ recv tag l) := by
  induction l with
  | nil => exact .refl _
  | cons a l ih =>
    exact .bind (caseHead_grow h tag a) fun _ => .bind (parseLeaves_grow h recv a.members) fun _ => .bind ih fun _ => .refl _

theorem parseUnion_grow (recv : String) (u : UnionMember) : (parseUnion ⟨r, nm⟩ recv u).Le (parseUnion ⟨r', nm⟩ recv u) := by
  have hs : (parseSwitch ⟨r, nm⟩ recv u).Le (parseSwitch ⟨r', nm⟩ recv u) :=
    .bind (parseCases_grow h recv _ u.cases) fun _ => .refl _
  unfold parseUnion
  cases u.length with
  | none => exact hs
  | some c => exact constrained_grow h recv c hs

theorem parseMembers_grow (recv : String) (l : List Member) : (parseMembers ⟨r, nm⟩ recv l).Le (parseMembers ⟨r', nm⟩ recv l) := by
  induction l with
  | nil => exact .refl _
  | cons a l ih =>
    refine .bind ?_ fun _ => .bind ih fun _ => .refl _
    cases a with
    | leaf a => exact parseLeaf_grow h recv a
    | union u => exact .bind (parseUnion_grow h recv u) fun _ => .refl _

omit h in
theorem contextSignature_grow (l : List String) : contextSignature ⟨r, nm⟩ l = contextSignature ⟨r', nm⟩ l := by
  induction l with
  | nil => rfl
  | cons a l ih => first | rfl | simp only [contextSignature, ih]

theorem parse_grow (recv : String) (s : Struct) : (parse ⟨r, nm⟩ recv s).Le (parse ⟨r', nm⟩ recv s) := by
  rw [parse, parse, contextSignature_grow (r := r) (r' := r')]
  exact .bind (parseMembers_grow h recv s.ms) fun _ => .refl _

theorem fieldDecl_grow (f : Field) : (fieldDecl ⟨r, nm⟩ f).Le (fieldDecl ⟨r', nm⟩ f) :=
  .bind (tipe_grow h f.type) fun _ => .refl _

theorem leafDecls_grow (l : List Leaf) : (leafDecls ⟨r, nm⟩ l).Le (leafDecls ⟨r', nm⟩ l) := by
  induction l with
  | nil => exact .refl _
  | cons a l ih =>
    cases a with
    | field f => exact .bind (fieldDecl_grow h f) fun _ => .bind ih fun _ => .refl _
    | _ => exact ih

theorem caseDecls_grow (l : List UnionCase) : (caseDecls ⟨r, nm⟩ l).Le (caseDecls ⟨r', nm⟩ l) := by
  induction l with
  | nil => exact .refl _
  | cons a l ih => exact .bind (leafDecls_grow h a.members) fun _ => .bind ih fun _ => .refl _

theorem structMemberDecl_grow (m : Member) : (structMemberDecl ⟨r, nm⟩ m).Le (structMemberDecl ⟨r', nm⟩ m) := by
  rcases m with l | u
  · cases l with
    | field f => exact fieldDecl_grow h f
    | _ => exact .refl _
  · exact caseDecls_grow h u.cases

theorem memberDecls_grow (l : List Member) : (memberDecls ⟨r, nm⟩ l).Le (memberDecls ⟨r', nm⟩ l) := by
  induction l with
  | nil => exact .refl _
  | cons a l ih => exact .bind (structMemberDecl_grow h a) fun _ => .bind ih fun _ => .refl _

omit h in
theorem parseConstructor_grow (recv : String) (s : Struct) : parseConstructor ⟨r, nm⟩ recv s = parseConstructor ⟨r', nm⟩ recv s := by
  rw [parseConstructor, parseConstructor, contextSignature_grow (r := r) (r' := r')]

theorem structure_grow (s : Struct) : (structure_ ⟨r, nm⟩ s).Le (structure_ ⟨r', nm⟩ s) := by
  unfold structure_
  split
  · exact .refl _
  · refine .bind (.refl _) fun recv => ?_
    rw [parseConstructor_grow (r := r) (r' := r')]
    exact .bind (.bind (memberDecls_grow h s.ms) fun _ => .refl _) fun _ => .bind (parse_grow h recv s) fun _ => .refl _

theorem fileContexts_grow (l : List Context) : (fileContexts ⟨r, nm⟩ l).Le (fileContexts ⟨r', nm⟩ l) := by
  induction l with
  | nil => exact .refl _
  | cons a l ih =>
    exact .bind (.bind (leafDecls_grow h _) fun _ => .refl _) fun _ => .bind ih fun _ => .refl _

theorem fileStructs_grow (l : List Struct) : (fileStructs ⟨r, nm⟩ l).Le (fileStructs ⟨r', nm⟩ l) := by
  induction l with
  | nil => exact .refl _
  | cons a l ih => exact .bind (structure_grow h a) fun _ => .bind ih fun _ => .refl _

theorem fileList_grow (l : List File) : (fileList ⟨r, nm⟩ l).Le (fileList ⟨r', nm⟩ l) := by
  induction l with
  | nil => exact .refl _
  | cons a l ih =>
    exact .bind (.bind (fileContexts_grow h _) fun _ => .bind (fileStructs_grow h _) fun _ => .refl _) fun _ =>
      .bind ih fun _ => .refl _

end

theorem fileList_join {g : Cfg} : ∀ {fs gs : List File} {p : Text}, fileList g (fs ++ gs) = .ok p ↔
    ∃ a b, fileList g fs = .ok a ∧ fileList g gs = .ok b ∧ p = a ++ b := by
  intro fs
  induction fs with
  | nil =>
    intro gs p
    simp only [List.nil_append]
    constructor
    · exact fun h => ⟨_, p, rfl, h, by simp [List.append_assoc]⟩
    · rintro ⟨a, b, h1, h2, rfl⟩
      cases h1
      simpa [List.append_assoc] using h2
  | cons f fs ih =>
    intro gs p
    simp only [List.cons_append, fileList, Res.bind_eq_ok]
    constructor
    · rintro ⟨a, h1, q, h2, h3⟩
      obtain ⟨b, c, h4, h5, rfl⟩ := ih.1 h2
      cases h3
      exact ⟨_, c, ⟨a, h1, b, h4, rfl⟩, h5, by simp [List.append_assoc]⟩
    · rintro ⟨x, c, ⟨a, h1, b, h4, h6⟩, h5, rfl⟩
      cases h6
      exact ⟨a, h1, _, ih.2 ⟨b, c, h4, h5, rfl⟩, by simp [List.append_assoc]⟩

end Verif.GenText
