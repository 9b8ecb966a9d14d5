import Verif.GenTextOrder
import Verif.RefineProg
/-!
# Programs emitted for the same declarations in another order

For C80. What is emitted for a declaration depends on the answers of the resolver only; so declarations in another
order give the same parts in another order.
-/
namespace Verif.Gen
open Verif Verif.Ast Verif.Inspect Verif.Tv Verif.Go

variable {r r' : Resolver} {nm : String → String} (h : SameRes r r')
include h

theorem integer_likeRes (i : Integer) : integer ⟨r, nm⟩ i = integer ⟨r', nm⟩ i := by
  simp only [integer, h.integer]

theorem clause_likeRes (v : Expr) (x : IntegerRange) : clause ⟨r, nm⟩ v x = clause ⟨r', nm⟩ v x := by
  simp only [clause, integer_likeRes h]

theorem clauses_likeRes (v : Expr) (l : List IntegerRange) : clauses ⟨r, nm⟩ v l = clauses ⟨r', nm⟩ v l := by
  induction l with
  | nil => rfl
  | cons a l ih => simp only [clauses, clause_likeRes h, ih]

theorem conditional_likeRes (v : Expr) (l : IntegerList) : conditional ⟨r, nm⟩ v l = conditional ⟨r', nm⟩ v l := by
  simp only [conditional, clauses_likeRes h]

omit h in
theorem tipeBase_likeRes (b : Base) : tipeBase ⟨r, nm⟩ b = tipeBase ⟨r', nm⟩ b := by
  cases b <;> rfl

theorem tipe_likeRes (t : Ty) : tipe ⟨r, nm⟩ t = tipe ⟨r', nm⟩ t := by
  cases t <;> simp only [tipe, tipeBase_likeRes (r := r) (r' := r'), integer_likeRes h]

omit h in
theorem contextSignature_likeRes (l : List String) : contextSignature ⟨r, nm⟩ l = contextSignature ⟨r', nm⟩ l := rfl

omit h in
theorem ref_likeRes (recv : String) (x : IDRef) : Gen.ref ⟨r, nm⟩ recv x = Gen.ref ⟨r', nm⟩ recv x := rfl

theorem parseIntType_likeRes (lhs : LV) (t : IntType) :
    parseIntType ⟨r, nm⟩ lhs t = parseIntType ⟨r', nm⟩ lhs t := by
  simp only [parseIntType, intCheck, conditional_likeRes h]

theorem parseBase_likeRes (lhs : LV) (b : Base) : parseBase ⟨r, nm⟩ lhs b = parseBase ⟨r', nm⟩ lhs b := by
  cases b <;> simp only [parseBase, parseIntType_likeRes h, h.1]

theorem extent_likeRes (recv : String) (c : LengthConstraint) :
    extent ⟨r, nm⟩ recv c = extent ⟨r', nm⟩ recv c := by
  cases c <;> simp only [extent, integer_likeRes h, ref_likeRes (r := r) (r' := r')]

theorem constrained_likeRes (recv : String) (c : LengthConstraint) (b : Res (List Stmt)) :
    constrained ⟨r, nm⟩ recv c b = constrained ⟨r', nm⟩ recv c b := by
  simp only [constrained, extent_likeRes h]

theorem parseFixed_likeRes (lhs : LV) (b : Base) (n : Integer) :
    parseFixed ⟨r, nm⟩ lhs b n = parseFixed ⟨r', nm⟩ lhs b n := by
  simp only [parseFixed, integer_likeRes h, parseBase_likeRes h]

theorem parseRem_likeRes (lhs : LV) (b : Base) : parseRem ⟨r, nm⟩ lhs b = parseRem ⟨r', nm⟩ lhs b := by
  simp only [parseRem, parseBase_likeRes h, tipeBase_likeRes (r := r) (r' := r')]

theorem parseVar_likeRes (recv : String) (lhs : LV) (b : Base) (c : Option LengthConstraint) :
    parseVar ⟨r, nm⟩ recv lhs b c = parseVar ⟨r', nm⟩ recv lhs b c := by
  rcases c with _ | c
  · simp only [parseVar, parseRem_likeRes h]
  · cases c <;> simp only [parseVar, parseRem_likeRes h, parseBase_likeRes h, constrained_likeRes h,
      tipeBase_likeRes (r := r) (r' := r'), ref_likeRes (r := r) (r' := r')]

theorem parseType_likeRes (recv : String) (lhs : LV) (t : Ty) :
    parseType ⟨r, nm⟩ recv lhs t = parseType ⟨r', nm⟩ recv lhs t := by
  cases t <;> simp only [parseType, parseBase_likeRes h, parseFixed_likeRes h, parseVar_likeRes h]

theorem parseLeaf_likeRes (recv : String) (l : Leaf) : parseLeaf ⟨r, nm⟩ recv l = parseLeaf ⟨r', nm⟩ recv l := by
  cases l <;> simp only [parseLeaf, parseType_likeRes h]

theorem parseLeaves_likeRes (recv : String) (l : List Leaf) :
    parseLeaves ⟨r, nm⟩ recv l = parseLeaves ⟨r', nm⟩ recv l := by
  induction l with
  | nil => rfl
  | cons a l ih => simp only [parseLeaves, parseLeaf_likeRes h, ih]

theorem parseCases_likeRes (recv : String) (tag : Expr) (l : List UnionCase) :
    parseCases ⟨r, nm⟩ recv tag l = parseCases ⟨r', nm⟩ recv tag l := by
  induction l with
  | nil => rfl
  | cons a l ih => simp only [parseCases, caseHead, conditional_likeRes h, parseLeaves_likeRes h, ih]

theorem parseSwitch_likeRes (recv : String) (u : UnionMember) :
    parseSwitch ⟨r, nm⟩ recv u = parseSwitch ⟨r', nm⟩ recv u := by
  simp only [parseSwitch, parseCases_likeRes h, ref_likeRes (r := r) (r' := r')]

theorem parseUnion_likeRes (recv : String) (u : UnionMember) :
    parseUnion ⟨r, nm⟩ recv u = parseUnion ⟨r', nm⟩ recv u := by
  simp only [parseUnion, parseSwitch_likeRes h, constrained_likeRes h]

theorem parseMembers_likeRes (recv : String) (l : List Member) :
    parseMembers ⟨r, nm⟩ recv l = parseMembers ⟨r', nm⟩ recv l := by
  induction l with
  | nil => rfl
  | cons a l ih =>
    cases a <;> simp only [parseMembers, parseMember, parseLeaf_likeRes h, parseUnion_likeRes h, ih]

theorem parse_likeRes (recv : String) (s : Struct) : parse ⟨r, nm⟩ recv s = parse ⟨r', nm⟩ recv s := by
  simp only [parse, parseMembers_likeRes h, contextSignature]

omit h in
theorem parseConstructor_likeRes (recv : String) (s : Struct) :
    parseConstructor ⟨r, nm⟩ recv s = parseConstructor ⟨r', nm⟩ recv s := by
  simp only [parseConstructor, contextSignature]

theorem leafDecls_likeRes (l : List Leaf) : leafDecls ⟨r, nm⟩ l = leafDecls ⟨r', nm⟩ l := by
  induction l with
  | nil => rfl
  | cons a l ih => cases a <;> simp only [leafDecls, fieldDecl, tipe_likeRes h, ih]

theorem caseDecls_likeRes (l : List UnionCase) : caseDecls ⟨r, nm⟩ l = caseDecls ⟨r', nm⟩ l := by
  induction l with
  | nil => rfl
  | cons a l ih => simp only [caseDecls, leafDecls_likeRes h, ih]

theorem structMemberDecl_likeRes (m : Member) : structMemberDecl ⟨r, nm⟩ m = structMemberDecl ⟨r', nm⟩ m := by
  rcases m with l | u
  · cases l <;> simp only [structMemberDecl, fieldDecl, tipe_likeRes h]
  · simp only [structMemberDecl, caseDecls_likeRes h]

theorem memberDecls_likeRes (l : List Member) : memberDecls ⟨r, nm⟩ l = memberDecls ⟨r', nm⟩ l := by
  induction l with
  | nil => rfl
  | cons a l ih => simp only [memberDecls, structMemberDecl_likeRes h, ih]

theorem structure_likeRes (s : Struct) : structure_ ⟨r, nm⟩ s = structure_ ⟨r', nm⟩ s := by
  simp only [structure_, structDecl, memberDecls_likeRes h, parse_likeRes h, parseConstructor_likeRes (r := r) (r' := r')]

theorem context_likeRes (c : Context) : context ⟨r, nm⟩ c = context ⟨r', nm⟩ c := by
  simp only [context, leafDecls_likeRes h]

theorem fileContexts_likeRes (l : List Context) : fileContexts ⟨r, nm⟩ l = fileContexts ⟨r', nm⟩ l := by
  induction l with
  | nil => rfl
  | cons a l ih => simp only [fileContexts, context_likeRes h, ih]

theorem fileStructs_likeRes (l : List Struct) : fileStructs ⟨r, nm⟩ l = fileStructs ⟨r', nm⟩ l := by
  induction l with
  | nil => rfl
  | cons a l ih => simp only [fileStructs, structure_likeRes h, ih]

omit h

/-- The same declarations in another order. -/
structure PermProg (p q : Prog) : Prop where
  types : p.types.Perm q.types
  methods : p.methods.Perm q.methods
  ctors : p.ctors.Perm q.ctors

theorem PermProg.refl (p : Prog) : PermProg p p := ⟨.refl _, .refl _, .refl _⟩

theorem PermProg.symm {p q : Prog} (h : PermProg p q) : PermProg q p := ⟨h.1.symm, h.2.symm, h.3.symm⟩

theorem PermProg.trans {p q s : Prog} (h : PermProg p q) (h' : PermProg q s) : PermProg p s :=
  ⟨h.1.trans h'.1, h.2.trans h'.2, h.3.trans h'.3⟩

theorem PermProg.append {p q p' q' : Prog} (h : PermProg p p') (h' : PermProg q q') :
    PermProg (append p q) (append p' q') := ⟨h.1.append h'.1, h.2.append h'.2, h.3.append h'.3⟩

theorem permProg_middle (a b c d : Prog) :
    PermProg (append (append a b) (append c d)) (append (append a c) (append b d)) := by
  have key : ∀ {α : Type} (a b c d : List α), ((a ++ b) ++ (c ++ d)).Perm ((a ++ c) ++ (b ++ d)) := by
    intro α a b c d
    rw [List.append_assoc, List.append_assoc]
    refine List.Perm.append_left a ?_
    rw [← List.append_assoc, ← List.append_assoc]
    exact List.Perm.append_right d List.perm_append_comm
  exact ⟨key _ _ _ _, key _ _ _ _, key _ _ _ _⟩

theorem permProg_swap (a b c : Prog) : PermProg (append a (append b c)) (append b (append a c)) := by
  have key : ∀ {α : Type} (a b c : List α), (a ++ (b ++ c)).Perm (b ++ (a ++ c)) := by
    intro α a b c
    rw [← List.append_assoc, ← List.append_assoc]
    exact List.Perm.append_right c List.perm_append_comm
  exact ⟨key _ _ _, key _ _ _, key _ _ _⟩

variable {g : Cfg}

theorem fileContexts_perm {l l' : List Context} (hl : l.Perm l') : ∀ {p : Prog}, fileContexts g l = .ok p →
    ∃ p', fileContexts g l' = .ok p' ∧ PermProg p p' := by
  induction hl with
  | nil => intro p h; exact ⟨p, h, .refl _⟩
  | cons a _ ih =>
    intro p h
    obtain ⟨d, h1, h⟩ := Res.bind_eq_ok.1 h
    obtain ⟨q, h2, h⟩ := Res.bind_eq_ok.1 h
    cases h
    obtain ⟨q', h3, h4⟩ := ih h2
    exact ⟨_, Res.bind_eq_ok.2 ⟨d, h1, Res.bind_eq_ok.2 ⟨q', h3, rfl⟩⟩, (PermProg.refl _).append h4⟩
  | swap a b l =>
    intro p h
    obtain ⟨d, h1, h⟩ := Res.bind_eq_ok.1 h
    obtain ⟨q, h2, h⟩ := Res.bind_eq_ok.1 h
    cases h
    obtain ⟨e, h3, h2⟩ := Res.bind_eq_ok.1 h2
    obtain ⟨q, h4, h2⟩ := Res.bind_eq_ok.1 h2
    cases h2
    exact ⟨_, Res.bind_eq_ok.2 ⟨e, h3, Res.bind_eq_ok.2 ⟨_, Res.bind_eq_ok.2 ⟨d, h1, Res.bind_eq_ok.2 ⟨q, h4, rfl⟩⟩, rfl⟩⟩,
      permProg_swap _ _ _⟩
  | trans _ _ ih ih' =>
    intro p h
    obtain ⟨p1, h1, h2⟩ := ih h
    obtain ⟨p2, h3, h4⟩ := ih' h1
    exact ⟨p2, h3, h2.trans h4⟩

theorem fileStructs_perm {l l' : List Struct} (hl : l.Perm l') : ∀ {p : Prog}, fileStructs g l = .ok p →
    ∃ p', fileStructs g l' = .ok p' ∧ PermProg p p' := by
  induction hl with
  | nil => intro p h; exact ⟨p, h, .refl _⟩
  | cons a _ ih =>
    intro p h
    obtain ⟨d, h1, h⟩ := Res.bind_eq_ok.1 h
    obtain ⟨q, h2, h⟩ := Res.bind_eq_ok.1 h
    cases h
    obtain ⟨q', h3, h4⟩ := ih h2
    exact ⟨_, Res.bind_eq_ok.2 ⟨d, h1, Res.bind_eq_ok.2 ⟨q', h3, rfl⟩⟩, (PermProg.refl _).append h4⟩
  | swap a b l =>
    intro p h
    obtain ⟨d, h1, h⟩ := Res.bind_eq_ok.1 h
    obtain ⟨q, h2, h⟩ := Res.bind_eq_ok.1 h
    cases h
    obtain ⟨e, h3, h2⟩ := Res.bind_eq_ok.1 h2
    obtain ⟨q, h4, h2⟩ := Res.bind_eq_ok.1 h2
    cases h2
    exact ⟨_, Res.bind_eq_ok.2 ⟨e, h3, Res.bind_eq_ok.2 ⟨_, Res.bind_eq_ok.2 ⟨d, h1, Res.bind_eq_ok.2 ⟨q, h4, rfl⟩⟩, rfl⟩⟩,
      permProg_swap _ _ _⟩
  | trans _ _ ih ih' =>
    intro p h
    obtain ⟨p1, h1, h2⟩ := ih h
    obtain ⟨p2, h3, h4⟩ := ih' h1
    exact ⟨p2, h3, h2.trans h4⟩

theorem append_assoc (a b c : Prog) : append (append a b) c = append a (append b c) := by
  simp [append, List.append_assoc]

theorem fileContexts_append (l l' : List Context) {p : Prog} :
    fileContexts g (l ++ l') = .ok p ↔ ∃ a b, fileContexts g l = .ok a ∧ fileContexts g l' = .ok b ∧ p = append a b := by
  induction l generalizing p with
  | nil =>
    constructor
    · intro h; exact ⟨_, p, rfl, h, rfl⟩
    · rintro ⟨a, b, ha, hb, rfl⟩; cases ha; exact hb
  | cons c l ih =>
    constructor
    · intro h
      obtain ⟨d, h1, h⟩ := Res.bind_eq_ok.1 h
      obtain ⟨q, h2, h⟩ := Res.bind_eq_ok.1 h
      cases h
      obtain ⟨a, b, ha, hb, rfl⟩ := ih.1 h2
      exact ⟨_, b, Res.bind_eq_ok.2 ⟨d, h1, Res.bind_eq_ok.2 ⟨a, ha, rfl⟩⟩, hb, (append_assoc _ _ _).symm⟩
    · rintro ⟨a, b, ha, hb, rfl⟩
      obtain ⟨d, h1, ha⟩ := Res.bind_eq_ok.1 ha
      obtain ⟨q, h2, ha⟩ := Res.bind_eq_ok.1 ha
      cases ha
      exact Res.bind_eq_ok.2 ⟨d, h1, Res.bind_eq_ok.2 ⟨_, ih.2 ⟨q, b, h2, hb, rfl⟩, by rw [append_assoc]⟩⟩

theorem fileStructs_append (l l' : List Struct) {p : Prog} :
    fileStructs g (l ++ l') = .ok p ↔ ∃ a b, fileStructs g l = .ok a ∧ fileStructs g l' = .ok b ∧ p = append a b := by
  induction l generalizing p with
  | nil =>
    constructor
    · intro h; exact ⟨_, p, rfl, h, rfl⟩
    · rintro ⟨a, b, ha, hb, rfl⟩; cases ha; exact hb
  | cons c l ih =>
    constructor
    · intro h
      obtain ⟨d, h1, h⟩ := Res.bind_eq_ok.1 h
      obtain ⟨q, h2, h⟩ := Res.bind_eq_ok.1 h
      cases h
      obtain ⟨a, b, ha, hb, rfl⟩ := ih.1 h2
      exact ⟨_, b, Res.bind_eq_ok.2 ⟨d, h1, Res.bind_eq_ok.2 ⟨a, ha, rfl⟩⟩, hb, (append_assoc _ _ _).symm⟩
    · rintro ⟨a, b, ha, hb, rfl⟩
      obtain ⟨d, h1, ha⟩ := Res.bind_eq_ok.1 ha
      obtain ⟨q, h2, ha⟩ := Res.bind_eq_ok.1 ha
      cases ha
      exact Res.bind_eq_ok.2 ⟨d, h1, Res.bind_eq_ok.2 ⟨_, ih.2 ⟨q, b, h2, hb, rfl⟩, by rw [append_assoc]⟩⟩

/-- Files one after the other, or all contexts and then all structs. -/
theorem fileList_collect {fs : List File} {p : Prog} (h : fileList g fs = .ok p) :
    ∃ c q, fileContexts g (fs.flatMap (·.contexts)) = .ok c ∧ fileStructs g (fs.flatMap (·.structs)) = .ok q ∧
      PermProg p (append c q) := by
  induction fs generalizing p with
  | nil => cases h; exact ⟨_, _, rfl, rfl, .refl _⟩
  | cons f fs ih =>
    obtain ⟨a, h1, h⟩ := Res.bind_eq_ok.1 h
    obtain ⟨b, h2, h⟩ := Res.bind_eq_ok.1 h
    cases h
    obtain ⟨c1, h3, h1⟩ := Res.bind_eq_ok.1 h1
    obtain ⟨q1, h4, h1⟩ := Res.bind_eq_ok.1 h1
    cases h1
    obtain ⟨c, q, h5, h6, h7⟩ := ih h2
    refine ⟨append c1 c, append q1 q, ?_, ?_, ((PermProg.refl _).append h7).trans (permProg_middle _ _ _ _)⟩
    · rw [List.flatMap_cons]; exact (fileContexts_append _ _).2 ⟨_, _, h3, h5, rfl⟩
    · rw [List.flatMap_cons]; exact (fileStructs_append _ _).2 ⟨_, _, h4, h6, rfl⟩

theorem fileList_of_collect {fs : List File} {c q : Prog} (hc : fileContexts g (fs.flatMap (·.contexts)) = .ok c)
    (hq : fileStructs g (fs.flatMap (·.structs)) = .ok q) : ∃ p, fileList g fs = .ok p ∧ PermProg p (append c q) := by
  induction fs generalizing c q with
  | nil => cases hc; cases hq; exact ⟨_, rfl, .refl _⟩
  | cons f fs ih =>
    rw [List.flatMap_cons] at hc hq
    obtain ⟨c1, c2, h1, h2, rfl⟩ := (fileContexts_append _ _).1 hc
    obtain ⟨q1, q2, h3, h4, rfl⟩ := (fileStructs_append _ _).1 hq
    obtain ⟨p, h5, h6⟩ := ih h2 h4
    exact ⟨_, Res.bind_eq_ok.2 ⟨_, Res.bind_eq_ok.2 ⟨c1, h1, Res.bind_eq_ok.2 ⟨q1, h3, rfl⟩⟩,
      Res.bind_eq_ok.2 ⟨p, h5, rfl⟩⟩, ((PermProg.refl _).append h6).trans (permProg_middle _ _ _ _)⟩

/-- What is emitted for rearranged declarations, if resolvers answer alike. -/
theorem fileList_rearranged {fs fs' : List File} {p : Prog} (hR : SameRes r r')
    (hc : (fs.flatMap (·.contexts)).Perm (fs'.flatMap (·.contexts)))
    (hs : (fs.flatMap (·.structs)).Perm (fs'.flatMap (·.structs))) (h : fileList ⟨r, nm⟩ fs = .ok p) :
    ∃ p', fileList ⟨r', nm⟩ fs' = .ok p' ∧ PermProg p p' := by
  obtain ⟨c, q, h1, h2, h3⟩ := fileList_collect h
  rw [fileContexts_likeRes hR] at h1
  rw [fileStructs_likeRes hR] at h2
  obtain ⟨c', h4, h5⟩ := fileContexts_perm hc h1
  obtain ⟨q', h6, h7⟩ := fileStructs_perm hs h2
  obtain ⟨p', h8, h9⟩ := fileList_of_collect h4 h6
  exact ⟨p', h8, (h3.trans (h5.append h7)).trans h9.symm⟩

end Verif.Gen
