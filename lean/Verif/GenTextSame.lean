import Verif.GenText
/-!
# The two models of the generator have the same outcomes

`Verif/Gen` (syntax trees) and `Verif/GenText` (text) succeed, return errors and panic on the same sources.
-/
namespace Verif.GenText
open Verif Verif.Ast Verif.Inspect

/-- Both succeed, both return the same error, or both panic alike. -/
def Same {α β : Type} (x : Res α) (y : Res β) : Prop :=
  (∃ a b, x = .ok a ∧ y = .ok b) ∨ (∃ m, x = .err m ∧ y = .err m) ∨ ∃ m, x = .panic m ∧ y = .panic m

section
variable {α β γ δ : Type}

theorem Same.ok (a : α) (b : β) : Same (.ok a) (.ok b) := .inl ⟨a, b, rfl, rfl⟩

theorem Same.panic (m : String) : Same (.panic m : Res α) (.panic m : Res β) := .inr (.inr ⟨m, rfl, rfl⟩)

theorem Same.refl (x : Res α) : Same x x := by
  cases x with
  | ok a => exact .ok a a
  | err m => exact .inr (.inl ⟨m, rfl, rfl⟩)
  | panic m => exact .panic m

theorem Same.bind {x : Res α} {y : Res β} {f : α → Res γ} {h : β → Res δ} (hs : Same x y) (hf : ∀ a b, Same (f a) (h b)) :
    Same (x >>= f) (y >>= h) := by
  rcases hs with ⟨a, b, rfl, rfl⟩ | ⟨m, rfl, rfl⟩ | ⟨m, rfl, rfl⟩
  · exact hf a b
  · exact .inr (.inl ⟨m, rfl, rfl⟩)
  · exact .inr (.inr ⟨m, rfl, rfl⟩)

theorem Same.bind_same {x : Res α} {f : α → Res γ} {h : α → Res δ} (hf : ∀ a, Same (f a) (h a)) : Same (x >>= f) (x >>= h) := by
  cases x with
  | ok a => exact hf a
  | err m => exact .inr (.inl ⟨m, rfl, rfl⟩)
  | panic m => exact .inr (.inr ⟨m, rfl, rfl⟩)

/-- One more step on the right. -/
theorem Same.right {x : Res α} {y : Res β} {h : β → δ} (hs : Same x y) : Same x (y >>= fun b => .ok (h b)) := by
  rcases hs with ⟨a, b, rfl, rfl⟩ | ⟨m, rfl, rfl⟩ | ⟨m, rfl, rfl⟩
  · exact .ok _ _
  · exact .inr (.inl ⟨m, rfl, rfl⟩)
  · exact .inr (.inr ⟨m, rfl, rfl⟩)
end

variable {g : Gen.Cfg}

theorem integer_same (i : Integer) : Same (Gen.integer g i) (integer g i) := (Same.refl _).right

theorem clause_same (v : Go.Expr) (t : Text) (r : IntegerRange) : Same (Gen.clause g v r) (clause g t r) := by
  unfold Gen.clause clause
  cases r.high
  · exact (integer_same _).bind fun _ _ => .ok _ _
  · exact (integer_same _).bind fun _ _ => (integer_same _).bind fun _ _ => .ok _ _

theorem clauses_same (v : Go.Expr) (t : Text) : ∀ rs, Same (Gen.clauses g v rs) (clauses g t rs)
  | [] => .ok _ _
  | r :: rs => (clause_same v t r).bind fun _ _ => (clauses_same v t rs).bind fun _ _ => .ok _ _

theorem conditional_same (v : Go.Expr) (t : Text) (l : IntegerList) : Same (Gen.conditional g v l) (conditional g t l) :=
  (clauses_same v t _).bind fun _ _ => .ok _ _

theorem tipe_same (t : Ty) : Same (Gen.tipe g t) (tipe g t) := by
  cases t with
  | fixedArray b n => exact (integer_same n).bind fun _ _ => .ok _ _
  | _ => exact .ok _ _

theorem intCheck_same (v : Go.LV) (l : Text) (t : IntType) : Same (Gen.intCheck g v t) (intCheck g l t) := by
  unfold Gen.intCheck intCheck
  cases t.constraint
  · exact .ok _ _
  · exact (conditional_same _ _ _).bind fun _ _ => .ok _ _

theorem parseIntType_same (v : Go.LV) (l : Text) (t : IntType) : Same (Gen.parseIntType g v t) (parseIntType g l t) :=
  (intCheck_same v l t).bind fun _ _ => .ok _ _

theorem parseBase_same (v : Go.LV) (l : Text) (b : Base) : Same (Gen.parseBase g v b) (parseBase g l b) := by
  cases b with
  | int t => exact parseIntType_same v l t
  | char => exact parseIntType_same v l _
  | struct n =>
    simp only [Gen.parseBase, parseBase]
    cases g.res.struct n
    · exact .panic _
    · exact .ok _ _

theorem extent_same (recv : String) (c : LengthConstraint) : Same (Gen.extent g recv c) (extent g recv c) := by
  cases c with
  | leftover k => exact (integer_same k).bind fun _ _ => .ok _ _
  | idRef r => exact .ok _ _

theorem constrained_same (recv : String) (c : LengthConstraint) {x : Res (List Go.Stmt)} {y : Res Text} (h : Same x y) :
    Same (Gen.constrained g recv c x) (constrained g recv c y) :=
  (extent_same recv c).bind fun _ _ => h.bind fun _ _ => .ok _ _

theorem parseFixed_same (v : Go.LV) (l : Text) (b : Base) (n : Integer) : Same (Gen.parseFixed g v b n) (parseFixed g l b n) :=
  (integer_same n).bind fun _ _ => (parseBase_same _ _ b).bind fun _ _ => .ok _ _

theorem parseRem_same (v : Go.LV) (l : Text) (b : Base) : Same (Gen.parseRem g v b) (parseRem g l b) :=
  (parseBase_same _ _ b).bind fun _ _ => .ok _ _

theorem parseVar_same (recv : String) (v : Go.LV) (l : Text) (b : Base) (c : Option LengthConstraint) :
    Same (Gen.parseVar g recv v b c) (parseVar g recv l b c) := by
  match c with
  | some (.idRef r) => exact (parseBase_same _ _ b).bind fun _ _ => .ok _ _
  | some (.leftover k) => exact constrained_same recv _ (parseRem_same v l b)
  | none => exact parseRem_same v l b

theorem parseType_same (recv : String) (v : Go.LV) (l : Text) (t : Ty) : Same (Gen.parseType g recv v t) (parseType g recv l t) := by
  cases t with
  | nulterm => exact .ok _ _
  | base b => exact parseBase_same v l b
  | ptr => exact .ok _ _
  | fixedArray b n => exact parseFixed_same v l b n
  | varArray b c => exact parseVar_same recv v l b c

theorem parseLeaf_same (recv : String) (l : Leaf) : Same (Gen.parseLeaf g recv l) (parseLeaf g recv l) := by
  cases l with
  | field f => exact (parseType_same recv _ _ f.type).bind fun _ _ => .ok _ _
  | _ => exact .ok _ _

theorem parseLeaves_same (recv : String) : ∀ ls, Same (Gen.parseLeaves g recv ls) (parseLeaves g recv ls)
  | [] => .ok _ _
  | l :: ls => (parseLeaf_same recv l).bind fun _ _ => (parseLeaves_same recv ls).bind fun _ _ => .ok _ _

theorem caseHead_same (v : Go.Expr) (t : Text) (c : UnionCase) : Same (Gen.caseHead g v c) (caseHead g t c) := by
  unfold Gen.caseHead caseHead
  cases c.case
  · exact .ok _ _
  · exact (conditional_same _ _ _).bind fun _ _ => .ok _ _

theorem parseCases_same (recv : String) (v : Go.Expr) (t : Text) : ∀ cs, Same (Gen.parseCases g recv v cs) (parseCases g recv t cs)
  | [] => .ok _ _
  | c :: cs => (caseHead_same v t c).bind fun _ _ => (parseLeaves_same recv c.members).bind fun _ _ =>
      (parseCases_same recv v t cs).bind fun _ _ => .ok _ _

theorem parseSwitch_same (recv : String) (u : UnionMember) : Same (Gen.parseSwitch g recv u) (parseSwitch g recv u) :=
  (parseCases_same recv _ _ _).bind fun _ _ => .ok _ _

theorem parseUnion_same (recv : String) (u : UnionMember) : Same (Gen.parseUnion g recv u) (parseUnion g recv u) := by
  unfold Gen.parseUnion parseUnion
  cases u.length
  · exact parseSwitch_same recv u
  · exact constrained_same recv _ (parseSwitch_same recv u)

theorem parseMember_same (recv : String) (m : Member) : Same (Gen.parseMember g recv m) (parseMember g recv m) := by
  cases m with
  | leaf l => exact parseLeaf_same recv l
  | union u => exact (parseUnion_same recv u).bind fun _ _ => .ok _ _

theorem parseMembers_same (recv : String) : ∀ ms, Same (Gen.parseMembers g recv ms) (parseMembers g recv ms)
  | [] => .ok _ _
  | m :: ms => (parseMember_same recv m).bind fun _ _ => (parseMembers_same recv ms).bind fun _ _ => .ok _ _

theorem parse_same (recv : String) (s : Struct) : Same (Gen.parse g recv s) (parse g recv s) :=
  (parseMembers_same recv s.ms).bind fun _ _ => .ok _ _

theorem fieldDecl_same (f : Field) : Same (Gen.fieldDecl g f) (fieldDecl g f) := (tipe_same f.type).bind fun _ _ => .ok _ _

theorem leafDecls_same : ∀ ls, Same (Gen.leafDecls g ls) (leafDecls g ls)
  | [] => .ok _ _
  | .field f :: ls => (fieldDecl_same f).bind fun _ _ => (leafDecls_same ls).bind fun _ _ => .ok _ _
  | .eos :: ls => leafDecls_same ls
  | .ignore :: ls => leafDecls_same ls
  | .fail :: ls => leafDecls_same ls

theorem caseDecls_same : ∀ cs, Same (Gen.caseDecls g cs) (caseDecls g cs)
  | [] => .ok _ _
  | c :: cs => (leafDecls_same c.members).bind fun _ _ => (caseDecls_same cs).bind fun _ _ => .ok _ _

theorem structMemberDecl_same (m : Member) : Same (Gen.structMemberDecl g m) (structMemberDecl g m) := by
  match m with
  | .leaf (.field f) =>
    have h := fieldDecl_same (g := g) f
    simp only [Gen.structMemberDecl, structMemberDecl]
    rcases h with ⟨a, b, h1, h2⟩ | ⟨m, h1, h2⟩ | ⟨m, h1, h2⟩
    · rw [h1, h2]; exact .ok _ _
    · rw [h1, h2]; exact .inr (.inl ⟨m, rfl, rfl⟩)
    · rw [h1, h2]; exact .inr (.inr ⟨m, rfl, rfl⟩)
  | .union u => exact caseDecls_same u.cases
  | .leaf .eos => exact .ok _ _
  | .leaf .ignore => exact .panic _
  | .leaf .fail => exact .panic _

theorem memberDecls_same : ∀ ms, Same (Gen.memberDecls g ms) (memberDecls g ms)
  | [] => .ok _ _
  | m :: ms => (structMemberDecl_same m).bind fun _ _ => (memberDecls_same ms).bind fun _ _ => .ok _ _

theorem structDecl_same (s : Struct) : Same (Gen.structDecl g s) (structDecl g s) :=
  (memberDecls_same s.ms).bind fun _ _ => .ok _ _

theorem context_same (c : Context) : Same (Gen.context g c) (context g c) :=
  (leafDecls_same (c.members.map .field)).bind fun _ _ => .ok _ _

theorem structure_same (s : Struct) : Same (Gen.structure_ g s) (structure_ g s) := by
  unfold Gen.structure_ structure_
  split
  · exact .ok _ _
  · exact .bind_same fun recv => (structDecl_same s).bind fun _ _ => (parse_same recv s).bind fun _ _ => .ok _ _

theorem fileContexts_same : ∀ cs, Same (Gen.fileContexts g cs) (fileContexts g cs)
  | [] => .ok _ _
  | c :: cs => (context_same c).bind fun _ _ => (fileContexts_same cs).bind fun _ _ => .ok _ _

theorem fileStructs_same : ∀ ss, Same (Gen.fileStructs g ss) (fileStructs g ss)
  | [] => .ok _ _
  | s :: ss => (structure_same s).bind fun _ _ => (fileStructs_same ss).bind fun _ _ => .ok _ _

theorem file_same (f : File) : Same (Gen.file g f) (file g f) :=
  (fileContexts_same f.contexts).bind fun _ _ => (fileStructs_same f.structs).bind fun _ _ => .ok _ _

theorem fileList_same : ∀ fs, Same (Gen.fileList g fs) (fileList g fs)
  | [] => .ok _ _
  | f :: fs => (file_same f).bind fun _ _ => (fileList_same fs).bind fun _ _ => .ok _ _

/-- The generator with text and the generator with syntax trees have the same outcome. -/
theorem marshallers_same (pkg : String) (nm : String → String) (o : IterOrder) (fs : List File) :
    Same (Gen.marshallers nm o fs) (marshallers pkg nm o fs) := by
  unfold Gen.marshallers marshallers
  exact .bind_same fun r => (fileList_same fs).right

end Verif.GenText
