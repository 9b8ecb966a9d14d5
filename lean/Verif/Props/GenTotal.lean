import Verif.Props.GenSafe
/-!
# What the generator does with arbitrary files (C35)
-/
set_option linter.unusedVariables false
namespace Verif.Props
open Verif Verif.Ast Verif.Go Verif.Gen Verif.Wire Verif.Spec Verif.Inspect Verif.Refine

/-! ## What a file refers to -/

/-- Integers in a list. -/
def listInts (l : IntegerList) : List Integer := l.ranges.flatMap (fun r => r.low :: r.high.toList)

/-- Integers in an element type. -/
def baseInts : Base → List Integer
  | .int t => t.constraint.toList.flatMap listInts
  | _ => []

/-- Structs in an element type. -/
def baseStructs : Base → List String
  | .struct n => [n]
  | _ => []

/-- Integers in a length. -/
def lenInts : LengthConstraint → List Integer
  | .leftover k => [k]
  | .idRef _ => []

/-- Integers in a field type. -/
def tyInts : Ty → List Integer
  | .base b => baseInts b
  | .fixedArray b n => n :: baseInts b
  | .varArray b c => c.toList.flatMap lenInts ++ baseInts b
  | _ => []

/-- Sizes of fixed arrays. -/
def tySizes : Ty → List Integer
  | .fixedArray _ n => [n]
  | _ => []

/-- Structs in a field type. -/
def tyStructs : Ty → List String
  | .base b => baseStructs b
  | .fixedArray b _ => baseStructs b
  | .varArray b _ => baseStructs b
  | _ => []

/-- Integers in a struct or union case member. -/
def leafInts : Leaf → List Integer
  | .field f => tyInts f.type
  | _ => []

/-- Structs in a struct or union case member. -/
def leafStructs : Leaf → List String
  | .field f => tyStructs f.type
  | _ => []

/-- Integers in a member. -/
def memberInts : Member → List Integer
  | .leaf l => leafInts l
  | .union u => u.length.toList.flatMap lenInts ++
      u.cases.flatMap (fun c => c.case.toList.flatMap listInts ++ c.members.flatMap leafInts)

/-- Structs in a member. -/
def memberStructs : Member → List String
  | .leaf l => leafStructs l
  | .union u => u.cases.flatMap (fun c => c.members.flatMap leafStructs)

/-- The constant an integer names, if it names one, is declared. -/
def IntDeclared (fs : List File) : Integer → Prop
  | .literal _ => True
  | .constRef n => ∃ f ∈ fs, ∃ c ∈ f.constants, c.name = n

/-- A struct is declared. -/
def StructDeclared (fs : List File) (n : String) : Prop := ∃ f ∈ fs, ∃ s ∈ f.structs, s.name = n

/-- Every constant and struct that the files use is declared. -/
def Resolved (fs : List File) : Prop :=
  ∀ f ∈ fs, (∀ c ∈ f.contexts, ∀ fd ∈ c.members, ∀ i ∈ tySizes fd.type, IntDeclared fs i) ∧
    ∀ s ∈ f.structs, s.extern = false → ∀ m ∈ s.ms,
      (∀ i ∈ memberInts m, IntDeclared fs i) ∧ ∀ n ∈ memberStructs m, StructDeclared fs n

/-- `fail` and `ignore` occur in union cases only, and struct names are not empty; true of every file the
parser returns. -/
def ParserShape (fs : List File) : Prop :=
  ∀ f ∈ fs, ∀ s ∈ f.structs, s.name ≠ "" ∧ .leaf .fail ∉ s.ms ∧ .leaf .ignore ∉ s.ms

/-! ## Composition -/

/-- Succeeds if `P` holds and panics if not. -/
def Settled {α : Type} (r : Res α) (P : Prop) : Prop := (P → ∃ a, r = .ok a) ∧ (¬ P → ∃ m, r = .panic m)

theorem Settled.ok {α : Type} (a : α) : Settled (.ok a : Res α) True := ⟨fun _ => ⟨a, rfl⟩, fun h => absurd trivial h⟩

theorem Settled.congr {α : Type} {r : Res α} {P Q : Prop} (h : Settled r P) (e : P ↔ Q) : Settled r Q :=
  ⟨fun q => h.1 (e.2 q), fun q => h.2 (fun p => q (e.1 p))⟩

theorem Settled.bind {α β : Type} {r : Res α} {f : α → Res β} {P Q : Prop} (h : Settled r P)
    (hf : ∀ a, Settled (f a) Q) : Settled (r >>= f) (P ∧ Q) := by
  by_cases hp : P
  · obtain ⟨a, ha⟩ := h.1 hp
    rw [ha]
    exact (hf a).congr (by simp [hp])
  · obtain ⟨m, hm⟩ := h.2 hp
    rw [hm]
    exact ⟨fun x => absurd x.1 hp, fun _ => ⟨m, rfl⟩⟩

theorem Settled.last {α β : Type} {r : Res α} {f : α → β} {P : Prop} (h : Settled r P) :
    Settled (r >>= fun a => .ok (f a)) P :=
  (h.bind (fun a => Settled.ok (f a))).congr (by simp)

section
variable {g : Cfg}

/-- An integer the resolver knows. -/
abbrev Known (g : Cfg) (i : Integer) : Prop := ∃ x, ival g.res.constant i = some x

/-- A struct the resolver knows. -/
abbrev KnownS (g : Cfg) (n : String) : Prop := ∃ s, g.res.struct n = some s

theorem integer_iff (i : Integer) : Settled (integer g i) (Known g i) := by
  unfold integer Resolver.integer
  cases i with
  | literal v => exact ⟨fun _ => ⟨v, rfl⟩, fun h => absurd ⟨v, rfl⟩ h⟩
  | constRef n =>
    simp only [Known, ival]
    cases h : g.res.constant n with
    | none => exact ⟨fun ⟨_, h⟩ => (by cases h), fun _ => ⟨_, rfl⟩⟩
    | some v => exact ⟨fun _ => ⟨v, rfl⟩, fun h => absurd ⟨v, rfl⟩ h⟩

theorem clause_iff (v : Expr) (r : IntegerRange) :
    Settled (clause g v r) (∀ i ∈ r.low :: r.high.toList, Known g i) := by
  unfold clause
  cases h : r.high with
  | none => exact (integer_iff r.low).last.congr (by simp)
  | some hi => exact ((integer_iff r.low).bind (fun _ => (integer_iff hi).last)).congr (by simp)

theorem clauses_iff (v : Expr) : ∀ rs : List IntegerRange,
    Settled (clauses g v rs) (∀ i ∈ rs.flatMap (fun r => r.low :: r.high.toList), Known g i)
  | [] => (Settled.ok _).congr (by simp)
  | r :: rs => ((clause_iff v r).bind (fun _ => (clauses_iff v rs).last)).congr (by
      simp only [List.flatMap_cons, List.mem_append, or_imp, forall_and])

theorem conditional_iff (v : Expr) (l : IntegerList) : Settled (conditional g v l) (∀ i ∈ listInts l, Known g i) :=
  (clauses_iff v l.ranges).last

theorem tipe_iff (t : Ty) : Settled (tipe g t) (∀ i ∈ tySizes t, Known g i) := by
  cases t with
  | fixedArray b n => exact (integer_iff n).last.congr (by simp [tySizes])
  | _ => exact (Settled.ok _).congr (by simp [tySizes])

theorem intCheck_iff (lhs : LV) (t : IntType) :
    Settled (intCheck g lhs t) (∀ i ∈ t.constraint.toList.flatMap listInts, Known g i) := by
  unfold intCheck
  cases h : t.constraint with
  | none => exact (Settled.ok _).congr (by simp)
  | some l => exact (conditional_iff _ l).last.congr (by simp)

theorem parseBase_iff (lhs : LV) (b : Base) :
    Settled (parseBase g lhs b) ((∀ i ∈ baseInts b, Known g i) ∧ ∀ n ∈ baseStructs b, KnownS g n) := by
  cases b with
  | int t => exact (intCheck_iff lhs t).last.congr (by simp [baseInts, baseStructs])
  | char => exact (intCheck_iff lhs U8).last.congr (by simp [baseInts, baseStructs, U8])
  | struct n =>
    simp only [parseBase, baseInts, baseStructs, KnownS]
    cases h : g.res.struct n with
    | none => exact ⟨fun h' => by simp [h] at h', fun _ => ⟨_, rfl⟩⟩
    | some s => exact ⟨fun _ => ⟨_, rfl⟩, fun h' => by simp [h] at h'⟩

theorem extent_iff (recv : String) (c : LengthConstraint) : Settled (extent g recv c) (∀ i ∈ lenInts c, Known g i) := by
  cases c with
  | leftover k => exact (integer_iff k).last.congr (by simp [lenInts])
  | idRef r => exact (Settled.ok _).congr (by simp [lenInts])

theorem constrained_iff (recv : String) (c : LengthConstraint) {body : Res (List Stmt)} {P : Prop} (h : Settled body P) :
    Settled (constrained g recv c body) ((∀ i ∈ lenInts c, Known g i) ∧ P) :=
  (extent_iff recv c).bind (fun _ => h.last)

theorem parseRem_iff (lhs : LV) (b : Base) :
    Settled (parseRem g lhs b) ((∀ i ∈ baseInts b, Known g i) ∧ ∀ n ∈ baseStructs b, KnownS g n) :=
  (parseBase_iff _ b).last

theorem parseType_iff (recv : String) (lhs : LV) (t : Ty) :
    Settled (parseType g recv lhs t) ((∀ i ∈ tyInts t, Known g i) ∧ ∀ n ∈ tyStructs t, KnownS g n) := by
  cases t with
  | base b => exact parseBase_iff lhs b
  | ptr => exact (Settled.ok _).congr (by simp [tyInts, tyStructs])
  | nulterm => exact (Settled.ok _).congr (by simp [tyInts, tyStructs])
  | fixedArray b n =>
    exact ((integer_iff n).bind (fun _ => (parseBase_iff _ b).last)).congr (by simp [tyInts, tyStructs, and_assoc])
  | varArray b c =>
    rcases c with _ | (k | r)
    · exact (parseRem_iff lhs b).congr (by simp [tyInts, tyStructs])
    · exact (constrained_iff recv _ (parseRem_iff lhs b)).congr (by simp [tyInts, tyStructs, lenInts, and_assoc])
    · exact (parseBase_iff _ b).last.congr (by simp [tyInts, tyStructs, lenInts])

theorem parseLeaf_iff (recv : String) (l : Leaf) :
    Settled (parseLeaf g recv l) ((∀ i ∈ leafInts l, Known g i) ∧ ∀ n ∈ leafStructs l, KnownS g n) := by
  cases l with
  | field f => exact (parseType_iff recv _ f.type).last
  | _ => exact (Settled.ok _).congr (by simp [leafInts, leafStructs])

theorem parseLeaves_iff (recv : String) : ∀ ls : List Leaf,
    Settled (parseLeaves g recv ls) ((∀ i ∈ ls.flatMap leafInts, Known g i) ∧ ∀ n ∈ ls.flatMap leafStructs, KnownS g n)
  | [] => (Settled.ok _).congr (by simp)
  | l :: ls => ((parseLeaf_iff recv l).bind (fun _ => (parseLeaves_iff recv ls).last)).congr (by
      simp only [List.flatMap_cons, List.mem_append, or_imp, forall_and]
      exact ⟨fun ⟨⟨a, b⟩, c, d⟩ => ⟨⟨a, c⟩, b, d⟩, fun ⟨⟨a, c⟩, b, d⟩ => ⟨⟨a, b⟩, c, d⟩⟩)

theorem caseHead_iff (tag : Expr) (c : UnionCase) :
    Settled (caseHead g tag c) (∀ i ∈ c.case.toList.flatMap listInts, Known g i) := by
  unfold caseHead
  cases h : c.case with
  | none => exact (Settled.ok _).congr (by simp)
  | some l => exact (conditional_iff _ l).last.congr (by simp)

theorem parseCases_iff (recv : String) (tag : Expr) : ∀ cs : List UnionCase,
    Settled (parseCases g recv tag cs)
      ((∀ i ∈ cs.flatMap (fun c => c.case.toList.flatMap listInts ++ c.members.flatMap leafInts), Known g i) ∧
       ∀ n ∈ cs.flatMap (fun c => c.members.flatMap leafStructs), KnownS g n)
  | [] => (Settled.ok _).congr (by simp)
  | c :: cs => ((caseHead_iff tag c).bind (fun _ => (parseLeaves_iff recv c.members).bind
      (fun _ => (parseCases_iff recv tag cs).last))).congr (by
      simp only [List.flatMap_cons, List.mem_append, or_imp, forall_and]
      exact ⟨fun ⟨a, ⟨b, c⟩, d, e⟩ => ⟨⟨⟨a, b⟩, d⟩, c, e⟩, fun ⟨⟨⟨a, b⟩, d⟩, c, e⟩ => ⟨a, ⟨b, c⟩, d, e⟩⟩)

theorem parseMember_iff (recv : String) (m : Member) :
    Settled (parseMember g recv m) ((∀ i ∈ memberInts m, Known g i) ∧ ∀ n ∈ memberStructs m, KnownS g n) := by
  cases m with
  | leaf l => exact parseLeaf_iff recv l
  | union u =>
    refine Settled.last ?_
    have hs := (parseCases_iff (g := g) recv (ref g recv u.tag) u.cases).last (f := fun cs => [Stmt.switch cs])
    simp only [parseUnion, memberInts, memberStructs]
    cases h : u.length with
    | none => exact hs.congr (by simp)
    | some c =>
      refine (constrained_iff recv c hs).congr ?_
      simp only [Option.toList_some, List.flatMap_cons, List.flatMap_nil, List.append_nil, List.mem_append,
        or_imp, forall_and, and_assoc]

theorem parseMembers_iff (recv : String) : ∀ ms : List Member,
    Settled (parseMembers g recv ms) (∀ m ∈ ms, (∀ i ∈ memberInts m, Known g i) ∧ ∀ n ∈ memberStructs m, KnownS g n)
  | [] => (Settled.ok _).congr (by simp)
  | m :: ms => ((parseMember_iff recv m).bind (fun _ => (parseMembers_iff recv ms).last)).congr (by simp)

theorem fieldDecl_iff (f : Field) : Settled (fieldDecl g f) (∀ i ∈ tySizes f.type, Known g i) := (tipe_iff f.type).last

theorem leafDecls_iff : ∀ ls : List Leaf,
    Settled (leafDecls g ls) (∀ f ∈ leafFields ls, ∀ i ∈ tySizes f.type, Known g i)
  | [] => (Settled.ok _).congr (by simp [leafFields])
  | .field f :: ls => ((fieldDecl_iff f).bind (fun _ => (leafDecls_iff ls).last)).congr (by simp [leafFields])
  | .eos :: ls => (leafDecls_iff ls).congr (by simp [leafFields])
  | .ignore :: ls => (leafDecls_iff ls).congr (by simp [leafFields])
  | .fail :: ls => (leafDecls_iff ls).congr (by simp [leafFields])

theorem caseDecls_iff : ∀ cs : List UnionCase,
    Settled (caseDecls g cs) (∀ f ∈ cs.flatMap (fun c => leafFields c.members), ∀ i ∈ tySizes f.type, Known g i)
  | [] => (Settled.ok _).congr (by simp)
  | c :: cs => ((leafDecls_iff c.members).bind (fun _ => (caseDecls_iff cs).last)).congr (by
      simp only [List.flatMap_cons, List.mem_append, or_imp, forall_and])

theorem memberDecls_iff : ∀ ms : List Member, .leaf .fail ∉ ms → .leaf .ignore ∉ ms →
    Settled (memberDecls g ms) (∀ f ∈ fieldsOf ms, ∀ i ∈ tySizes f.type, Known g i)
  | [], _, _ => (Settled.ok _).congr (by simp [fieldsOf])
  | m :: ms, h1, h2 => by
    simp only [List.mem_cons, not_or] at h1 h2
    have hm : Settled (structMemberDecl g m) (∀ f ∈ memberFields m, ∀ i ∈ tySizes f.type, Known g i) := by
      rcases m with (f | _ | _ | _) | u
      · exact (fieldDecl_iff f).last.congr (by simp [memberFields, leafFields])
      · exact (Settled.ok _).congr (by simp [memberFields, leafFields])
      · exact absurd rfl h2.1
      · exact absurd rfl h1.1
      · exact caseDecls_iff u.cases
    refine (hm.bind (fun _ => (memberDecls_iff ms h1.2 h2.2).last)).congr ?_
    simp only [fieldsOf, List.flatMap_cons, List.mem_append, or_imp, forall_and]

theorem tySizes_sub {t : Ty} {i : Integer} (h : i ∈ tySizes t) : i ∈ tyInts t := by
  cases t <;> simp [tySizes, tyInts] at h ⊢
  exact Or.inl h

theorem memberFields_sizes {m : Member} {f : Field} (hf : f ∈ memberFields m) {i : Integer} (hi : i ∈ tySizes f.type) :
    i ∈ memberInts m := by
  have leaf : ∀ {ls : List Leaf}, f ∈ leafFields ls → ∃ l ∈ ls, i ∈ leafInts l := by
    intro ls h
    obtain ⟨l, hl, h⟩ := List.mem_filterMap.1 h
    cases l with
    | field f' => cases h; exact ⟨_, hl, tySizes_sub hi⟩
    | _ => cases h
  cases m with
  | leaf l =>
    obtain ⟨l', h1, h2⟩ := leaf hf
    cases List.mem_singleton.1 h1
    exact h2
  | union u =>
    obtain ⟨c, hc, hf⟩ := List.mem_flatMap.1 hf
    obtain ⟨l, h1, h2⟩ := leaf hf
    exact List.mem_append_right _ (List.mem_flatMap.2 ⟨c, hc, List.mem_append_right _ (List.mem_flatMap.2 ⟨l, h1, h2⟩)⟩)

theorem structure_iff {s : Struct} (h0 : s.name ≠ "") (h1 : .leaf .fail ∉ s.ms) (h2 : .leaf .ignore ∉ s.ms) :
    Settled (structure_ g s) (s.extern = false → ∀ m ∈ s.ms,
      (∀ i ∈ memberInts m, Known g i) ∧ ∀ n ∈ memberStructs m, KnownS g n) := by
  unfold structure_
  cases he : s.extern with
  | true => exact (Settled.ok _).congr (by simp)
  | false =>
    simp only [Bool.false_eq_true, if_false, forall_const]
    have hr : Settled (receiver s) True := by
      unfold receiver
      cases h : s.name.toList with
      | nil => exact absurd (String.toList_eq_nil_iff.1 h) h0
      | cons c cs => exact Settled.ok _
    refine (hr.bind (fun r => ((memberDecls_iff s.ms h1 h2).last (f := fun fs => (⟨g.nm s.name, fs⟩ : TypeDecl))).bind
      (fun d => ((parseMembers_iff r s.ms).last (f := _)).last (f := _)))).congr ?_
    constructor
    · rintro ⟨_, _, h⟩; exact h
    · intro h
      refine ⟨trivial, ?_, h⟩
      intro f hf i hi
      obtain ⟨m, hm, hf⟩ := List.mem_flatMap.1 hf
      exact (h m hm).1 i (memberFields_sizes hf hi)

theorem fileStructs_iff : ∀ ss : List Struct, (∀ s ∈ ss, s.name ≠ "" ∧ .leaf .fail ∉ s.ms ∧ .leaf .ignore ∉ s.ms) →
    Settled (fileStructs g ss) (∀ s ∈ ss, s.extern = false → ∀ m ∈ s.ms,
      (∀ i ∈ memberInts m, Known g i) ∧ ∀ n ∈ memberStructs m, KnownS g n)
  | [], _ => (Settled.ok _).congr (by simp)
  | s :: ss, h => by
    obtain ⟨a, b⟩ := List.forall_mem_cons.1 h
    refine ((structure_iff a.1 a.2.1 a.2.2).bind (fun _ => (fileStructs_iff ss b).last)).congr ?_
    rw [List.forall_mem_cons]

theorem fileContexts_iff : ∀ cs : List Context,
    Settled (fileContexts g cs) (∀ c ∈ cs, ∀ fd ∈ c.members, ∀ i ∈ tySizes fd.type, Known g i)
  | [] => (Settled.ok _).congr (by simp)
  | c :: cs => by
    refine (((leafDecls_iff (c.members.map .field)).last (f := _)).bind (fun _ => (fileContexts_iff cs).last)).congr ?_
    have : leafFields (c.members.map .field) = c.members := by
      simp [leafFields, List.filterMap_map, Function.comp_def]
    rw [this]
    rw [List.forall_mem_cons]

theorem fileList_iff : ∀ fs : List File, ParserShape fs → Settled (fileList g fs) (∀ f ∈ fs,
      (∀ c ∈ f.contexts, ∀ fd ∈ c.members, ∀ i ∈ tySizes fd.type, Known g i) ∧
      ∀ s ∈ f.structs, s.extern = false → ∀ m ∈ s.ms,
        (∀ i ∈ memberInts m, Known g i) ∧ ∀ n ∈ memberStructs m, KnownS g n)
  | [], _ => (Settled.ok _).congr (by simp)
  | f :: fs, h => by
    obtain ⟨a, b⟩ := List.forall_mem_cons.1 h
    refine ((((fileContexts_iff f.contexts).bind (fun _ => (fileStructs_iff f.structs a).last))).bind
      (fun _ => (fileList_iff fs b).last)).congr ?_
    rw [List.forall_mem_cons]

end

/-! ## C35 -/

theorem lastNamed_some {α : Type} (key : α → String) (l : List α) (n : String) :
    (∃ a, lastNamed key l n = some a) ↔ ∃ a ∈ l, key a = n := by
  unfold lastNamed
  rw [← Option.isSome_iff_exists, List.find?_isSome]
  simp

variable {nm : String → String} {fs : List File}

/-- **C35.** On files that conflict `Marshallers` returns an error. -/
theorem marshallers_conflict (ord : IterOrder) (h : ¬ FilesCompatible fs) : ∃ m, marshallers nm ord fs = .err m := by
  obtain ⟨m, hm⟩ := (C11_multi_file ord fs).2 h
  exact ⟨m, by simp [marshallers, hm]⟩

/-- **C35.** On files that do not conflict it succeeds exactly if every constant and struct used is declared,
and otherwise panics; it never returns an error then. -/
theorem marshallers_outcome (ord : IterOrder) (hsh : ParserShape fs) (h : FilesCompatible fs) :
    (Resolved fs → ∃ p, marshallers nm ord fs = .ok p) ∧ (¬ Resolved fs → ∃ m, marshallers nm ord fs = .panic m) := by
  obtain ⟨r, hr, h1, h2, h3⟩ := (C11_multi_file ord fs).1 h
  have hm : marshallers nm ord fs = fileList ⟨r, nm⟩ fs := by simp [marshallers, hr]
  rw [hm]
  have hi : ∀ i, Known ⟨r, nm⟩ i ↔ IntDeclared fs i := by
    intro i
    cases i with
    | literal v => exact ⟨fun _ => trivial, fun _ => ⟨v, rfl⟩⟩
    | constRef n =>
      have e : (∃ x, (r.constant n) = some x) ↔ ∃ a, lastNamed (·.name) (fs.flatMap (·.constants)) n = some a := by
        rw [h3]; simp
      show (∃ x, r.constant n = some x) ↔ _
      rw [e, lastNamed_some]
      simp [IntDeclared]
      tauto
  have hst : ∀ n, KnownS ⟨r, nm⟩ n ↔ StructDeclared fs n := by
    intro n
    show (∃ s, r.struct n = some s) ↔ _
    rw [h1, lastNamed_some]
    simp [StructDeclared]
    tauto
  have := fileList_iff (g := ⟨r, nm⟩) fs hsh
  simp only [hi, hst] at this
  exact this

/-- **C35.** What it emits on success: in source order a type for every context and defined struct, and a
`Parse` method and a constructor for every defined struct. The type of a struct has the struct's fields, in
order. -/
theorem marshallers_emits {ord : IterOrder} {p : Prog} (h : marshallers nm ord fs = .ok p) :
    p.types.map (·.name) = fs.flatMap (fun f => (f.contexts.map (·.name) ++
      (f.structs.filter (fun s => !s.extern)).map (·.name)).map nm) ∧
    p.methods.map (·.type) = (fs.flatMap (·.structs)).filterMap (fun s => if s.extern then none else some (nm s.name)) ∧
    p.ctors.map (·.type) = (fs.flatMap (·.structs)).filterMap (fun s => if s.extern then none else some (nm s.name)) ∧
    ∀ s ∈ fs.flatMap (·.structs), s.extern = false → ∃ d ∈ p.types, d.name = nm s.name ∧
      d.fields.map (·.1) = (fieldsOf s.ms).map (fun f => nm f.name) := by
  obtain ⟨r, hr, h⟩ := Res.bind_eq_ok.1 h
  obtain ⟨h1, h2, h3, h4⟩ := fileList_spec h
  have e : fs.flatMap (fun f => (f.structs.filter (fun s => !s.extern)).map (fun s => nm s.name)) =
      (fs.flatMap (·.structs)).filterMap (fun s => if s.extern then none else some (nm s.name)) := by
    have : ∀ ss : List Struct, (ss.filter (fun s => !s.extern)).map (fun s => nm s.name) =
        ss.filterMap (fun s => if s.extern then none else some (nm s.name)) := by
      intro ss
      induction ss with
      | nil => rfl
      | cons s ss ih => cases he : s.extern <;> simp [he, ih]
    simp only [this]
    rw [List.filterMap_flatMap]
  refine ⟨h2, by rw [h3, e], by rw [h4, e], ?_⟩
  intro s hs he
  obtain ⟨d, hd, m, hm, hd', hm', hc⟩ := h1 s hs he
  refine ⟨d, hd, ?_⟩
  obtain ⟨ds, hds, hd'⟩ := Res.bind_eq_ok.1 hd'
  cases hd'
  refine ⟨rfl, ?_⟩
  have hz := memberDecls_zero (g := ⟨r, nm⟩) (Γ := ⟨r.constant, fun _ => none, fun _ => none, nm, fun _ _ _ => .error ""⟩) rfl rfl hds
  have := congrArg (List.map Prod.fst) hz
  simpa [zeros, zfields, Function.comp_def] using this

/-! ### Examples -/

instance (f : File) : Decidable (UniqueNames f) := by unfold UniqueNames; infer_instance

instance (fs : List File) : Decidable (FilesCompatible fs) := by unfold FilesCompatible; infer_instance

instance (fs : List File) : (i : Integer) → Decidable (IntDeclared fs i)
  | .literal _ => .isTrue trivial
  | .constRef n => inferInstanceAs (Decidable (∃ f ∈ fs, ∃ c ∈ f.constants, c.name = n))

instance (fs : List File) (n : String) : Decidable (StructDeclared fs n) := by unfold StructDeclared; infer_instance

instance (fs : List File) : Decidable (Resolved fs) := by unfold Resolved; infer_instance

instance (fs : List File) : Decidable (ParserShape fs) := by unfold ParserShape; infer_instance

example : ∃ p, marshallers exNm revOrder exMsg = .ok p ∧ p.methods.map (·.type) = ["Point", "Msg"] := by
  obtain ⟨p, hp⟩ := (marshallers_outcome (nm := exNm) revOrder (by decide +kernel) (by decide +kernel)).1
    (show Resolved exMsg by decide +kernel)
  exact ⟨p, hp, by rw [(marshallers_emits hp).2.1]; decide +kernel⟩

/-- `struct a { u8 x[N]; }` without a declaration of `N`. -/
example : ∃ m, marshallers exNm idOrder
    (one "a" [.leaf (.field ⟨"x", .fixedArray (.int ⟨8, none⟩) (.constRef "N")⟩)]) = .panic m :=
  (marshallers_outcome idOrder (by decide +kernel) (by decide +kernel)).2 (by decide +kernel)

example : ∃ m, marshallers exNm idOrder (exMsg ++ exMsg) = .err m := marshallers_conflict idOrder (by decide +kernel)

end Verif.Props
