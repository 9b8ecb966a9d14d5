import Verif.Props.GenCompiles
/-!
# Properties of generated parsers: what compiling needs (C36, conversely)

`CompileOK` in `Verif/GoTypeProg` is a condition under which emitted packages compile.  Here, for all files: its parts that
speak about declarations hold whenever the emitted package compiles.
-/
set_option linter.unusedVariables false
namespace Verif.Props
open Verif Verif.Ast Verif.Go Verif.Gen Verif.Wire Verif.Spec Verif.Inspect Verif.Refine

/-- Structs a type names. -/
def namedBase : Base → List String
  | .struct n => [n]
  | _ => []

/-- Structs a type names. -/
def namedTy : Ty → List String
  | .base b => namedBase b
  | .fixedArray b _ => namedBase b
  | .varArray b _ => namedBase b
  | _ => []

/-- Widths of the integers a type names. -/
def widthsBase : Base → List Nat
  | .int t => [t.size]
  | _ => []

/-- Widths of the integers a type names. -/
def widthsTy : Ty → List Nat
  | .base b => widthsBase b
  | .fixedArray b _ => widthsBase b
  | .varArray b _ => widthsBase b
  | _ => []

/-- What declarations must be like for the package to compile. -/
structure DeclsOK (nm : String → String) (fs : List File) (exts : List (String × List String)) : Prop where
  /-- Types, constructors and the user's types have different names, -/
  names : (goTypes nm fs ++ goCtors nm fs ++ exts.map (·.1)).Nodup
  /-- which hide no predeclared name -/
  builtins : ∀ x ∈ goTypes nm fs ++ goCtors nm fs, x ∉ builtins
  /-- and are no keywords. -/
  types : ∀ x ∈ goTypes nm fs, x ∉ keywords ∧ x ≠ "_"
  /-- Fields of a struct have different names and none is called like the method. -/
  fields : ∀ s ∈ fs.flatMap (·.structs), s.extern = false →
    (∀ f ∈ fieldsOf s.ms, (nm f.name ∉ keywords ∧ nm f.name ≠ "_") ∧ nm f.name ≠ "Parse") ∧ ((fieldsOf s.ms).map (fun f => nm f.name)).Nodup
  /-- Fields of a context have different names. -/
  ctxFields : ∀ C ∈ fs.flatMap (·.contexts),
    (∀ f ∈ C.members, nm f.name ∉ keywords ∧ nm f.name ≠ "_") ∧ (C.members.map (fun f => nm f.name)).Nodup
  /-- Structs named by fields are declared, here or by the user. -/
  named : ∀ s ∈ fs.flatMap (·.structs), s.extern = false → ∀ f ∈ fieldsOf s.ms, ∀ n ∈ namedTy f.type,
    nm n ∈ goTypes nm fs ++ exts.map (·.1)
  /-- Integers in fields have a width that Go has. -/
  widths : ∀ s ∈ fs.flatMap (·.structs), s.extern = false → ∀ f ∈ fieldsOf s.ms, ∀ k ∈ widthsTy f.type, k = 8 ∨ k = 16 ∨ k = 32 ∨ k = 64
  /-- Contexts named by structs are declared, here or by the user. -/
  contexts : ∀ s ∈ fs.flatMap (·.structs), s.extern = false → ∀ c ∈ s.contexts, nm c ∈ goTypes nm fs ++ exts.map (·.1)
  /-- The receiver, the input and the contexts are different parameters and can be names of parameters. -/
  params : ∀ s ∈ fs.flatMap (·.structs), s.extern = false →
    (firstLetter s :: "data" :: s.contexts).Nodup ∧ ∀ x ∈ firstLetter s :: s.contexts, x ∉ keywords ∧ x ≠ "_"

theorem bindT_needs {ps : List (String × XT)} : ∀ {E : TEnv} {blk : List String} {sc : Scope}, bindT ps (E, blk) = some sc →
    (ps.map (·.1)).Nodup ∧ ∀ x ∈ ps.map (·.1), x ∉ blk ∧ x ∉ keywords ∧ x ≠ "_" := by
  induction ps with
  | nil => intro E blk sc _; simp
  | cons q ps ih =>
    obtain ⟨x, t⟩ := q
    intro E blk sc h
    rw [bindT] at h
    cases hd : declarable blk x with
    | false => rw [hd] at h; cases h
    | true =>
      rw [hd] at h
      obtain ⟨h1, h2⟩ := ih (show bindT ps _ = some sc from h)
      simp only [declarable, Bool.and_eq_true, Bool.not_eq_true', List.contains_eq_mem, decide_eq_false_iff_not, bne_iff_ne] at hd
      refine ⟨List.nodup_cons.2 ⟨fun hx => (h2 x hx).1 List.mem_cons_self, h1⟩, ?_⟩
      intro y hy
      rcases List.mem_cons.1 hy with rfl | hy
      · exact ⟨hd.1.1, hd.1.2, hd.2⟩
      · obtain ⟨a, b⟩ := h2 y hy
        exact ⟨fun h => a (List.mem_cons_of_mem _ h), b⟩

theorem validTy_named {P : Sig} {E : TEnv} {g : Cfg} {t : Ty} {G : GTy} (h : tipe g t = .ok G) (hv : validTy P E G = true) :
    ∀ n ∈ namedTy t, (P.types.lookup (g.nm n)).isSome = true := by
  have hb : ∀ b, validTy P E (tipeBase g b) = true → ∀ n ∈ namedBase b, (P.types.lookup (g.nm n)).isSome = true := by
    intro b h n hn
    cases b with
    | int t => cases hn
    | char => cases hn
    | struct m =>
      rw [List.mem_singleton.1 hn]
      simp only [tipeBase, validTy, Bool.and_eq_true] at h
      exact h.1
  cases t with
  | base b => cases h; exact hb b hv
  | ptr => intro n hn; cases hn
  | nulterm => intro n hn; cases hn
  | fixedArray b n =>
    obtain ⟨k, hk, h⟩ := Res.bind_eq_ok.1 h
    cases h
    simp only [validTy, Bool.and_eq_true] at hv
    exact hb b hv.2
  | varArray b c => cases h; exact hb b hv

theorem goodName_needs {x : String} (h : goodName x = true) : x ∉ keywords ∧ x ≠ "_" := by
  simpa [goodName] using h

/-- Integers whose width Go does not have are no type. -/
theorem validTy_width {P : Sig} {E : TEnv} {g : Cfg} {t : Ty} {G : GTy} (h : tipe g t = .ok G) (hv : validTy P E G = true) :
    ∀ k ∈ widthsTy t, k = 8 ∨ k = 16 ∨ k = 32 ∨ k = 64 := by
  have hb : ∀ b, validTy P E (tipeBase g b) = true → ∀ k ∈ widthsBase b, k = 8 ∨ k = 16 ∨ k = 32 ∨ k = 64 := by
    intro b h n hn
    cases b with
    | int t =>
      rw [List.mem_singleton.1 hn]
      simp only [tipeBase] at h
      unfold validTy at h
      split at h <;> simp_all
    | char => cases hn
    | struct m => cases hn
  cases t with
  | base b => cases h; exact hb b hv
  | ptr => intro n hn; cases hn
  | nulterm => intro n hn; cases hn
  | fixedArray b n =>
    obtain ⟨k, hk, h⟩ := Res.bind_eq_ok.1 h
    cases h
    simp only [validTy, Bool.and_eq_true] at hv
    exact hb b hv.2
  | varArray b c => cases h; exact hb b hv

theorem leafFields_fields : ∀ fs : List Field, leafFields (fs.map .field) = fs := by
  intro fs
  induction fs with
  | nil => rfl
  | cons a l ih => simp only [leafFields, List.map_cons, List.filterMap_cons] at ih ⊢; rw [ih]

/-- **C36, conversely.** Whenever the emitted package compiles next to the user's types, the declarations of the source
meet `DeclsOK`: without any of these conditions it does not compile, whatever else the source is. -/
theorem emitted_needs {nm : String → String} {ord : IterOrder} {fs : List File} {p : Prog}
    {exts : List (String × List String)} (h : marshallers nm ord fs = .ok p) (hc : compiles p exts = true) :
    DeclsOK nm fs exts := by
  obtain ⟨r, hr, hfl⟩ := Res.bind_eq_ok.1 h
  have O := fileList_origin hfl
  obtain ⟨hE, hT, hM, hC⟩ := fileList_spec hfl
  change p.types.map (·.name) = goTypes nm fs at hT
  have hCn : p.ctors.map (fun c => "Parse" ++ c.type) = goCtors nm fs := by
    have : p.ctors.map (fun c => "Parse" ++ c.type) = (p.ctors.map (·.type)).map (fun x => "Parse" ++ x) := by
      rw [List.map_map]; rfl
    rw [this, hC]
    simp [goCtors, List.map_flatMap, Function.comp_def]
  have hnames : p.names = goTypes nm fs ++ goCtors nm fs := by simp [Prog.names, hT, hCn]
  have hlook : ∀ T, ((p.sig exts).types.lookup T).isSome = true ↔ T ∈ goTypes nm fs ++ exts.map (·.1) := by
    intro T
    rw [lookup_isSome, ← hT]
    simp [Prog.sig, Function.comp_def]
  simp only [compiles, Bool.and_eq_true, hnames, decide_eq_true_eq, List.all_eq_true] at hc
  obtain ⟨⟨⟨⟨⟨⟨c1, c2⟩, c3⟩, c4⟩, c5⟩, c6⟩, c7⟩ := hc
  -- the declaration of a struct
  have hdecl : ∀ s ∈ fs.flatMap (·.structs), s.extern = false → ∃ d ∈ p.types, ∃ m ∈ p.methods,
      Declares ⟨r, nm⟩ (fieldsOf s.ms) d.fields ∧ d.name = nm s.name ∧ m.type = nm s.name ∧ m.recv = firstLetter s ∧
      m.params = contextSignature ⟨r, nm⟩ s.contexts := by
    intro s hs he
    obtain ⟨d, hd, m, hm, h1, h2, _⟩ := hE s hs he
    obtain ⟨ds, hds, h1⟩ := Res.bind_eq_ok.1 h1
    obtain ⟨b, hb, h2⟩ := Res.bind_eq_ok.1 h2
    cases h1; cases h2
    exact ⟨_, hd, _, hm, memberDecls_declares hds, rfl, rfl, rfl, rfl⟩
  have key : ∀ {f : Field} {fs' : List Field} {ds : List (String × GTy)}, Declares ⟨r, nm⟩ fs' ds → f ∈ fs' →
      ∃ q ∈ ds, tipe ⟨r, nm⟩ f.type = .ok q.2 := by
    intro f fs' ds h
    unfold Declares at h
    induction h with
    | nil => intro h; cases h
    | cons a _ ih =>
      intro h
      rcases List.mem_cons.1 h with rfl | h
      · exact ⟨_, List.mem_cons_self, a.2⟩
      · obtain ⟨q, hq, h⟩ := ih h; exact ⟨q, List.mem_cons_of_mem _ hq, h⟩
  refine ⟨c1, fun x hx => by simpa using c2 x hx, ?_, ?_, ?_, ?_, ?_, ?_, ?_⟩
  · intro x hx
    rw [← hT] at hx
    obtain ⟨d, hd, rfl⟩ := List.mem_map.1 hx
    have := c4 d hd
    simp only [chkType, Bool.and_eq_true] at this
    exact goodName_needs this.1.1
  · intro s hs he
    obtain ⟨d, hd, m, hm, hD, hn, hmt, _⟩ := hdecl s hs he
    have h4 := c4 d hd
    have h5 := c5 d hd
    simp only [chkType, Bool.and_eq_true, List.all_eq_true, decide_eq_true_eq] at h4
    have hany : p.methods.any (fun m => m.type == d.name) = true := by
      rw [List.any_eq_true]; exact ⟨m, hm, by simp [hn, hmt]⟩
    simp only [hany, Bool.not_true, Bool.false_or, Bool.not_eq_true', List.contains_eq_mem, decide_eq_false_iff_not, hD.names] at h5
    refine ⟨fun f hf => ⟨?_, fun heq => h5 (List.mem_map.2 ⟨f, hf, heq⟩)⟩, hD.names ▸ h4.2⟩
    have : nm f.name ∈ d.fields.map (·.1) := by rw [hD.names]; exact List.mem_map_of_mem (f := fun f => nm f.name) hf
    obtain ⟨q, hq, heq⟩ := List.mem_map.1 this
    rw [← heq]; exact goodName_needs (h4.1.2 q hq).1
  · intro C hCm
    obtain ⟨d, hd, h1⟩ := O.contexts C hCm
    obtain ⟨ds, hds, h1⟩ := Res.bind_eq_ok.1 h1
    cases h1
    have hD := leafDecls_declares hds
    rw [leafFields_fields] at hD
    have h4 := c4 _ hd
    simp only [chkType, Bool.and_eq_true, List.all_eq_true, decide_eq_true_eq] at h4
    refine ⟨fun f hf => ?_, hD.names ▸ h4.2⟩
    have : nm f.name ∈ ds.map (·.1) := by rw [hD.names]; exact List.mem_map_of_mem (f := fun f => nm f.name) hf
    obtain ⟨q, hq, heq⟩ := List.mem_map.1 this
    rw [← heq]; exact goodName_needs (h4.1.2 q hq).1
  · intro s hs he f hf n hn
    obtain ⟨d, hd, m, hm, hD, _⟩ := hdecl s hs he
    have h4 := c4 d hd
    simp only [chkType, Bool.and_eq_true, List.all_eq_true, decide_eq_true_eq] at h4
    rw [← hlook]
    obtain ⟨q, hq, hty⟩ := key hD hf
    exact validTy_named hty (h4.1.2 q hq).2 n hn
  · intro s hs he f hf
    obtain ⟨d, hd, m, hm, hD, _⟩ := hdecl s hs he
    have h4 := c4 d hd
    simp only [chkType, Bool.and_eq_true, List.all_eq_true, decide_eq_true_eq] at h4
    obtain ⟨q, hq, hty⟩ := key hD hf
    exact validTy_width hty (h4.1.2 q hq).2
  · intro s hs he c hcx
    obtain ⟨d, hd, m, hm, _, _, _, _, hp⟩ := hdecl s hs he
    have h6 := c6 m hm
    simp only [chkMethod, Bool.and_eq_true, List.all_eq_true] at h6
    rw [← hlook]
    exact h6.1.2 (c, nm c) (by rw [hp]; exact List.mem_map_of_mem (f := fun n => (n, nm n)) hcx)
  · intro s hs he
    obtain ⟨d, hd, m, hm, _, _, _, hrecv, hp⟩ := hdecl s hs he
    have h6 := c6 m hm
    simp only [chkMethod, Bool.and_eq_true, chkFunc] at h6
    have h6 := h6.2
    split at h6
    · cases h6
    · rename_i sc hb
      obtain ⟨h1, h2⟩ := bindT_needs hb
      have hmap : ((m.recv, XT.ty (.ptr m.type)) :: ("data", .bytes) :: m.params.map (fun p => (p.1, XT.named p.2))).map (·.1)
          = firstLetter s :: "data" :: s.contexts := by
        simp [hrecv, hp, contextSignature, Function.comp_def]
      rw [hmap] at h1 h2
      refine ⟨h1, fun x hx => (h2 x ?_).2⟩
      rcases List.mem_cons.1 hx with rfl | hx
      · exact List.mem_cons_self
      · exact List.mem_cons_of_mem _ (List.mem_cons_of_mem _ hx)

/-! ### Bodies of methods -/

/-- Types of numbers. -/
def Num : Ty → Prop
  | .base (.int _) => True
  | .base .char => True
  | .ptr => True
  | _ => False

/-- Contexts and defined structs, with their fields. -/
def fieldLists (fs : List File) : List (String × List Field) :=
  (fs.flatMap (·.contexts)).map (fun C => (C.name, C.members)) ++
  ((fs.flatMap (·.structs)).filter (fun s => !s.extern)).map (fun s => (s.name, fieldsOf s.ms))

/-- What a reference reads in a method of `s`: a field of the struct, or of a context the struct lists.  The receiver can be
written as if it were a context. -/
def RefNames (nm : String → String) (D : List (String × List Field)) (s : Struct) (r : IDRef) (f : Field) : Prop :=
  nm f.name = nm r.name ∧ ((r.scope = "" ∨ r.scope = firstLetter s) ∧ f ∈ fieldsOf s.ms ∨
    r.scope ∈ s.contexts ∧ ∃ q ∈ D, nm q.1 = nm r.scope ∧ f ∈ q.2)

section
variable (Γ : Fmt) (fs : List File) (exts : List (String × List String)) (s : Struct)

/-- A list of integers compared with a number of type `t`: it is not empty and its bounds are values of the type. -/
def ListNeeds (t : Ty) (l : IntegerList) : Prop := l.ranges ≠ [] ∧ ListFits Γ t l

/-- Constraints fit their types; a struct used is declared, has a method with its contexts, and these are contexts of `s`. -/
def BaseNeeds : Base → Prop
  | .int t => ∀ l, t.constraint = some l → ListNeeds Γ (.base (.int t)) l
  | .char => True
  | .struct n => ∃ s', Γ.structs n = some s' ∧ (∀ c ∈ s'.contexts, c ∈ s.contexts) ∧
      ((∃ s'' ∈ fs.flatMap (·.structs), s''.extern = false ∧ Γ.nm s''.name = Γ.nm n ∧ s''.contexts.map Γ.nm = s'.contexts.map Γ.nm) ∨
       exts.lookup (Γ.nm n) = some (s'.contexts.map Γ.nm))

/-- Lengths are numbers that can be read, or constants that are no less than 0. -/
def LenNeeds : LengthConstraint → Prop
  | .idRef r => ∃ f, RefNames Γ.nm (fieldLists fs) s r f ∧ Num f.type
  | .leftover k => ∀ v, ival Γ.K k = some v → 0 ≤ v ∧ v < 2 ^ 63

/-- What a type needs. -/
def TyNeeds : Ty → Prop
  | .base b => BaseNeeds Γ fs exts s b
  | .fixedArray b _ => BaseNeeds Γ fs exts s b
  | .varArray b c => BaseNeeds Γ fs exts s b ∧ ∀ k, c = some k → LenNeeds Γ fs s k
  | .ptr => True
  | .nulterm => True

/-- What a member of a case needs. -/
def LeafNeeds : Leaf → Prop
  | .field f => TyNeeds Γ fs exts s f.type
  | _ => True

/-- What a member needs: a union has at most one default, its cases are of the type of the number its tag reads. -/
def MemberNeeds : Member → Prop
  | .leaf l => LeafNeeds Γ fs exts s l
  | .union u => (∀ k, u.length = some k → LenNeeds Γ fs s k) ∧ (u.cases.filter (fun c => c.case.isNone)).length ≤ 1 ∧
      ∀ c ∈ u.cases, (∀ l ∈ c.members, LeafNeeds Γ fs exts s l) ∧
        ∀ l, c.case = some l → ∃ f, RefNames Γ.nm (fieldLists fs) s u.tag f ∧ Num f.type ∧ ListNeeds Γ f.type l

end

section
variable {P : Sig} {R : XT} {g : Cfg} {Γ : Fmt} {fs : List File} {exts : List (String × List String)} {s : Struct} {E : TEnv} {blk : List String}

theorem boolTy_some {a b : Option XT} (h : typeOf.boolTy a b = some .bool) : a = some .bool ∧ b = some .bool := by
  unfold typeOf.boolTy at h
  split at h
  · exact ⟨rfl, rfl⟩
  · cases h

theorem joinOr_bool : ∀ {cs : List Expr} {c : Expr}, typeOf P E (cs.foldl .or c) = some .bool →
    typeOf P E c = some .bool ∧ ∀ d ∈ cs, typeOf P E d = some .bool := by
  intro cs
  induction cs with
  | nil => intro c h; exact ⟨h, by simp⟩
  | cons d cs ih =>
    intro c h
    obtain ⟨h1, h2⟩ := ih h
    obtain ⟨h3, h4⟩ := boolTy_some h1
    refine ⟨h3, fun e he => ?_⟩
    rcases List.mem_cons.1 he with rfl | he
    · exact h4
    · exact h2 e he

theorem cmpTy_right {a : Option XT} {x : Int} (h : typeOf.cmpTy a (some (.const x)) = some .bool) :
    ∃ t, a = some (.ty t) ∧ fits x t = true := by
  unfold typeOf.cmpTy at h
  cases a with
  | none => cases h
  | some a =>
    have := (guardT_eq.1 h).1
    cases a with
    | ty t => exact ⟨t, rfl, this⟩
    | const n => cases this
    | bool => cases this
    | named T => cases this

theorem cmpTy_left {b : Option XT} {x : Int} (h : typeOf.cmpTy (some (.const x)) b = some .bool) :
    ∃ t, b = some (.ty t) ∧ fits x t = true := by
  unfold typeOf.cmpTy at h
  cases b with
  | none => cases h
  | some b =>
    have := (guardT_eq.1 h).1
    cases b with
    | ty t => exact ⟨t, rfl, this⟩
    | const n => cases this
    | bool => cases this
    | named T => cases this

theorem clause_needs (hK : Γ.K = g.res.constant) {v : Expr} {r : IntegerRange} {c : Expr} (h : clause g v r = .ok c)
    (hc : typeOf P E c = some .bool) : ∃ t, typeOf P E v = some (.ty t) ∧ ∀ p, bounds Γ.K r = some p → fits p.1 t = true ∧ fits p.2 t = true := by
  unfold clause at h
  cases hh : r.high with
  | none =>
    rw [hh] at h
    obtain ⟨lo, hlo, h⟩ := Res.bind_eq_ok.1 h
    cases h
    obtain ⟨t, h1, h2⟩ := cmpTy_right (x := lo) hc
    refine ⟨t, h1, fun p hp => ?_⟩
    simp only [bounds, Refine.integer_ok hK hlo, hh, Option.some.injEq] at hp
    subst hp; exact ⟨h2, h2⟩
  | some hi =>
    rw [hh] at h
    obtain ⟨lo, hlo, h⟩ := Res.bind_eq_ok.1 h
    obtain ⟨x, hx, h⟩ := Res.bind_eq_ok.1 h
    cases h
    obtain ⟨h1, h2⟩ := boolTy_some hc
    obtain ⟨t, h3, h4⟩ := cmpTy_left (x := lo) h1
    obtain ⟨t', h5, h6⟩ := cmpTy_right (x := x) h2
    rw [h3] at h5; cases h5
    refine ⟨t, h3, fun p hp => ?_⟩
    simp only [bounds, Refine.integer_ok hK hlo, hh, Refine.integer_ok hK hx, Option.map_some, Option.some.injEq] at hp
    subst hp; exact ⟨h4, h6⟩

theorem clauses_needs (hK : Γ.K = g.res.constant) {v : Expr} : ∀ {rs : List IntegerRange} {cs : List Expr}, clauses g v rs = .ok cs →
    (∀ c ∈ cs, typeOf P E c = some .bool) → (rs = [] ↔ cs = []) ∧ ∀ r ∈ rs,
      ∃ t, typeOf P E v = some (.ty t) ∧ ∀ p, bounds Γ.K r = some p → fits p.1 t = true ∧ fits p.2 t = true := by
  intro rs
  induction rs with
  | nil => intro cs h _; cases h; simp
  | cons r rs ih =>
    intro cs h hb
    obtain ⟨c, hc, h⟩ := Res.bind_eq_ok.1 h
    obtain ⟨cs', hcs, h⟩ := Res.bind_eq_ok.1 h
    cases h
    refine ⟨by simp, fun r' hr => ?_⟩
    rcases List.mem_cons.1 hr with rfl | hr
    · exact clause_needs hK hc (hb c List.mem_cons_self)
    · exact (ih hcs (fun d hd => hb d (List.mem_cons_of_mem _ hd))).2 r' hr

theorem clauses_bounds (hK : Γ.K = g.res.constant) {v : Expr} : ∀ {rs : List IntegerRange} {cs : List Expr}, clauses g v rs = .ok cs →
    ∀ r ∈ rs, ∃ p, bounds Γ.K r = some p := by
  intro rs
  induction rs with
  | nil => intro cs _; simp
  | cons r rs ih =>
    intro cs h
    obtain ⟨c, hc, h⟩ := Res.bind_eq_ok.1 h
    obtain ⟨cs', hcs, h⟩ := Res.bind_eq_ok.1 h
    intro r' hr
    rcases List.mem_cons.1 hr with rfl | hr
    · unfold clause at hc
      cases hh : r'.high with
      | none =>
        rw [hh] at hc
        obtain ⟨lo, hlo, _⟩ := Res.bind_eq_ok.1 hc
        exact ⟨(lo, lo), by simp only [bounds, Refine.integer_ok hK hlo, hh]⟩
      | some hi =>
        rw [hh] at hc
        obtain ⟨lo, hlo, hc⟩ := Res.bind_eq_ok.1 hc
        obtain ⟨x, hx, _⟩ := Res.bind_eq_ok.1 hc
        exact ⟨(lo, x), by simp only [bounds, Refine.integer_ok hK hlo, hh, Refine.integer_ok hK hx, Option.map_some]⟩
    · exact ih hcs r' hr

theorem conditional_needs (hK : Γ.K = g.res.constant) {v : Expr} {l : IntegerList} {c : Expr} (h : conditional g v l = .ok c)
    (hc : typeOf P E c = some .bool) : l.ranges ≠ [] ∧ ∃ t, typeOf P E v = some (.ty t) ∧
      ∀ r ∈ l.ranges, ∀ p, bounds Γ.K r = some p → fits p.1 t = true ∧ fits p.2 t = true := by
  obtain ⟨cs, hcs, h⟩ := Res.bind_eq_ok.1 h
  cases h
  cases cs with
  | nil => cases hc
  | cons c cs =>
    obtain ⟨h1, h2⟩ := joinOr_bool (cs := cs) (c := c) hc
    obtain ⟨h3, h4⟩ := clauses_needs hK hcs (fun d hd => by
      rcases List.mem_cons.1 hd with rfl | hd
      · exact h1
      · exact h2 d hd)
    have hne : l.ranges ≠ [] := fun h => by simpa using h3.1 h
    obtain ⟨r, hr⟩ := List.exists_mem_of_ne_nil _ hne
    obtain ⟨t, ht, _⟩ := h4 r hr
    refine ⟨hne, t, ht, fun r' hr' p hp => ?_⟩
    obtain ⟨t', ht', h⟩ := h4 r' hr'
    rw [ht] at ht'; cases ht'
    exact h p hp

/-- Variables in scope inside a method: those that stand for contexts are the contexts of the struct. -/
structure Inside (nm : String → String) (s : Struct) (E : TEnv) : Prop where
  cur : E "cur" = some .bytes
  named : ∀ x T, E x = some (.named T) → x ∈ s.contexts ∧ T = nm x

/-- Variables in scope where references are read: only the receiver is a pointer. -/
structure AtRef (nm : String → String) (s : Struct) (E : TEnv) : Prop extends Inside nm s E where
  ptrs : ∀ x T, E x = some (.ty (.ptr T)) → x = firstLetter s ∧ T = nm s.name
  recv : E (firstLetter s) = some (.ty (.ptr (nm s.name)))

theorem Inside.bind {nm : String → String} (h : Inside nm s E) {x : String} {t : GTy} (hx : x ≠ "cur") : Inside nm s (E.bind x (.ty t)) := by
  refine ⟨by rw [bind_ne _ _ (Ne.symm hx)]; exact h.cur, fun y T hy => ?_⟩
  by_cases hxy : y = x ∧ x ≠ "_"
  · simp [TEnv.bind, hxy] at hy
  · simp only [TEnv.bind, hxy, if_false] at hy; exact h.named y T hy

theorem firstLetter_ne {x : String} (h : 1 < x.length) : firstLetter s ≠ x := by
  rintro rfl
  simp only [firstLetter, String.length_ofList, List.length_map, List.length_take] at h
  omega

theorem AtRef.restore {nm : String → String} (h : AtRef nm s E) : AtRef nm s (E.bind "restore" .bytes) := by
  refine ⟨h.toInside.bind (by decide), fun y T hy => ?_, ?_⟩
  · by_cases hxy : y = "restore"
    · subst hxy; simp [TEnv.bind] at hy
    · rw [bind_ne _ _ hxy] at hy; exact h.ptrs y T hy
  · rw [bind_ne _ _ (firstLetter_ne (by decide))]; exact h.recv

/-- What declarations provide to bodies. -/
structure Provides (g : Cfg) (Γ : Fmt) (fs : List File) (exts : List (String × List String)) (P : Sig) (s : Struct) : Prop where
  hK : Γ.K = g.res.constant
  hS : Γ.structs = g.res.struct
  hN : Γ.nm = g.nm
  own : ∀ f t, fieldTy P (g.nm s.name) f = some t → ∃ fd ∈ fieldsOf s.ms, g.nm fd.name = f ∧ ∃ G, tipe g fd.type = .ok G ∧ t = .ty (norm G)
  any : ∀ T f t, fieldTy P T f = some t → ∃ q ∈ fieldLists fs, g.nm q.1 = T ∧ ∃ fd ∈ q.2, g.nm fd.name = f ∧ ∃ G, tipe g fd.type = .ok G ∧ t = .ty (norm G)
  calls : ∀ T ps, P.parse.lookup T = some ps →
    (∃ s'' ∈ fs.flatMap (·.structs), s''.extern = false ∧ g.nm s''.name = T ∧ s''.contexts.map g.nm = ps) ∨ exts.lookup T = some ps

theorem num_of_isInt {t : Ty} {G : GTy} (h : tipe g t = .ok G) (hi : isInt (norm G) = true) :
    Num t ∧ ∀ x, fits x (norm G) = true → FitsTy t x := by
  cases t with
  | base b =>
    cases h
    cases b with
    | int t =>
      refine ⟨trivial, fun x hx => ?_⟩
      by_cases h8 : t.size = 8
      · simp only [tipeBase, h8, norm, fits, decide_eq_true_eq] at hx; simpa [FitsTy, h8] using hx
      · have : norm (.uint t.size) = .uint t.size := by
          unfold norm; split <;> simp_all
        simp only [tipeBase, this, fits, decide_eq_true_eq] at hx; exact hx
    | char => exact ⟨trivial, fun x hx => by simpa [tipeBase, norm, fits, FitsTy] using hx⟩
    | struct n => simp [tipeBase, norm, isInt] at hi
  | ptr => cases h; exact ⟨trivial, fun x hx => by simpa [norm, fits, FitsTy] using hx⟩
  | nulterm => cases h; simp [norm, isInt] at hi
  | fixedArray b n =>
    obtain ⟨k, hk, h⟩ := Res.bind_eq_ok.1 h
    cases h; simp [norm, isInt] at hi
  | varArray b c => cases h; simp [norm, isInt] at hi

theorem fits_isInt {x : Int} {t : GTy} (h : fits x t = true) : isInt t = true := by
  cases t <;> simp_all [fits, isInt]

/-- A reference that has the type of a number reads a number. -/
theorem ref_needs (D : Provides g Γ fs exts P s) (A : AtRef g.nm s E) {r : IDRef} {t : GTy}
    (h : typeOf P E (ref g (firstLetter s) r) = some (.ty t)) (hi : isInt t = true) :
    ∃ f, RefNames Γ.nm (fieldLists fs) s r f ∧ Num f.type ∧ ∀ x, fits x t = true → FitsTy f.type x := by
  rw [D.hN]
  have key : ∀ {x : String}, typeOf P E (.field (.var x) (g.nm r.name)) = some (.ty t) →
      (x = firstLetter s ∧ fieldTy P (g.nm s.name) (g.nm r.name) = some (.ty t)) ∨
      (x ∈ s.contexts ∧ fieldTy P (g.nm x) (g.nm r.name) = some (.ty t)) := by
    intro x h
    simp only [typeOf] at h
    split at h
    · rename_i T hT
      obtain ⟨h1, rfl⟩ := A.named x _ hT
      exact Or.inr ⟨h1, h⟩
    · rename_i T hT
      obtain ⟨h1, rfl⟩ := A.ptrs x _ hT
      exact Or.inl ⟨h1, h⟩
    · cases h
  have own : fieldTy P (g.nm s.name) (g.nm r.name) = some (.ty t) →
      ∃ f ∈ fieldsOf s.ms, g.nm f.name = g.nm r.name ∧ Num f.type ∧ ∀ x, fits x t = true → FitsTy f.type x := by
    intro h
    obtain ⟨fd, hf, hn, G, hG, ht⟩ := D.own _ _ h
    cases ht
    exact ⟨fd, hf, hn, num_of_isInt hG hi⟩
  unfold ref at h
  by_cases hs : r.scope = ""
  · rw [if_pos hs] at h
    rcases key h with ⟨_, h⟩ | ⟨hx, h⟩
    · obtain ⟨f, hf, hn, h⟩ := own h
      exact ⟨f, ⟨hn, Or.inl ⟨Or.inl hs, hf⟩⟩, h⟩
    · simp only [typeOf, A.recv] at *
      obtain ⟨f, hf, hn, h⟩ := own (by assumption)
      exact ⟨f, ⟨hn, Or.inl ⟨Or.inl hs, hf⟩⟩, h⟩
  · rw [if_neg hs] at h
    rcases key h with ⟨hx, h⟩ | ⟨hx, h⟩
    · obtain ⟨f, hf, hn, h⟩ := own h
      exact ⟨f, ⟨hn, Or.inl ⟨Or.inr hx, hf⟩⟩, h⟩
    · obtain ⟨q, hq, hqn, fd, hf, hn, G, hG, ht⟩ := D.any _ _ _ h
      cases ht
      exact ⟨fd, ⟨hn, Or.inr ⟨hx, q, hq, hqn, hf⟩⟩, num_of_isInt hG hi⟩

/-! #### Statements -/

theorem chks_cons_some {a : Stmt} {b : List Stmt} {sc sc' : Scope} (h : chks P R (a :: b) sc = some sc') :
    ∃ m, chk P R a sc = some m ∧ chks P R b m = some sc' := by
  simp only [chks] at h
  exact Option.bind_eq_some_iff.1 h

theorem chk_if {c : Expr} {body : List Stmt} {sc : Scope} (h : chk P R (.ifS c body) (E, blk) = some sc) :
    typeOf P E c = some .bool ∧ sc = (E, blk) := by
  simp only [chk] at h
  obtain ⟨h1, h2⟩ := guardT_eq.1 h
  obtain ⟨_, _, h3⟩ := Option.map_eq_some_iff.1 h2
  exact ⟨by simpa using h1, h3.symm⟩

theorem chk_assign {l : LV} {e : Expr} {sc : Scope} (h : chk P R (.assign l e) (E, blk) = some sc) :
    (∃ t u, typeOf P E l.expr = some t ∧ typeOf P E e = some u ∧ assignable u t = true) ∧ sc = (E, blk) := by
  simp only [chk] at h
  obtain ⟨h1, h2⟩ := guardT_eq.1 h
  refine ⟨?_, (Option.some.inj h2).symm⟩
  unfold assignOK at h1
  split at h1
  · rename_i t u ht hu; exact ⟨t, u, ht, hu, h1⟩
  · cases h1

theorem chk_for {x : String} {n : Expr} {body : List Stmt} {sc : Scope} (h : chk P R (.forIdx x n body) (E, blk) = some sc) :
    (∃ sc', chks P R body (E.bind x (.ty .int), []) = some sc') ∧ sc = (E, blk) := by
  simp only [chk] at h
  obtain ⟨h1, h2⟩ := guardT_eq.1 h
  obtain ⟨sc', h3, h4⟩ := Option.map_eq_some_iff.1 h2
  exact ⟨⟨sc', h3⟩, h4.symm⟩

theorem chk_block {body : List Stmt} {sc : Scope} (h : chk P R (.block body) (E, blk) = some sc) :
    (∃ sc', chks P R body (E, []) = some sc') ∧ sc = (E, blk) := by
  simp only [chk] at h
  obtain ⟨sc', h3, h4⟩ := Option.map_eq_some_iff.1 h
  exact ⟨⟨sc', h3⟩, h4.symm⟩

theorem read_type {lhs : LV} {t : IntType} (hcur : E "cur" = some .bytes) {sc : Scope} (h : chk P R (intRead lhs t) (E, blk) = some sc) :
    sc = (E, blk) ∧ ∃ G, typeOf P E lhs.expr = some (.ty G) ∧ ∀ x, fits x G = true → FitsTy (.base (.int t)) x := by
  unfold intRead at h
  by_cases h8 : t.size / 8 = 1
  · rw [if_pos h8] at h
    obtain ⟨⟨T, u, hT, hu, ha⟩, hsc⟩ := chk_assign h
    refine ⟨hsc, ?_⟩
    have hu' : typeOf P E (.index cur (.lit 0)) = some (.ty .byte) := by
      simp [typeOf, Gen.cur, hcur, guardT, isIndex]
    rw [hu'] at hu; cases hu
    have : XT.ty .byte = T := by simpa [assignable] using ha
    subst this
    refine ⟨_, hT, fun x hx => ?_⟩
    simp only [fits, decide_eq_true_eq] at hx
    refine ⟨hx.1, lt_of_lt_of_le hx.2 ?_⟩
    exact_mod_cast Nat.pow_le_pow_right (by decide) (show 8 ≤ t.size by omega)
  · rw [if_neg h8] at h
    obtain ⟨⟨T, u, hT, hu, ha⟩, hsc⟩ := chk_assign h
    refine ⟨hsc, ?_⟩
    simp only [typeOf, Gen.cur, hcur] at hu
    obtain ⟨_, hu⟩ := guardT_eq.1 hu
    cases hu
    have : XT.ty (.uint t.size) = T := by simpa [assignable] using ha
    subst this
    refine ⟨_, hT, fun x hx => ?_⟩
    simpa [fits, FitsTy] using hx

theorem parseInt_needs (hK : Γ.K = g.res.constant) (I : Inside g.nm s E) {lhs : LV} {t : IntType} {ss : List Stmt} {sc : Scope}
    (h : parseIntType g lhs t = .ok ss) (hc : chks P R ss (E, blk) = some sc) :
    ∀ l, t.constraint = some l → ListNeeds Γ (.base (.int t)) l := by
  intro l hl
  obtain ⟨ck, hck, h⟩ := Res.bind_eq_ok.1 h
  cases h
  rw [List.append_assoc, List.cons_append] at hc
  obtain ⟨m, h1, hc⟩ := chks_cons_some hc
  obtain ⟨_, rfl⟩ := chk_if h1
  rw [List.cons_append, List.nil_append] at hc
  obtain ⟨m, h2, hc⟩ := chks_cons_some hc
  obtain ⟨rfl, G, hG, hfit⟩ := read_type I.cur h2
  unfold intCheck at hck
  rw [hl] at hck
  obtain ⟨c, hcond, hck⟩ := Res.bind_eq_ok.1 hck
  cases hck
  rw [List.cons_append] at hc
  obtain ⟨m, h3, hc⟩ := chks_cons_some hc
  obtain ⟨h3, _⟩ := chk_if h3
  obtain ⟨h4, _⟩ := boolTy_some h3
  obtain ⟨hne, t', ht', hb⟩ := conditional_needs hK hcond h4
  rw [hG] at ht'; cases ht'
  exact ⟨hne, fun r hr p hp => ⟨hfit _ (hb r hr p hp).1, hfit _ (hb r hr p hp).2⟩⟩

theorem parseBase_needs (D : Provides g Γ fs exts P s) (I : Inside g.nm s E) {lhs : LV} {b : Base} {ss : List Stmt} {sc : Scope}
    (h : parseBase g lhs b = .ok ss) (hc : chks P R ss (E, blk) = some sc) : BaseNeeds Γ fs exts s b := by
  cases b with
  | int t => exact parseInt_needs D.hK I h hc
  | char => trivial
  | struct n =>
    simp only [parseBase] at h
    split at h
    · cases h
    · rename_i s' hs'
      cases h
      obtain ⟨m, h1, hc⟩ := chks_cons_some hc
      simp only [chk] at h1
      obtain ⟨_, h1⟩ := guardT_eq.1 h1
      have hm := Option.some.inj h1
      subst hm
      obtain ⟨m, h2, hc⟩ := chks_cons_some hc
      obtain ⟨⟨T, u, hT, hu, ha⟩, rfl⟩ := chk_assign h2
      simp only [typeOf] at hu
      obtain ⟨_, hu⟩ := guardT_eq.1 hu
      cases hu
      have : XT.ty (.ptr (g.nm n)) = T := by simpa [assignable] using ha
      subst this
      obtain ⟨m, h3, hc⟩ := chks_cons_some hc
      simp only [chk] at h3
      obtain ⟨h3, _⟩ := guardT_eq.1 h3
      simp only [Bool.and_eq_true] at h3
      have hcall := h3.1.1
      unfold callOK at hcall
      rw [hT] at hcall
      simp only at hcall
      split at hcall
      · rename_i ps hps
        simp only [Bool.and_eq_true, beq_iff_eq] at hcall
        have I' : Inside g.nm s (E.bind "err" (.ty (norm .error))) := I.bind (by decide)
        have hargs := hcall.2
        have key : ∀ {cs : List String} {ps : List String}, cs.map (E.bind "err" (.ty (norm .error))) = ps.map (fun p => some (XT.named p)) →
            (∀ c ∈ cs, c ∈ s.contexts) ∧ ps = cs.map g.nm := by
          intro cs
          induction cs with
          | nil =>
            intro ps h
            cases ps with
            | nil => simp
            | cons => simp at h
          | cons c cs ih =>
            intro ps h
            cases ps with
            | nil => simp at h
            | cons q ps =>
              simp only [List.map_cons, List.cons.injEq] at h
              obtain ⟨i1, i2⟩ := ih h.2
              obtain ⟨j1, j2⟩ := I'.named c q h.1
              refine ⟨fun d hd => ?_, by rw [i2, j2]; rfl⟩
              rcases List.mem_cons.1 hd with rfl | hd
              · exact j1
              · exact i1 d hd
        obtain ⟨k1, k2⟩ := key hargs
        refine ⟨s', by rw [D.hS]; exact hs', k1, ?_⟩
        rw [D.hN]
        rcases D.calls _ _ hps with ⟨s'', a1, a2, a3, a4⟩ | h
        · exact Or.inl ⟨s'', a1, a2, a3, by rw [a4, k2]⟩
        · exact Or.inr (by rw [h, k2])
      · cases hcall

theorem toInt_needs (D : Provides g Γ fs exts P s) (A : AtRef g.nm s E) {r : IDRef} {t : XT}
    (h : typeOf P E (.toInt (ref g (firstLetter s) r)) = some t) : ∃ f, RefNames Γ.nm (fieldLists fs) s r f ∧ Num f.type := by
  simp only [typeOf] at h
  split at h
  · rename_i t ht
    obtain ⟨h1, _⟩ := guardT_eq.1 h
    simp only [Bool.and_eq_true] at h1
    obtain ⟨f, h2, h3, _⟩ := ref_needs D A ht h1.1
    exact ⟨f, h2, h3⟩
  · cases h

/-- `constrained`: the length is one, and the inner statements are checked where references can be read. -/
theorem constrained_needs (D : Provides g Γ fs exts P s) (A : AtRef g.nm s E) {c : LengthConstraint} {body : Res (List Stmt)} {ss : List Stmt}
    {sc : Scope} (h : constrained g (firstLetter s) c body = .ok ss) (hc : chks P R ss (E, blk) = some sc) :
    LenNeeds Γ fs s c ∧ ∃ E' blk' b sc', AtRef g.nm s E' ∧ body = .ok b ∧ chks P R b (E', blk') = some sc' := by
  obtain ⟨e, he, h⟩ := Res.bind_eq_ok.1 h
  obtain ⟨b, hb, h⟩ := Res.bind_eq_ok.1 h
  cases h
  rw [List.append_assoc, List.cons_append] at hc
  obtain ⟨m, h1, hc⟩ := chks_cons_some hc
  rw [List.cons_append] at hc
  obtain ⟨m2, h2, hc⟩ := chks_cons_some hc
  rw [List.cons_append, List.nil_append] at hc
  obtain ⟨m3, h3, hc⟩ := chks_cons_some hc
  have hm : m = (E, blk) := by
    cases c with
    | leftover k =>
      obtain ⟨k', _, he⟩ := Res.bind_eq_ok.1 he
      cases he; exact (chk_if h1).2
    | idRef r => cases he; exact (chk_if h1).2
  subst hm
  have hdef : ∃ t u, typeOf P E e.2 = some u ∧ typeOf P E (.sliceFrom cur e.2) = some t ∧ m2 = (E.bind "restore" t, "restore" :: blk) ∧ t = .bytes := by
    simp only [chk] at h2
    split at h2
    · rename_i t ht
      have ht' := ht
      simp only [typeOf, Gen.cur, A.cur] at ht
      unfold typeOf.sliceTy at ht
      split at ht
      · rename_i i h5 h6
        obtain ⟨_, ht⟩ := guardT_eq.1 ht
        cases ht
        simp only [defTy, Option.bind_some] at h2
        obtain ⟨_, h2⟩ := guardT_eq.1 h2
        exact ⟨_, _, h6, ht', (Option.some.inj h2).symm, rfl⟩
      · cases ht
    · cases h2
  obtain ⟨t, u, hu, ht, rfl, rfl⟩ := hdef
  obtain ⟨_, rfl⟩ := chk_assign h3
  rw [chks_append] at hc
  obtain ⟨sc', hb', _⟩ := Option.bind_eq_some_iff.1 hc
  refine ⟨?_, _, _, b, sc', A.restore, hb, hb'⟩
  cases c with
  | leftover k =>
    obtain ⟨k', hk, he⟩ := Res.bind_eq_ok.1 he
    cases he
    intro v hv
    rw [Refine.integer_ok D.hK hk] at hv; cases hv
    simp only [typeOf, Gen.cur, A.cur] at hu
    split at hu
    · rename_i b' hb1 hb2
      obtain ⟨h6, _⟩ := guardT_eq.1 hu
      cases hb2
      simpa [isIndex] using h6
    · cases hu
  | idRef r =>
    cases he
    exact toInt_needs D A hu

theorem parseRem_needs (D : Provides g Γ fs exts P s) (I : Inside g.nm s E) {lhs : LV} {b : Base} {ss : List Stmt} {sc : Scope}
    (h : parseRem g lhs b = .ok ss) (hc : chks P R ss (E, blk) = some sc) : BaseNeeds Γ fs exts s b := by
  obtain ⟨body, hb, h⟩ := Res.bind_eq_ok.1 h
  cases h
  obtain ⟨m, h1, hc⟩ := chks_cons_some hc
  obtain ⟨_, rfl⟩ := chk_assign h1
  obtain ⟨m, h2, hc⟩ := chks_cons_some hc
  simp only [chk] at h2
  obtain ⟨_, h2⟩ := guardT_eq.1 h2
  obtain ⟨sc', h3, _⟩ := Option.map_eq_some_iff.1 h2
  rw [List.append_assoc, List.cons_append, List.nil_append] at h3
  obtain ⟨m, h4, h3⟩ := chks_cons_some h3
  simp only [chk] at h4
  obtain ⟨_, h4⟩ := guardT_eq.1 h4
  have hm := Option.some.inj h4
  subst hm
  rw [chks_append] at h3
  obtain ⟨sc2, h5, _⟩ := Option.bind_eq_some_iff.1 h3
  exact parseBase_needs D (I.bind (by decide)) hb h5

theorem parseType_needs (D : Provides g Γ fs exts P s) (A : AtRef g.nm s E) {lhs : LV} {t : Ty} {ss : List Stmt} {sc : Scope}
    (h : parseType g (firstLetter s) lhs t = .ok ss) (hc : chks P R ss (E, blk) = some sc) : TyNeeds Γ fs exts s t := by
  cases t with
  | ptr => trivial
  | nulterm => trivial
  | base b => exact parseBase_needs D A.toInside h hc
  | fixedArray b n =>
    obtain ⟨k, hk, h⟩ := Res.bind_eq_ok.1 h
    obtain ⟨body, hb, h⟩ := Res.bind_eq_ok.1 h
    cases h
    obtain ⟨m, h1, hc⟩ := chks_cons_some hc
    obtain ⟨⟨sc', h2⟩, _⟩ := chk_for h1
    exact parseBase_needs D (A.toInside.bind (by decide)) hb h2
  | varArray b c =>
    rcases c with _ | c
    · exact ⟨parseRem_needs D A.toInside h hc, by simp⟩
    · cases c with
      | leftover k =>
        obtain ⟨h1, E', blk', b', sc', A', hb', hc'⟩ := constrained_needs D A h hc
        refine ⟨parseRem_needs D A'.toInside hb' hc', ?_⟩
        rintro _ ⟨⟩; exact h1
      | idRef r =>
        obtain ⟨body, hb, h⟩ := Res.bind_eq_ok.1 h
        cases h
        obtain ⟨m, h1, hc⟩ := chks_cons_some hc
        obtain ⟨⟨T, u, hT, hu, ha⟩, rfl⟩ := chk_assign h1
        obtain ⟨m, h2, hc⟩ := chks_cons_some hc
        obtain ⟨⟨sc', h3⟩, _⟩ := chk_for h2
        refine ⟨parseBase_needs D (A.toInside.bind (by decide)) hb h3, ?_⟩
        rintro _ ⟨⟩
        simp only [typeOf] at hu
        split at hu
        · rename_i i hi; exact toInt_needs D A (t := i) (by simpa only [typeOf] using hi)
        · cases hu

theorem parseLeaf_needs (D : Provides g Γ fs exts P s) (A : AtRef g.nm s E) {l : Leaf} {st : Stmt} {sc : Scope}
    (h : parseLeaf g (firstLetter s) l = .ok st) (hc : chk P R st (E, blk) = some sc) : LeafNeeds Γ fs exts s l ∧ sc = (E, blk) := by
  cases l with
  | field f =>
    obtain ⟨ss, hss, h⟩ := Res.bind_eq_ok.1 h
    cases h
    obtain ⟨⟨sc', h1⟩, h2⟩ := chk_block hc
    exact ⟨parseType_needs D A hss h1, h2⟩
  | eos => cases h; exact ⟨trivial, (chk_block hc).2⟩
  | ignore => cases h; exact ⟨trivial, (chk_block hc).2⟩
  | fail => cases h; exact ⟨trivial, (chk_block hc).2⟩

theorem parseLeaves_needs (D : Provides g Γ fs exts P s) (A : AtRef g.nm s E) : ∀ {ls : List Leaf} {ss : List Stmt} {sc : Scope},
    parseLeaves g (firstLetter s) ls = .ok ss → chks P R ss (E, blk) = some sc → ∀ l ∈ ls, LeafNeeds Γ fs exts s l := by
  intro ls
  induction ls with
  | nil => intro ss sc _ _; simp
  | cons l ls ih =>
    intro ss sc h hc
    obtain ⟨st, hst, h⟩ := Res.bind_eq_ok.1 h
    obtain ⟨ss', hss, h⟩ := Res.bind_eq_ok.1 h
    cases h
    obtain ⟨m, h1, hc⟩ := chks_cons_some hc
    obtain ⟨h2, rfl⟩ := parseLeaf_needs D A hst h1
    intro l' hl
    rcases List.mem_cons.1 hl with rfl | hl
    · exact h2
    · exact ih hss hc l' hl

theorem parseCases_needs (D : Provides g Γ fs exts P s) (A : AtRef g.nm s E) {tag : IDRef} :
    ∀ {cs : List UnionCase} {out : List (Option Expr × List Stmt)}, parseCases g (firstLetter s) (ref g (firstLetter s) tag) cs = .ok out →
      chkClauses P R out E = some () → (out.filter (fun c => c.1.isNone)).length = (cs.filter (fun c => c.case.isNone)).length ∧
      ∀ c ∈ cs, (∀ l ∈ c.members, LeafNeeds Γ fs exts s l) ∧
        ∀ l, c.case = some l → ∃ f, RefNames Γ.nm (fieldLists fs) s tag f ∧ Num f.type ∧ ListNeeds Γ f.type l := by
  intro cs
  induction cs with
  | nil => intro out h _; cases h; simp
  | cons c cs ih =>
    intro out h hc
    obtain ⟨hd, hhd, h⟩ := Res.bind_eq_ok.1 h
    obtain ⟨body, hbody, h⟩ := Res.bind_eq_ok.1 h
    obtain ⟨rest, hrest, h⟩ := Res.bind_eq_ok.1 h
    cases h
    simp only [chkClauses] at hc
    obtain ⟨hg, hc⟩ := guardT_eq.1 hc
    obtain ⟨sc, hb, hc⟩ := Option.bind_eq_some_iff.1 hc
    obtain ⟨i1, i2⟩ := ih hrest hc
    have hleaf := parseLeaves_needs D A hbody hb
    unfold caseHead at hhd
    cases hcc : c.case with
    | none =>
      rw [hcc] at hhd; cases hhd
      refine ⟨by simp [hcc, i1], fun c' hc' => ?_⟩
      rcases List.mem_cons.1 hc' with rfl | hc'
      · exact ⟨hleaf, by rw [hcc]; rintro _ ⟨⟩⟩
      · exact i2 c' hc'
    | some l =>
      rw [hcc] at hhd
      obtain ⟨e, he, hhd⟩ := Res.bind_eq_ok.1 hhd
      cases hhd
      refine ⟨by simp [hcc, i1], fun c' hc' => ?_⟩
      rcases List.mem_cons.1 hc' with rfl | hc'
      · refine ⟨hleaf, ?_⟩
        rw [hcc]; rintro _ ⟨⟩
        obtain ⟨hne, t, ht, hb⟩ := conditional_needs D.hK he (by simpa using hg)
        have hi : isInt t = true := by
          obtain ⟨r, hr⟩ := List.exists_mem_of_ne_nil _ hne
          obtain ⟨cs', hcs', _⟩ := Res.bind_eq_ok.1 he
          have : ∃ p, bounds Γ.K r = some p := clauses_bounds D.hK hcs' r hr
          obtain ⟨p, hp⟩ := this
          exact fits_isInt (hb r hr p hp).1
        obtain ⟨f, h1, h2, h3⟩ := ref_needs D A ht hi
        exact ⟨f, h1, h2, hne, fun r hr p hp => ⟨h3 _ (hb r hr p hp).1, h3 _ (hb r hr p hp).2⟩⟩
      · exact i2 c' hc'

theorem switch_needs (D : Provides g Γ fs exts P s) (A : AtRef g.nm s E) {u : UnionMember} {ss : List Stmt} {sc : Scope}
    (h : parseSwitch g (firstLetter s) u = .ok ss) (hc : chks P R ss (E, blk) = some sc) :
    (u.cases.filter (fun c => c.case.isNone)).length ≤ 1 ∧ ∀ c ∈ u.cases, (∀ l ∈ c.members, LeafNeeds Γ fs exts s l) ∧
        ∀ l, c.case = some l → ∃ f, RefNames Γ.nm (fieldLists fs) s u.tag f ∧ Num f.type ∧ ListNeeds Γ f.type l := by
  obtain ⟨cs, hcs, h⟩ := Res.bind_eq_ok.1 h
  cases h
  obtain ⟨m, h1, _⟩ := chks_cons_some hc
  simp only [chk] at h1
  obtain ⟨h2, h1⟩ := guardT_eq.1 h1
  obtain ⟨_, h3, _⟩ := Option.map_eq_some_iff.1 h1
  obtain ⟨h4, h5⟩ := parseCases_needs D A hcs h3
  exact ⟨by rw [← h4]; simpa using h2, h5⟩

theorem parseMember_needs (D : Provides g Γ fs exts P s) (A : AtRef g.nm s E) {m : Member} {st : Stmt} {sc : Scope}
    (h : parseMember g (firstLetter s) m = .ok st) (hc : chk P R st (E, blk) = some sc) : MemberNeeds Γ fs exts s m ∧ sc = (E, blk) := by
  cases m with
  | leaf l => exact parseLeaf_needs D A h hc
  | union u =>
    obtain ⟨ss, hss, h⟩ := Res.bind_eq_ok.1 h
    cases h
    obtain ⟨⟨sc', h1⟩, h2⟩ := chk_block hc
    refine ⟨?_, h2⟩
    unfold parseUnion at hss
    split at hss
    · rename_i k hk
      obtain ⟨h3, E', blk', b', sc', A', hb', hc'⟩ := constrained_needs D A hss h1
      refine ⟨?_, switch_needs D A' hb' hc'⟩
      rw [hk]; rintro _ ⟨⟩; exact h3
    · rename_i hk
      refine ⟨?_, switch_needs D A hss h1⟩
      rw [hk]; rintro _ ⟨⟩

theorem parseMembers_needs (D : Provides g Γ fs exts P s) (A : AtRef g.nm s E) {tl : List Stmt} : ∀ {ms : List Member} {ss : List Stmt} {sc : Scope},
    parseMembers g (firstLetter s) ms = .ok ss → chks P R (ss ++ tl) (E, blk) = some sc → ∀ m ∈ ms, MemberNeeds Γ fs exts s m := by
  intro ms
  induction ms with
  | nil => intro ss sc _ _; simp
  | cons m ms ih =>
    intro ss sc h hc
    obtain ⟨st, hst, h⟩ := Res.bind_eq_ok.1 h
    obtain ⟨ss', hss, h⟩ := Res.bind_eq_ok.1 h
    cases h
    rw [List.cons_append] at hc
    obtain ⟨m', h1, hc⟩ := chks_cons_some hc
    obtain ⟨h2, rfl⟩ := parseMember_needs D A hst h1
    intro m'' hm
    rcases List.mem_cons.1 hm with rfl | hm
    · exact h2
    · exact ih hss hc m'' hm

end

theorem bindT_scope : ∀ {ps : List (String × XT)} {E : TEnv} {blk : List String} {sc : Scope}, bindT ps (E, blk) = some sc →
    (∀ x t, sc.1 x = some t → (x, t) ∈ ps ∨ E x = some t) ∧ (∀ q ∈ ps, sc.1 q.1 = some q.2) ∧
    (∀ x, x ∉ ps.map (·.1) → sc.1 x = E x) ∧ ∀ x ∈ ps.map (·.1) ++ blk, x ∈ sc.2 := by
  intro ps
  induction ps with
  | nil => intro E blk sc h; cases h; simp
  | cons q ps ih =>
    obtain ⟨y, t⟩ := q
    intro E blk sc h
    have hn := (bindT_needs h).1
    rw [bindT] at h
    obtain ⟨hd, h⟩ := guardT_eq.1 h
    simp only [declarable, Bool.and_eq_true, bne_iff_ne] at hd
    obtain ⟨h1, h2, h3, h4⟩ := ih h
    simp only [List.map_cons, List.nodup_cons] at hn
    refine ⟨?_, ?_, ?_, ?_⟩
    · intro x u hx
      rcases h1 x u hx with h | h
      · exact Or.inl (List.mem_cons_of_mem _ h)
      · by_cases hxy : x = y
        · subst hxy
          rw [bind_same _ _ hd.2] at h; cases h
          exact Or.inl List.mem_cons_self
        · rw [bind_ne _ _ hxy] at h; exact Or.inr h
    · intro q hq
      rcases List.mem_cons.1 hq with rfl | hq
      · rw [h3 y hn.1, bind_same _ _ hd.2]
      · exact h2 q hq
    · intro x hx
      simp only [List.map_cons, List.mem_cons, not_or] at hx
      rw [h3 x hx.2, bind_ne _ _ hx.1]
    · intro x hx
      simp only [List.map_cons, List.cons_append, List.mem_cons, List.mem_append] at hx
      apply h4
      simp only [List.mem_append, List.mem_cons]
      tauto

theorem mem_of_lookup {β : Type} {x : String} {b : β} : ∀ {l : List (String × β)}, l.lookup x = some b → (x, b) ∈ l := by
  intro l
  induction l with
  | nil => intro h; cases h
  | cons q l ih =>
    obtain ⟨y, c⟩ := q
    intro h
    rw [List.lookup_cons] at h
    by_cases hxy : x = y
    · subst hxy; simp at h; simp [h]
    · have : (x == y) = false := by simp [hxy]
      rw [this] at h
      exact List.mem_cons_of_mem _ (ih h)

/-- **C36, conversely, for methods.** Whenever the emitted package compiles next to the user's types: no context is called `cur`, and
every member of every struct defined meets `MemberNeeds`. -/
theorem emitted_needs_members {nm : String → String} {ext : Ext} {ord : IterOrder} {fs : List File} {p : Prog}
    {exts : List (String × List String)} (h : marshallers nm ord fs = .ok p) (hc : compiles p exts = true) :
    ∀ s ∈ fs.flatMap (·.structs), s.extern = false → "cur" ∉ s.contexts ∧ ∀ m ∈ s.ms, MemberNeeds (fmtOf nm ext fs) fs exts s m := by
  intro s hs he
  have hcomp := marshallers_compatible h
  have hN := emitted_needs h hc
  obtain ⟨r, hr, hfl⟩ := Res.bind_eq_ok.1 h
  have O := fileList_origin hfl
  obtain ⟨hE, hT, hM, hC⟩ := fileList_spec hfl
  change p.types.map (·.name) = goTypes nm fs at hT
  obtain ⟨r', hr', q1, q2, q3⟩ := (Props.C11_multi_file ord fs).1 hcomp
  rw [hr] at hr'
  cases hr'
  have hnd : (p.types.map (·.name)).Nodup := by
    rw [hT]; exact (List.nodup_append.1 (List.nodup_append.1 hN.names).1).1
  -- a declared type comes from a context or a struct
  have hlist : ∀ d ∈ p.types, ∃ q ∈ fieldLists fs, nm q.1 = d.name ∧ Declares ⟨r, nm⟩ q.2 d.fields := by
    intro d hd
    rcases O.types d hd with ⟨s', hs', he', h1⟩ | ⟨C, hC', h1⟩
    · obtain ⟨ds, hds, h1⟩ := Res.bind_eq_ok.1 h1
      cases h1
      refine ⟨(s'.name, fieldsOf s'.ms), ?_, rfl, memberDecls_declares hds⟩
      exact List.mem_append_right _ (List.mem_map.2 ⟨s', List.mem_filter.2 ⟨hs', by simp [he']⟩, rfl⟩)
    · obtain ⟨ds, hds, h1⟩ := Res.bind_eq_ok.1 h1
      cases h1
      have hD := leafDecls_declares hds
      rw [leafFields_fields] at hD
      exact ⟨(C.name, C.members), List.mem_append_left _ (List.mem_map.2 ⟨C, hC', rfl⟩), rfl, hD⟩
  have hfind : ∀ T f t, fieldTy (p.sig exts) T f = some t → ∃ d ∈ p.types, d.name = T ∧ ∃ G, d.fields.lookup f = some G ∧ t = .ty (norm G) := by
    intro T f t hf
    unfold fieldTy at hf
    split at hf
    · cases hf
    · rename_i fl hfl'
      split at hf
      · cases hf
      · obtain ⟨G, hG, ht⟩ := Option.map_eq_some_iff.1 hf
        simp only [Prog.sig, List.lookup_append] at hfl'
        cases hl : (p.types.map (fun d => (d.name, d.fields))).lookup T with
        | some fl' =>
          rw [hl] at hfl'
          cases hfl'
          obtain ⟨d, hd, hq⟩ := List.mem_map.1 (mem_of_lookup hl)
          cases hq
          exact ⟨d, hd, rfl, G, hG, ht.symm⟩
        | none =>
          rw [hl, Option.none_or] at hfl'
          obtain ⟨e, _, hq⟩ := List.mem_map.1 (mem_of_lookup hfl')
          cases hq
          cases hG
  have hdecl : ∀ {fl : List Field} {ds : List (String × GTy)} {f : String} {G : GTy}, Declares ⟨r, nm⟩ fl ds → ds.lookup f = some G →
      ∃ fd ∈ fl, nm fd.name = f ∧ tipe ⟨r, nm⟩ fd.type = .ok G := by
    intro fl ds f G hD hl
    obtain ⟨fd, hf, h1, h2⟩ := hD.mem _ (mem_of_lookup hl)
    exact ⟨fd, hf, h1.symm, h2⟩
  obtain ⟨d, hd, m, hm, h1, h2, _⟩ := hE s hs he
  obtain ⟨ds, hds, h1⟩ := Res.bind_eq_ok.1 h1
  obtain ⟨body, hbody, h2⟩ := Res.bind_eq_ok.1 h2
  cases h1; cases h2
  have D : Provides ⟨r, nm⟩ (fmtOf nm ext fs) fs exts (p.sig exts) s := by
    refine ⟨?_, ?_, rfl, ?_, ?_, ?_⟩
    · funext n; exact (q3 n).symm
    · funext n; exact (q1 n).symm
    · intro f t hf
      obtain ⟨d', hd', hn, G, hG, ht⟩ := hfind _ _ _ hf
      have hdd : d' = ⟨nm s.name, ds⟩ := by
        have e1 := find_of_nodup (·.name) hnd hd'
        have e2 := find_of_nodup (·.name) hnd hd
        rw [hn] at e1
        rw [e1] at e2; exact Option.some.inj e2
      subst hdd
      obtain ⟨fd, a, b, c⟩ := hdecl (memberDecls_declares hds) hG
      exact ⟨fd, a, b, G, c, ht⟩
    · intro T f t hf
      obtain ⟨d', hd', hn, G, hG, ht⟩ := hfind _ _ _ hf
      obtain ⟨q, hq, hqn, hD⟩ := hlist d' hd'
      obtain ⟨fd, a, b, c⟩ := hdecl hD hG
      exact ⟨q, hq, hqn.trans hn, fd, a, b, G, c, ht⟩
    · intro T ps hl
      simp only [Prog.sig, List.lookup_append] at hl
      cases hl' : (p.methods.map (fun m => (m.type, m.params.map (·.2)))).lookup T with
      | none => rw [hl', Option.none_or] at hl; exact Or.inr hl
      | some ps' =>
        rw [hl'] at hl; cases hl
        obtain ⟨m', hm', hq⟩ := List.mem_map.1 (mem_of_lookup hl')
        cases hq
        obtain ⟨s', hs', he', h3⟩ := O.methods m' hm'
        obtain ⟨_, _, h3⟩ := Res.bind_eq_ok.1 h3
        cases h3
        exact Or.inl ⟨s', hs', he', rfl, by simp [contextSignature, Function.comp_def]⟩
  simp only [compiles, Bool.and_eq_true, List.all_eq_true] at hc
  have h6 := hc.1.2 _ hm
  simp only [chkMethod, Bool.and_eq_true, chkFunc] at h6
  have h6 := h6.2
  split at h6
  · cases h6
  · rename_i sc hb
    obtain ⟨b1, b2, b3, b4⟩ := bindT_scope hb
    obtain ⟨n1, n2⟩ := bindT_needs hb
    simp only [Bool.and_eq_true] at h6
    obtain ⟨sc2, h7⟩ := Option.isSome_iff_exists.1 h6.1.1
    rw [List.append_assoc, List.cons_append, List.nil_append] at h7
    obtain ⟨m', h8, h7⟩ := chks_cons_some h7
    obtain ⟨E0, blk0⟩ := sc
    have hmap : (((firstLetter s, XT.ty (.ptr (nm s.name))) :: ("data", XT.bytes) ::
        (contextSignature ⟨r, nm⟩ s.contexts).map (fun p => (p.1, XT.named p.2))).map (·.1)) = firstLetter s :: "data" :: s.contexts := by
      simp [contextSignature, Function.comp_def]
    have hdata : E0 "data" = some .bytes := b2 ("data", .bytes) (by simp)
    simp only [chk, typeOf, hdata, defTy, Option.bind_some] at h8
    obtain ⟨h9, h8⟩ := guardT_eq.1 h8
    have hm' := Option.some.inj h8
    subst hm'
    simp only [declarable, Bool.and_eq_true, Bool.not_eq_true', List.contains_eq_mem, decide_eq_false_iff_not] at h9
    have hcur : "cur" ∉ firstLetter s :: "data" :: s.contexts := by
      rw [← hmap]
      exact fun hx => h9.1.1 (b4 _ (List.mem_append_left _ hx))
    have A : AtRef nm s (E0.bind "cur" .bytes) := by
      refine ⟨⟨bind_same _ _ (by decide), ?_⟩, ?_, ?_⟩
      · intro x T hx
        by_cases hxc : x = "cur"
        · subst hxc; rw [bind_same _ _ (by decide)] at hx; cases hx
        · rw [bind_ne _ _ hxc] at hx
          rcases b1 x _ hx with h | h
          · simp only [List.mem_cons, Prod.mk.injEq, reduceCtorEq, and_false, false_or, List.mem_map, contextSignature] at h
            obtain ⟨_, ⟨c, hc', rfl⟩, h1, h2⟩ := h
            cases h2
            exact ⟨h1 ▸ hc', by rw [← h1]⟩
          · cases h
      · intro x T hx
        by_cases hxc : x = "cur"
        · subst hxc; rw [bind_same _ _ (by decide)] at hx; cases hx
        · rw [bind_ne _ _ hxc] at hx
          rcases b1 x _ hx with h | h
          · simp only [List.mem_cons, Prod.mk.injEq, XT.ty.injEq, GTy.ptr.injEq, reduceCtorEq, and_false, false_or, List.mem_map, or_false,
              exists_const] at h
            exact h
          · cases h
      · rw [bind_ne _ _ (fun h : firstLetter s = "cur" => hcur (by rw [h]; exact List.mem_cons_self))]
        exact b2 _ List.mem_cons_self
    exact ⟨fun hx => hcur (by simp [hx]), parseMembers_needs D A hbody h7⟩

/-- The source of `exUser` in `Verif/Props/GenCompiles` compiles, so it meets both. -/
theorem exUser_compiles : marshallers exNm idOrder exUser = .ok (emitted exUser) ∧ compiles (emitted exUser) [("Point", [])] = true :=
  ⟨marshallers_emitted (by decide +kernel), emitted_compiles (marshallers_emitted (by decide +kernel)) exUser_compileOK⟩

example : DeclsOK exNm exUser [("Point", [])] := emitted_needs exUser_compiles.1 exUser_compiles.2

example : ∀ s ∈ exUser.flatMap (·.structs), s.extern = false → "cur" ∉ s.contexts ∧
    ∀ m ∈ s.ms, MemberNeeds (fmtOf exNm exExt exUser) exUser [("Point", [])] s m :=
  emitted_needs_members exUser_compiles.1 exUser_compiles.2

/-- The case of the receiver in `RefNames` does occur: `struct abc { u8 x; u8 y[a.x]; }` is accepted and compiles although there is no
context at all, because `a` is the receiver. -/
theorem receiver_as_context :
    let fs := one "abc" [.leaf (uF "x" 8), .leaf (.field ⟨"y", .varArray (.int ⟨8, none⟩) (some (.idRef ⟨"a", "x"⟩))⟩)]
    (marshallers exNm idOrder fs).isOk = true ∧ compiles (emitted fs) [] = true ∧ fs.flatMap (·.contexts) = [] := by decide +kernel

end Verif.Props
