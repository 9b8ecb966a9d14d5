import Verif.GoTypeLemmas
/-!
# Emitted programs obey the scope and type rules
-/
set_option linter.unusedSimpArgs false
set_option linter.unusedVariables false
namespace Verif.Refine
open Verif Verif.Ast Verif.Go Verif.Gen Verif.Wire Verif.Spec Verif.Inspect

variable {g : Cfg} {Γ : Fmt}

/-! ## Everything emitted comes from a declaration -/

/-- Where the declarations of a program come from. -/
structure Origin (g : Cfg) (ss : List Struct) (cs : List Context) (p : Prog) : Prop where
  types : ∀ d ∈ p.types, (∃ s ∈ ss, s.extern = false ∧ structDecl g s = .ok d) ∨ ∃ c ∈ cs, context g c = .ok d
  methods : ∀ m ∈ p.methods, ∃ s ∈ ss, s.extern = false ∧ parse g (firstLetter s) s = .ok m
  ctors : ∀ c ∈ p.ctors, ∃ s ∈ ss, s.extern = false ∧ c = parseConstructor g (firstLetter s) s
  contexts : ∀ c ∈ cs, ∃ d ∈ p.types, context g c = .ok d

theorem Origin.append {ss ss' : List Struct} {cs cs' : List Context} {p q : Prog} (h : Origin g ss cs p)
    (h' : Origin g ss' cs' q) : Origin g (ss ++ ss') (cs ++ cs') (append p q) := by
  refine ⟨fun d hd => ?_, fun m hm => ?_, fun c hc => ?_, fun c hc => ?_⟩
  · rcases List.mem_append.1 hd with hd | hd
    · rcases h.types d hd with ⟨s, hs, h1⟩ | ⟨c, hc, h1⟩
      · exact Or.inl ⟨s, List.mem_append_left _ hs, h1⟩
      · exact Or.inr ⟨c, List.mem_append_left _ hc, h1⟩
    · rcases h'.types d hd with ⟨s, hs, h1⟩ | ⟨c, hc, h1⟩
      · exact Or.inl ⟨s, List.mem_append_right _ hs, h1⟩
      · exact Or.inr ⟨c, List.mem_append_right _ hc, h1⟩
  · rcases List.mem_append.1 hm with hm | hm
    · obtain ⟨s, hs, h1⟩ := h.methods m hm; exact ⟨s, List.mem_append_left _ hs, h1⟩
    · obtain ⟨s, hs, h1⟩ := h'.methods m hm; exact ⟨s, List.mem_append_right _ hs, h1⟩
  · rcases List.mem_append.1 hc with hc | hc
    · obtain ⟨s, hs, h1⟩ := h.ctors c hc; exact ⟨s, List.mem_append_left _ hs, h1⟩
    · obtain ⟨s, hs, h1⟩ := h'.ctors c hc; exact ⟨s, List.mem_append_right _ hs, h1⟩
  · rcases List.mem_append.1 hc with hc | hc
    · obtain ⟨d, hd, h1⟩ := h.contexts c hc; exact ⟨d, List.mem_append_left _ hd, h1⟩
    · obtain ⟨d, hd, h1⟩ := h'.contexts c hc; exact ⟨d, List.mem_append_right _ hd, h1⟩

theorem structure_origin {s : Struct} {p : Prog} (h : structure_ g s = .ok p) : Origin g [s] [] p := by
  unfold structure_ at h
  cases he : s.extern with
  | true => rw [he] at h; cases h; exact ⟨by simp, by simp, by simp, by simp⟩
  | false =>
    rw [he] at h
    simp only [Bool.false_eq_true, if_false] at h
    obtain ⟨r, hr, h⟩ := Res.bind_eq_ok.1 h
    obtain ⟨d, hd, h⟩ := Res.bind_eq_ok.1 h
    obtain ⟨m, hm, h⟩ := Res.bind_eq_ok.1 h
    cases h
    have := receiver_eq hr
    subst this
    exact ⟨by simp [he, hd], by simp [he, hm], by simp [he], by simp⟩

theorem fileStructs_origin : ∀ {ss : List Struct} {p : Prog}, fileStructs g ss = .ok p → Origin g ss [] p := by
  intro ss
  induction ss with
  | nil => intro p h; cases h; exact ⟨by simp, by simp, by simp, by simp⟩
  | cons s ss ih =>
    intro p h
    obtain ⟨p1, h1, h⟩ := Res.bind_eq_ok.1 h
    obtain ⟨p2, h2, h⟩ := Res.bind_eq_ok.1 h
    cases h
    exact (structure_origin h1).append (ih h2)

theorem fileContexts_origin : ∀ {cs : List Context} {p : Prog}, fileContexts g cs = .ok p → Origin g [] cs p := by
  intro cs
  induction cs with
  | nil => intro p h; cases h; exact ⟨by simp, by simp, by simp, by simp⟩
  | cons c cs ih =>
    intro p h
    obtain ⟨d, h1, h⟩ := Res.bind_eq_ok.1 h
    obtain ⟨p2, h2, h⟩ := Res.bind_eq_ok.1 h
    cases h
    have : Origin g [] [c] ⟨[d], [], []⟩ := ⟨by simp [h1], by simp, by simp, by simp [h1]⟩
    exact this.append (ih h2)

theorem fileList_origin : ∀ {fs : List File} {p : Prog}, fileList g fs = .ok p →
    Origin g (fs.flatMap (·.structs)) (fs.flatMap (·.contexts)) p := by
  intro fs
  induction fs with
  | nil => intro p h; cases h; exact ⟨by simp, by simp, by simp, by simp⟩
  | cons f fs ih =>
    intro p h
    obtain ⟨p1, h1, h⟩ := Res.bind_eq_ok.1 h
    obtain ⟨p2, h2, h⟩ := Res.bind_eq_ok.1 h
    cases h
    obtain ⟨q1, hq1, h1⟩ := Res.bind_eq_ok.1 h1
    obtain ⟨q2, hq2, h1⟩ := Res.bind_eq_ok.1 h1
    cases h1
    have := ((fileContexts_origin hq1).append (fileStructs_origin hq2)).append (ih h2)
    simpa using this

/-! ## Declared fields -/

theorem fieldDecl_ok {f : Field} {d : String × GTy} (h : fieldDecl g f = .ok d) : d.1 = g.nm f.name ∧ tipe g f.type = .ok d.2 := by
  obtain ⟨t, ht, h⟩ := Res.bind_eq_ok.1 h
  cases h
  exact ⟨rfl, ht⟩

/-- A declaration declares these fields. -/
def Declares (g : Cfg) (fs : List Field) (ds : List (String × GTy)) : Prop :=
  List.Forall₂ (fun f d => d.1 = g.nm f.name ∧ tipe g f.type = .ok d.2) fs ds

theorem Declares.append {fs fs' : List Field} {ds ds' : List (String × GTy)} (h : Declares g fs ds) (h' : Declares g fs' ds') :
    Declares g (fs ++ fs') (ds ++ ds') := by
  unfold Declares at *
  induction h with
  | nil => exact h'
  | cons a _ ih => exact .cons a ih

theorem leafDecls_declares : ∀ {ls : List Leaf} {ds}, leafDecls g ls = .ok ds → Declares g (leafFields ls) ds := by
  intro ls
  induction ls with
  | nil => intro ds h; cases h; exact .nil
  | cons l ls ih =>
    intro ds h
    cases l with
    | field f =>
      obtain ⟨d, hd, h⟩ := Res.bind_eq_ok.1 h
      obtain ⟨ds', hds, h⟩ := Res.bind_eq_ok.1 h
      cases h
      exact .cons (fieldDecl_ok hd) (ih hds)
    | eos => exact ih h
    | ignore => exact ih h
    | fail => exact ih h

theorem caseDecls_declares : ∀ {cs : List UnionCase} {ds}, caseDecls g cs = .ok ds →
    Declares g (cs.flatMap (fun c => leafFields c.members)) ds := by
  intro cs
  induction cs with
  | nil => intro ds h; cases h; exact .nil
  | cons c cs ih =>
    intro ds h
    obtain ⟨d, hd, h⟩ := Res.bind_eq_ok.1 h
    obtain ⟨ds', hds, h⟩ := Res.bind_eq_ok.1 h
    cases h
    exact (leafDecls_declares hd).append (ih hds)

theorem memberDecls_declares : ∀ {ms : List Member} {ds}, memberDecls g ms = .ok ds → Declares g (fieldsOf ms) ds := by
  intro ms
  induction ms with
  | nil => intro ds h; cases h; exact .nil
  | cons m ms ih =>
    intro ds h
    obtain ⟨d, hd, h⟩ := Res.bind_eq_ok.1 h
    obtain ⟨ds', hds, h⟩ := Res.bind_eq_ok.1 h
    cases h
    refine Declares.append ?_ (ih hds)
    cases m with
    | leaf l =>
      cases l with
      | field f =>
        obtain ⟨d', hd', hd⟩ := Res.bind_eq_ok.1 hd
        cases hd
        exact .cons (fieldDecl_ok hd') .nil
      | eos => cases hd; exact .nil
      | ignore => cases hd
      | fail => cases hd
    | union u => exact caseDecls_declares hd

theorem Declares.names {fs : List Field} {ds : List (String × GTy)} (h : Declares g fs ds) :
    ds.map (·.1) = fs.map (fun f => g.nm f.name) := by
  unfold Declares at h
  induction h with
  | nil => rfl
  | cons a _ ih => simp [a.1, ih]

theorem Declares.mem {fs : List Field} {ds : List (String × GTy)} (h : Declares g fs ds) :
    ∀ d ∈ ds, ∃ f ∈ fs, d.1 = g.nm f.name ∧ tipe g f.type = .ok d.2 := by
  unfold Declares at h
  induction h with
  | nil => simp
  | cons a _ ih =>
    intro d hd
    rcases List.mem_cons.1 hd with rfl | hd
    · exact ⟨_, List.mem_cons_self, a⟩
    · obtain ⟨f, hf, h⟩ := ih d hd; exact ⟨f, List.mem_cons_of_mem _ hf, h⟩

theorem Declares.lookup {fs : List Field} {ds : List (String × GTy)} (h : Declares g fs ds)
    (hn : (fs.map (fun f => g.nm f.name)).Nodup) : ∀ f ∈ fs, ∃ G, tipe g f.type = .ok G ∧ ds.lookup (g.nm f.name) = some G := by
  unfold Declares at h
  induction h with
  | nil => simp
  | @cons f d fs ds a _ ih =>
    simp only [List.map_cons, List.nodup_cons] at hn
    obtain ⟨x, G⟩ := d
    simp only at a
    intro f' hf'
    rcases List.mem_cons.1 hf' with rfl | hf'
    · exact ⟨G, a.2, by rw [a.1, List.lookup_cons]; simp⟩
    · obtain ⟨G', h1, h2⟩ := ih hn.2 f' hf'
      refine ⟨G', h1, ?_⟩
      have hne : ¬ g.nm f'.name = x := by
        intro heq
        exact hn.1 (a.1 ▸ heq ▸ List.mem_map_of_mem (f := fun f => g.nm f.name) hf')
      have hb : (g.nm f'.name == x) = false := by simp [hne]
      simp only [List.lookup_cons, hb, h2]

theorem lookup_of_nodup {β : Type} : ∀ {l : List (String × β)} {x : String} {b : β}, (l.map (·.1)).Nodup → (x, b) ∈ l →
    l.lookup x = some b := by
  intro l
  induction l with
  | nil => intro x b _ h; cases h
  | cons q l ih =>
    intro x b hn h
    simp only [List.map_cons, List.nodup_cons] at hn
    obtain ⟨y, c⟩ := q
    rw [List.lookup_cons]
    rcases List.mem_cons.1 h with h | h
    · cases h; simp
    · have hne : ¬ x = y := fun heq => hn.1 (heq ▸ List.mem_map_of_mem (f := (·.1)) h)
      have hb : (x == y) = false := by simp [hne]
      simp only [hb, ih hn.2 h]

theorem lookup_isSome {β : Type} : ∀ {l : List (String × β)} {x : String}, (l.lookup x).isSome = true ↔ x ∈ l.map (·.1) := by
  intro l
  induction l with
  | nil => simp
  | cons q l ih =>
    intro x
    obtain ⟨y, c⟩ := q
    rw [List.lookup_cons]
    by_cases h : x = y
    · simp [h]
    · have : (x == y) = false := by simp [h]
      simp [this, h, ih]

/-! ## Conditions on files -/

/-- Field types of contexts. -/
def CtxTy : Ty → Prop
  | .base (.int t) => SizeOK t
  | _ => False

/-- Go names of the types declared by files. -/
def goTypes (nm : String → String) (fs : List File) : List String := fs.flatMap (fun f => (typeNames f).map nm)

/-- Go names of the constructors declared by files. -/
def goCtors (nm : String → String) (fs : List File) : List String :=
  fs.flatMap (fun f => (f.structs.filter (fun s => !s.extern)).map (fun s => "Parse" ++ nm s.name))

/-- Source that compiles: integers fit their types, names do not clash with each other, with predeclared
names or with the variables of the emitted code, contexts used are declared, and user code provides the
structs left extern, with their contexts. -/
structure CompileOK (nm : String → String) (ext : Ext) (fs : List File) (exts : List (String × List String)) : Prop where
  files : FilesOK nm ext fs
  fits : ∀ s ∈ fs.flatMap (·.structs), s.extern = false → StructFits (fmtOf nm ext fs) s
  ctxDecl : ∀ s ∈ fs.flatMap (·.structs), s.extern = false → s.contexts.Nodup ∧
    ∀ c ∈ s.contexts, c ∈ (fs.flatMap (·.contexts)).map (·.name)
  ctxFields : ∀ C ∈ fs.flatMap (·.contexts), (∀ f ∈ C.members, CtxTy f.type ∧ goodName (nm f.name) = true) ∧
    (C.members.map (fun f => nm f.name)).Nodup
  fields : ∀ s ∈ fs.flatMap (·.structs), s.extern = false → ∀ f ∈ fieldsOf s.ms,
    goodName (nm f.name) = true ∧ nm f.name ≠ "Parse"
  names : (goTypes nm fs ++ goCtors nm fs ++ exts.map (·.1)).Nodup
  builtins : ∀ x ∈ goTypes nm fs ++ goCtors nm fs, x ∉ builtins
  types : ∀ x ∈ goTypes nm fs ++ exts.map (·.1), goodName x = true ∧
    x ∉ ["cur", "data", "restore", "idx", "tmp", "err", "i"] ∧
    ∀ s ∈ fs.flatMap (·.structs), s.extern = false → x ≠ firstLetter s ∧ x ∉ s.contexts
  externs : ∀ n s, (fmtOf nm ext fs).structs n = some s → s.extern = true → exts.lookup (nm n) = some (s.contexts.map nm)

theorem lastDecl_of_last {α : Type} {key : α → String} : ∀ {l : List α} {a : α}, a ∈ l →
    l.Pairwise (fun b c => b = a → key b ≠ key c) → lastDecl key l (key a) = some a := by
  intro l a h hp
  obtain ⟨l1, l2, rfl⟩ := List.append_of_mem h
  unfold lastDecl
  have h2 : ∀ c ∈ l2, key c ≠ key a := by
    intro c hc heq
    rw [List.pairwise_append] at hp
    have := hp.2.1
    rw [List.pairwise_cons] at this
    exact this.1 c hc rfl heq.symm
  rw [List.reverse_append, List.reverse_cons, List.find?_append, List.find?_append]
  have h3 : l2.reverse.find? (fun b => decide (key b = key a)) = none := by
    rw [List.find?_eq_none]
    intro c hc
    simpa using h2 c (by simpa using hc)
  rw [h3]
  simp

section
variable {nm : String → String} {ext : Ext} {ord : IterOrder} {fs : List File} {exts : List (String × List String)}

theorem ms_of_members {s : Struct} (h : s.members = none) : s.extern = true := by
  simp [Struct.extern, h]

/-- A struct defined in the files is the one its name stands for. -/
theorem defined_struct (hc : Props.FilesCompatible fs) {s : Struct} (hs : s ∈ fs.flatMap (·.structs)) (he : s.extern = false) :
    (fmtOf nm ext fs).structs s.name = some s := by
  refine lastDecl_of_last hs (hc.2.1.imp ?_)
  rintro b c h rfl heq
  have := ms_of_members (h heq)
  rw [he] at this; cases this

theorem declared_context (hc : Props.FilesCompatible fs) {C : Context} (hs : C ∈ fs.flatMap (·.contexts)) :
    (fmtOf nm ext fs).contexts C.name = some C := by
  refine lastDecl_of_last hs ?_
  have := hc.2.2.1
  rw [List.Nodup, List.pairwise_map] at this
  refine this.imp ?_
  intro a b h _
  exact h

theorem marshallers_compatible {nm : String → String} {o : IterOrder} {fs : List File} {p : Prog}
    (h : marshallers nm o fs = .ok p) : Props.FilesCompatible fs := by
  obtain ⟨r, hr, h⟩ := Res.bind_eq_ok.1 h
  by_contra hc
  obtain ⟨m, hm⟩ := (Props.C11_multi_file o fs).2 hc
  rw [hm] at hr; cases hr

/-- The declarations of an emitted program. -/
theorem sig_ok {p : Prog} (h : marshallers nm ord fs = .ok p) (hok : CompileOK nm ext fs exts) {r : Resolver}
    (P : ProgOK ⟨r, nm⟩ (fmtOf nm ext fs) p) (O : Origin ⟨r, nm⟩ (fs.flatMap (·.structs)) (fs.flatMap (·.contexts)) p)
    (hT : p.types.map (·.name) = goTypes nm fs) : SigOK ⟨r, nm⟩ (fmtOf nm ext fs) (p.sig exts) := by
  have hcomp := marshallers_compatible h
  have hnd : ((p.sig exts).types.map (·.1)).Nodup := by
    have := hok.names
    have hmap : (p.sig exts).types.map (·.1) = goTypes nm fs ++ exts.map (·.1) := by
      rw [← hT]; simp [Prog.sig, Function.comp_def]
    rw [hmap]
    rw [List.append_assoc, List.nodup_append] at this
    rw [List.nodup_append]
    refine ⟨this.1, (List.nodup_append.1 this.2.1).2.1, fun a ha b hb => this.2.2 a ha b (List.mem_append_right _ hb)⟩
  have hext : (exts.map (·.1)).Nodup := by
    have := hok.names
    exact (List.nodup_append.1 this).2.1
  have hlook : ∀ d ∈ p.types, (p.sig exts).types.lookup d.name = some d.fields := fun d hd =>
    lookup_of_nodup hnd (List.mem_append_left _ (List.mem_map_of_mem (f := fun d => (d.name, d.fields)) hd))
  have hgood : ∀ x, goodName x = true → x ≠ "_" := by
    intro x hx
    rintro rfl
    revert hx; decide
  refine ⟨P.hK, P.hN, P.hS, ?_, ?_, ?_, ?_, ?_⟩
  · intro n s hs he f hf
    obtain ⟨d, hd, m, hm, h1, _, _⟩ := P.emitted n s hs he
    obtain ⟨ds, hds, h1⟩ := Res.bind_eq_ok.1 h1
    cases h1
    obtain ⟨G, hG, hl⟩ := (memberDecls_declares hds).lookup (P.ok n s hs he).fields f hf
    refine ⟨G, hG, ?_⟩
    have hl1 := hlook _ hd
    simp only [P.name n s hs] at hl1
    have hmem : s ∈ fs.flatMap (·.structs) := (fmtOf_struct_mem hs).1
    have := hgood _ (hok.fields s hmem he f hf).1
    simp only [fieldTy, fmtOf, hl1, this, if_false, hl]
    rfl
  · intro c C hC f hf
    have hCm := lastDecl_mem hC
    obtain ⟨d, hd, h1⟩ := O.contexts C hCm.1
    obtain ⟨ds, hds, h1⟩ := Res.bind_eq_ok.1 h1
    cases h1
    have hD := leafDecls_declares hds
    have hlf : leafFields (C.members.map .field) = C.members := by
      induction C.members with
      | nil => rfl
      | cons a l ih => simp only [leafFields, List.map_cons, List.filterMap_cons] at ih ⊢; rw [ih]
    rw [hlf] at hD
    obtain ⟨hfs, hnodup⟩ := hok.ctxFields C hCm.1
    obtain ⟨G, hG, hl⟩ := hD.lookup hnodup f hf
    refine ⟨G, hG, ?_⟩
    have hl1 := hlook _ hd
    simp only [hCm.2] at hl1
    have := hgood _ (hfs f hf).2
    simp only [fieldTy, fmtOf, hl1, this, if_false, hl]
    rfl
  · intro n s hs
    cases he : s.extern with
    | false =>
      obtain ⟨d, hd, m, hm, h1, _, _⟩ := P.emitted n s hs he
      obtain ⟨ds, hds, h1⟩ := Res.bind_eq_ok.1 h1
      cases h1
      have hl1 := hlook _ hd
      simp only [P.name n s hs] at hl1
      show ((p.sig exts).types.lookup (nm n)).isSome = true
      rw [hl1]; rfl
    | true =>
      rw [lookup_isSome]
      have := hok.externs n s hs he
      have : nm n ∈ exts.map (·.1) := lookup_isSome.1 (by rw [this]; rfl)
      simp only [Prog.sig, List.map_append, List.mem_append, List.map_map]
      right
      simpa [fmtOf] using this
  · intro n s hs
    cases he : s.extern with
    | false =>
      obtain ⟨m, hm, hfind⟩ := P.method hs he
      obtain ⟨d, hd, m', hm', h1, h2, _⟩ := P.emitted n s hs he
      rw [hm] at h2; cases h2
      have hmt : m.type = nm n ∧ m.params = contextSignature ⟨r, nm⟩ s.contexts := by
        obtain ⟨_, _, hm⟩ := Res.bind_eq_ok.1 hm; cases hm; simp [P.name n s hs]
      have h3 : (p.methods.map (fun m => (m.type, m.params.map (·.2)))).lookup (nm n) = some (s.contexts.map nm) := by
        refine lookup_of_nodup ?_ ?_
        · rw [List.map_map]; exact P.methods
        · refine List.mem_map.2 ⟨m, hm', ?_⟩
          simp [hmt, contextSignature, Function.comp_def]
      show (p.sig exts).parse.lookup (nm n) = some (s.contexts.map nm)
      simp only [Prog.sig, List.lookup_append, h3, Option.some_or]
    | true =>
      have h3 : (p.methods.map (fun m => (m.type, m.params.map (·.2)))).lookup (nm n) = none := by
        have := P.externM n s hs he
        cases hl : (p.methods.map (fun m => (m.type, m.params.map (·.2)))).lookup (nm n) with
        | none => rfl
        | some b =>
          have := lookup_isSome.1 (show ((p.methods.map (fun m => (m.type, m.params.map (·.2)))).lookup (nm n)).isSome = true by rw [hl]; rfl)
          rw [List.map_map] at this
          exact absurd this (P.externM n s hs he)
      show (p.sig exts).parse.lookup (nm n) = some (s.contexts.map nm)
      simp only [Prog.sig, List.lookup_append, h3, Option.none_or]
      exact hok.externs n s hs he
  · intro T hT'
    rw [Bool.eq_false_iff]
    intro hl
    rw [lookup_isSome] at hl
    have hl : T ∈ goTypes nm fs ++ exts.map (·.1) := by
      rw [← hT]
      simpa [Prog.sig, Function.comp_def] using hl
    refine (hok.types T hl).2.1 ?_
    simp only [List.mem_cons, List.not_mem_nil, or_false] at hT' ⊢
    tauto

theorem tipe_valid {g : Cfg} {s : Struct} {P : Sig} (hs : SigOK g Γ P) {t : Ty} (ht : TyOK Γ s t) {G : GTy} (h : tipe g t = .ok G) :
    validTy P (fun _ => none) G = true := by
  have hb : ∀ b, BaseOK Γ s b → validTy P (fun _ => none) (tipeBase g b) = true := by
    intro b hb
    cases b with
    | int t => rcases hb.1 with h | h | h | h <;> simp [tipeBase, validTy, h]
    | char => rfl
    | struct n =>
      obtain ⟨s', hs', _⟩ := hb
      have hk := hs.known n s' hs'
      rw [hs.hN] at hk
      simp [tipeBase, validTy, hk]
  cases t with
  | base b => cases h; exact hb b ht
  | ptr => cases h; rfl
  | nulterm => cases h; rfl
  | fixedArray b n =>
    obtain ⟨k, hk, h⟩ := Res.bind_eq_ok.1 h
    cases h
    obtain ⟨x, hx, h0, h1⟩ := ht.2
    rw [integer_ok hs.hK hk] at hx
    cases hx
    simp only [validTy, hb b ht.1, Bool.and_true, decide_eq_true_eq]
    exact ⟨h0, h1⟩
  | varArray b c =>
    cases h
    rcases c with _ | c
    · exact hb b ht
    · exact hb b ht.1

theorem field_tyOK {s : Struct} (hok : StructOK Γ s) {f : Field} (hf : f ∈ fieldsOf s.ms) : TyOK Γ s f.type := by
  obtain ⟨m, hm, hf⟩ := List.mem_flatMap.1 hf
  have := hok.members m hm
  have key : ∀ ls : List Leaf, (∀ l ∈ ls, LeafOK Γ s l) → f ∈ leafFields ls → TyOK Γ s f.type := by
    intro ls hl hf
    simp only [leafFields, List.mem_filterMap] at hf
    obtain ⟨l, h1, h2⟩ := hf
    cases l with
    | field f' => cases h2; exact hl _ h1
    | eos => cases h2
    | ignore => cases h2
    | fail => cases h2
  cases m with
  | leaf l => exact key [l] (fun l' h => by rw [List.mem_singleton.1 h]; exact this) hf
  | union u =>
    obtain ⟨c, hc, hf⟩ := List.mem_flatMap.1 hf
    exact key _ (this.2.2 c hc).2 hf

theorem compiles_of_ok {p : Prog} (h : marshallers nm ord fs = .ok p) (hok : CompileOK nm ext fs exts) :
    compiles p exts = true := by
  have hcomp := marshallers_compatible h
  obtain ⟨r, hr, hfl⟩ := Res.bind_eq_ok.1 h
  have P := fileList_progOK (ext := ext) hr hfl hok.files
  have O := fileList_origin hfl
  obtain ⟨_, hT, hM, hC⟩ := fileList_spec hfl
  change p.types.map (·.name) = goTypes nm fs at hT
  have S := sig_ok h hok P O hT
  have hCn : p.ctors.map (fun c => "Parse" ++ c.type) = goCtors nm fs := by
    have : p.ctors.map (fun c => "Parse" ++ c.type) = (p.ctors.map (·.type)).map (fun x => "Parse" ++ x) := by
      rw [List.map_map]; rfl
    rw [this, hC]
    simp [goCtors, List.map_flatMap, Function.comp_def]
  have hnames : p.names = goTypes nm fs ++ goCtors nm fs := by simp [Prog.names, hT, hCn]
  have hlook : ∀ T, ((p.sig exts).types.lookup T).isSome = true ↔ T ∈ goTypes nm fs ++ exts.map (·.1) := by
    intro T
    rw [lookup_isSome, ← hT]
    simp [Prog.sig, Function.comp_def]
  have hfalse : ∀ T, T ∉ goTypes nm fs ++ exts.map (·.1) → ((p.sig exts).types.lookup T).isSome = false := by
    intro T hT'
    rw [Bool.eq_false_iff]
    exact fun h => hT' ((hlook T).1 h)
  have hap : ∀ s ∈ fs.flatMap (·.structs), s.extern = false → Apart (p.sig exts) s := by
    intro s hs he
    refine ⟨hfalse _ ?_, hfalse _ ?_, hfalse _ ?_, fun c hc => hfalse _ ?_⟩
    · exact fun hm => ((hok.types _ hm).2.2 s hs he).1 rfl
    · exact fun hm => (hok.types _ hm).2.1 (by simp)
    · exact fun hm => (hok.types _ hm).2.1 (by simp)
    · exact fun hm => ((hok.types _ hm).2.2 s hs he).2 hc
  have hctx : ∀ s ∈ fs.flatMap (·.structs), s.extern = false → ∀ c ∈ s.contexts,
      ((p.sig exts).types.lookup ((fmtOf nm ext fs).nm c)).isSome = true := by
    intro s hs he c hc
    rw [hlook]
    obtain ⟨C, hC, rfl⟩ := List.mem_map.1 ((hok.ctxDecl s hs he).2 c hc)
    obtain ⟨f, hf, hC⟩ := List.mem_flatMap.1 hC
    refine List.mem_append_left _ (List.mem_flatMap.2 ⟨f, hf, List.mem_map_of_mem ?_⟩)
    exact List.mem_append_left _ (List.mem_map_of_mem (f := (·.name)) hC)
  simp only [compiles, Bool.and_eq_true]
  refine ⟨⟨⟨⟨⟨⟨?_, ?_⟩, ?_⟩, ?_⟩, ?_⟩, ?_⟩, ?_⟩
  · rw [hnames]; exact decide_eq_true hok.names
  · rw [hnames, List.all_eq_true]
    intro x hx
    simpa using hok.builtins x hx
  · exact decide_eq_true P.methods
  · rw [List.all_eq_true]
    intro d hd
    have hgood : goodName d.name = true :=
      (hok.types _ (List.mem_append_left _ (hT ▸ List.mem_map_of_mem (f := (·.name)) hd))).1
    rcases O.types d hd with ⟨s, hs, he, h1⟩ | ⟨C, hC, h1⟩
    · obtain ⟨ds, hds, h1⟩ := Res.bind_eq_ok.1 h1
      cases h1
      have hD := memberDecls_declares hds
      have hn := defined_struct (nm := nm) (ext := ext) hcomp hs he
      have hsok := P.ok _ _ hn he
      simp only [chkType, hgood, Bool.true_and, Bool.and_eq_true, List.all_eq_true]
      refine ⟨?_, ?_⟩
      · intro q hq
        obtain ⟨f, hf, h2, h3⟩ := hD.mem q hq
        rw [h2]
        exact ⟨(hok.fields s hs he f hf).1, tipe_valid S (field_tyOK hsok hf) h3⟩
      · rw [hD.names]; exact decide_eq_true hsok.fields
    · obtain ⟨ds, hds, h1⟩ := Res.bind_eq_ok.1 h1
      cases h1
      have hD := leafDecls_declares hds
      have hlf : leafFields (C.members.map .field) = C.members := by
        induction C.members with
        | nil => rfl
        | cons a l ih => simp only [leafFields, List.map_cons, List.filterMap_cons] at ih ⊢; rw [ih]
      rw [hlf] at hD
      obtain ⟨hfs, hnodup⟩ := hok.ctxFields C hC
      simp only [chkType, hgood, Bool.true_and, Bool.and_eq_true, List.all_eq_true]
      refine ⟨?_, ?_⟩
      · intro q hq
        obtain ⟨f, hf, h2, h3⟩ := hD.mem q hq
        rw [h2]
        refine ⟨(hfs f hf).2, ?_⟩
        have hty := (hfs f hf).1
        cases hft : f.type with
        | base b =>
          rw [hft] at hty h3
          cases b with
          | int t => rw [← Res.ok.inj h3]; rcases hty with h | h | h | h <;> simp [tipeBase, validTy, h]
          | char => rw [← Res.ok.inj h3]; rfl
          | struct n => exact hty.elim
        | ptr => rw [hft] at hty; exact hty.elim
        | nulterm => rw [hft] at hty; exact hty.elim
        | fixedArray b n => rw [hft] at hty; exact hty.elim
        | varArray b n => rw [hft] at hty; exact hty.elim
      · rw [hD.names]; exact decide_eq_true hnodup
  · rw [List.all_eq_true]
    intro d hd
    by_cases hany : p.methods.any (fun m => m.type == d.name) = true
    · simp only [Bool.or_eq_true]
      right
      simp only [List.any_eq_true, beq_iff_eq] at hany
      obtain ⟨m, hm, heq⟩ := hany
      obtain ⟨s, hs, he, h2⟩ := O.methods m hm
      have hmt : m.type = nm s.name := by
        obtain ⟨_, _, hm⟩ := Res.bind_eq_ok.1 h2; cases hm; rfl
      obtain ⟨d', hd', _, _, h1, _, _⟩ := P.emitted _ _ (defined_struct (nm := nm) (ext := ext) hcomp hs he) he
      obtain ⟨ds, hds, h1⟩ := Res.bind_eq_ok.1 h1
      have hdn : d'.name = d.name := by cases h1; rw [← heq, hmt]
      have hdd : d = d' := by
        have e1 := find_of_nodup (·.name) P.types hd
        have e2 := find_of_nodup (·.name) P.types hd'
        simp only [hdn] at e2
        rw [e1] at e2; exact Option.some.inj e2
      cases h1
      rw [hdd]
      have hD := memberDecls_declares hds
      simp only [hD.names, Bool.not_eq_true', List.contains_eq_mem, decide_eq_false_iff_not, List.mem_map, not_exists, not_and]
      exact fun f hf => (hok.fields s hs he f hf).2
    · simp [Bool.eq_false_iff.2 hany]
  · rw [List.all_eq_true]
    intro m hm
    obtain ⟨s, hs, he, h1⟩ := O.methods m hm
    have hn := defined_struct (nm := nm) (ext := ext) hcomp hs he
    exact method_chk S (P.ok _ _ hn he) (hok.fits s hs he) hn he (hap s hs he) (hok.ctxDecl s hs he).1 (hctx s hs he) h1
  · rw [List.all_eq_true]
    intro c hc
    obtain ⟨s, hs, he, rfl⟩ := O.ctors c hc
    have hn := defined_struct (nm := nm) (ext := ext) hcomp hs he
    exact ctor_chk S (P.ok _ _ hn he) hn (hap s hs he) (hok.ctxDecl s hs he).1 (hctx s hs he)

end

end Verif.Refine
