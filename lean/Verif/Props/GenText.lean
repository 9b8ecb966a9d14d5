import Verif.GoReadFile
import Verif.Props.Inspect
import Verif.Props.ParseSpec
import Verif.GenRun
/-!
# Properties of the emitted text (C59)

`Verif/GenText` models what the generator prints, `Verif/Gen` the syntax tree that the other properties speak about,
and `Verif/GoRead` is a reader of the Go subset written from the language specification.
-/
set_option linter.unusedVariables false
namespace Verif.Props
open Verif Verif.Ast Verif.Go Verif.Go.Read Verif.Syntax

/-! ## The names a file puts into the text -/

/-- References in a length. -/
def lenRefs : LengthConstraint → List IDRef
  | .idRef r => [r]
  | .leftover _ => []

/-- References in a type. -/
def tyRefs : Ty → List IDRef
  | .varArray _ (some l) => lenRefs l
  | _ => []

/-- The struct used by a type. -/
def printedBase : Base → List String
  | .struct n => [n]
  | _ => []

/-- The struct used by a type. -/
def printedTy : Ty → List String
  | .base b => printedBase b
  | .fixedArray b _ => printedBase b
  | .varArray b _ => printedBase b
  | _ => []

/-- References in a member of a union case. -/
def leafRefs : Leaf → List IDRef
  | .field f => tyRefs f.type
  | _ => []

/-- Fields and structs in a member of a union case. -/
def leafNames : Leaf → List String
  | .field f => f.name :: printedTy f.type
  | _ => []

/-- References in a member. -/
def memberRefs : Member → List IDRef
  | .leaf l => leafRefs l
  | .union u => u.tag :: (u.length.toList.flatMap lenRefs ++ u.cases.flatMap (fun c => c.members.flatMap leafRefs))

/-- Fields and structs in a member. -/
def memberNames : Member → List String
  | .leaf l => leafNames l
  | .union u => u.cases.flatMap (fun c => c.members.flatMap leafNames)

/-- Names that are printed in the form given by `name`: types and fields. -/
def printedNames (f : File) : List String :=
  f.contexts.flatMap (fun c => c.name :: c.members.map (·.name)) ++
    f.structs.flatMap (fun s => s.name :: s.contexts ++ s.ms.flatMap (fun m => memberNames m ++ (memberRefs m).map (·.name)))

/-- Names that are printed as they are: parameters. -/
def paramNames (f : File) : List String :=
  f.structs.flatMap (fun s => s.contexts ++ s.ms.flatMap (fun m => (memberRefs m).map (·.scope)))

/-- `name` gives Go identifiers and no parameter is a keyword of Go. -/
def TextNames (nm : String → String) (f : File) : Prop :=
  (∀ n ∈ printedNames f, GoIdent (nm n)) ∧ ∀ c ∈ paramNames f, keywords.lookup c.toList = none

theorem ident_go {n : String} (h : IsIdent n) (hk : keywords.lookup n.toList = none) : GoIdent n := by
  obtain ⟨c, cs, h1, h2, h3⟩ := h
  exact ⟨⟨c, cs, h1, h2, h3⟩, hk⟩

section
variable {nm : String → String}

theorem int_textOK {i : Integer} (h : GoodInteger i) : IntOK i := by
  cases i with
  | literal v => exact h.1
  | constRef n => trivial

theorem list_textOK {l : IntegerList} (h : GoodList l) : ListOK l :=
  ⟨h.1, fun r hr => ⟨int_textOK (h.2 r hr).1, fun x hx => int_textOK ((h.2 r hr).2 x hx)⟩⟩

theorem ref_textOK {r : IDRef} (h : GoodRef r) (hn : GoIdent (nm r.name)) (hk : keywords.lookup r.scope.toList = none) : RefOK nm r :=
  ⟨h.1.imp id fun h => ident_go h hk, hn⟩

/-- The references and the names of a part. -/
def PartOK (nm : String → String) (refs : List IDRef) (names : List String) : Prop :=
  (∀ r ∈ refs, GoIdent (nm r.name) ∧ keywords.lookup r.scope.toList = none) ∧ ∀ n ∈ names, GoIdent (nm n)

theorem len_textOK {l : LengthConstraint} {ns : List String} (h : GoodLength l) (hp : PartOK nm (lenRefs l) ns) : LenOK nm l := by
  cases l with
  | leftover i => exact int_textOK h
  | idRef r =>
    obtain ⟨h1, h2⟩ := hp.1 r (by simp [lenRefs])
    exact ref_textOK h h1 h2

theorem elem_textOK {b : Base} {rs : List IDRef} (h : GoodElem b) (hp : PartOK nm rs (printedBase b)) : BaseOK nm b := by
  cases b with
  | int t => exact ⟨h.1, by simp [h.2]⟩
  | char => trivial
  | struct n => exact hp.2 n (by simp [printedBase])

theorem plain_textOK {t : Ty} (h : PlainType t) (hp : PartOK nm (tyRefs t) (printedTy t)) : TyOK nm t := by
  cases t with
  | base b =>
    cases b with
    | int t => exact ⟨h.1, fun l hl => list_textOK (h.2 l hl)⟩
    | char => trivial
    | struct n => exact hp.2 n (by simp [printedTy, printedBase])
  | ptr => trivial
  | nulterm => trivial
  | fixedArray b k => exact ⟨elem_textOK h.1 hp, int_textOK h.2⟩
  | varArray b c =>
    cases c with
    | none => exact absurd h id
    | some l => exact ⟨elem_textOK h.1 (rs := tyRefs (.varArray b (some l))) ⟨hp.1, hp.2⟩,
        fun l' hl => by cases hl; exact len_textOK h.2.1 (ns := []) ⟨hp.1, by simp⟩⟩

theorem field_textOK {f : Field} (h : PlainType f.type) (hp : PartOK nm (leafRefs (.field f)) (leafNames (.field f))) : FieldOK nm f :=
  ⟨hp.2 _ (by simp [leafNames]), plain_textOK h ⟨hp.1, fun n hn => hp.2 n (by simp [leafNames, hn])⟩⟩

theorem plainLeaf_textOK {l : Leaf} (h : Plain l) (hp : PartOK nm (leafRefs l) (leafNames l)) : LeafOK nm l := by
  obtain ⟨f, rfl, hf⟩ := h
  exact field_textOK hf.2 hp

theorem rest_textOK {l : Leaf} (h : IsRest l) (hp : PartOK nm (leafRefs l) (leafNames l)) : LeafOK nm l := by
  obtain ⟨n, b, rfl, hn, hb⟩ := h
  exact ⟨hp.2 _ (by simp [leafNames]), elem_textOK hb (rs := []) ⟨by simp, fun n hn => hp.2 n (by simp [leafNames, printedTy, hn])⟩,
    by simp⟩

theorem case_textOK {ms : List Leaf} (h : GoodCase ms) (hp : ∀ l ∈ ms, PartOK nm (leafRefs l) (leafNames l)) : ∀ l ∈ ms, LeafOK nm l := by
  intro l hl
  rcases h with rfl | ⟨fs, last, rfl, h1, h2⟩
  · simp only [List.mem_singleton] at hl
    subst hl; trivial
  · have hp' := hp l hl
    rcases List.mem_append.1 hl with hl | hl
    · exact plainLeaf_textOK (h1 l hl) hp'
    · rcases h2 with rfl | rfl | ⟨r, rfl, hr⟩
      · simp at hl
      · simp only [List.mem_singleton] at hl
        subst hl; trivial
      · simp only [List.mem_singleton] at hl
        subst hl; exact rest_textOK hr hp'

theorem union_textOK {u : UnionMember} (h : GoodUnion u) (hp : PartOK nm (memberRefs (.union u)) (memberNames (.union u))) : UnionOK nm u := by
  obtain ⟨h1, h2, h3, h4⟩ := h
  refine ⟨?_, fun l hl => ?_, fun c hc => ⟨fun l hl => list_textOK ((h4 c hc).1 l hl), ?_⟩⟩
  · obtain ⟨a, b⟩ := hp.1 u.tag (by simp [memberRefs])
    exact ref_textOK h2 a b
  · exact len_textOK (h3 l hl) (ns := []) ⟨fun r hr => hp.1 r (by
      simp only [memberRefs, hl, Option.toList, List.flatMap_cons, List.mem_cons, List.mem_append]
      exact .inr (.inl (.inl hr))), by simp⟩
  · refine case_textOK (h4 c hc).2 fun l hl => ⟨fun r hr => hp.1 r ?_, fun n hn => hp.2 n ?_⟩
    · simp only [memberRefs, List.mem_cons, List.mem_append, List.mem_flatMap]
      exact .inr (.inr ⟨c, hc, l, hl, hr⟩)
    · simp only [memberNames, List.mem_flatMap]
      exact ⟨c, hc, l, hl, hn⟩

theorem member_textOK {m : Member} (h : GoodMember m) (hp : PartOK nm (memberRefs m) (memberNames m)) : MemberOK nm m := by
  cases m with
  | leaf l =>
    rcases h with h | ⟨n, rfl, hn⟩
    · exact plainLeaf_textOK h hp
    · exact ⟨hp.2 _ (by simp [memberNames, leafNames]), trivial⟩
  | union u => exact union_textOK h hp

theorem members_textOK {ms : List Member} (h : GoodMembers ms) (hp : ∀ m ∈ ms, PartOK nm (memberRefs m) (memberNames m)) :
    ∀ m ∈ ms, MemberOK nm m := by
  intro m hm
  obtain ⟨init, last, rfl, h1, h2⟩ := h
  have hp' := hp m hm
  rcases List.mem_append.1 hm with hm | hm
  · exact member_textOK (h1 m hm) hp'
  · rcases h2 with rfl | rfl | ⟨r, rfl, hr⟩
    · simp at hm
    · simp only [List.mem_singleton] at hm
      subst hm; trivial
    · simp only [List.mem_singleton] at hm
      subst hm; exact rest_textOK hr hp'

theorem struct_textOK {f : File} {s : Struct} (h : GoodStruct s) (hs : s ∈ f.structs) (hp : TextNames nm f) : Read.StructOK nm s := by
  obtain ⟨h1, h2, h3⟩ := h
  have hn : ∀ n, n ∈ s.name :: s.contexts ++ s.ms.flatMap (fun m => memberNames m ++ (memberRefs m).map (·.name)) → GoIdent (nm n) :=
    fun n hn => hp.1 n (List.mem_append.2 (.inr (List.mem_flatMap.2 ⟨s, hs, hn⟩)))
  have hk : ∀ c, c ∈ s.contexts ++ s.ms.flatMap (fun m => (memberRefs m).map (·.scope)) → keywords.lookup c.toList = none :=
    fun c hc => hp.2 c (List.mem_flatMap.2 ⟨s, hs, hc⟩)
  refine ⟨h1, hn _ (by simp), fun c hc => ⟨ident_go (h2 c hc) (hk c (by simp [hc])), hn c (by simp [hc])⟩, ?_⟩
  cases hm : s.members with
  | none => simp [Struct.ms, hm]
  | some ms =>
    have he : s.ms = ms := by simp [Struct.ms, hm]
    rw [he] at hn hk ⊢
    refine members_textOK (h3 ms hm) fun m hm => ⟨fun r hr => ⟨hn _ ?_, hk _ ?_⟩, fun n hn' => hn _ ?_⟩
    · simp only [List.mem_append, List.mem_flatMap, List.mem_map]
      exact .inr ⟨m, hm, .inr ⟨r, hr, rfl⟩⟩
    · simp only [List.mem_append, List.mem_flatMap, List.mem_map]
      exact .inr ⟨m, hm, r, hr, rfl⟩
    · simp only [List.mem_append, List.mem_flatMap]
      exact .inr ⟨m, hm, .inl hn'⟩

theorem context_textOK {f : File} {c : Context} (h : GoodContext c) (hc : c ∈ f.contexts) (hp : TextNames nm f) : Read.ContextOK nm c := by
  have hn : ∀ n, n ∈ c.name :: c.members.map (·.name) → GoIdent (nm n) :=
    fun n hn => hp.1 n (List.mem_append.2 (.inl (List.mem_flatMap.2 ⟨c, hc, hn⟩)))
  refine ⟨hn _ (by simp), fun f hf => ⟨hn _ (List.mem_cons_of_mem _ (List.mem_map_of_mem hf)), ?_⟩⟩
  obtain ⟨_, n, h1, h2⟩ := h.2 f hf
  rw [h2]
  exact ⟨h1, by simp⟩
end

/-- **C59.** For files that are results of the parser, whose names become Go identifiers and whose contexts are not
called like keywords: the printed text, read by Go's rules, is the program of `Verif/Gen` in the package asked for. -/
theorem C59_text_reads {pkg : String} {nm : String → String} {o : Inspect.IterOrder} {fs : List File} {p : Prog}
    (hpkg : GoIdent pkg) (hgood : ∀ f ∈ fs, GoodFile f) (hnames : ∀ f ∈ fs, TextNames nm f)
    (h : Gen.marshallers nm o fs = .ok p) :
    ∃ t, GenText.marshallers pkg nm o fs = .ok t ∧ ∃ F, ∀ n, F ≤ n → readGo n t = some (pkg, p) := by
  simp only [Gen.marshallers] at h
  obtain ⟨r, hr, h⟩ := Read.bind_ok h
  have hcomp : FilesCompatible fs := by
    by_contra hc
    obtain ⟨m, hm⟩ := (C11_multi_file o fs).2 hc
    rw [hm] at hr; cases hr
  obtain ⟨r', hr', h1, h2, h3⟩ := (C11_multi_file o fs).1 hcomp
  rw [hr] at hr'
  cases hr'
  have hstruct : ∀ f ∈ fs, ∀ s ∈ f.structs, Read.StructOK nm s := fun f hf s hs =>
    struct_textOK ((hgood f hf).2.2.1 s hs) hs (hnames f hf)
  have hg : CfgOK ⟨r, nm⟩ := by
    constructor
    · intro n v hv
      simp only [h3, Option.map_eq_some_iff] at hv
      obtain ⟨c, hc, rfl⟩ := hv
      obtain ⟨hm, _⟩ := lastNamed_mem _ _ _ _ hc
      obtain ⟨f, hf, hc⟩ := List.mem_flatMap.1 hm
      exact ((hgood f hf).1 c hc).2.1
    · intro n s hs c hc
      simp only [h1] at hs
      obtain ⟨hm, _⟩ := lastNamed_mem _ _ _ _ hs
      obtain ⟨f, hf, hs⟩ := List.mem_flatMap.1 hm
      exact ((hstruct f hf s hs).2.2.1 c hc).1
  obtain ⟨t, ht, hd⟩ := files_text hg (fun f hf =>
    ⟨fun c hc => context_textOK ((hgood f hf).2.1 c hc) hc (hnames f hf), hstruct f hf⟩) h
  exact ⟨_, by simp only [GenText.marshallers, hr, ht, Res.ok_bind], file_reads hpkg hd⟩

end Verif.Props
