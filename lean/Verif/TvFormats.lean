import Verif.Formats
import Verif.Props.TvSize
/-!
# A checker for the generated tests

Evaluating `vectorsB` on the trees of source files shows that everything proved about the vectors generated for them applies
(`Verif/Props/TvFormats.lean`).
-/
set_option linter.unusedVariables false
namespace Verif.Formats
open Verif Verif.Ast Verif.Go Verif.Gen Verif.Wire Verif.Spec Verif.Refine Verif.Props Verif.Tv

/-! ## User code does not matter for the classes of formats -/

section
variable {Γ : Fmt} {s : Struct} {e : Ext} {B : Nat} {C O F : String → Prop}

theorem elemGen_ext {b : Base} (h : ElemGen Γ C O b) : ElemGen (withExt Γ e) C O b := by
  cases b <;> exact h

theorem tyGen_ext {p : List String} {t : Ty} (h : TyGen Γ s C O p t) : TyGen (withExt Γ e) s C O p t := by
  match t, h with
  | .base (.int _), h | .base .char, h | .base (.struct _), h | .ptr, h | .nulterm, h => exact h
  | .fixedArray b n, h => exact ⟨elemGen_ext h.1, h.2⟩
  | .varArray b (some (.idRef r)), h => exact ⟨elemGen_ext h.1, h.2⟩
  | .varArray _ (some (.leftover _)), h => trivial
  | .varArray b none, h => exact ⟨elemGen_ext h.1, tyConsumes_ext h.2⟩

theorem leafGen_ext {p : List String} {l : Leaf} (h : LeafGen Γ s C O p l) : LeafGen (withExt Γ e) s C O p l := by
  cases l with
  | field f => exact tyGen_ext h
  | _ => trivial

theorem leavesGen_ext {p : List String} : ∀ {ls : List Leaf}, LeavesGen Γ s C O p ls → LeavesGen (withExt Γ e) s C O p ls
  | [], _ => trivial
  | _ :: _, h => ⟨h.1, leafGen_ext h.2.1, leavesGen_ext h.2.2⟩

theorem memberGen_ext {p : List String} {m : Member} (h : MemberGen Γ B s C O p m) : MemberGen (withExt Γ e) B s C O p m := by
  cases m with
  | leaf l => exact leafGen_ext h
  | union u =>
    obtain ⟨h1, h2, h3, h4, h5, h6⟩ := h
    exact ⟨h1, h2, h3, h4, h5, fun c hc => (h6 c hc).imp id leavesGen_ext⟩

theorem membersGen_ext : ∀ {ms : List Member}, MembersGen Γ B s C O ms → MembersGen (withExt Γ e) B s C O ms
  | [], _ => trivial
  | _ :: _, h => ⟨h.1, memberGen_ext h.2.1, membersGen_ext h.2.2⟩

theorem fmtGen_ext (h : FmtGen Γ B C O) : FmtGen (withExt Γ e) B C O :=
  ⟨h.bound, h.closed, h.one, h.contexts, fun n s hs he =>
    have h := h.structs n s hs he
    ⟨h.nonempty, h.named, h.met, membersGen_ext h.members⟩⟩

theorem elemRuns_ext {b : Base} (h : ElemRuns Γ O F b) : ElemRuns (withExt Γ e) O F b := by
  refine ⟨?_, h.2⟩
  have := h.1
  cases b <;> exact this

theorem leafRuns_ext {l : Leaf} (h : LeafRuns Γ O F l) : LeafRuns (withExt Γ e) O F l := by
  match l, h with
  | .field ⟨_, .base (.int _)⟩, h | .field ⟨_, .base .char⟩, h | .field ⟨_, .base (.struct _)⟩, h => exact h
  | .field ⟨_, .ptr⟩, _ | .field ⟨_, .nulterm⟩, _ | .eos, _ | .ignore, _ | .fail, _ => trivial
  | .field ⟨_, .fixedArray b n⟩, h => exact ⟨elemRuns_ext h.1, h.2⟩
  | .field ⟨_, .varArray b (some (.idRef r))⟩, h => exact elemRuns_ext (b := b) h
  | .field ⟨_, .varArray _ (some (.leftover _))⟩, h => exact h
  | .field ⟨_, .varArray b none⟩, h => exact elemRuns_ext (b := b) h

theorem fmtRuns_ext (h : FmtRuns Γ O F) : FmtRuns (withExt Γ e) O F := by
  refine ⟨h.one, h.free, fun n s hs he m hm => ?_⟩
  have := h.structs n s hs he m hm
  cases m with
  | leaf l => exact leafRuns_ext this
  | union u => exact ⟨this.1, this.2.1, this.2.2.1, fun c hc l hl => leafRuns_ext (this.2.2.2 c hc l hl)⟩

theorem fmtCov_ext {G : Glob} (h : FmtCov Γ G) : FmtCov (withExt Γ e) G := ⟨h.uses, h.tags, h.members⟩
theorem fmtSized_ext {L : Key → Prop} {M : Key → Nat} {w : String → Nat} (h : FmtSized Γ L M w) : FmtSized (withExt Γ e) L M w :=
  ⟨h.tags, h.lens, h.size⟩
theorem fmtCtx_ext (h : FmtCtx Γ) : FmtCtx (withExt Γ e) :=
  ⟨h.names, h.tags, h.lens.imp id fun ⟨L, M, w, h1, h2⟩ => ⟨L, M, w, fmtSized_ext h1, ⟨h2.lens, h2.fit⟩⟩⟩
theorem someCase_ext (h : SomeCase Γ) : SomeCase (withExt Γ e) := h
theorem usesContexts_ext (h : UsesContexts Γ) : UsesContexts (withExt Γ e) := h

end

/-! ## The checker -/

/-- Names of the structs with their definition. -/
def definedNames (fs : List File) : List String := ((fs.flatMap (·.structs)).filter fun s => !s.extern).map (·.name)

/-- The largest set of structs whose members all pass a check in which the set occurs, found by removing structs `k` times. -/
def largest (fs : List File) (q : List String → Member → Bool) : Nat → List String
  | 0 => definedNames fs
  | k + 1 =>
    let l := largest fs q k
    ((fs.flatMap (·.structs)).filter fun s => !s.extern && l.contains s.name && s.ms.all (q l)).map (·.name)

variable {pkg : String} {nm : String → String} {exts : List (String × List String)} {fs : List File} {ext : Ext}

/-- Computed lengths of unions. -/
def lengths (nm : String → String) (fs : List File) : Key → Nat := lensAt (fmtOf nm exExt fs) (fs.flatMap (·.structs)) 2

/-- Computed sizes of vectors. -/
def sizes (nm : String → String) (fs : List File) : String → Nat :=
  sizeAt (fmtOf nm exExt fs) (lengths nm fs) (fs.flatMap (·.structs)).length.succ

/-- Context variables that give lengths of unions. -/
def ctxLens (fs : List File) : List Key := ((fs.flatMap (·.structs)).flatMap fun s => s.ms.flatMap fun m => match m with
  | .union ⟨_, _, some (.idRef ref), _⟩ => [refKey ref]
  | _ => []).filter fun k => decide (k.1 ≠ "")

/-- What is needed for `FmtSized`. -/
def sizedFmtB (L : List Key) (nm : String → String) (fs : List File) : Bool :=
  let M := lengths nm fs
  let w := sizes nm fs
  definedB fs (fun s => decide (∀ k ∈ s.ms.flatMap tagOf, k ∉ s.ms.flatMap countsOf ∧ k ∉ L)) &&
  definedB fs (fun s => definedB fs fun s' => decide (∀ k ∈ s.ms.flatMap tagOf, k.1 ≠ "" → k ∉ s'.ms.flatMap countsOf)) &&
  definedB fs (fun s => decide (∀ p ∈ s.ms.flatMap (lenPairs (fmtOf nm exExt fs) M w), p.2 ≤ max 20 (M p.1))) &&
  definedB fs (fun s => decide (membersSize (fmtOf nm exExt fs).K M w s.ms ≤ w s.name))

/-- What is needed for variables of contexts to hold the lengths of unions. -/
def lensFitB (nm : String → String) (fs : List File) : Bool :=
  (ctxLens fs).all fun k => match (fmtOf nm exExt fs).contexts k.1 with
    | none => false
    | some D => D.members.any fun f => decide (f.name = k.2) && (match f.type with
      | .base (.int t) => decide (SizeOK t) && decide (max 20 (lengths nm fs k) < 2 ^ t.size)
      | _ => false)

/-- Structs whose extent does not depend on what follows. -/
def closedOf (fs : List File) : List String :=
  largest fs (fun l m => decide (MemberClosed (· ∈ l) m)) (fs.flatMap (·.structs)).length

/-- Structs with one shape only. -/
def oneOf (fs : List File) : List String :=
  largest fs (fun l m => decide (OneMember (· ∈ l) m)) (fs.flatMap (·.structs)).length

/-- Structs with one shape only, and with structs of one shape only as elements. -/
def oneAllOf (fs : List File) : List String :=
  largest fs (fun l m => decide (OneM (· ∈ l) m)) (fs.flatMap (·.structs)).length

/-- Structs that refer to no contexts. -/
def freeOf (fs : List File) : List String :=
  largest fs (fun l m => decide (FreeM (· ∈ l) m)) (fs.flatMap (·.structs)).length

/-- What is needed for vectors to be generated. -/
def runsB (nm : String → String) (fs : List File) : Bool :=
  let os := oneAllOf fs
  let us := freeOf fs
  definedB fs (fun s => !os.contains s.name || (!s.ms.isEmpty && s.ms.all fun m => decide (OneM (· ∈ os) m))) &&
  definedB fs (fun s => !us.contains s.name || (!s.ms.isEmpty && s.ms.all fun m => decide (FreeM (· ∈ us) m))) &&
  definedB fs (fun s => s.ms.all (memberRunsB (fmtOf nm exExt fs) (· ∈ os) (· ∈ us) s))

/-- What is needed for vectors to be accepted. -/
def acceptedB (B : Nat) (nm : String → String) (fs : List File) : Bool :=
  let Γ := fmtOf nm exExt fs
  let cs := closedOf fs
  let os := oneOf fs
  decide (B ≤ 2 ^ 63) &&
  cs.all (fun n => match Γ.structs n with
    | some s => !s.extern && s.ms.all fun m => decide (MemberClosed (· ∈ cs) m)
    | none => false) &&
  definedB fs (fun s => !os.contains s.name || s.ms.all fun m => decide (OneMember (· ∈ os) m)) &&
  (fs.flatMap (·.contexts)).all sizedB &&
  definedB fs (fun s => structGenB Γ 12 B s (· ∈ cs) (· ∈ os))

/-- What is needed for vectors to be of known sizes, less than `B`. -/
def smallB (B : Nat) (nm : String → String) (fs : List File) : Bool :=
  sizedFmtB [] nm fs && definedB fs (fun s => decide (sizes nm fs s.name < B))

/-- What is needed for structs with contexts to use them, and for contexts to exist in which vectors are accepted. -/
def contextsB (nm : String → String) (fs : List File) : Bool :=
  definedB fs (fun s => s.contexts.isEmpty || s.ms.any (memberUsesB (withContexts fs))) &&
  (fs.flatMap (·.contexts)).all (fun D => decide (D.members.map (fun f => nm f.name)).Nodup) &&
  definedB fs (fun s => s.ms.all (ctxTagB (fmtOf nm exExt fs))) &&
  (definedB fs (fun s => s.ms.all ctxLenB) || (sizedFmtB (ctxLens fs) nm fs && lensFitB nm fs))

/-- What is needed for all cases of unions to get vectors. -/
def coversB (nm : String → String) (fs : List File) : Bool :=
  let Γ := fmtOf nm exExt fs
  let G := globOf Γ (fs.flatMap (·.structs)).length
  definedB fs (fun s => decide (globs (keysOf G s.ms) ⊆ G.uses s.name) && decide (globs (tagsOf G s.ms) ⊆ G.tags s.name) &&
    membersCovB G Γ.K [] s.ms) &&
  definedB fs (fun s => s.ms.all (fun m => match m with
      | .union u => (caseValues Γ.K u.cases).any fun x => match selectCase Γ.K u.cases x with
        | some c => decide (Leaf.fail ∉ c.members)
        | none => false
      | _ => true))

/-! ## It is sound -/

theorem runsB_sound (h : runsB nm fs = true) (ext : Ext) :
    FmtRuns (fmtOf nm ext fs) (· ∈ oneAllOf fs) (· ∈ freeOf fs) := by
  simp only [runsB, Bool.and_eq_true] at h
  obtain ⟨⟨h1, h2⟩, h3⟩ := h
  rw [fmtOf_withExt nm ext exExt]
  refine fmtRuns_ext (FmtRuns.of_check _ _ (fun s hs hn he => ?_) (fun s hs hn he => ?_) fun s hs he => definedB_mem h3 hs he)
  · have := definedB_mem h1 hs he
    rw [List.contains_iff_mem.2 hn] at this
    simp only [Bool.not_true, Bool.false_or, Bool.and_eq_true, Bool.not_eq_true', List.isEmpty_eq_false_iff, List.all_eq_true,
      decide_eq_true_eq] at this
    exact this
  · have := definedB_mem h2 hs he
    rw [List.contains_iff_mem.2 hn] at this
    simp only [Bool.not_true, Bool.false_or, Bool.and_eq_true, Bool.not_eq_true', List.isEmpty_eq_false_iff, List.all_eq_true,
      decide_eq_true_eq] at this
    exact this

theorem acceptedB_sound {B : Nat} (h : acceptedB B nm fs = true) (ext : Ext) :
    FmtGen (fmtOf nm ext fs) B (· ∈ closedOf fs) (· ∈ oneOf fs) := by
  simp only [acceptedB, Bool.and_eq_true, decide_eq_true_eq] at h
  obtain ⟨⟨⟨⟨h1, h2⟩, h3⟩, h4⟩, h5⟩ := h
  rw [fmtOf_withExt nm ext exExt]
  refine fmtGen_ext (FmtGen.of_check 12 _ _ h1 (fun n hn => ?_) (fun s hs hn he => ?_) (fun D hD => List.all_eq_true.1 h4 D hD)
    fun s hs he => definedB_mem h5 hs he)
  · have := List.all_eq_true.1 h2 n hn
    cases hs : (fmtOf nm exExt fs).structs n with
    | none => rw [hs] at this; cases this
    | some s =>
      rw [hs] at this
      simp only [Bool.and_eq_true, Bool.not_eq_true', List.all_eq_true, decide_eq_true_eq] at this
      exact ⟨s, rfl, this⟩
  · have := definedB_mem h3 hs he
    rw [List.contains_iff_mem.2 hn] at this
    simpa only [Bool.not_true, Bool.false_or, List.all_eq_true, decide_eq_true_eq] using this

theorem sizedFmtB_sound {L : List Key} (h : sizedFmtB L nm fs = true) :
    FmtSized (fmtOf nm exExt fs) (· ∈ L) (lengths nm fs) (sizes nm fs) := by
  simp only [sizedFmtB, Bool.and_eq_true] at h
  obtain ⟨⟨⟨h1, h2⟩, h3⟩, h4⟩ := h
  exact FmtSized.of_check (fun s hs he => of_decide_eq_true (definedB_mem h1 hs he))
    (fun s hs he s' hs' he' => of_decide_eq_true (definedB_mem (definedB_mem h2 hs he) hs' he'))
    (fun s hs he => of_decide_eq_true (definedB_mem h3 hs he)) fun s hs he => of_decide_eq_true (definedB_mem h4 hs he)

theorem smallB_sound {B : Nat} (h : smallB B nm fs = true) (ext : Ext) :
    FmtSized (fmtOf nm ext fs) (· ∈ ([] : List Key)) (lengths nm fs) (sizes nm fs) ∧
      ∀ s ∈ fs.flatMap (·.structs), s.extern = false → sizes nm fs s.name < B := by
  simp only [smallB, Bool.and_eq_true] at h
  refine ⟨?_, fun s hs he => of_decide_eq_true (definedB_mem h.2 hs he)⟩
  rw [fmtOf_withExt nm ext exExt]
  exact fmtSized_ext (sizedFmtB_sound h.1)

theorem ctxLens_mem {n : String} {s : Struct} (hs : (fmtOf nm ext fs).structs n = some s) {u : UnionMember} (hu : .union u ∈ s.ms)
    {ref : IDRef} (hl : u.length = some (.idRef ref)) (hr : ref.scope ≠ "") : refKey ref ∈ ctxLens fs := by
  refine List.mem_filter.2 ⟨List.mem_flatMap.2 ⟨s, (fmtOf_struct_mem hs).1, List.mem_flatMap.2 ⟨_, hu, ?_⟩⟩, decide_eq_true hr⟩
  obtain ⟨a, b, c, d⟩ := u
  cases hl
  exact List.mem_singleton.2 rfl

theorem lensFitB_sound (h : lensFitB nm fs = true) : LensFit (fmtOf nm exExt fs) (· ∈ ctxLens fs) (lengths nm fs) := by
  refine ⟨fun n s hs he u hu ref hl hr => ctxLens_mem hs hu hl hr, fun c k hc hk => ?_⟩
  have := List.all_eq_true.1 h (c, k) hk
  simp only [] at this
  cases hD : (fmtOf nm exExt fs).contexts c with
  | none => rw [hD] at this; cases this
  | some D =>
    rw [hD] at this
    obtain ⟨f, hf, hq⟩ := List.any_eq_true.1 this
    rw [Bool.and_eq_true] at hq
    refine ⟨D, rfl, f, hf, of_decide_eq_true hq.1, ?_⟩
    obtain ⟨fn, ft⟩ := f
    match ft, hq.2 with
    | .base (.int t), hq =>
      simp only [Bool.and_eq_true, decide_eq_true_eq] at hq
      exact ⟨hq.1, by omega, by exact_mod_cast hq.2⟩

theorem contextsB_sound (hc : FilesCompatible fs) (h : contextsB nm fs = true) (ext : Ext) :
    UsesContexts (fmtOf nm ext fs) ∧ FmtCtx (fmtOf nm ext fs) := by
  simp only [contextsB, Bool.and_eq_true, Bool.or_eq_true] at h
  obtain ⟨⟨⟨h1, h2⟩, h3⟩, h4⟩ := h
  rw [fmtOf_withExt nm ext exExt]
  refine ⟨usesContexts_ext (UsesContexts.of_check hc fun s hs he hne => ?_),
    fmtCtx_ext ⟨fun c D hD => of_decide_eq_true (List.all_eq_true.1 h2 D (lastDecl_mem hD).1),
      ctxTagB_tags fun s hs he => definedB_mem h3 hs he, ?_⟩⟩
  · have := definedB_mem h1 hs he
    rw [Bool.or_eq_true] at this
    exact this.resolve_left fun h => hne (List.isEmpty_iff.1 h)
  · rcases h4 with h4 | ⟨h4, h5⟩
    · refine .inl fun n s hs he u hu ref hr => ?_
      have := List.all_eq_true.1 (definedB_mem h4 (fmtOf_struct_mem hs).1 he) _ hu
      simp only [ctxLenB, hr, decide_eq_true_eq] at this
      exact this
    · exact .inr ⟨_, _, _, sizedFmtB_sound h4, lensFitB_sound h5⟩

theorem coversB_sound (h : coversB nm fs = true) (ext : Ext) :
    FmtCov (fmtOf nm ext fs) (globOf (fmtOf nm exExt fs) (fs.flatMap (·.structs)).length) ∧ SomeCase (fmtOf nm ext fs) := by
  simp only [coversB, Bool.and_eq_true] at h
  obtain ⟨h1, h2⟩ := h
  rw [fmtOf_withExt nm ext exExt]
  refine ⟨fmtCov_ext (FmtCov.of_check _ fun s hs he => ?_), someCase_ext (SomeCase.of_check fun s hs he => definedB_mem h2 hs he)⟩
  have := definedB_mem h1 hs he
  simp only [Bool.and_eq_true, decide_eq_true_eq] at this
  exact ⟨this.1.1, this.1.2, this.2⟩

end Verif.Formats
