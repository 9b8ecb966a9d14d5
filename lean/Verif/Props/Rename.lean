import Verif.Rename
import Verif.OtherNames
import Verif.Props.Inline
import Verif.Props.Formats
import Mathlib.Logic.Equiv.Basic
/-!
# C82: names are only names

Giving other names to structs, members and constants, consistently, changes nothing but the names in the generated package.
-/
namespace Verif.Props
open Verif Verif.Ast Verif.Inspect Verif.Tv Verif.Gen Verif.Go Verif.Wire Verif.Refine Verif.Formats

/-- Different names stay different; the names of contexts and the initials of structs are kept. -/
structure Renames (ρ : String → String) (fs : List File) : Prop where
  inj : Function.Injective ρ
  contexts : ∀ c ∈ fs.flatMap (·.contexts), ρ c.name = c.name
  used : ∀ s ∈ fs.flatMap (·.structs), ∀ n ∈ s.contexts, ρ n = n
  initials : ∀ s ∈ fs.flatMap (·.structs), Rename.initial (ρ s.name) = Rename.initial s.name

theorem Renames.keeps {ρ : String → String} {fs : List File} (h : Renames ρ fs) :
    ∀ s ∈ fs.flatMap (·.structs), Rename.Keeps ρ s := fun s hs => ⟨h.used s hs, h.initials s hs⟩

/-- The files with other names. -/
def renamed (ρ : String → String) (fs : List File) : List File := fs.map (Rename.file ρ)

theorem lastNamed_renamed {α : Type} {key : α → String} {f : α → α} {ρ : String → String} (hi : Function.Injective ρ)
    (hf : ∀ a, key (f a) = ρ (key a)) (l : List α) (n : String) :
    lastNamed key (l.map f) (ρ n) = (lastNamed key l n).map f := by
  unfold lastNamed
  rw [← List.map_reverse, List.find?_map]
  congr 2
  funext a
  simp [hf, hi.eq_iff]

theorem renamed_structs (ρ : String → String) (fs : List File) :
    (renamed ρ fs).flatMap (·.structs) = (fs.flatMap (·.structs)).map (Rename.struct ρ) := by
  induction fs with
  | nil => rfl
  | cons f fs ih => simp only [renamed, List.map_cons, List.flatMap_cons, List.map_append] at ih ⊢; rw [ih]; rfl

theorem renamed_contexts (ρ : String → String) (fs : List File) :
    (renamed ρ fs).flatMap (·.contexts) = (fs.flatMap (·.contexts)).map (Rename.context ρ) := by
  induction fs with
  | nil => rfl
  | cons f fs ih => simp only [renamed, List.map_cons, List.flatMap_cons, List.map_append] at ih ⊢; rw [ih]; rfl

theorem renamed_constants (ρ : String → String) (fs : List File) :
    (renamed ρ fs).flatMap (·.constants) = (fs.flatMap (·.constants)).map (Rename.constant ρ) := by
  induction fs with
  | nil => rfl
  | cons f fs ih => simp only [renamed, List.map_cons, List.flatMap_cons, List.map_append] at ih ⊢; rw [ih]; rfl

theorem nodup_renamed {α : Type} {key : α → String} {f : α → α} {ρ : String → String} (hi : Function.Injective ρ)
    (hf : ∀ a, key (f a) = ρ (key a)) (l : List α) : ((l.map f).map key).Nodup ↔ (l.map key).Nodup := by
  have e : (l.map f).map key = (l.map key).map ρ := by simp [List.map_map, Function.comp_def, hf]
  rw [e, List.nodup_map_iff hi]

/-- Renamed files load if and only if the files do. -/
theorem C82_loads {ρ : String → String} (hi : Function.Injective ρ) (fs : List File) :
    FilesCompatible (renamed ρ fs) ↔ FilesCompatible fs := by
  unfold FilesCompatible
  rw [renamed_structs, renamed_contexts, renamed_constants, List.pairwise_map, List.pairwise_map]
  refine and_congr ?_ (and_congr ?_ (and_congr ?_ ?_))
  · simp only [renamed, List.forall_mem_map]
    refine forall₂_congr fun f _ => ?_
    unfold UniqueNames
    have h1 := nodup_renamed (key := fun s : Struct => s.name) (f := Rename.struct ρ) hi (fun _ => rfl) f.structs
    have h2 : (((Rename.file ρ f).contexts).map (·.name)) = f.contexts.map (·.name) := by
      simp [Rename.file, List.map_map, Function.comp_def, Rename.context]
    have h3 := nodup_renamed (key := fun s : Constant => s.name) (f := Rename.constant ρ) hi (fun _ => rfl) f.constants
    rw [h2]
    exact and_congr h1 (and_congr Iff.rfl h3)
  · have e : ∀ a b : Struct, ((Rename.struct ρ a).name = (Rename.struct ρ b).name → (Rename.struct ρ a).members = none) ↔
        (a.name = b.name → a.members = none) := fun a b => by simp [Rename.struct, hi.eq_iff]
    simp only [e]
  · simp [List.map_map, Function.comp_def, Rename.context]
  · have e : ∀ a b : Constant, ((Rename.constant ρ a).name = (Rename.constant ρ b).name →
        (Rename.constant ρ a).value = (Rename.constant ρ b).value) ↔ (a.name = b.name → a.value = b.value) :=
      fun a b => by simp [Rename.constant, hi.eq_iff]
    simp only [e]

theorem renamed_resolver {ρ : String → String} (hi : Function.Injective ρ) {fs : List File} (h : FilesCompatible fs) (o o' : IterOrder) :
    ∃ r r', newResolverFiles o fs = .ok r ∧ newResolverFiles o' (renamed ρ fs) = .ok r' ∧
      (∀ i, r'.integer (Rename.int ρ i) = r.integer i) ∧
      (∀ n, r'.struct (ρ n) = (r.struct n).map (Rename.struct ρ)) := by
  obtain ⟨r, h1, h2, h3, h4⟩ := (C11_multi_file o fs).1 h
  obtain ⟨r', g1, g2, g3, g4⟩ := (C11_multi_file o' _).1 ((C82_loads hi fs).2 h)
  refine ⟨r, r', h1, g1, fun i => ?_, fun n => ?_⟩
  · cases i with
    | literal v => rfl
    | constRef n =>
      have e : r'.constant (ρ n) = r.constant n := by
        rw [g4, h4, renamed_constants,
          lastNamed_renamed (key := fun s : Constant => s.name) (f := Rename.constant ρ) hi (fun _ => rfl), Option.map_map]
        rfl
      simp only [Rename.int, Resolver.integer, e]
  · rw [g2, h2, renamed_structs]
    exact lastNamed_renamed (key := fun s : Struct => s.name) (f := Rename.struct ρ) hi (fun _ => rfl) _ n

/-- **C82.** The program generated for renamed files is that for the files, with the new names taken as Go names for the old ones; if
generation panics, it does so in the same way. -/
theorem C82_program {ρ : String → String} {fs : List File} (hr : Renames ρ fs) (h : FilesCompatible fs) (nm : String → String)
    (o o' : IterOrder) : Gen.marshallers nm o' (renamed ρ fs) = Gen.marshallers (nm ∘ ρ) o fs := by
  obtain ⟨r, r', h1, h2, hK, hS⟩ := renamed_resolver hr.inj h o o'
  unfold Gen.marshallers
  rw [h1, h2]
  show Gen.fileList ⟨r', nm⟩ (renamed ρ fs) = Gen.fileList ⟨r, nm ∘ ρ⟩ fs
  rw [renamed, Gen.fileList_ren hK hS fs hr.contexts hr.keeps]

/-- **C82.** The same for the text. -/
theorem C82_text {ρ : String → String} {fs : List File} (hr : Renames ρ fs) (h : FilesCompatible fs) (pkg : String)
    (nm : String → String) (o o' : IterOrder) :
    GenText.marshallers pkg nm o' (renamed ρ fs) = GenText.marshallers pkg (nm ∘ ρ) o fs := by
  obtain ⟨r, r', h1, h2, hK, hS⟩ := renamed_resolver hr.inj h o o'
  unfold GenText.marshallers
  rw [h1, h2]
  show Res.bind (GenText.fileList ⟨r', nm⟩ (renamed ρ fs)) _ = Res.bind (GenText.fileList ⟨r, nm ∘ ρ⟩ fs) _
  rw [renamed, GenText.fileList_ren hK hS fs hr.contexts hr.keeps]

/-- **C82.** Go names do not matter: of two programs for the same files, one with names `nm` and one with names `nm'`, both accept the
same inputs with the same data and leave the same rest, and reject the same inputs. -/
theorem C82_names {nm nm' : String → String} {pkg pkg' : String} {ext ext' : Ext} {o o' : IterOrder} {fs : List File} {p p' : Prog}
    (hm : marshallers nm o fs = .ok p) (hm' : marshallers nm' o' fs = .ok p')
    (hA : Accepted pkg nm ext fs) (hA' : Accepted pkg' nm' ext' fs) (hR : Returned nm ext fs) (hR' : Returned nm' ext' fs)
    {ctx ctx' : Ctx} (hc : CtxOK (fmtOf nm ext fs) ctx) (hc' : CtxOK (fmtOf nm' ext' fs) ctx')
    (ha : CtxAlike (fmtOf nm ext fs) nm' ctx ctx') (hx : ExtAlike (fmtOf nm ext fs) nm' ext' ctx ctx')
    {n : String} {s : Struct} (hs : (fmtOf nm ext fs).structs n = some s) (w hid hid' : Bytes) {A : Nat} (h1 : A < 2 ^ 63)
    (h2 : 2 ^ 32 ≤ A + 1) (h3 : w.length ≤ A) (h4 : ExtFits (fmtOf nm ext fs) A) (h4' : ExtFits (fmtOf nm' ext' fs) A) :
    (∀ v r, Accepts p ext A (nm n) (ctxArgs s ctx) w hid v r →
      ∃ v', SameData v v' ∧ Accepts p' ext' A (nm' n) (ctxArgs s ctx') w hid' v' r) ∧
    ((∃ m, Rejects p ext A (nm n) (ctxArgs s ctx) w hid m) ↔ ∃ m, Rejects p' ext' A (nm' n) (ctxArgs s ctx') w hid' m) := by
  obtain ⟨d1, d2⟩ := decides_of hm hA hR ctx hc n s hs w hid A h1 h2 h3 h4
  obtain ⟨d1', d2'⟩ := decides_of hm' hA' hR' ctx' hc' n s hs w hid' A h1 h2 h3 h4'
  have fwd : ∀ v r, Enc (fmtOf nm ext fs) ctx n v w r → ∃ v', SameData v v' ∧ Enc (fmtOf nm' ext' fs) ctx' n v' w r :=
    fun v r ⟨d, h⟩ => ⟨_, trStruct_data _ _ d n v, d,
      encStruct_tr hA.ok.fmtOK (fun n s h he => (hA'.ok.structs n s h he).fields) ha hx d n v w r h⟩
  have bwd : ∀ v r, Enc (fmtOf nm' ext' fs) ctx' n v w r → ∃ v', Enc (fmtOf nm ext fs) ctx n v' w r :=
    fun v r ⟨d, h⟩ => ⟨_, d,
      encStruct_tr (Γ := fmtOf nm' ext' fs) (nm := nm) (ext := ext) hA'.ok.fmtOK (fun n s h he => (hA.ok.structs n s h he).fields)
        (fun c C h f hf => (ha c C h f hf).symm) (fun n s h he i => (hx n s h he i).symm) d n v w r h⟩
  refine ⟨fun v r h => ?_, d2.trans (Iff.trans ?_ d2'.symm)⟩
  · obtain ⟨v', e, h'⟩ := fwd v r ((d1 v r).1 h)
    exact ⟨v', e, (d1' v' r).2 h'⟩
  · constructor
    · intro h v r he
      obtain ⟨v', h'⟩ := bwd v r he
      exact h v' r h'
    · intro h v r he
      obtain ⟨v', -, h'⟩ := fwd v r he
      exact h v' r h'

/-- **C82.** The parsers of renamed files accept what those of the files do. -/
theorem C82_behaviour {ρ nm : String → String} {pkg pkg' : String} {ext ext' : Ext} {o o' : IterOrder} {fs : List File} {p p' : Prog}
    (hr : Renames ρ fs) (hm : marshallers nm o fs = .ok p) (hm' : marshallers nm o' (renamed ρ fs) = .ok p')
    (hA : Accepted pkg nm ext fs) (hA' : Accepted pkg' (nm ∘ ρ) ext' fs) (hR : Returned nm ext fs) (hR' : Returned (nm ∘ ρ) ext' fs)
    {ctx ctx' : Ctx} (hc : CtxOK (fmtOf nm ext fs) ctx) (hc' : CtxOK (fmtOf (nm ∘ ρ) ext' fs) ctx')
    (ha : CtxAlike (fmtOf nm ext fs) (nm ∘ ρ) ctx ctx') (hx : ExtAlike (fmtOf nm ext fs) (nm ∘ ρ) ext' ctx ctx')
    {n : String} {s : Struct} (hs : (fmtOf nm ext fs).structs n = some s) (w hid hid' : Bytes) {A : Nat} (h1 : A < 2 ^ 63)
    (h2 : 2 ^ 32 ≤ A + 1) (h3 : w.length ≤ A) (h4 : ExtFits (fmtOf nm ext fs) A) (h4' : ExtFits (fmtOf (nm ∘ ρ) ext' fs) A) :
    (∀ v r, Accepts p ext A (nm n) (ctxArgs s ctx) w hid v r →
      ∃ v', SameData v v' ∧ Accepts p' ext' A (nm (ρ n)) (ctxArgs s ctx') w hid' v' r) ∧
    ((∃ m, Rejects p ext A (nm n) (ctxArgs s ctx) w hid m) ↔ ∃ m, Rejects p' ext' A (nm (ρ n)) (ctxArgs s ctx') w hid' m) := by
  rw [C82_program hr (marshallers_compatible hm) nm o o'] at hm'
  exact C82_names hm hm' hA hA' hR hR' hc hc' ha hx hs w hid hid' h1 h2 h3 h4 h4'

/-! ### Cases -/

/-- Other names for a struct, a constant, a field that is a length, a field of a context and a field in a union. -/
def exOther : String → String :=
  Equiv.swap "msg" "message" ∘ Equiv.swap "MAX" "LIMIT" ∘ Equiv.swap "len" "size" ∘ Equiv.swap "kind" "sort" ∘ Equiv.swap "a" "alpha"

theorem exOther_renames : Renames exOther exMsg where
  inj := (Equiv.injective _).comp ((Equiv.injective _).comp ((Equiv.injective _).comp ((Equiv.injective _).comp (Equiv.injective _))))
  contexts := by decide +kernel
  used := by decide +kernel
  initials := by decide +kernel

/-- The context value of `exCtx`, under the other names. -/
def exCtxOther : Ctx := fun c => if c = "env" then [("Sort", .num 2)] else []

theorem exMsg_noExtern {nm : String → String} {ext : Ext} (n : String) (s : Struct) (hs : (fmtOf nm ext exMsg).structs n = some s) :
    s.extern = false := by
  have h : ∀ s ∈ exMsg.flatMap (·.structs), s.extern = false := by decide +kernel
  exact h s (lastDecl_mem hs).1

/-- The parsers for `msg` and for `message` accept the same inputs. -/
example (w hid hid' : Bytes) {A : Nat} (h1 : A < 2 ^ 63) (h2 : 2 ^ 32 ≤ A + 1) (h3 : w.length ≤ A) :
    (∀ v r, Accepts (emitted exMsg) exExt A "Msg" [.struct [("Kind", .num 2)]] w hid v r →
      ∃ v', SameData v v' ∧
        Accepts (emitted (renamed exOther exMsg)) exExt A "Message" [.struct [("Sort", .num 2)]] w hid' v' r) ∧
    ((∃ m, Rejects (emitted exMsg) exExt A "Msg" [.struct [("Kind", .num 2)]] w hid m) ↔
      ∃ m, Rejects (emitted (renamed exOther exMsg)) exExt A "Message" [.struct [("Sort", .num 2)]] w hid' m) := by
  have hc : CtxOK (fmtOf (exNm ∘ exOther) exExt exMsg) exCtxOther := ctxOK_of_check (by
    intro C hC f hf _
    simp only [exMsg, List.flatMap_cons, List.flatMap_nil, List.append_nil, List.mem_cons, List.not_mem_nil, or_false] at hC
    subst hC
    simp only [List.mem_cons, List.not_mem_nil, or_false] at hf
    subst hf
    exact ⟨2, by decide +kernel, by decide, by decide⟩)
  have ha : CtxAlike (fmtOf exNm exExt exMsg) (exNm ∘ exOther) exCtx exCtxOther := by
    intro c C hC f hf
    obtain ⟨hm, rfl⟩ := lastDecl_mem hC
    simp only [exMsg, List.flatMap_cons, List.flatMap_nil, List.append_nil, List.mem_cons, List.not_mem_nil, or_false] at hm
    subst hm
    simp only [List.mem_cons, List.not_mem_nil, or_false] at hf
    subst hf
    have e : exNm "kind" = "Kind" ∧ (exNm ∘ exOther) "kind" = "Sort" := by decide +kernel
    show getF (exCtx "env") (exNm "kind") = getF (exCtxOther "env") ((exNm ∘ exOther) "kind")
    rw [e.1, e.2]
    simp [exCtx, exCtxOther, getF]
  have key := C82_behaviour (A := A) (n := "msg") (s := structOf exMsg "msg") exOther_renames exMsg_gen.gen
    (marshallers_emitted (fs := renamed exOther exMsg) (by decide +kernel))
    (checkedB_sound (pkg := "p") (by decide +kernel) exExt) (checkedB_sound (pkg := "p") (by decide +kernel) exExt)
    (returnsB_sound (by decide +kernel) exExt) (returnsB_sound (by decide +kernel) exExt) exMsg_gen.ctxOK hc ha
    (fun n s hs he => by rw [exMsg_noExtern n s hs] at he; cases he) (by decide +kernel) w hid hid' h1 h2 h3
    (fun n s hs he => by rw [exMsg_noExtern n s hs] at he; cases he) (fun n s hs he => by rw [exMsg_noExtern n s hs] at he; cases he)
  have e : exNm "msg" = "Msg" ∧ exNm (exOther "msg") = "Message" ∧
      ctxArgs (structOf exMsg "msg") exCtx = [.struct (exCtx "env")] ∧
      ctxArgs (structOf exMsg "msg") exCtxOther = [.struct (exCtxOther "env")] := by
    refine ⟨by decide +kernel, by decide +kernel, rfl, rfl⟩
  rw [e.1, e.2.1, e.2.2.1, e.2.2.2] at key
  simpa [exCtx, exCtxOther] using key

/-- **C82**, the condition on initials: with the struct called `imsg` the receiver is `i`, which the code for nul-terminated strings
declares again, and the package does not compile. -/
theorem C82_initials_needed : compiles (emitted exMsg) [] = true ∧
    compiles (emitted (renamed (Equiv.swap "msg" "imsg") exMsg)) [] = false := by decide +kernel

end Verif.Props
