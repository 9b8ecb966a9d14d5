import Verif.Inline
import Verif.Props.Rearrange
/-!
# C81: constants are names for their values

Writing the value of a constant instead of its name, everywhere, and removing the declarations of constants does not
change what is generated.
-/
namespace Verif.Props
open Verif Verif.Ast Verif.Inspect Verif.Tv Verif.Gen Verif.Go

/-- The value of a constant: that of the last declaration, in files that load. -/
def valueOf (fs : List File) (n : String) : Option Int := (lastNamed (·.name) (fs.flatMap (·.constants)) n).map (·.value)

/-- The files with values instead of constants. -/
def withoutConstants (fs : List File) : List File := fs.map (Inline.file (valueOf fs))

theorem lastNamed_map {α : Type} {key : α → String} {f : α → α} (hf : ∀ a, key (f a) = key a) (l : List α) (n : String) :
    lastNamed key (l.map f) n = (lastNamed key l n).map f := by
  unfold lastNamed
  rw [← List.map_reverse, List.find?_map]
  congr 2
  funext a
  simp [hf]

theorem flatMap_structs (fs : List File) (K : String → Option Int) :
    (fs.map (Inline.file K)).flatMap (·.structs) = (fs.flatMap (·.structs)).map (Inline.struct K) := by
  induction fs with
  | nil => rfl
  | cons f fs ih => simp only [List.map_cons, List.flatMap_cons, List.map_append, ih]; rfl

theorem flatMap_contexts (fs : List File) (K : String → Option Int) :
    (fs.map (Inline.file K)).flatMap (·.contexts) = (fs.flatMap (·.contexts)).map (Inline.context K) := by
  induction fs with
  | nil => rfl
  | cons f fs ih => simp only [List.map_cons, List.flatMap_cons, List.map_append, ih]; rfl

theorem flatMap_constants (fs : List File) (K : String → Option Int) :
    (fs.map (Inline.file K)).flatMap (·.constants) = [] := by
  induction fs with
  | nil => rfl
  | cons f fs ih => simp only [List.map_cons, List.flatMap_cons, ih]; rfl

/-- Files without constants load if those with constants do. -/
theorem withoutConstants_compatible {fs : List File} (h : FilesCompatible fs) : FilesCompatible (withoutConstants fs) := by
  obtain ⟨h1, h2, h3, -⟩ := h
  refine ⟨?_, ?_, ?_, ?_⟩
  · intro f hf
    obtain ⟨g, hg, rfl⟩ := List.mem_map.1 hf
    obtain ⟨a, b, c⟩ := h1 g hg
    refine ⟨?_, ?_, ?_⟩
    · simpa [Inline.file, List.map_map, Function.comp_def, Inline.struct] using a
    · simpa [Inline.file, List.map_map, Function.comp_def, Inline.context] using b
    · simp [Inline.file]
  · rw [withoutConstants, flatMap_structs, List.pairwise_map]
    exact h2.imp (fun hab e => by simp [Inline.struct, hab e])
  · rw [withoutConstants, flatMap_contexts, List.map_map]
    exact h3
  · rw [withoutConstants, flatMap_constants]
    exact List.Pairwise.nil

/-- The resolvers. -/
theorem withoutConstants_resolver {fs : List File} (h : FilesCompatible fs) (o o' : IterOrder) :
    ∃ r r', newResolverFiles o fs = .ok r ∧ newResolverFiles o' (withoutConstants fs) = .ok r' ∧
      (∀ i, r'.integer (Inline.int (valueOf fs) i) = r.integer i) ∧
      (∀ n, r'.struct n = (r.struct n).map (Inline.struct (valueOf fs))) := by
  obtain ⟨r, h1, h2, h3, h4⟩ := (C11_multi_file o fs).1 h
  obtain ⟨r', g1, g2, g3, g4⟩ := (C11_multi_file o' _).1 (withoutConstants_compatible h)
  refine ⟨r, r', h1, g1, fun i => ?_, fun n => ?_⟩
  · cases i with
    | literal v => rfl
    | constRef n =>
      have e : r.constant n = valueOf fs n := h4 n
      have e' : r'.constant n = none := by rw [g4, withoutConstants, flatMap_constants]; rfl
      cases hv : valueOf fs n with
      | none => simp [Inline.int, hv, Resolver.integer, e, e']
      | some v => simp [Inline.int, hv, Resolver.integer, e]
  · rw [g2, h2, withoutConstants, flatMap_structs]
    exact lastNamed_map (key := fun s : Struct => s.name) (f := Inline.struct (valueOf fs)) (fun _ => rfl) _ n

/-- C81: the same text is printed, or generation ends in the same panic. -/
theorem C81_text {fs : List File} (h : FilesCompatible fs) (pkg : String) (nm : String → String) (o o' : IterOrder) :
    GenText.marshallers pkg nm o' (withoutConstants fs) = GenText.marshallers pkg nm o fs := by
  obtain ⟨r, r', h1, h2, hK, hS⟩ := withoutConstants_resolver h o o'
  unfold GenText.marshallers
  rw [h1, h2]
  show Res.bind (GenText.fileList ⟨r', nm⟩ (withoutConstants fs)) _ = Res.bind (GenText.fileList ⟨r, nm⟩ fs) _
  rw [withoutConstants, GenText.fileList_inl hK hS]

/-- C81: the same program. -/
theorem C81_program {fs : List File} (h : FilesCompatible fs) (nm : String → String) (o o' : IterOrder) :
    Gen.marshallers nm o' (withoutConstants fs) = Gen.marshallers nm o fs := by
  obtain ⟨r, r', h1, h2, hK, hS⟩ := withoutConstants_resolver h o o'
  unfold Gen.marshallers
  rw [h1, h2]
  show Gen.fileList ⟨r', nm⟩ (withoutConstants fs) = Gen.fileList ⟨r, nm⟩ fs
  rw [withoutConstants, Gen.fileList_inl hK hS]

/-- C81: the only integers that are left and are not literals are names without a declaration. -/
theorem C81_none_left (fs : List File) (n : String) :
    Inline.int (valueOf fs) (.constRef n) = .constRef n ↔ ∀ c ∈ fs.flatMap (·.constants), c.name ≠ n := by
  unfold Inline.int valueOf
  cases h : lastNamed (·.name) (fs.flatMap (·.constants)) n with
  | none => exact ⟨fun _ => lastNamed_lacks h, fun _ => by simp [h]⟩
  | some c =>
    obtain ⟨h1, h2⟩ := lastNamed_found h
    refine ⟨fun e => ?_, fun e => absurd h2 (e c h1)⟩
    simp [h] at e

/-- The example uses a constant in a constraint of a field and in a union case. -/
example : withoutConstants exMsg ≠ exMsg ∧ (withoutConstants exMsg).flatMap (·.constants) = [] ∧
    Gen.marshallers exNm revOrder (withoutConstants exMsg) = Gen.marshallers exNm idOrder exMsg := by
  refine ⟨by decide +kernel, by decide +kernel, C81_program ?_ exNm idOrder revOrder⟩
  refine ⟨?_, ?_, ?_, ?_⟩ <;> simp [exMsg, UniqueNames]

end Verif.Props
