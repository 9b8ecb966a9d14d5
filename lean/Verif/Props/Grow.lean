import Verif.Grow
import Verif.Props.Rearrange
/-!
# C83: adding files does not change the code for the others

Declarations in further files, also definitions of structs that were extern, leave the code generated for the given files as it is.
-/
namespace Verif.Props
open Verif Verif.Ast Verif.Inspect Verif.Tv Verif.Gen Verif.Go

/-- The resolver of all files knows what those of the parts do. -/
theorem grows_of {fs gs : List File} (h : FilesCompatible (fs ++ gs)) (ha : ContextsAgree (fs ++ gs)) {o o' : IterOrder} {r r' : Resolver}
    (hr : newResolverFiles o fs = .ok r ∨ newResolverFiles o gs = .ok r) (hr' : newResolverFiles o' (fs ++ gs) = .ok r') :
    Grows r r' := by
  have key : ∀ {o : IterOrder} {hs : List File} {r : Resolver}, newResolverFiles o hs = .ok r →
      (∀ n, r.struct n = lastNamed (·.name) (hs.flatMap (·.structs)) n) ∧
      (∀ n, r.constant n = (lastNamed (·.name) (hs.flatMap (·.constants)) n).map (·.value)) := by
    intro o hs r hr
    by_cases hc : FilesCompatible hs
    · obtain ⟨r0, h1, h2, -, h4⟩ := (C11_multi_file o hs).1 hc
      rw [hr] at h1
      cases h1
      exact ⟨h2, h4⟩
    · obtain ⟨m, hm⟩ := (C11_multi_file o hs).2 hc
      rw [hr] at hm
      cases hm
  obtain ⟨s', c'⟩ := key hr'
  have sub : ∃ hs, (hs = fs ∨ hs = gs) ∧ newResolverFiles o hs = .ok r := by
    rcases hr with h | h
    · exact ⟨fs, .inl rfl, h⟩
    · exact ⟨gs, .inr rfl, h⟩
  obtain ⟨hs, hsub, hr⟩ := sub
  obtain ⟨s1, c1⟩ := key hr
  have mem : ∀ {α : Type} (f : File → List α) (a : α), a ∈ hs.flatMap f → a ∈ (fs ++ gs).flatMap f := by
    intro α f a hx
    rw [List.flatMap_append, List.mem_append]
    rcases hsub with rfl | rfl
    · exact .inl hx
    · exact .inr hx
  have some' : ∀ {α : Type} (key : α → String) (f : File → List α) (n : String) (a : α), lastNamed key (hs.flatMap f) n = some a →
      ∃ b, lastNamed key ((fs ++ gs).flatMap f) n = some b := by
    intro α key f n a ha
    obtain ⟨m, hn⟩ := lastNamed_found ha
    cases hb : lastNamed key ((fs ++ gs).flatMap f) n with
    | some b => exact ⟨b, rfl⟩
    | none => exact absurd hn (lastNamed_lacks hb a (mem f a m))
  refine ⟨fun i v hi => ?_, fun n s hs => ?_⟩
  · cases i with
    | literal x => exact hi
    | constRef n =>
      simp only [Resolver.integer, c1, c'] at hi ⊢
      cases hl : lastNamed (·.name) (hs.flatMap (·.constants)) n with
      | none => rw [hl] at hi; cases hi
      | some a =>
        obtain ⟨b, hb⟩ := some' (fun c : Constant => c.name) (·.constants) n a hl
        rw [hl] at hi
        cases hi
        rw [hb]
        obtain ⟨ma, na⟩ := lastNamed_found hl
        obtain ⟨mb, nb⟩ := lastNamed_found hb
        show Res.ok b.value = Res.ok a.value
        by_cases hab : a = b
        · rw [hab]
        · have : Std.Symm (fun a b : Constant => a.name = b.name → a.value = b.value) := ⟨fun x y h e => (h e.symm).symm⟩
          rw [h.2.2.2.forall (mem _ a ma) mb hab (na.trans nb.symm)]
  · rw [s1] at hs
    obtain ⟨b, hb⟩ := some' (fun c : Struct => c.name) (·.structs) n s hs
    obtain ⟨ma, na⟩ := lastNamed_found hs
    obtain ⟨mb, nb⟩ := lastNamed_found hb
    exact ⟨b, by rw [s', hb], ha b mb s (mem _ s ma) (nb.trans na.symm)⟩

/-- **C83.** If the files alone and all files generate, the program for all is the program for the files alone and more. -/
theorem C83_program {fs gs : List File} {nm : String → String} {o o' : IterOrder} {p p' : Prog} (ha : ContextsAgree (fs ++ gs))
    (h : Gen.marshallers nm o fs = .ok p) (h' : Gen.marshallers nm o' (fs ++ gs) = .ok p') :
    ∃ q : Prog, p'.types = p.types ++ q.types ∧ p'.methods = p.methods ++ q.methods ∧ p'.ctors = p.ctors ++ q.ctors := by
  have hc := Refine.marshallers_compatible h'
  obtain ⟨r, hr, hl⟩ := Res.bind_eq_ok.1 h
  obtain ⟨r', hr', hl'⟩ := Res.bind_eq_ok.1 h'
  obtain ⟨a, b, h1, h2, rfl⟩ := Gen.fileList_join.1 hl'
  have := Gen.fileList_grow (nm := nm) (grows_of hc ha (.inl hr) hr') fs p hl
  rw [h1] at this
  cases this
  exact ⟨b, rfl, rfl, rfl⟩

/-- **C83.** The same for the text: what is printed for the files alone, followed by more. -/
theorem C83_text {fs gs : List File} {pkg : String} {nm : String → String} {o o' : IterOrder} {t t' : GenText.Text}
    (ha : ContextsAgree (fs ++ gs)) (h : GenText.marshallers pkg nm o fs = .ok t)
    (h' : GenText.marshallers pkg nm o' (fs ++ gs) = .ok t') : ∃ u, t' = t ++ u := by
  obtain ⟨r, hr, hl⟩ := Res.bind_eq_ok.1 h
  obtain ⟨r', hr', hl'⟩ := Res.bind_eq_ok.1 h'
  have hc : FilesCompatible (fs ++ gs) := by
    by_contra hn
    obtain ⟨m, hm⟩ := (C11_multi_file o' _).2 hn
    rw [hr'] at hm
    cases hm
  obtain ⟨x, hx, e⟩ := Res.bind_eq_ok.1 hl
  obtain ⟨x', hx', e'⟩ := Res.bind_eq_ok.1 hl'
  obtain ⟨a, b, h1, h2, rfl⟩ := GenText.fileList_join.1 hx'
  have := GenText.fileList_grow (nm := nm) (grows_of hc ha (.inl hr) hr') fs x hx
  rw [h1] at this
  cases this
  cases e
  cases e'
  exact ⟨b, by simp⟩

/-- **C83.** Files that generate alone, and load together, generate together: the two programs side by side. -/
theorem C83_together {fs gs : List File} {nm : String → String} {o o' : IterOrder} {p q : Prog} (hc : FilesCompatible (fs ++ gs))
    (ha : ContextsAgree (fs ++ gs)) (h : Gen.marshallers nm o fs = .ok p) (h' : Gen.marshallers nm o gs = .ok q) :
    Gen.marshallers nm o' (fs ++ gs) = .ok ⟨p.types ++ q.types, p.methods ++ q.methods, p.ctors ++ q.ctors⟩ := by
  obtain ⟨r, hr, hl⟩ := Res.bind_eq_ok.1 h
  obtain ⟨r1, hr1, hl1⟩ := Res.bind_eq_ok.1 h'
  obtain ⟨r', hr', -⟩ := (C11_multi_file o' _).1 hc
  refine Res.bind_eq_ok.2 ⟨r', hr', Gen.fileList_join.2 ⟨p, q, ?_, ?_, rfl⟩⟩
  · exact Gen.fileList_grow (grows_of hc ha (.inl hr) hr') fs p hl
  · exact Gen.fileList_grow (grows_of hc ha (.inr hr1) hr') gs q hl1

/-- `const MAX = 9; extern struct p; struct q { struct p x; u8 y IN [1..MAX]; }`. -/
def exUses : List File := [⟨[⟨"MAX", 9⟩], [],
  [⟨"p", [], none⟩, ⟨"q", [], some [.leaf (.field ⟨"x", .base (.struct "p")⟩),
    .leaf (.field ⟨"y", .base (.int ⟨8, some ⟨[⟨.literal 1, some (.constRef "MAX")⟩]⟩⟩)⟩)]⟩], []⟩]

/-- `const MAX = 9; struct p { u16 z IN [MAX]; }`. -/
def exDefines : List File := [⟨[⟨"MAX", 9⟩], [],
  [⟨"p", [], some [.leaf (.field ⟨"z", .base (.int ⟨16, some ⟨[⟨.constRef "MAX", none⟩]⟩⟩)⟩)]⟩], []⟩]

theorem exUses_defines : FilesCompatible (exUses ++ exDefines) := by
  refine ⟨?_, ?_, ?_, ?_⟩ <;> simp [UniqueNames, exUses, exDefines]

/-- The file that uses `p` and the file that defines it, each alone and both. -/
example : Gen.marshallers exNm revOrder (exUses ++ exDefines) = .ok ⟨(emitted exUses).types ++ (emitted exDefines).types,
    (emitted exUses).methods ++ (emitted exDefines).methods, (emitted exUses).ctors ++ (emitted exDefines).ctors⟩ :=
  C83_together (o := idOrder) exUses_defines (by simp [ContextsAgree, exUses, exDefines]) (marshallers_emitted (by decide +kernel))
    (marshallers_emitted (by decide +kernel))

/-- Two types, of which one is declared by the second file. -/
example : (emitted exUses).types.map (·.name) = ["Q"] ∧ (emitted exDefines).types.map (·.name) = ["P"] := by decide +kernel

/-- The hypotheses of `C83_program` and `C83_text` hold there. -/
example : ContextsAgree (exUses ++ exDefines) ∧ (∃ p, Gen.marshallers exNm idOrder exUses = .ok p) ∧
    (∃ p', Gen.marshallers exNm idOrder (exUses ++ exDefines) = .ok p') ∧
    (GenText.marshallers "pkg" exNm idOrder exUses).isOk = true ∧
    (GenText.marshallers "pkg" exNm idOrder (exUses ++ exDefines)).isOk = true := by
  have h := marshallers_emitted (fs := exUses) (by decide +kernel)
  have h' := marshallers_emitted (fs := exUses ++ exDefines) (by decide +kernel)
  exact ⟨by simp [ContextsAgree, exUses, exDefines], ⟨_, h⟩, ⟨_, h'⟩, by decide +kernel, by decide +kernel⟩

/-- The arguments passed to `Parse` methods by the statements of a block (gen/decl.go:143-165, 184-191). -/
def argsOf : Stmt → List String
  | .block ss => ss.flatMap fun
    | .callParse _ _ _ _ as => as
    | _ => []
  | _ => []

/-- C83 (the condition on contexts is needed): the file `exExterns.reverse.head`, in which `q` has a member of the
extern struct `p` with a context, and a file that declares `p` without: the method of `q` becomes another. -/
theorem C83_contexts_needed : ∃ fs gs : List File, FilesCompatible (fs ++ gs) ∧
    ∃ p p', Gen.marshallers exNm idOrder fs = .ok p ∧ Gen.marshallers exNm idOrder (fs ++ gs) = .ok p' ∧
      ¬ p.methods <+: p'.methods := by
  refine ⟨exExterns.drop 1, exExterns.take 1, ?_, emitted (exExterns.drop 1), emitted (exExterns.drop 1 ++ exExterns.take 1),
    marshallers_emitted (by decide +kernel), marshallers_emitted (by decide +kernel), fun h => ?_⟩
  · refine ⟨?_, ?_, ?_, ?_⟩ <;> simp [UniqueNames, exExterns]
  · exact absurd (h.map (fun m => m.body.map argsOf)) (by decide +kernel)

end Verif.Props
