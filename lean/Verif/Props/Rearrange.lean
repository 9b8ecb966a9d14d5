import Verif.GenOrder
import Verif.GoOrder
import Verif.GoTypeProg
import Verif.Props.GenCompiles
/-!
# C80: the order of declarations does not matter

Declarations may be moved within a file and between files: as long as the files can be loaded together, the
parsers do the same.
-/
namespace Verif.Props
open Verif Verif.Ast Verif.Inspect Verif.Tv Verif.Gen Verif.Go

/-- The same declarations, in another order and divided into files in another way. -/
structure SameDecls (fs fs' : List File) : Prop where
  constants : (fs.flatMap (·.constants)).Perm (fs'.flatMap (·.constants))
  contexts : (fs.flatMap (·.contexts)).Perm (fs'.flatMap (·.contexts))
  structs : (fs.flatMap (·.structs)).Perm (fs'.flatMap (·.structs))

theorem SameDecls.symm {fs fs' : List File} (h : SameDecls fs fs') : SameDecls fs' fs :=
  ⟨h.1.symm, h.2.symm, h.3.symm⟩

/-- Files in another order. -/
theorem SameDecls.of_perm {fs fs' : List File} (h : fs.Perm fs') : SameDecls fs fs' :=
  ⟨h.flatMap_right _, h.flatMap_right _, h.flatMap_right _⟩

/-- Declarations of a struct, of which all but one are extern, name the same contexts. -/
def ContextsAgree (fs : List File) : Prop :=
  ∀ s ∈ fs.flatMap (·.structs), ∀ t ∈ fs.flatMap (·.structs), s.name = t.name → s.contexts = t.contexts

theorem lastNamed_found {α : Type} {key : α → String} {l : List α} {n : String} {a : α} (h : lastNamed key l n = some a) :
    a ∈ l ∧ key a = n := by
  have h1 := List.mem_of_find?_eq_some h
  have h2 := List.find?_some h
  exact ⟨List.mem_reverse.1 h1, by simpa using h2⟩

theorem lastNamed_lacks {α : Type} {key : α → String} {l : List α} {n : String} (h : lastNamed key l n = none) :
    ∀ a ∈ l, key a ≠ n := by
  intro a ha
  have := List.find?_eq_none.1 h a (List.mem_reverse.2 ha)
  simpa using this

/-- Lookups that agree on what they find when they find something, in permuted lists. -/
theorem lastNamed_same {α β : Type} {key : α → String} {f : α → β} {l l' : List α} (hp : l.Perm l') (n : String)
    (h : ∀ a b, lastNamed key l n = some a → lastNamed key l' n = some b → f a = f b) :
    (lastNamed key l n).map f = (lastNamed key l' n).map f := by
  cases h1 : lastNamed key l n with
  | none =>
    cases h2 : lastNamed key l' n with
    | none => rfl
    | some b => exact absurd (lastNamed_found h2).2 (lastNamed_lacks h1 b (hp.mem_iff.2 (lastNamed_found h2).1))
  | some a =>
    cases h2 : lastNamed key l' n with
    | none => exact absurd (lastNamed_found h1).2 (lastNamed_lacks h2 a (hp.mem_iff.1 (lastNamed_found h1).1))
    | some b => simp [h a b h1 h2]

/-- The last of several declarations of a struct is the only one that can have members. -/
theorem last_of_pairwise {l : List Struct} (hw : l.Pairwise (fun a b => a.name = b.name → a.members = none)) {n : String}
    {a : Struct} (h : lastNamed (·.name) l n = some a) : ∀ b ∈ l, b.name = n → b.members ≠ none → b = a := by
  induction l with
  | nil => intro b hb; cases hb
  | cons c l ih =>
    intro b hb hn hm
    rw [List.pairwise_cons] at hw
    have e : lastNamed (·.name) (c :: l) n = (lastNamed (·.name) l n).or (lastNamed (·.name) [c] n) :=
      lastNamed_append _ [c] l n
    rw [e] at h
    cases h1 : lastNamed (·.name) l n with
    | some d =>
      rw [h1] at h
      cases h
      rcases List.mem_cons.1 hb with rfl | hb
      · obtain ⟨hd, hdn⟩ := lastNamed_found h1
        exact absurd (hw.1 a hd (hn.trans hdn.symm)) hm
      · exact ih hw.2 h1 b hb hn hm
    | none =>
      rw [h1] at h
      rcases List.mem_cons.1 hb with rfl | hb
      · have := (lastNamed_found (key := fun s : Struct => s.name) h).1
        simp at this
        exact this.symm
      · exact absurd hn (lastNamed_lacks h1 b hb)

/-- C80: lookups answer alike. -/
theorem C80_lookups {fs fs' : List File} (hd : SameDecls fs fs') (hc : FilesCompatible fs) (hc' : FilesCompatible fs')
    (ha : ContextsAgree fs) (o o' : IterOrder) :
    ∃ r r', newResolverFiles o fs = .ok r ∧ newResolverFiles o' fs' = .ok r' ∧
      (∀ n, r.struct n = r'.struct n) ∧ (∀ n, r.context n = r'.context n) ∧ (∀ n, r.constant n = r'.constant n) := by
  obtain ⟨r, h, h1, h2, h3⟩ := (C11_multi_file o fs).1 hc
  obtain ⟨r', h', h1', h2', h3'⟩ := (C11_multi_file o' fs').1 hc'
  refine ⟨r, r', h, h', fun n => ?_, fun n => ?_, fun n => ?_⟩
  · rw [h1, h1']
    have := lastNamed_same (key := fun s : Struct => s.name) (f := id) hd.structs n ?_
    · simpa using this
    · intro a b hl hl'
      obtain ⟨ma, na⟩ := lastNamed_found hl
      obtain ⟨mb, nb⟩ := lastNamed_found hl'
      have ma' := hd.structs.mem_iff.1 ma
      have mb' := hd.structs.mem_iff.2 mb
      show a = b
      by_cases hm : b.members = none
      · by_cases hm' : a.members = none
        · have hx := ha a ma b mb' (na.trans nb.symm)
          have hy := na.trans nb.symm
          cases a; cases b
          simp only at hx hy hm hm'
          simp [hx, hy, hm, hm']
        · exact last_of_pairwise hc'.2.1 hl' a ma' na hm'
      · exact (last_of_pairwise hc.2.1 hl b mb' nb hm).symm
  · rw [h2, h2']
    have := lastNamed_same (key := fun s : Context => s.name) (f := id) hd.contexts n ?_
    · simpa using this
    · intro a b hl hl'
      obtain ⟨ma, na⟩ := lastNamed_found hl
      obtain ⟨mb, nb⟩ := lastNamed_found hl'
      exact List.inj_on_of_nodup_map hc.2.2.1 ma (hd.contexts.mem_iff.2 mb) (na.trans nb.symm)
  · rw [h3, h3']
    refine lastNamed_same (key := fun s : Constant => s.name) hd.constants n ?_
    intro a b hl hl'
    obtain ⟨ma, na⟩ := lastNamed_found hl
    obtain ⟨mb, nb⟩ := lastNamed_found hl'
    by_cases hab : a = b
    · rw [hab]
    · haveI : Std.Symm (fun a b : Constant => a.name = b.name → a.value = b.value) := ⟨fun x y h e => (h e.symm).symm⟩
      exact hc.2.2.2.forall ma (hd.constants.mem_iff.2 mb) hab (na.trans nb.symm)

/-- C80: the same program, with its declarations in another order. -/
theorem C80_program {fs fs' : List File} {nm : String → String} {o o' : IterOrder} {p : Prog} (hd : SameDecls fs fs')
    (hc' : FilesCompatible fs') (ha : ContextsAgree fs) (h : Gen.marshallers nm o fs = .ok p) :
    ∃ p', Gen.marshallers nm o' fs' = .ok p' ∧ p.types.Perm p'.types ∧ p.methods.Perm p'.methods ∧ p.ctors.Perm p'.ctors := by
  obtain ⟨r, r', h1, h2, hR⟩ := C80_lookups hd (Refine.marshallers_compatible h) hc' ha o o'
  unfold Gen.marshallers at h ⊢
  rw [h1] at h
  rw [h2]
  obtain ⟨p', h3, h4⟩ := fileList_rearranged hR hd.contexts hd.structs h
  exact ⟨p', h3, h4.1, h4.2, h4.3⟩

theorem ContextsAgree.moved {fs fs' : List File} (h : ContextsAgree fs) (hd : SameDecls fs fs') : ContextsAgree fs' :=
  fun s hs t ht => h s (hd.structs.mem_iff.2 hs) t (hd.structs.mem_iff.2 ht)

/-- C80: generation succeeds on both or neither. -/
theorem C80_succeeds {fs fs' : List File} {nm : String → String} {o o' : IterOrder} (hd : SameDecls fs fs')
    (hc : FilesCompatible fs) (hc' : FilesCompatible fs') (ha : ContextsAgree fs) :
    (∃ p, Gen.marshallers nm o fs = .ok p) ↔ ∃ p, Gen.marshallers nm o' fs' = .ok p := by
  constructor
  · rintro ⟨p, h⟩
    obtain ⟨p', h', _⟩ := C80_program (o' := o') hd hc' ha h
    exact ⟨p', h'⟩
  · rintro ⟨p, h⟩
    obtain ⟨p', h', _⟩ := C80_program (o' := o) hd.symm hc (ha.moved hd) h
    exact ⟨p', h'⟩

/-- Names in a program that compiles. -/
theorem compiles_nodup {p : Prog} {exts : List (String × List String)} (h : compiles p exts = true) :
    (p.types.map (·.name) ++ exts.map (·.1)).Nodup ∧ (p.methods.map (·.type)).Nodup ∧ (p.ctors.map (·.type)).Nodup := by
  unfold compiles at h
  simp only [Bool.and_eq_true, decide_eq_true_eq] at h
  obtain ⟨⟨⟨⟨⟨⟨h1, -⟩, h2⟩, -⟩, -⟩, -⟩, -⟩ := h
  refine ⟨h1.sublist ?_, h2, ?_⟩
  · exact (List.sublist_append_left _ _).append (List.Sublist.refl _)
  · have : (p.ctors.map (fun c => "Parse" ++ c.type)).Nodup :=
      h1.sublist ((List.sublist_append_right _ _).trans (List.sublist_append_left _ _))
    exact List.Nodup.of_map (fun x => "Parse" ++ x) (by simpa [List.map_map, Function.comp_def] using this)

theorem sig_types_order {p p' : Prog} {exts : List (String × List String)} (hp : PermProg p p')
    (h : compiles p exts = true) (T : String) : (p.sig exts).types.lookup T = (p'.sig exts).types.lookup T := by
  refine Go.lookup_perm ((hp.types.map _).append (.refl _)) ?_ T
  have := (compiles_nodup h).1
  simpa [List.map_map, Function.comp_def] using this

theorem sig_parse_order {p p' : Prog} {exts : List (String × List String)} (hp : PermProg p p')
    (h : compiles p exts = true) (T : String) : (p.sig exts).parse.lookup T = (p'.sig exts).parse.lookup T := by
  have := Go.lookup_perm (hp.methods.map (fun m => (m.type, m.params.map (·.2))))
    (by simpa [List.map_map, Function.comp_def] using (compiles_nodup h).2.1) T
  simp only [Prog.sig, List.lookup_append, this]

theorem compiles_order {p p' : Prog} {exts : List (String × List String)} (hp : PermProg p p')
    (h : compiles p exts = true) : compiles p' exts = true := by
  have ht := sig_types_order hp h
  have hs := sig_parse_order hp h
  have hn : p.names.Perm p'.names := (hp.types.map _).append (hp.ctors.map _)
  unfold compiles at h ⊢
  simp only [Bool.and_eq_true, decide_eq_true_eq, List.all_eq_true] at h ⊢
  obtain ⟨⟨⟨⟨⟨⟨h1, h2⟩, h3⟩, h4⟩, h5⟩, h6⟩, h7⟩ := h
  refine ⟨⟨⟨⟨⟨⟨?_, ?_⟩, ?_⟩, ?_⟩, ?_⟩, ?_⟩, ?_⟩
  · exact (hn.append (.refl _)).nodup_iff.1 h1
  · exact fun x hx => h2 x (hn.mem_iff.2 hx)
  · exact (hp.methods.map _).nodup_iff.1 h3
  · exact fun x hx => by rw [← chkType_order ht]; exact h4 x (hp.types.mem_iff.2 hx)
  · intro x hx
    have := h5 x (hp.types.mem_iff.2 hx)
    simp only [Bool.or_eq_true, Bool.not_eq_true', List.any_eq_false] at this ⊢
    rcases this with h | h
    · exact Or.inl (fun m hm => h m (hp.methods.mem_iff.2 hm))
    · exact Or.inr h
  · exact fun x hx => by rw [← chkMethod_order ht hs]; exact h6 x (hp.methods.mem_iff.2 hx)
  · exact fun x hx => by rw [← chkCtor_order ht hs]; exact h7 x (hp.ctors.mem_iff.2 hx)

/-- C80: if the package compiles, the package of rearranged files compiles, new objects are the
same, and all its functions do the same. -/
theorem C80_behaviour {fs fs' : List File} {nm : String → String} {o o' : IterOrder} {p : Prog} (hd : SameDecls fs fs')
    (hc' : FilesCompatible fs') (ha : ContextsAgree fs) (h : Gen.marshallers nm o fs = .ok p)
    {exts : List (String × List String)} (hk : compiles p exts = true) :
    ∃ p', Gen.marshallers nm o' fs' = .ok p' ∧ compiles p' exts = true ∧ (∀ T, zeroFields p T = zeroFields p' T) ∧
      ∀ (ext : Ext) (A fuel : Nat), runParse ⟨p, ext, A⟩ fuel = runParse ⟨p', ext, A⟩ fuel ∧
        runCtor ⟨p, ext, A⟩ fuel = runCtor ⟨p', ext, A⟩ fuel := by
  obtain ⟨p', h1, h2, h3, h4⟩ := C80_program (o' := o') hd hc' ha h
  obtain ⟨n1, n2, n3⟩ := compiles_nodup hk
  have hz : ∀ T, zeroFields p T = zeroFields p' T := fun T => by
    simp only [zeroFields, find_perm (fun d : TypeDecl => d.name) h2 (List.nodup_append.1 n1).1 T]
  have hm := find_perm (fun m : Method => m.type) h3 n2
  have hc := find_perm (fun m : Ctor => m.type) h4 n3
  exact ⟨p', h1, compiles_order ⟨h2, h3, h4⟩ hk, hz, fun ext A fuel =>
    ⟨runParse_order hz hm fuel, runCtor_order hz hm hc fuel⟩⟩

/-- C80: files can be given in any order, unless a struct is declared twice (for which see C11_order_matters). -/
theorem C80_files {fs fs' : List File} (h : fs.Perm fs') (hn : ((fs.flatMap (·.structs)).map (·.name)).Nodup) :
    FilesCompatible fs ↔ FilesCompatible fs' := by
  have key : ∀ {gs gs' : List File}, gs.Perm gs' → ((gs.flatMap (·.structs)).map (·.name)).Nodup →
      FilesCompatible gs → FilesCompatible gs' := by
    intro gs gs' h hn ⟨h1, h2, h3, h4⟩
    have hd := SameDecls.of_perm h
    refine ⟨fun f hf => h1 f (h.mem_iff.2 hf), ?_, (hd.contexts.map _).nodup_iff.1 h3, ?_⟩
    · have := (hd.structs.map (·.name)).nodup_iff.1 hn
      rw [List.Nodup, List.pairwise_map] at this
      exact this.imp (fun hne he => absurd he hne)
    · exact hd.constants.pairwise h4 (fun hxy e => (hxy e.symm).symm)
  exact ⟨key h hn, key h.symm (((SameDecls.of_perm h).structs.map _).nodup_iff.1 hn)⟩

/-- Two orders of the files `extern struct p;` and `context c {} extern struct p with context c; struct q with context
c { struct p x; }`. -/
def exExterns : List File := [⟨[], [], [⟨"p", [], none⟩], []⟩,
  ⟨[], [⟨"c", []⟩], [⟨"p", ["c"], none⟩, ⟨"q", ["c"], some [.leaf (.field ⟨"x", .base (.struct "p")⟩)]⟩], []⟩]

/-- C80 (the condition on contexts is needed): if a struct is declared extern twice, with and without a context, the
last declaration counts, so that the program compiles in one order of the files and not in the other. -/
theorem C80_contexts_needed : ∃ fs fs' : List File, fs.Perm fs' ∧ FilesCompatible fs ∧ FilesCompatible fs' ∧
    ∃ p p', Gen.marshallers exNm idOrder fs = .ok p ∧ Gen.marshallers exNm idOrder fs' = .ok p' ∧
      compiles p [("P", ["C"])] = true ∧ compiles p' [("P", ["C"])] = false := by
  refine ⟨exExterns, exExterns.reverse, (List.reverse_perm _).symm, ?_, ?_, emitted exExterns, emitted exExterns.reverse,
    marshallers_emitted (by decide +kernel), marshallers_emitted (by decide +kernel), by decide +kernel, by decide +kernel⟩
  all_goals refine ⟨?_, ?_, ?_, ?_⟩ <;> simp [UniqueNames, exExterns]

/-- The declarations of `exMsg` in two files, what is used after its uses. -/
def exMoved : List File :=
  [⟨[], [], ((exMsg.flatMap (·.structs)).drop 1), []⟩,
   ⟨exMsg.flatMap (·.constants), exMsg.flatMap (·.contexts), (exMsg.flatMap (·.structs)).take 1, []⟩]

theorem exMoved_same : SameDecls exMsg exMoved := ⟨.refl _, .refl _, List.Perm.swap ..⟩

/-- Reading the same input with the moved declarations. -/
example : ∃ p', Gen.marshallers exNm revOrder exMoved = .ok p' ∧ compiles p' [] = true ∧
    parseNew p' exExt (2 ^ 32) 9 "Msg" [.struct [("Kind", .num 2)]] exIn [55] = .done exVal (.bytes [] []) none := by
  obtain ⟨p', h1, h2, hz, h3⟩ := C80_behaviour (o' := revOrder) exMoved_same
    (by refine ⟨?_, ?_, ?_, ?_⟩ <;> simp [exMoved, exMsg, UniqueNames]) (by simp [ContextsAgree, exMsg]) exMsg_gen.gen
    (emitted_compiles exMsg_gen.gen exMsg_compileOK)
  refine ⟨p', h1, h2, ?_⟩
  rw [parseNew, ← hz, ← (h3 exExt (2 ^ 32) 9).1]
  decide +kernel

/-- The methods do come in another order. -/
example : (emitted exMsg).methods.map (·.type) = ["Point", "Msg"] ∧ (emitted exMoved).methods.map (·.type) = ["Msg", "Point"] := by
  decide +kernel

end Verif.Props
