import Verif.TvFree
import Verif.Props.TvRuns
import Verif.Props.TvCombos
/-!
# C70, C71: the size of vectors, and which structs are tested
-/
set_option linter.unusedVariables false
namespace Verif.Props
open Verif Verif.Ast Verif.Inspect Verif.Intervals Verif.Go Verif.Spec Verif.Wire Verif.Refine Verif.Tv Verif.Effects Verif.Gen

/-! ## C70 -/

/-- **C70.** The vectors of a struct have at most the bytes computed from its declaration, counting 20 elements for arrays of
variable length, 20 letters for strings and 7 bytes for ignored data: whatever the selector and the random source. What gives a
number of elements must not be the tag of a union (see `C70_tag_as_count`); if it is the length of a union, as many elements are
counted as the union has bytes, if more than 20. -/
theorem C70_size {E : Tv.Env} (hsel : Selects E) {nm : String → String} {ext : Go.Ext} {fs : List File} {fuel : Nat}
    {seed : E.R.σ} {corpus : Corpus} (h : generateFiles E fuel seed fs = .ok corpus) {L : Key → Prop} {M : Key → Nat}
    {w : String → Nat} (hw : FmtSized (fmtOf nm ext fs) L M w) : ∀ t ∈ corpus, ∀ v ∈ t.vectors, v.data.length ≤ w t.type :=
  generateFiles_size hsel h hw

/-- Bytes of vectors of structs nested at most `k` deep. -/
def sizeAt (Γ : Fmt) (M : Key → Nat) : Nat → String → Nat
  | 0, _ => 0
  | k + 1, n => match Γ.structs n with
    | some s => membersSize Γ.K M (sizeAt Γ M k) s.ms
    | none => 0

/-- The variables that give lengths of unions, with the bytes of the unions. -/
def lenPairs (Γ : Fmt) (M : Key → Nat) (w : String → Nat) : Member → List (Key × Nat)
  | .leaf _ => []
  | .union u => match u.length with
    | some (.idRef ref) => [(refKey ref, casesSize Γ.K M w u.cases)]
    | _ => []

/-- The largest number listed for a variable. -/
def largestFor (l : List (Key × Nat)) (k : Key) : Nat := l.foldr (fun p m => if p.1 = k then max p.2 m else m) 0

/-- Bytes of unions that give their length, for arrays counted by them nested at most `j` deep. -/
def lensAt (Γ : Fmt) (ss : List Struct) : Nat → Key → Nat
  | 0, _ => 0
  | j + 1, k => largestFor (ss.flatMap fun s => s.ms.flatMap
      (lenPairs Γ (lensAt Γ ss j) (sizeAt Γ (lensAt Γ ss j) (ss.length + 1)))) k

/-- What has to be evaluated for C70. -/
theorem _root_.Verif.Tv.FmtSized.of_check {nm : String → String} {ext : Go.Ext} {fs : List File} {L : List Key}
    {M : Key → Nat} {w : String → Nat}
    (h1 : ∀ s ∈ fs.flatMap (·.structs), s.extern = false → ∀ k ∈ s.ms.flatMap tagOf, k ∉ s.ms.flatMap countsOf ∧ k ∉ L)
    (h2 : ∀ s ∈ fs.flatMap (·.structs), s.extern = false → ∀ s' ∈ fs.flatMap (·.structs), s'.extern = false →
      ∀ k ∈ s.ms.flatMap tagOf, k.1 ≠ "" → k ∉ s'.ms.flatMap countsOf)
    (h3 : ∀ s ∈ fs.flatMap (·.structs), s.extern = false → ∀ p ∈ s.ms.flatMap (lenPairs (fmtOf nm ext fs) M w),
      p.2 ≤ max 20 (M p.1))
    (h4 : ∀ s ∈ fs.flatMap (·.structs), s.extern = false → membersSize (fmtOf nm ext fs).K M w s.ms ≤ w s.name) :
    FmtSized (fmtOf nm ext fs) (· ∈ L) M w := by
  refine ⟨fun n s hs he k hk hc => ?_, fun n s hs he u hu ref hl _ => ?_, fun n s hs he => ?_⟩
  · obtain ⟨hm, rfl⟩ := fmtOf_struct_mem hs
    rcases hc with hc | ⟨hne, hc | ⟨n', s', hs', he', hc⟩⟩
    · exact (h1 s hm he k hk).1 hc
    · exact (h1 s hm he k hk).2 hc
    · exact h2 s hm he s' (fmtOf_struct_mem hs').1 he' k hk hne hc
  · refine h3 s (fmtOf_struct_mem hs).1 he (refKey ref, _) (List.mem_flatMap.2 ⟨_, hu, ?_⟩)
    simp only [lenPairs, hl, List.mem_singleton]
  · obtain ⟨hm, rfl⟩ := fmtOf_struct_mem hs
    exact h4 s hm he

/-- Bytes of vectors in the example format. -/
def tvSizes : String → Nat := sizeAt (fmtOf exNm exExt [tvFile]) (lensAt (fmtOf exNm exExt [tvFile]) tvFile.structs 1) 2

theorem tvFile_sized : FmtSized (fmtOf exNm exExt [tvFile]) (· ∈ ([] : List Key))
    (lensAt (fmtOf exNm exExt [tvFile]) tvFile.structs 1) tvSizes := by
  refine FmtSized.of_check ?_ ?_ ?_ ?_ <;> decide +kernel

/-- In the example format, vectors of `msg` have at most 233 bytes. -/
example {E : Tv.Env} (hsel : Selects E) {fuel : Nat} {seed : E.R.σ} {corpus : Corpus} (h : generateFiles E fuel seed [tvFile] = .ok corpus) :
    ∀ t ∈ corpus, t.type = "msg" → ∀ v ∈ t.vectors, v.data.length ≤ 233 := by
  intro t ht e v hv
  have := C70_size hsel h tvFile_sized t ht v hv
  rw [e] at this
  exact Nat.le_trans this (by decide +kernel)

/-- A source of random numbers that always gives the largest ones. -/
def topSrc : RandSrc where
  σ := Unit
  int63 := fun s => (0, s)
  intn := fun n s => (n - 1, s)
  read := fun n s => (List.replicate n 255, s)
  int63_lt := fun _ => by show (0 : UInt64).toNat < 2 ^ 63; decide
  intn_lt := fun n _ h => by show n - 1 < n; omega
  read_length := fun n _ => by simp

/-- The example environment with this source. -/
def topEnv : Tv.Env := { exEnv with R := topSrc, draws := 1 }

/-- The bound is reached. -/
theorem C70_reached : ∃ corpus, generateFiles topEnv 3 () [tvFile] = .ok corpus ∧
    ∃ t ∈ corpus, t.type = "msg" ∧ ∃ v ∈ t.vectors, v.data.length = tvSizes "msg" := by
  have h : (match generateFiles topEnv 3 () [tvFile] with
    | .ok c => decide (∃ t ∈ c, t.type = "msg" ∧ ∃ v ∈ t.vectors, v.data.length = tvSizes "msg")
    | _ => false) = true := by decide +kernel
  split at h
  · rename_i c hc
    exact ⟨c, hc, of_decide_eq_true h⟩
  · cases h

/-- `struct t { u8 n; u8 x[n]; union u [n] { 200: u8 y; default: ; } }` -/
def bigTag : List File := tvStructs [⟨"t", [], some [.leaf (uF "n" 8), .leaf (.field ⟨"x", tvBytes (.idRef ⟨"", "n"⟩)⟩),
  .union ⟨"u", ⟨"", "n"⟩, none, [⟨some ⟨[tvLit 200]⟩, [uF "y" 8]⟩, ⟨none, [.fail]⟩]⟩]⟩]

/-- If the number of elements is a tag, a vector has as many elements as the case says. -/
theorem C70_tag_as_count : membersSize (fmtOf exNm exExt bigTag).K (fun _ => 0) (fun _ => 0) ((bigTag.flatMap (·.structs)).flatMap (·.ms)) = 22 ∧
    ∃ v ∈ vectorsOf bigTag "t", v.data.length = 202 := by decide +kernel

/-- `struct t { u8 tag; u8 n; u8 x[n]; union u [tag] with length n { 1: u8 y[40]; default: u8 z[3]; } }` -/
def lenCount : List File := tvStructs [⟨"t", [], some [.leaf (uF "tag" 8), .leaf (uF "n" 8), .leaf (.field ⟨"x", tvBytes (.idRef ⟨"", "n"⟩)⟩),
  .union ⟨"u", ⟨"", "tag"⟩, some (.idRef ⟨"", "n"⟩), [⟨some ⟨[tvLit 1]⟩, [.field ⟨"y", .fixedArray (.int ⟨8, none⟩) (.literal 40)⟩]⟩,
    ⟨none, [.field ⟨"z", .fixedArray (.int ⟨8, none⟩) (.literal 3)⟩]⟩]⟩]⟩]

/-- A number of elements that is the length of a union: 2 bytes, 40 elements and 40 bytes of the union. -/
theorem lenCount_sized : FmtSized (fmtOf exNm exExt lenCount) (· ∈ ([] : List Key)) (fun _ => 40) (fun _ => 82) := by
  refine FmtSized.of_check ?_ ?_ ?_ ?_ <;> decide +kernel

/-- This bound is reached. -/
example : ∃ v ∈ vectorsOf lenCount "t", v.data.length = 82 := by decide +kernel

/-! ## C71 -/

/-- The condition on contexts of well-formed structs: a struct without contexts refers to none. -/
theorem okM_of_ok {Γ : Fmt} {s : Struct} (hs : s.contexts = []) {m : Member} (h : MemberOK Γ s m) :
    OkM (fun s => s = "") (fun n => ∃ s, Γ.structs n = some s ∧ s.contexts = []) m := by
  have hr : ∀ r, RefOK Γ s r → r.scope = "" := by
    intro r h
    unfold RefOK at h
    split at h
    · assumption
    · have := h.1; rw [hs] at this; cases this
  have hb : ∀ n, BaseOK Γ s (.struct n) → ∃ s, Γ.structs n = some s ∧ s.contexts = [] := by
    rintro n ⟨s', h1, h2⟩
    refine ⟨s', h1, ?_⟩
    cases hc : s'.contexts with
    | nil => rfl
    | cons c cs => have := h2 c (by rw [hc]; exact List.mem_cons_self); rw [hs] at this; cases this
  have hl : ∀ l, LeafOK Γ s l → OkLeaf (fun s => s = "") (fun n => ∃ s, Γ.structs n = some s ∧ s.contexts = []) l := by
    intro l h
    cases l with
    | field f =>
      obtain ⟨k, t⟩ := f
      refine ⟨fun n hn => ?_, fun b r e => ?_⟩
      · cases t with
        | base b => cases List.mem_singleton.1 hn; exact hb n h
        | ptr => cases hn
        | nulterm => cases hn
        | fixedArray b i => cases List.mem_singleton.1 hn; exact hb n h.1
        | varArray b c => cases List.mem_singleton.1 hn; cases c with
          | none => exact hb n h
          | some c => exact hb n h.1
      · cases e; exact hr r h.2
    | _ => trivial
  cases m with
  | leaf l => exact hl l h
  | union u =>
    refine ⟨hr _ h.1, fun r e => hr r (h.2.1 _ e), fun c hc l hm => hl l ((h.2.2 c hc).2 l hm)⟩

theorem constrained_false : ∀ {vs : List Tv.Vector}, (∀ v ∈ vs, v.cst.scopes.entries = []) → Effects.constrained vs = false
  | [], _ => rfl
  | v :: vs, h => by
    simp only [Effects.constrained]
    rw [h v List.mem_cons_self, if_neg (by simp)]
    exact constrained_false fun v hv => h v (List.mem_cons_of_mem _ hv)

/-- The suites of a corpus are those of the structs defined. -/
theorem suite_struct {E : Tv.Env} {nm : String → String} {ext : Go.Ext} {fs : List File} (hc : FilesCompatible fs) {fuel : Nat}
    {seed : E.R.σ} {corpus : Corpus} (h : generateFiles E fuel seed fs = .ok corpus) {t : Tv.Suite} (ht : t ∈ corpus) :
    ∃ s ∈ fs.flatMap (·.structs), s.extern = false ∧ s.name = t.type ∧ (fmtOf nm ext fs).structs t.type = some s := by
  have : t.type ∈ corpus.map (·.type) := List.mem_map_of_mem ht
  rw [C58_suites h] at this
  obtain ⟨s, hs, e⟩ := List.mem_map.1 this
  obtain ⟨hs, he⟩ := List.mem_filter.1 hs
  have he : s.extern = false := by simpa using he
  exact ⟨s, hs, he, e, e ▸ defined_struct hc hs he⟩

theorem generate_compatible {E : Tv.Env} {fs : List File} {fuel : Nat} {seed : E.R.σ} {corpus : Corpus}
    (h : generateFiles E fuel seed fs = .ok corpus) : FilesCompatible fs := by
  by_contra hc
  obtain ⟨m, hm⟩ := (C11_multi_file E.order fs).2 hc
  unfold generateFiles at h
  rw [hm] at h
  cases h

/-- **C71.** In well-formed files, the vectors of a struct without contexts have no constraints, whatever the selector and the
random source: so a test and a fuzzing function are generated for it. -/
theorem C71_tested {E : Tv.Env} (hsel : Selects E) {nm : String → String} {ext : Go.Ext} {fs : List File} (hok : FilesOK nm ext fs)
    {fuel : Nat} {seed : E.R.σ} {corpus : Corpus} (h : generateFiles E fuel seed fs = .ok corpus) {t : Tv.Suite} (ht : t ∈ corpus)
    {s : Struct} (hs : (fmtOf nm ext fs).structs t.type = some s) (hn : s.contexts = []) :
    (∀ v ∈ t.vectors, v.cst.scopes.entries = []) ∧ Effects.constrained t.vectors = false := by
  have := generateFiles_free hsel h (F := fun n => ∃ s, (fmtOf nm ext fs).structs n = some s ∧ s.contexts = []) (nm := nm) (ext := ext)
    (by
      rintro n s ⟨s', h1, h2⟩ h3 he m hm
      rw [h1] at h3
      cases h3
      exact okM_of_ok h2 ((hok.structs n _ h1 he).members m hm)) t ht ⟨s, hs, hn⟩
  exact ⟨this, constrained_false this⟩

theorem constrained_true {vs : List Tv.Vector} (hne : vs ≠ []) (h : ∀ v ∈ vs, HasCtx v.cst.lookup) : Effects.constrained vs = true := by
  by_contra hc
  have hc : Effects.constrained vs = false := by simpa using hc
  cases vs with
  | nil => exact hne rfl
  | cons v vs =>
    obtain ⟨c, k, x, _, hx⟩ := h v List.mem_cons_self
    have := unconstrained_entries hc v List.mem_cons_self
    rw [Cst.lookup, GoMap.get, this] at hx
    cases hx

/-- **C71.** If a struct uses a context variable in all its vectors, no test is generated for it: its parser could not be called
without context values. -/
theorem C71_not_tested {E : Tv.Env} (hsel : Selects E) {nm : String → String} {ext : Go.Ext} {fs : List File} {fuel : Nat}
    {seed : E.R.σ} {corpus : Corpus} (h : generateFiles E fuel seed fs = .ok corpus) {U : String → Prop}
    (hU : FmtUses (fmtOf nm ext fs) U) {t : Tv.Suite} (ht : t ∈ corpus) (hu : U t.type) (hne : t.vectors ≠ []) :
    Effects.constrained t.vectors = true :=
  constrained_true hne (generateFiles_uses hsel h hU t ht hu)

/-- Every struct with contexts uses one of them in all its vectors. -/
def UsesContexts (Γ : Fmt) : Prop :=
  FmtUses Γ fun n => ∃ s, Γ.structs n = some s ∧ s.contexts ≠ []

theorem corpusTests_eq {nm : String → String} : ∀ corpus : Corpus, corpusTests nm corpus =
    (corpus.filter fun t => !Effects.constrained t.vectors).map fun t =>
      ⟨"Test" ++ nm t.type ++ "Corpus", t.vectors.map (·.data), "Parse" ++ nm t.type⟩
  | [] => rfl
  | t :: c => by
    simp only [corpusTests, List.filter_cons]
    rw [corpusTests_eq c]
    cases Effects.constrained t.vectors <;> simp

theorem fuzzers_eq {nm : String → String} : ∀ corpus : Corpus, fuzzers nm corpus =
    (corpus.filter fun t => !Effects.constrained t.vectors).map fun t => ⟨"Fuzz" ++ nm t.type, "Parse" ++ nm t.type⟩
  | [] => rfl
  | t :: c => by
    simp only [fuzzers, List.filter_cons]
    rw [fuzzers_eq c]
    cases Effects.constrained t.vectors <;> simp

/-- Names of suites without constraints, and of structs without contexts. -/
theorem types_filter {E : Tv.Env} (hsel : Selects E) {nm : String → String} {ext : Go.Ext} {fs : List File} (hok : FilesOK nm ext fs)
    (hU : UsesContexts (fmtOf nm ext fs)) {fuel : Nat} {seed : E.R.σ} {corpus : Corpus} (h : generateFiles E fuel seed fs = .ok corpus)
    (hne : ∀ t ∈ corpus, t.vectors ≠ []) :
    (corpus.filter fun t => !Effects.constrained t.vectors).map (·.type) =
      ((fs.flatMap (·.structs)).filter fun s => !s.extern && s.contexts.isEmpty).map (·.name) := by
  have hc := generate_compatible h
  have h1 : (corpus.filter fun t => !Effects.constrained t.vectors).map (·.type) = (corpus.map (·.type)).filter fun n =>
      match (fmtOf nm ext fs).structs n with | some s => s.contexts.isEmpty | none => false := by
    rw [List.filter_map]
    congr 1
    refine List.filter_congr fun t ht => ?_
    obtain ⟨s, _, he, _, hs⟩ := suite_struct (nm := nm) (ext := ext) hc h ht
    simp only [Function.comp]
    rw [hs]
    simp only []
    cases hn : s.contexts with
    | nil => rw [(C71_tested hsel hok h ht hs hn).2]; rfl
    | cons c cs => rw [C71_not_tested hsel h hU ht ⟨s, hs, by rw [hn]; simp⟩ (hne t ht)]; rfl
  rw [h1, C58_suites h, List.filter_map]
  congr 1
  rw [List.filter_filter]
  refine List.filter_congr fun s hs => ?_
  simp only [Function.comp]
  cases he : s.extern with
  | true => simp
  | false => rw [show (fmtOf nm ext fs).structs s.name = some s from defined_struct hc hs he]; simp

/-- **C71.** If every struct with contexts uses one of them in all its vectors, and every suite has a vector, then tests and
fuzzing functions are generated for exactly the structs without contexts, in order of declaration. -/
theorem C71_exactly {E : Tv.Env} (hsel : Selects E) {nm : String → String} {ext : Go.Ext} {fs : List File} (hok : FilesOK nm ext fs)
    (hU : UsesContexts (fmtOf nm ext fs)) {fuel : Nat} {seed : E.R.σ} {corpus : Corpus} (h : generateFiles E fuel seed fs = .ok corpus)
    (hne : ∀ t ∈ corpus, t.vectors ≠ []) :
    let tested := ((fs.flatMap (·.structs)).filter fun s => !s.extern && s.contexts.isEmpty).map (·.name)
    (corpusTests nm corpus).map (fun f => (f.name, f.calls)) = tested.map (fun n => ("Test" ++ nm n ++ "Corpus", "Parse" ++ nm n)) ∧
      fuzzers nm corpus = tested.map fun n => ⟨"Fuzz" ++ nm n, "Parse" ++ nm n⟩ := by
  intro tested
  have ht : _ = tested := types_filter hsel hok hU h hne
  constructor
  · rw [← ht, corpusTests_eq, List.map_map, List.map_map]; rfl
  · rw [← ht, fuzzers_eq, List.map_map]; rfl

/-- Every union has a case that can be selected and does not fail. -/
def SomeCase (Γ : Fmt) : Prop := ∀ n s, Γ.structs n = some s → s.extern = false → ∀ u, .union u ∈ s.ms →
  ∃ c, Leaf.fail ∉ c.members ∧ ∃ x, selectCase Γ.K u.cases x = some c

/-- **C71.** Every suite has a vector, in formats of the class of C41 whose unions each have a case that can be selected and does
not fail. -/
theorem C71_nonempty {E : Tv.Env} (hkeep : Keeps E) {nm : String → String} {ext : Go.Ext} {ord : IterOrder}
    {fs : List File} {p : Prog} (hp : marshallers nm ord fs = .ok p) (hok : FilesOK nm ext fs)
    (hord : OrdOK (fmtOf nm ext fs)) {fuel : Nat} {seed : E.R.σ} {corpus : Corpus}
    (h : generateFiles E fuel seed fs = .ok corpus) {B : Nat} {C O : String → Prop}
    (hg : FmtGen (fmtOf nm ext fs) B C O) {G : Glob} (hcov : FmtCov (fmtOf nm ext fs) G) (hx : FmtCtx (fmtOf nm ext fs))
    (hsome : SomeCase (fmtOf nm ext fs)) : ∀ t ∈ corpus, t.vectors ≠ [] := by
  intro t ht
  obtain ⟨s, hs, he, hch⟩ := C64_combinations hkeep hp hok hord h hg hcov hx ht (A := 2 ^ 32) (by decide) (by decide) []
  classical
  obtain ⟨v, hv, _⟩ := hch (fun u => if hu : Member.union u ∈ s.ms then (hsome _ s hs he u hu).choose else ⟨none, []⟩) (by
    intro u hu
    rw [dif_pos hu]
    exact (hsome _ s hs he u hu).choose_spec)
  exact List.ne_nil_of_mem hv

/-- **C57, C70, C71.** The conditions on the corpus in C57 follow from conditions on the format: if every struct with contexts uses
one of them in all its vectors and the computed sizes are below the bound of the class, then all tests pass. -/
theorem C71_tests_pass {E : Tv.Env} (hsel : Selects E) {nm : String → String} {ext : Go.Ext}
    {ord : IterOrder} {fs : List File} {p : Prog} (hp : marshallers nm ord fs = .ok p) (hok : FilesOK nm ext fs)
    (hord : OrdOK (fmtOf nm ext fs)) {fuel : Nat} {seed : E.R.σ} {corpus : Corpus}
    (h : generateFiles E fuel seed fs = .ok corpus) {B : Nat} {C O : String → Prop}
    (hg : FmtGen (fmtOf nm ext fs) B C O) (hU : UsesContexts (fmtOf nm ext fs)) {L : Key → Prop} {M : Key → Nat}
    {w : String → Nat} (hw : FmtSized (fmtOf nm ext fs) L M w)
    (hB : ∀ s ∈ fs.flatMap (·.structs), s.extern = false → w s.name < B) {A : Nat} (hA : 2 ^ 32 ≤ A + 1) (hA' : A < 2 ^ 63) :
    ∀ f ∈ corpusTests nm corpus, Passes p ext A f := by
  intro f hf
  have hc := generate_compatible h
  refine C57_tests_pass_partial hsel hp hok hord h hg hA hA' ?_ f hf ?_
  · intro t ht hne hcon s hs
    by_contra hn
    rw [C71_not_tested hsel h hU ht ⟨s, hs, hn⟩ hne] at hcon
    cases hcon
  · rw [corpusTests_eq] at hf
    obtain ⟨t, ht, rfl⟩ := List.mem_map.1 hf
    have ht := List.mem_of_mem_filter ht
    intro d hd
    obtain ⟨v, hv, rfl⟩ := List.mem_map.1 hd
    obtain ⟨s, hs, he, e, _⟩ := suite_struct (nm := nm) (ext := ext) hc h ht
    exact Nat.lt_of_le_of_lt (C70_size hsel h hw t ht v hv) (e ▸ hB s hs he)

/-- **C71** with C40, C41, C57, C58, C60 and C70: for a supported format in the class of C40 and C41 whose computed sizes are below
the bound of the class, and whose structs with contexts use them, the generator returns a corpus: with a suite for each struct, each
with a vector, each vector of which is accepted by the generated parser, and with a passing test for exactly the structs without
contexts. Nothing is assumed of the corpus. -/
theorem C71_corpus {E : Tv.Env} (hkeep : Keeps E) (ha : Answers E) {nm : String → String} {ext : Go.Ext}
    {ord : IterOrder} {fs : List File} {p : Prog} (hp : marshallers nm ord fs = .ok p) (hok : FilesOK nm ext fs)
    (hc : FilesCompatible fs) (hord : OrdOK (fmtOf nm ext fs)) {R F : String → Prop} (hr : FmtRuns (fmtOf nm ext fs) R F)
    (hac : Acyclic (fmtOf nm ext fs)) {B : Nat} {C O : String → Prop} (hg : FmtGen (fmtOf nm ext fs) B C O)
    {G : Glob} (hcov : FmtCov (fmtOf nm ext fs) G) (hx : FmtCtx (fmtOf nm ext fs)) (hsome : SomeCase (fmtOf nm ext fs))
    (hU : UsesContexts (fmtOf nm ext fs)) {L : Key → Prop} {M : Key → Nat}
    {w : String → Nat} (hw : FmtSized (fmtOf nm ext fs) L M w)
    (hB : ∀ s ∈ fs.flatMap (·.structs), s.extern = false → w s.name < B) {A : Nat} (hA : 2 ^ 32 ≤ A + 1) (hA' : A < 2 ^ 63) :
    ∃ N, ∀ fuel, N ≤ fuel → ∀ seed : E.R.σ, ∃ corpus, generateFiles E fuel seed fs = .ok corpus ∧
      corpus.map (·.type) = ((fs.flatMap (·.structs)).filter (fun s => !s.extern)).map (·.name) ∧
      (∀ t ∈ corpus, t.vectors ≠ [] ∧ ∃ s, (fmtOf nm ext fs).structs t.type = some s ∧ s.extern = false ∧
        ∀ v ∈ t.vectors, v.data.length ≤ w t.type ∧ ∀ hid, ∃ ctx val, CtxOK (fmtOf nm ext fs) ctx ∧
          Meets (fmtOf nm ext fs) ctx v.cst ∧ Accepts p ext A (nm t.type) (ctxArgs s ctx) v.data hid val []) ∧
      (corpusTests nm corpus).map (·.calls) =
        (((fs.flatMap (·.structs)).filter fun s => !s.extern && s.contexts.isEmpty).map fun s => "Parse" ++ nm s.name) ∧
      ∀ f ∈ corpusTests nm corpus, f.cases ≠ [] ∧ Passes p ext A f := by
  have hsel := hkeep.selects
  obtain ⟨N, hN⟩ := C60_corpus hkeep ha hp hok hc hord hr hac hg hcov hx hA hA'
  refine ⟨N, fun fuel hf seed => ?_⟩
  obtain ⟨corpus, h, h1, h2, _⟩ := hN fuel hf seed
  have hne := C71_nonempty hkeep hp hok hord h hg hcov hx hsome
  have hlt : ∀ t ∈ corpus, ∀ v ∈ t.vectors, v.data.length ≤ w t.type ∧ w t.type < B := by
    intro t ht v hv
    obtain ⟨s, hs, he, e, _⟩ := suite_struct (nm := nm) (ext := ext) hc h ht
    exact ⟨C70_size hsel h hw t ht v hv, e ▸ hB s hs he⟩
  refine ⟨corpus, h, h1, ?_, ?_, ?_⟩
  · intro t ht
    obtain ⟨s, hs, he, h3, _⟩ := h2 t ht
    refine ⟨hne t ht, s, hs, he, fun v hv => ⟨(hlt t ht v hv).1, h3 v hv (Nat.lt_of_le_of_lt (hlt t ht v hv).1 (hlt t ht v hv).2)⟩⟩
  · have := congrArg (List.map Prod.snd) (C71_exactly hsel hok hU h hne).1
    rw [List.map_map, List.map_map, List.map_map] at this
    exact this
  · intro f hf'
    refine ⟨?_, C71_tests_pass hsel hp hok hord h hg hU hw hB hA hA' f hf'⟩
    rw [corpusTests_eq] at hf'
    obtain ⟨t, ht, rfl⟩ := List.mem_map.1 hf'
    have := hne t (List.mem_of_mem_filter ht)
    simpa using this

/-! ## What has to be evaluated -/

/-- `LeafUses`, computed. -/
def leafUsesB (us : List String) : Leaf → Bool
  | .field f => match f.type with
    | .varArray _ (some (.idRef r)) => r.scope ≠ ""
    | .base (.struct n) => decide (n ∈ us)
    | _ => false
  | _ => false

/-- `MemberUses`, computed. -/
def memberUsesB (us : List String) : Member → Bool
  | .leaf l => leafUsesB us l
  | .union u => u.tag.scope ≠ "" || (match u.length with | some (.idRef r) => decide (r.scope ≠ "") | _ => false) ||
    u.cases.all fun c => c.members.any (leafUsesB us)

theorem leafUsesB_sound {us : List String} {U : String → Prop} (hus : ∀ n ∈ us, U n) {l : Leaf} (h : leafUsesB us l = true) :
    LeafUses U l := by
  cases l with
  | field f =>
    obtain ⟨k, t⟩ := f
    simp only [leafUsesB] at h
    simp only [LeafUses]
    split at h
    · simpa using h
    · exact hus _ (of_decide_eq_true h)
    · cases h
  | _ => cases h

theorem memberUsesB_sound {us : List String} {U : String → Prop} (hus : ∀ n ∈ us, U n) {m : Member} (h : memberUsesB us m = true) :
    MemberUses U m := by
  cases m with
  | leaf l => exact leafUsesB_sound hus h
  | union u =>
    simp only [memberUsesB, Bool.or_eq_true, List.all_eq_true, List.any_eq_true] at h
    rcases h with (h | h) | h
    · exact .inl (by simpa using h)
    · refine .inr (.inl ?_)
      cases hl : u.length with
      | none => rw [hl] at h; cases h
      | some c =>
        cases c with
        | leftover k => rw [hl] at h; cases h
        | idRef r => rw [hl] at h; exact (of_decide_eq_true h : r.scope ≠ "")
    · refine .inr (.inr fun c hc => ?_)
      obtain ⟨l, hl, hu⟩ := h c hc
      exact ⟨l, hl, leafUsesB_sound hus hu⟩

/-- Names of the structs with contexts. -/
def withContexts (fs : List File) : List String :=
  ((fs.flatMap (·.structs)).filter fun s => !s.extern && !s.contexts.isEmpty).map (·.name)

theorem UsesContexts.of_check {nm : String → String} {ext : Go.Ext} {fs : List File} (hc : FilesCompatible fs)
    (h : ∀ s ∈ fs.flatMap (·.structs), s.extern = false → s.contexts ≠ [] → s.ms.any (memberUsesB (withContexts fs)) = true) :
    UsesContexts (fmtOf nm ext fs) := by
  rintro n s ⟨s', hs', hne⟩ hs he
  rw [hs] at hs'
  cases hs'
  obtain ⟨m, hm, hu⟩ := List.any_eq_true.1 (h s (fmtOf_struct_mem hs).1 he hne)
  refine ⟨m, hm, memberUsesB_sound (fun n hn => ?_) hu⟩
  obtain ⟨s, h1, rfl⟩ := List.mem_map.1 hn
  obtain ⟨h1, h2⟩ := List.mem_filter.1 h1
  simp only [Bool.and_eq_true, Bool.not_eq_true', List.isEmpty_eq_false_iff] at h2
  exact ⟨s, defined_struct hc h1 h2.1, h2.2⟩

/-- Values at which cases may be selected: the first values of their ranges, and one value outside of all. -/
def caseValues (K : String → Option Int) (cs : List UnionCase) : List Int :=
  let rs := cs.flatMap fun c => match c.case with | some l => l.ranges | none => []
  let bs := rs.filterMap (bounds K)
  bs.map (·.1) ++ [0, (bs.map (·.2)).foldl max 0 + 1] ++ bs.map (·.2 + 1)

theorem SomeCase.of_check {nm : String → String} {ext : Go.Ext} {fs : List File}
    (h : ∀ s ∈ fs.flatMap (·.structs), s.extern = false → s.ms.all (fun m => match m with
      | .union u => (caseValues (fmtOf nm ext fs).K u.cases).any fun x => match selectCase (fmtOf nm ext fs).K u.cases x with
        | some c => decide (Leaf.fail ∉ c.members)
        | none => false
      | _ => true) = true) : SomeCase (fmtOf nm ext fs) := by
  intro n s hs he u hu
  have := List.all_eq_true.1 (h s (fmtOf_struct_mem hs).1 he) _ hu
  obtain ⟨x, _, hx⟩ := List.any_eq_true.1 this
  cases hc : selectCase (fmtOf nm ext fs).K u.cases x with
  | none => rw [hc] at hx; cases hx
  | some c => rw [hc] at hx; exact ⟨c, of_decide_eq_true hx, x, hc⟩

/-! ## Formats -/

theorem tvFile_uses : UsesContexts (fmtOf exNm exExt [tvFile]) := UsesContexts.of_check tvFile_compatible (by decide +kernel)

theorem tvFile_some : SomeCase (fmtOf exNm exExt [tvFile]) := SomeCase.of_check (by decide +kernel)

/-- The example format: whatever the random source, as long as it answers, there is exactly one test, which passes. -/
example (E : Tv.Env) (hkeep : Keeps E) (ha : Answers E) : ∃ N, ∀ fuel, N ≤ fuel → ∀ seed : E.R.σ, ∃ corpus,
    generateFiles E fuel seed [tvFile] = .ok corpus ∧ (corpusTests exNm corpus).map (·.calls) = ["ParseName"] ∧
    ∀ f ∈ corpusTests exNm corpus, f.cases ≠ [] ∧ Passes (emitted [tvFile]) exExt (2 ^ 32) f := by
  obtain ⟨N, h⟩ := C71_corpus (A := 2 ^ 32) hkeep ha tvFile_gen.gen tvFile_gen.ok tvFile_compatible
    (OrdOK.of_check (by decide +kernel)) tvFile_runs tvFile_acyclic tvFile_class tvFile_cov
    (by refine FmtCtx.of_check ?_ ?_ <;> decide +kernel) tvFile_some tvFile_uses tvFile_sized (by decide +kernel) (by decide) (by decide)
  refine ⟨N, fun fuel hf seed => ?_⟩
  obtain ⟨corpus, h1, _, _, h2, h3⟩ := h fuel hf seed
  exact ⟨corpus, h1, h2.trans (by decide +kernel), h3⟩

example : (corpusTests exNm (corpusOf [tvFile])).map (·.calls) = ["ParseName"] := by decide +kernel

/-- `context c { u8 k; } struct t with context c { u8 x; union u [x] { 1: u8 a[c.k]; 2: u8 b; default: fail; } }`: the context is used in
one case only. -/
def someUse : List File := [{ constants := [], contexts := [⟨"c", [⟨"k", tvU 8⟩]⟩], pragmas := [], structs :=
  [⟨"t", ["c"], some [.leaf (uF "x" 8), .union ⟨"u", ⟨"", "x"⟩, none,
    [⟨some ⟨[tvLit 1]⟩, [.field ⟨"a", tvBytes (.idRef ⟨"c", "k"⟩)⟩]⟩, ⟨some ⟨[tvLit 2]⟩, [uF "b" 8]⟩, ⟨none, [.fail]⟩]⟩]⟩] }]

/-- Then vectors of other cases have no constraints; one that has is enough for the struct not to be tested. -/
theorem C71_some_use : (∃ v ∈ vectorsOf someUse "t", v.cst.scopes.entries = []) ∧ corpusTests exNm (corpusOf someUse) = [] := by
  decide +kernel

/-- `context c { u8 k; } struct t with context c { union u [c.k] { 1: fail; } }` -/
def allFail : List File := [{ constants := [], contexts := [⟨"c", [⟨"k", tvU 8⟩]⟩], pragmas := [], structs :=
  [⟨"t", ["c"], some [.union ⟨"u", ⟨"c", "k"⟩, none, [⟨some ⟨[tvLit 1]⟩, [.fail]⟩]⟩]⟩] }]

/-- Without vectors a test is generated for a struct with contexts, too: it calls the parser without the context (and does not
compile). -/
theorem C71_no_vectors : UsesContexts (fmtOf exNm exExt allFail) ∧ vectorsOf allFail "t" = [] ∧
    corpusTests exNm (corpusOf allFail) = [⟨"TestTCorpus", [], "ParseT"⟩] ∧
    (marshallers exNm idOrder allFail).isOk = true :=
  ⟨UsesContexts.of_check (by decide +kernel) (by decide +kernel), by decide +kernel, by decide +kernel, by decide +kernel⟩

end Verif.Props
