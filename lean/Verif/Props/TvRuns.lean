import Verif.TvRuns
import Verif.Props.TvTests
import Verif.Props.TvCover
import Verif.Props.GenTotal
/-!
# C60: the vector generator does not fail on supported formats
-/
namespace Verif.Props
open Verif Verif.Ast Verif.Gen Verif.Inspect Verif.Intervals Verif.Tv Verif.Go Verif.Spec Verif.Wire Verif.Refine Verif.Effects

/-- **C60.** On a supported format (`FmtRuns`) the generator of test vectors returns no error and does not panic,
whatever the random source, the order of map traversals, the growth of slices, and the selection. (It may still
not return: structs may contain themselves, and draws may be unlucky.) -/
theorem C60_never_fails {E : Tv.Env} (hsel : Selects E) {nm : String → String} {ext : Go.Ext} {fs : List File}
    (hc : FilesCompatible fs) {O F : String → Prop} (hg : FmtRuns (fmtOf nm ext fs) O F) (fuel : Nat) (seed : E.R.σ) :
    (∀ e, generateFiles E fuel seed fs ≠ .err e) ∧ ∀ m, generateFiles E fuel seed fs ≠ .panic m := by
  have := generateFiles_fine (T := True) hsel (.inr trivial) hc hg (fun _ => 0) (.inr trivial) fuel (.inr trivial) seed
  constructor
  · intro e h; rw [h] at this; exact this
  · intro e h; rw [h] at this; exact this

/-- A number above those of a list. -/
theorem exists_above {α : Type} (f : α → Nat) (l : List α) : ∃ N, ∀ a ∈ l, f a < N := by
  induction l with
  | nil => exact ⟨0, by simp⟩
  | cons a l ih =>
    obtain ⟨N, h⟩ := ih
    refine ⟨max N (f a + 1), ?_⟩
    intro b hb
    rcases List.mem_cons.1 hb with rfl | hb
    · omega
    · have := h b hb; omega

/-- **C60.** If moreover no struct contains itself, and every draw from a set of integers ends, the generator
returns a corpus: there is a bound on the depth of calls that depends on the format only. -/
theorem C60_succeeds {E : Tv.Env} (hsel : Selects E) (ha : Answers E) {nm : String → String} {ext : Go.Ext} {fs : List File}
    (hc : FilesCompatible fs) {O F : String → Prop} (hg : FmtRuns (fmtOf nm ext fs) O F) (hac : Acyclic (fmtOf nm ext fs)) :
    ∃ N, ∀ fuel, N ≤ fuel → ∀ seed : E.R.σ, ∃ corpus, generateFiles E fuel seed fs = .ok corpus := by
  obtain ⟨rank, hr⟩ := hac
  obtain ⟨N, hN⟩ := exists_above (fun s : Struct => rank s.name) (fs.flatMap (·.structs))
  refine ⟨N, fun fuel hf seed => ?_⟩
  have := generateFiles_fine (T := False) hsel (.inl ha) hc hg rank (.inl hr) fuel
    (.inl fun s hs => Nat.lt_of_lt_of_le (hN s hs) hf) seed
  revert this
  cases generateFiles E fuel seed fs with
  | ok c => exact fun _ => ⟨c, rfl⟩
  | err e => exact fun h => h.elim
  | panic m => exact fun h => h.elim
  | timeout => exact fun h => h.elim

/-- **C60** with C40, C41, C57 and C58: for a supported format in the class of C40 and C41, the generator
returns a corpus, with a suite for each struct; each vector is accepted by the generated parser, each union case
that does not fail is shown by a vector, and the tests of structs without contexts pass — as far as vectors are
shorter than the bound. -/
theorem C60_corpus {E : Tv.Env} (hkeep : Keeps E) (ha : Answers E) {nm : String → String} {ext : Go.Ext}
    {ord : IterOrder} {fs : List File} {p : Prog} (hp : marshallers nm ord fs = .ok p) (hok : FilesOK nm ext fs)
    (hc : FilesCompatible fs) (hord : OrdOK (fmtOf nm ext fs)) {R F : String → Prop} (hr : FmtRuns (fmtOf nm ext fs) R F)
    (hac : Acyclic (fmtOf nm ext fs)) {B : Nat} {C O : String → Prop} (hg : FmtGen (fmtOf nm ext fs) B C O)
    {G : Glob} (hcov : FmtCov (fmtOf nm ext fs) G) (hx : FmtCtx (fmtOf nm ext fs)) {A : Nat} (hA : 2 ^ 32 ≤ A + 1) (hA' : A < 2 ^ 63) :
    ∃ N, ∀ fuel, N ≤ fuel → ∀ seed : E.R.σ, ∃ corpus, generateFiles E fuel seed fs = .ok corpus ∧
      corpus.map (·.type) = ((fs.flatMap (·.structs)).filter (fun s => !s.extern)).map (·.name) ∧
      (∀ t ∈ corpus, ∃ s, (fmtOf nm ext fs).structs t.type = some s ∧ s.extern = false ∧
        (∀ v ∈ t.vectors, v.data.length < B → ∀ hid, ∃ ctx val, CtxOK (fmtOf nm ext fs) ctx ∧
          Meets (fmtOf nm ext fs) ctx v.cst ∧ Accepts p ext A (nm t.type) (ctxArgs s ctx) v.data hid val []) ∧
        ∀ u, .union u ∈ s.ms → ∀ c, Leaf.fail ∉ c.members → (∃ x, selectCase (fmtOf nm ext fs).K u.cases x = some c) →
          ∀ hid, ∃ v ∈ t.vectors, v.data.length < B → ∃ ctx rec x, CtxOK (fmtOf nm ext fs) ctx ∧
            Meets (fmtOf nm ext fs) ctx v.cst ∧
            Accepts p ext A (nm t.type) (ctxArgs s ctx) v.data hid (.obj (nm t.type) rec) [] ∧
            refVal (fmtOf nm ext fs) ctx rec u.tag = some x ∧ selectCase (fmtOf nm ext fs).K u.cases x = some c) ∧
      ((∀ s ∈ fs.flatMap (·.structs), s.contexts = []) →
        ∀ f ∈ corpusTests nm corpus, (∀ d ∈ f.cases, d.length < B) → Passes p ext A f) := by
  have hsel := hkeep.selects
  obtain ⟨N, hN⟩ := C60_succeeds hsel ha hc hr hac
  refine ⟨N, fun fuel hf seed => ?_⟩
  obtain ⟨corpus, h⟩ := hN fuel hf seed
  refine ⟨corpus, h, C58_suites h, ?_, ?_⟩
  · intro t ht
    obtain ⟨s, hs, he, -⟩ := C41_covered_partial hkeep h hok hg hcov ht
    refine ⟨s, hs, he, ?_, ?_⟩
    · intro v hv hB hid
      obtain ⟨ctx, s', val, h1, h2, h3, _, h4⟩ := C40_usable_partial hsel hp hok hord h hg hx ht hv hB hA hA' hid
      rw [hs] at h3
      cases h3
      exact ⟨ctx, val, h1, h2, h4⟩
    · intro u hu c hcf hcs hid
      obtain ⟨s', hs', _, h'⟩ := C41_parsed_partial hkeep hp hok hord h hg hcov hx ht hA hA' hid
      rw [hs] at hs'
      cases hs'
      exact h' u hu c hcf hcs
  · intro hn
    exact C57_tests_pass_partial hsel hp hok hord h hg hA hA' (fun t _ _ _ s hs => hn s (fmtOf_struct_mem hs).1)

/-! ## Deciding the class -/

instance (K : String → Option Int) (l : IntegerList) : Decidable (ListRuns K l) := by
  unfold ListRuns; infer_instance

instance (Γ : Fmt) : (b : Base) → Decidable (BaseRuns Γ b)
  | .int t => inferInstanceAs (Decidable (∀ l, t.constraint = some l → ListRuns Γ.K l))
  | .char => .isTrue trivial
  | .struct n => inferInstanceAs (Decidable (∃ s, Γ.structs n = some s ∧ s.extern = false))

section
variable (Γ : Fmt) (O F : String → Prop) [DecidablePred O] [DecidablePred F]

instance : (b : Base) → Decidable (ElemRuns Γ O F b)
  | .int t => decidable_of_iff (BaseRuns Γ (.int t)) ⟨fun h => ⟨h, by intro n e; cases e⟩, fun h => h.1⟩
  | .char => .isTrue ⟨trivial, by intro n e; cases e⟩
  | .struct n => decidable_of_iff (BaseRuns Γ (.struct n) ∧ (O n ∨ F n))
      ⟨fun h => ⟨h.1, by intro k e; cases e; exact h.2⟩, fun h => ⟨h.1, h.2 n rfl⟩⟩

instance : (t : Ty) → Decidable (TyRuns Γ O F t)
  | .base b => inferInstanceAs (Decidable (BaseRuns Γ b))
  | .ptr => .isTrue trivial
  | .nulterm => .isTrue trivial
  | .fixedArray b n => decidable_of_iff (ElemRuns Γ O F b ∧ (ival Γ.K n).isSome = true)
      (and_congr_right fun _ => Option.isSome_iff_exists)
  | .varArray b (some (.idRef _)) => inferInstanceAs (Decidable (ElemRuns Γ O F b))
  | .varArray b none => inferInstanceAs (Decidable (ElemRuns Γ O F b))
  | .varArray _ (some (.leftover _)) => .isFalse id

instance : (l : Leaf) → Decidable (LeafRuns Γ O F l)
  | .field f => inferInstanceAs (Decidable (TyRuns Γ O F f.type))
  | .eos => .isTrue trivial
  | .ignore => .isTrue trivial
  | .fail => .isTrue trivial

/-- The integer type of a reference. -/
def refType (s : Struct) (r : IDRef) : Option IntType :=
  let first (fs : List Field) : Option IntType := match fs.find? (fun f => f.name = r.name) with
    | some ⟨_, .base (.int t)⟩ => some t
    | _ => none
  if r.scope = "" then first (topFields s) else (Γ.contexts r.scope).bind (fun C => first C.members)

/-- Values next to those listed. -/
def nearby (K : String → Option Int) (cs : List UnionCase) : List Nat :=
  0 :: cs.flatMap (fun c => match c.case with
    | some l => l.ranges.flatMap (fun r => match bounds K r with
      | some p => [p.1.toNat, (p.2 + 1).toNat]
      | none => [])
    | none => [])

/-- Checking `DefaultRuns`. -/
def defaultB (K : String → Option Int) (cs : List UnionCase) (n : Nat) : Bool :=
  cs.all (fun c => c.case.isSome) ||
    ((nearby K cs).any (fun x => decide (x < 2 ^ n ∧ ∀ c ∈ cs, ∀ l, c.case = some l → listHas K l x = false)) &&
     (decide (n < 64) || (nearby K cs).any (fun y => decide (y < 2 ^ 64 ∧ ∃ c ∈ cs, ∃ l, c.case = some l ∧ listHas K l y = true))))

/-- Checking `MemberRuns`. -/
def memberRunsB (s : Struct) : Member → Bool
  | .leaf l => decide (LeafRuns Γ O F l)
  | .union u => (match refType Γ s u.tag with
      | some t => decide (t.size ≤ 64) && defaultB Γ.K u.cases t.size
      | none => false) && (match u.length with | some (.leftover _) => false | _ => true) &&
      decide (∀ c ∈ u.cases, ∀ l, c.case = some l → ListRuns Γ.K l) &&
      decide (∀ c ∈ u.cases, ∀ l ∈ c.members, LeafRuns Γ O F l)

instance : (m : Member) → Decidable (OneM O m)
  | .leaf (.field f) => decidable_of_iff (∀ b ∈ tyBases f.type, ∀ n, baseName b = some n → O n)
      ⟨fun h n hn => h _ hn n rfl, fun h b hb n e => by cases b <;> cases e; exact h n hb⟩
  | .leaf .ignore => .isFalse id
  | .leaf .eos => .isTrue trivial
  | .leaf .fail => .isTrue trivial
  | .union _ => .isFalse id

/-- The field that gives the number of elements. -/
def countRef : Ty → Option IDRef
  | .varArray _ (some (.idRef r)) => some r
  | _ => none

instance : (l : Leaf) → Decidable (FreeLeaf F l)
  | .field f => decidable_of_iff ((∀ b ∈ tyBases f.type, ∀ n, baseName b = some n → F n) ∧
        ∀ r, countRef f.type = some r → r.scope = "")
      ⟨fun h => ⟨fun n hn => h.1 _ hn n rfl, fun b r e => h.2 r (by rw [e]; rfl)⟩,
       fun h => ⟨fun b hb n e => by cases b <;> cases e; exact h.1 n hb, fun r e => by
        cases ht : f.type with
        | varArray b c => cases c with
          | none => rw [ht] at e; cases e
          | some c => cases c with
            | leftover _ => rw [ht] at e; cases e
            | idRef r' => rw [ht] at e; cases e; exact h.2 b _ ht
        | _ => rw [ht] at e; cases e⟩⟩
  | .eos => .isTrue trivial
  | .ignore => .isTrue trivial
  | .fail => .isTrue trivial

/-- The field that gives a length. -/
def lenRef : Option LengthConstraint → Option IDRef
  | some (.idRef r) => some r
  | _ => none

instance : (m : Member) → Decidable (FreeM F m)
  | .leaf l => inferInstanceAs (Decidable (FreeLeaf F l))
  | .union u => decidable_of_iff (u.tag.scope = "" ∧ (∀ r, lenRef u.length = some r → r.scope = "") ∧
        ∀ c ∈ u.cases, ∀ l ∈ c.members, FreeLeaf F l)
      ⟨fun h => ⟨h.1, fun r e => h.2.1 r (by rw [e]; rfl), h.2.2⟩,
       fun h => ⟨h.1, fun r e => by
        cases hl : u.length with
        | none => rw [hl] at e; cases e
        | some c => cases c with
          | leftover _ => rw [hl] at e; cases e
          | idRef r' => rw [hl] at e; cases e; exact h.2.1 _ hl, h.2.2⟩⟩
end

section
variable {Γ : Fmt} {O F : String → Prop} [DecidablePred O] [DecidablePred F]

theorem refType_sound {s : Struct} {r : IDRef} {t : IntType} (h : refType Γ s r = some t) : RefInt Γ s r t := by
  have first : ∀ fs : List Field, (match fs.find? (fun f => f.name = r.name) with
      | some ⟨_, .base (.int t)⟩ => some t
      | _ => none) = some t → FirstInt r.name fs t := by
    intro fs h
    split at h
    · rename_i n t' hf
      cases h
      exact ⟨_, hf, rfl⟩
    · cases h
  unfold refType at h
  unfold RefInt
  split at h
  · rename_i hs
    rw [if_pos hs]
    exact first _ h
  · rename_i hs
    rw [if_neg hs]
    obtain ⟨C, hC, h⟩ := Option.bind_eq_some_iff.1 h
    exact ⟨C, hC, first _ h⟩

theorem defaultB_sound {K : String → Option Int} {cs : List UnionCase} {n : Nat} (h : defaultB K cs n = true) :
    DefaultRuns K cs n := by
  rintro ⟨c, hc, e⟩
  unfold defaultB at h
  rw [Bool.or_eq_true] at h
  rcases h with h | h
  · have := List.all_eq_true.1 h c hc
    rw [e] at this
    cases this
  · rw [Bool.and_eq_true, Bool.or_eq_true] at h
    obtain ⟨h1, h2⟩ := h
    constructor
    · obtain ⟨x, _, h1⟩ := List.any_eq_true.1 h1
      exact ⟨x, of_decide_eq_true h1⟩
    · rcases h2 with h2 | h2
      · have h2 : n < 64 := of_decide_eq_true h2
        exact ⟨2 ^ n, Nat.pow_lt_pow_right (by decide) h2, .inl (Nat.le_refl _)⟩
      · obtain ⟨y, _, h2⟩ := List.any_eq_true.1 h2
        obtain ⟨h2, h3⟩ := of_decide_eq_true h2
        exact ⟨y, h2, .inr h3⟩

theorem memberRunsB_sound {s : Struct} {m : Member} (h : memberRunsB Γ O F s m = true) : MemberRuns Γ O F s m := by
  cases m with
  | leaf l =>
    simp only [memberRunsB, decide_eq_true_eq] at h
    exact h
  | union u =>
    simp only [memberRunsB, Bool.and_eq_true, decide_eq_true_eq] at h
    obtain ⟨⟨⟨h1, h2⟩, h3⟩, h4⟩ := h
    refine ⟨?_, ?_, h3, h4⟩
    · cases ht : refType Γ s u.tag with
      | none => rw [ht] at h1; cases h1
      | some t =>
        rw [ht] at h1
        simp only [Bool.and_eq_true, decide_eq_true_eq] at h1
        exact ⟨t, refType_sound ht, h1.1, defaultB_sound h1.2⟩
    · intro i hi
      rw [hi] at h2
      cases h2

end

/-- What has to be evaluated to show a format supported: `os` are structs with one shape only, `us` structs that refer
to no contexts. -/
theorem FmtRuns.of_check {nm : String → String} {ext : Ext} {fs : List File} (os us : List String)
    (ho : ∀ s ∈ fs.flatMap (·.structs), s.name ∈ os → s.extern = false → s.ms ≠ [] ∧ ∀ m ∈ s.ms, OneM (· ∈ os) m)
    (hf : ∀ s ∈ fs.flatMap (·.structs), s.name ∈ us → s.extern = false → s.ms ≠ [] ∧ ∀ m ∈ s.ms, FreeM (· ∈ us) m)
    (hs : ∀ s ∈ fs.flatMap (·.structs), s.extern = false →
      s.ms.all (memberRunsB (fmtOf nm ext fs) (· ∈ os) (· ∈ us) s) = true) :
    FmtRuns (fmtOf nm ext fs) (· ∈ os) (· ∈ us) := by
  refine ⟨?_, ?_, ?_⟩
  · intro n s hn h he
    obtain ⟨h1, rfl⟩ := fmtOf_struct_mem h
    exact ho s h1 hn he
  · intro n s hn h he
    obtain ⟨h1, rfl⟩ := fmtOf_struct_mem h
    exact hf s h1 hn he
  · intro n s h he m hm
    exact memberRunsB_sound (List.all_eq_true.1 (hs s (fmtOf_struct_mem h).1 he) m hm)

/-! ## Sources that answer -/

/-- The random source of a test that needs no randomness: always zero. -/
def zeroSrc : RandSrc where
  σ := Unit
  int63 := fun s => (0, s)
  intn := fun _ s => (0, s)
  read := fun n s => (List.replicate n 0, s)
  int63_lt := fun _ => by show (0 : UInt64).toNat < 2 ^ 63; decide
  intn_lt := fun _ _ h => h
  read_length := fun n _ => by simp

theorem randLoop_mono {R : RandSrc} {n m : UInt64} : ∀ {k k' : Nat} {st : R.σ} {p : UInt64 × R.σ},
    randLoop R n m k st = some p → k ≤ k' → randLoop R n m k' st = some p := by
  intro k
  induction k with
  | zero => intro k' st p h; cases h
  | succ k ih =>
    intro k' st p h hk
    obtain ⟨k', rfl⟩ : ∃ j, k' = j + 1 := ⟨k' - 1, by omega⟩
    simp only [randLoop] at h ⊢
    split at h
    · rename_i hc
      rw [if_pos hc]
      exact h
    · rename_i hc
      rw [if_neg hc]
      exact ih h (by omega)

theorem random_mono {R : RandSrc} {s : Set} {k k' : Nat} {st : R.σ} {p : Res UInt64 × R.σ} (h : s.random R k st = some p)
    (hk : k ≤ k') : s.random R k' st = some p := by
  unfold Set.random at h ⊢
  split
  · rename_i hc
    rw [if_pos hc] at h
    exact h
  · rename_i hc
    rw [if_neg hc] at h
    unfold randuint64n at h ⊢
    cases hl : randLoop R (total 0 s.intervals) (randMask (total 0 s.intervals)) k st with
    | none => rw [hl] at h; cases h
    | some q => rw [hl] at h; rw [randLoop_mono hl hk]; exact h

/-- A source answers if from any state one of its next words, within the bound, is 0 (any set has an element, so
smaller words are accepted; for most sets many others are). -/
theorem answers_of_zero {E : Tv.Env} (h : ∀ st, ∃ k < E.draws, (randuint64 E.R (wordState E.R st k)).1 = 0) : Answers E := by
  intro s st hc hne hf
  obtain ⟨k, hk, hz⟩ := h st
  have hcard : 0 < card s.intervals := by
    obtain ⟨h1, h2⟩ := (canonical_iff _).1 hc
    cases hs : s.intervals with
    | nil => exact (hne hs).elim
    | cons i l => simp only [card]; omega
  obtain ⟨o, st', h⟩ := C08_random_terminates_partial E.R s hc hne hf st k (by rw [hz]; exact hcard)
  rw [random_mono h hk]
  simp

/-- The example environment with this source. -/
def zeroEnv : Tv.Env := { exEnv with R := zeroSrc, draws := 1 }

theorem zeroEnv_answers : Answers zeroEnv := answers_of_zero (fun st => ⟨0, by decide, by
  show (randuint64 zeroSrc ()).1 = 0
  decide⟩)

theorem zeroEnv_keeps : Keeps zeroEnv := fun _ _ => List.Perm.refl _

/-! ## Formats in the class -/

theorem tvFile_compatible : FilesCompatible [tvFile] := by decide +kernel

theorem tvFile_runs : FmtRuns (fmtOf exNm exExt [tvFile]) (· ∈ ["name"]) (· ∈ []) := by
  refine FmtRuns.of_check _ _ ?_ ?_ ?_ <;> decide +kernel

theorem tvFile_acyclic : Acyclic (fmtOf exNm exExt [tvFile]) :=
  Acyclic.of_check (fun n => if n = "msg" then 1 else 0) (by decide +kernel)

/-- The example format is supported: the generator returns a corpus, whatever the seed, given a source that
answers. -/
example (E : Tv.Env) (hsel : Selects E) (ha : Answers E) : ∃ N, ∀ fuel, N ≤ fuel → ∀ seed : E.R.σ,
    ∃ corpus, generateFiles E fuel seed [tvFile] = .ok corpus :=
  C60_succeeds hsel ha tvFile_compatible tvFile_runs tvFile_acyclic

example : ∃ N, ∀ fuel, N ≤ fuel → ∃ corpus, generateFiles zeroEnv fuel () [tvFile] = .ok corpus ∧
    corpus.map (·.type) = ["name", "msg"] := by
  obtain ⟨N, h⟩ := C60_corpus (A := 2 ^ 32) zeroEnv_keeps zeroEnv_answers tvFile_gen.gen tvFile_gen.ok tvFile_compatible
    (OrdOK.of_check (by decide +kernel)) tvFile_runs tvFile_acyclic tvFile_class tvFile_cov
    (by refine FmtCtx.of_check ?_ ?_ <;> decide +kernel) (by decide) (by decide)
  refine ⟨N, fun fuel hf => ?_⟩
  obtain ⟨corpus, h1, h2, _⟩ := h fuel hf ()
  exact ⟨corpus, h1, h2⟩

/-- An array of structs with unions is supported if these refer to no contexts (but see C40: vectors may be
wrong). -/
example (E : Tv.Env) (hsel : Selects E) (fuel : Nat) (seed : E.R.σ) :
    (∀ e, generateFiles E fuel seed badShare ≠ .err e) ∧ ∀ m, generateFiles E fuel seed badShare ≠ .panic m :=
  C60_never_fails (nm := exNm) (ext := exExt) (O := (· ∈ [])) (F := (· ∈ ["e"])) hsel
    (by decide +kernel)
    (by refine FmtRuns.of_check _ _ ?_ ?_ ?_ <;> decide +kernel) fuel seed

/-! ## Formats outside the class

Well-formed formats, for which parsers are generated, and on which the generator of test vectors fails. -/

/-- The format is well-formed, and the generator of vectors fails. -/
def FailsWith (fs : List File) (o : Out Corpus) : Prop :=
  (∃ p ctx, Generated exNm exExt idOrder fs p ctx) ∧ generateFiles exEnv 5 (0 : Nat) fs = o

theorem FailsWith.of_check {fs : List File} {o : Out Corpus} (hm : (marshallers exNm idOrder fs).isOk = true)
    (h1 : ∀ s ∈ fs.flatMap (·.structs), s.extern = false → StructOK (fmtOf exNm exExt fs) s)
    (h2 : (fs.flatMap (fun f => (typeNames f).map exNm)).Nodup)
    (h3 : ∀ s ∈ fs.flatMap (·.structs), s.extern = true → (fmtOf exNm exExt fs).structs s.name = some s →
      exNm s.name ∉ fs.flatMap (fun f => (typeNames f).map exNm))
    (h : generateFiles exEnv 5 (0 : Nat) fs = o) : FailsWith fs o := by
  obtain ⟨ctx, hx⟩ := ctxOK_zero (fmtOf exNm exExt fs)
  exact ⟨⟨_, ctx, marshallers_emitted hm, FilesOK.of_check h1 h2 h3, hx⟩, h⟩

/-- `struct t { u8 x[..-2]; u16 y; }` -/
def failRest : List File := tvStructs [⟨"t", [], some [.leaf (.field ⟨"x", tvBytes (.leftover (.literal 2))⟩), .leaf (uF "y" 16)]⟩]

/-- Arrays up to a distance from the end are not implemented (tv/generator.go:253). -/
theorem C60_leftover : FailsWith failRest (.err .notImplemented) := by
  refine FailsWith.of_check ?_ ?_ ?_ ?_ ?_ <;> decide +kernel

/-- `struct t { u8 tag; union u [tag] with length ..-2 { 1: u8 a; } u16 y; }` -/
def failRestUnion : List File := tvStructs [⟨"t", [], some [.leaf (uF "tag" 8), .union ⟨"u", ⟨"", "tag"⟩, some (.leftover (.literal 2)),
   [⟨some ⟨[tvLit 1]⟩, [uF "a" 8]⟩]⟩, .leaf (uF "y" 16)]⟩]

/-- Nor are unions (tv/generator.go:313). -/
theorem C60_leftover_union : FailsWith failRestUnion (.err .notImplemented) := by
  refine FailsWith.of_check ?_ ?_ ?_ ?_ ?_ <;> decide +kernel

/-- `extern struct e; struct t { struct e x; }` -/
def failExtern : List File := tvStructs [⟨"e", [], none⟩, ⟨"t", [], some [.leaf (.field ⟨"x", .base (.struct "e")⟩)]⟩]

/-- Extern structs have no vectors, nor have structs that contain them, nor any other struct of the format. -/
theorem C60_extern : FailsWith failExtern (.err (.other "struct is external")) := by
  refine FailsWith.of_check ?_ ?_ ?_ ?_ ?_ <;> decide +kernel

/-- `struct t { u8 tag; union u [tag] { 0..255: u8 a; default: fail; } }` -/
def failDefault : List File := tvStructs [⟨"t", [], some [.leaf (uF "tag" 8), .union ⟨"u", ⟨"", "tag"⟩, none,
   [⟨some ⟨[⟨.literal 0, some (.literal 255)⟩]⟩, [uF "a" 8]⟩, ⟨none, [.fail]⟩]⟩]⟩]

/-- If no values are left for the default case, a value is drawn from the empty set. -/
theorem C60_empty_default : FailsWith failDefault (.panic "empty set") := by
  refine FailsWith.of_check ?_ ?_ ?_ ?_ ?_ <;> decide +kernel

/-- `struct t { u8 x IN [1..5, 3]; }` -/
def failOverlap : List File := tvStructs [⟨"t", [], some [.leaf (.field ⟨"x", .base (.int ⟨8, some ⟨[⟨.literal 1, some (.literal 5)⟩, tvLit 3]⟩⟩)⟩)]⟩]

/-- Ranges in a list must not overlap. -/
theorem C60_overlap : FailsWith failOverlap (.err (.other "overlapping intervals")) := by
  refine FailsWith.of_check ?_ ?_ ?_ ?_ ?_ <;> decide +kernel

/-- `struct t { u8 x IN [5..1]; }` -/
def failReversed : List File := tvStructs [⟨"t", [], some [.leaf (.field ⟨"x", .base (.int ⟨8, some ⟨[⟨.literal 5, some (.literal 1)⟩]⟩⟩)⟩)]⟩]

/-- Ranges must not be reversed. -/
theorem C60_reversed : FailsWith failReversed (.panic "bad range") := by
  refine FailsWith.of_check ?_ ?_ ?_ ?_ ?_ <;> decide +kernel

/-- `context c { u8 k; } struct e with context c { union u [c.k] { 1: u8 a; 2: u16 b; } }
struct t with context c { struct e x[2]; }` -/
def failArray : List File := [{ constants := [], contexts := [⟨"c", [⟨"k", tvU 8⟩]⟩], pragmas := [], structs :=
  [⟨"e", ["c"], some [.union ⟨"u", ⟨"c", "k"⟩, none,
     [⟨some ⟨[tvLit 1]⟩, [uF "a" 8]⟩, ⟨some ⟨[tvLit 2]⟩, [uF "b" 16]⟩]⟩]⟩,
   ⟨"t", ["c"], some [.leaf (.field ⟨"x", .fixedArray (.struct "e") (.literal 2)⟩)]⟩] }]

/-- Elements of an array that depend on a context value in different ways cannot be combined: the value for the
last shape of the first element is kept for the second element, which is then combined with all shapes of the
first (tv/generator.go:261-265). -/
theorem C60_context_array : FailsWith failArray (.err (.other "conflicting constraint")) := by
  refine FailsWith.of_check ?_ ?_ ?_ ?_ ?_ <;> decide +kernel

/-- `struct t { char tag; union u [tag] { 1: u8 a; } }` -/
def failChar : List File := tvStructs [⟨"t", [], some [.leaf (.field ⟨"tag", .base .char⟩), .union ⟨"u", ⟨"", "tag"⟩, none,
   [⟨some ⟨[tvLit 1]⟩, [uF "a" 8]⟩]⟩]⟩]

/-- A tag of type `char` is accepted by the generator of parsers, not by the generator of vectors. -/
theorem C60_char_tag : FailsWith failChar (.err (.other "referenced field does not have integer type")) := by
  refine FailsWith.of_check ?_ ?_ ?_ ?_ ?_ <;> decide +kernel

/-- `struct t { u64 tag; union u [tag] { default: u8 a; } }` -/
def failFull : List File := tvStructs [⟨"t", [], some [.leaf (uF "tag" 64), .union ⟨"u", ⟨"", "tag"⟩, none,
   [⟨none, [uF "a" 8]⟩]⟩]⟩]

/-- Its struct. -/
def fullStruct : Struct := ⟨"t", [], some [.leaf (uF "tag" 64), .union ⟨"u", ⟨"", "tag"⟩, none, [⟨none, [uF "a" 8]⟩]⟩]⟩

/-- A default case for all values of a `u64`: the generator never returns, whatever the source of random numbers,
the number of draws and the depth of calls. -/
theorem C60_full_default (E : Tv.Env) (fuel : Nat) (seed : E.R.σ) : generateFiles E fuel seed failFull = .timeout := by
  obtain ⟨r, hr, h1, h2, h3⟩ := (C11_multi_file E.order failFull).1 (by decide +kernel)
  have hk : Knows (fmtOf exNm exExt failFull) r := ⟨by funext n; exact h3 n, by funext n; exact h2 n, by funext n; exact h1 n⟩
  have hset : Intervals.intType 64 = .ok ⟨[⟨0, 0xFFFFFFFFFFFFFFFF⟩]⟩ := by decide +kernel
  have hbr : newBranches r fullStruct ⟨"u", ⟨"", "tag"⟩, none, [⟨none, [uF "a" 8]⟩]⟩ =
      .ok [⟨⟨[⟨0, 0xFFFFFFFFFFFFFFFF⟩]⟩, ⟨none, [uF "a" 8]⟩⟩] := by
    have ht : r.intType ⟨"", "tag"⟩ fullStruct = .ok ⟨64, none⟩ := intType_ref hk (by
      unfold RefInt
      rw [if_pos rfl]
      exact ⟨⟨"tag", tvU 64⟩, rfl, rfl⟩)
    unfold newBranches
    rw [ht]
    simp only [Bind.bind, Res.bind, hset, branchLoop, Pure.pure]
    rfl
  have hstr : ∀ st : St E, st.WF → st.cur < st.maps.length → (∀ c k, st.env st.cur c k = none) →
      Post True (fun _ _ => False) (Tv.structure_ (E := E) r fuel fullStruct st) := by
    intro st hw hc hempty
    cases fuel with
    | zero => trivial
    | succ fuel =>
      unfold Tv.structure_
      refine Post.bind (P := fun c st1 => st.cur = c ∧ st = st1) ⟨rfl, rfl⟩ ?_
      rintro _ _ ⟨rfl, rfl⟩
      refine Post.bind (cloneGlobalRef_post hw) (fun g st1 g1 => ?_)
      refine Post.bind (P := fun _ st2 => SameMaps st1 st2) ⟨rfl, rfl⟩ (fun d st2 g2 => ?_)
      refine Post.bind (P := fun _ _ => False) ?_ (fun _ _ h => h.elim)
      refine Post.bind (P := fun _ _ => False) ?_ (fun _ _ h => h.elim)
      refine Post.bind (P := fun _ st3 => { st2 with cur := g } = st3) rfl ?_
      rintro _ _ rfl
      refine Post.bind (P := fun _ _ => False) ?_ (fun _ _ h => h.elim)
      show Post True (fun _ _ => False) (genUnion r _ fullStruct ⟨"u", ⟨"", "tag"⟩, none, [⟨none, [uF "a" 8]⟩]⟩ { st2 with cur := g })
      unfold genUnion
      refine Post.bind (P := fun a st3 => _ = a ∧ { st2 with cur := g } = st3) (Post.res hbr ⟨rfl, rfl⟩) ?_
      rintro _ _ ⟨rfl, rfl⟩
      refine Post.bind (P := fun c st3 => g = c ∧ { st2 with cur := g } = st3) ⟨rfl, rfl⟩ ?_
      rintro _ _ ⟨rfl, rfl⟩
      refine Post.bind (P := fun c st3 => st2.map g = c ∧ { st2 with cur := g } = st3) ⟨rfl, rfl⟩ ?_
      rintro _ _ ⟨rfl, rfl⟩
      have hn : (st2.map g).lookupRef ⟨"", "tag"⟩ = none := by
        show st2.env g "" "tag" = none
        rw [g2.env, g1.env]
        simp [globals]
      rw [hn]
      refine Post.bind (P := fun _ st3 => st3.WF) ((cloneRef_post (st := { st2 with cur := g }) (g2.wf g1.wf)).mono
        (fun _ _ h => h.wf)) (fun base st3 hw3 => ?_)
      refine Post.bind (P := fun _ _ => False) ?_ (fun _ _ h => h.elim)
      unfold branchesLoop
      refine Post.bind (P := fun _ _ => True) ((cloneRef_post hw3).mono (fun _ _ _ => trivial)) (fun c st4 _ => ?_)
      refine Post.bind (P := fun _ _ => True) trivial (fun c st4 _ => ?_)
      refine Post.bind (P := fun _ _ => False) ?_ (fun _ _ h => h.elim)
      unfold randomIn
      rw [C08_random_full_hangs E.R _ hset]
      trivial
  have hs : Post True (fun _ _ => False) (suites (E := E) r fuel [fullStruct] (St.init seed)) := by
    unfold suites
    rw [if_neg (by decide)]
    refine Post.bind (P := fun c st1 => st1 = { St.init seed with maps := [.empty] } ∧ c = 0) ⟨rfl, rfl⟩ ?_
    rintro _ _ ⟨rfl, rfl⟩
    refine Post.bind (P := fun _ st2 => { St.init seed with maps := [.empty], cur := 0 } = st2) rfl ?_
    rintro _ _ rfl
    refine Post.bind (hstr _ ?_ (by simp) ?_) (fun _ _ h => h.elim)
    · intro c hc
      cases List.mem_singleton.1 hc
      exact Cst.wf_empty
    · intro c k
      rfl
  unfold generateFiles
  rw [hr]
  simp only [show failFull.flatMap (·.structs) = [fullStruct] from rfl]
  revert hs
  cases suites (E := E) r fuel [fullStruct] (St.init seed) with
  | ok p => exact fun h => h.elim
  | err e => exact fun h => h.elim
  | panic m => exact fun h => h.elim
  | timeout => exact fun _ => rfl

end Verif.Props
