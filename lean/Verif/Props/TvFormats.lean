import Verif.TvFormats
import Verif.GoRand
import Verif.Props.Formats
/-!
# Sources whose generated tests pass (C72)

Checks on source bytes, and what is true of the vectors and tests generated for all sources that pass them.
-/
set_option linter.unusedVariables false
namespace Verif.Props
open Verif Verif.Ast Verif.Go Verif.Go.Read Verif.Syntax Verif.Gen Verif.Wire Verif.Spec Verif.Inspect Verif.Refine Verif.Formats
  Verif.Tv Verif.Effects

/-! ## Specification -/

/-- Generation of vectors does not fail, and ends if draws do. There is a suite for each struct. The program accepts each vector, in
some context with the recorded values, and passes each generated test. The selector drops and reorders vectors as it likes. -/
def Passing (p : Prog) (ext : Ext) (nm : String → String) (fs : List File) : Prop :=
  ∀ E : Tv.Env, Selects E →
    (Answers E → ∃ N, ∀ fuel, N ≤ fuel → ∀ seed : E.R.σ, ∃ corpus, generateFiles E fuel seed fs = .ok corpus) ∧
    ∀ fuel (seed : E.R.σ), (∀ e, generateFiles E fuel seed fs ≠ .err e) ∧ (∀ m, generateFiles E fuel seed fs ≠ .panic m) ∧
      ∀ corpus, generateFiles E fuel seed fs = .ok corpus →
        corpus.map (·.type) = ((fs.flatMap (·.structs)).filter fun s => !s.extern).map (·.name) ∧
        ∀ A, 2 ^ 32 ≤ A + 1 → A < 2 ^ 63 →
          (∀ t ∈ corpus, ∃ s, (fmtOf nm ext fs).structs t.type = some s ∧ ∀ v ∈ t.vectors, ∀ hid, ∃ ctx val,
            CtxOK (fmtOf nm ext fs) ctx ∧ Meets (fmtOf nm ext fs) ctx v.cst ∧
              Accepts p ext A (nm t.type) (ctxArgs s ctx) v.data hid val []) ∧
          ∀ f ∈ corpusTests nm corpus, Passes p ext A f

/-- If the selector keeps all vectors: each suite has one, each case of a union that can be parsed is parsed in one, and
there is a test for each struct without contexts and for no others. -/
def Covering (p : Prog) (ext : Ext) (nm : String → String) (fs : List File) : Prop :=
  ∀ E : Tv.Env, Keeps E → ∀ fuel (seed : E.R.σ) corpus, generateFiles E fuel seed fs = .ok corpus →
    (∀ t ∈ corpus, t.vectors ≠ [] ∧ ∃ s, (fmtOf nm ext fs).structs t.type = some s ∧ ∀ u, .union u ∈ s.ms →
      ∀ c, Leaf.fail ∉ c.members → (∃ x, selectCase (fmtOf nm ext fs).K u.cases x = some c) →
        ∀ A, 2 ^ 32 ≤ A + 1 → A < 2 ^ 63 → ∀ hid, ∃ v ∈ t.vectors, ∃ ctx rec x, CtxOK (fmtOf nm ext fs) ctx ∧
          Meets (fmtOf nm ext fs) ctx v.cst ∧ Accepts p ext A (nm t.type) (ctxArgs s ctx) v.data hid (.obj (nm t.type) rec) [] ∧
          refVal (fmtOf nm ext fs) ctx rec u.tag = some x ∧ selectCase (fmtOf nm ext fs).K u.cases x = some c) ∧
    (corpusTests nm corpus).map (·.calls) =
      ((fs.flatMap (·.structs)).filter fun s => !s.extern && s.contexts.isEmpty).map fun s => "Parse" ++ nm s.name

theorem Yields.mono {pkg : String} {nm : String → String} {exts : List (String × List String)} {srcs : List (List UInt8)}
    {P Q : Prog → Ext → (String → String) → List File → Prop} (h : Yields pkg nm exts srcs P)
    (hPQ : ∀ {p ext nm fs}, P p ext nm fs → Q p ext nm fs) : Yields pkg nm exts srcs Q := by
  obtain ⟨fs, hp, h⟩ := h
  refine ⟨fs, hp, fun ord => ?_⟩
  obtain ⟨t, p, h1, h2, h3, h4⟩ := h ord
  exact ⟨t, p, h1, h2, h3, fun ext => hPQ (h4 ext)⟩

/-! ## The checks -/

/-- Check of sources and of the conditions for vectors of fewer than `B` bytes to be accepted. -/
def passingB (N B : Nat) (pkg : String) (nm : String → String) (exts : List (String × List String)) (srcs : List (List UInt8)) : Bool :=
  match parseAll N srcs with
  | some fs => checkedB pkg nm fs && compilesB nm exts fs && returnsB nm fs && runsB nm fs && acceptedB B nm fs && smallB B nm fs &&
      contextsB nm fs
  | none => false

/-- Check also that unions are covered. -/
def coveringB (N B : Nat) (pkg : String) (nm : String → String) (exts : List (String × List String)) (srcs : List (List UInt8)) : Bool :=
  match parseAll N srcs with
  | some fs => checkedB pkg nm fs && compilesB nm exts fs && returnsB nm fs && runsB nm fs && acceptedB B nm fs && smallB B nm fs &&
      contextsB nm fs && coversB nm fs
  | none => false

section
variable {N B : Nat} {pkg : String} {nm : String → String} {exts : List (String × List String)} {srcs : List (List UInt8)}
  {fs : List File} {ext : Ext} {ord : IterOrder} {p : Prog}

theorem passing_of (hm : marshallers nm ord fs = .ok p) (h : Accepted pkg nm ext fs) (hr : Returned nm ext fs)
    (h1 : runsB nm fs = true) (h2 : acceptedB B nm fs = true) (h3 : smallB B nm fs = true) (h4 : contextsB nm fs = true) :
    Passing p ext nm fs := by
  intro E hsel
  have hruns := runsB_sound h1 ext
  have hgen := acceptedB_sound h2 ext
  obtain ⟨hw, hB⟩ := smallB_sound h3 ext
  obtain ⟨hU, hx⟩ := contextsB_sound h.comp h4 ext
  refine ⟨fun ha => C60_succeeds hsel ha h.comp hruns hr.acyclic, fun fuel seed => ?_⟩
  refine ⟨(C60_never_fails hsel h.comp hruns fuel seed).1, (C60_never_fails hsel h.comp hruns fuel seed).2, fun corpus hc => ?_⟩
  refine ⟨C58_suites hc, fun A hA hA' => ⟨fun t ht => ?_, C71_tests_pass hsel hm h.ok h.ord hc hgen hU hw hB hA hA'⟩⟩
  obtain ⟨s, hs, he, e, _⟩ := suite_struct (nm := nm) (ext := ext) h.comp hc ht
  have hs' : (fmtOf nm ext fs).structs t.type = some s := e ▸ defined_struct h.comp hs he
  refine ⟨s, hs', fun v hv hid => ?_⟩
  have hlt : v.data.length < B := Nat.lt_of_le_of_lt (C70_size hsel hc hw t ht v hv) (e ▸ hB s hs he)
  obtain ⟨ctx, s', val, a, b, c, _, d⟩ := C40_usable_partial hsel hm h.ok h.ord hc hgen hx ht hv hlt hA hA' hid
  rw [hs'] at c
  cases c
  exact ⟨ctx, val, a, b, d⟩

theorem covering_of (hm : marshallers nm ord fs = .ok p) (h : Accepted pkg nm ext fs) (h2 : acceptedB B nm fs = true)
    (h3 : smallB B nm fs = true) (h4 : contextsB nm fs = true) (h5 : coversB nm fs = true) : Covering p ext nm fs := by
  intro E hkeep fuel seed corpus hc
  have hgen := acceptedB_sound h2 ext
  obtain ⟨hw, hB⟩ := smallB_sound h3 ext
  obtain ⟨hU, hx⟩ := contextsB_sound h.comp h4 ext
  obtain ⟨hcov, hsome⟩ := coversB_sound h5 ext
  have hne := C71_nonempty hkeep hm h.ok h.ord hc hgen hcov hx hsome
  refine ⟨fun t ht => ⟨hne t ht, ?_⟩, ?_⟩
  · obtain ⟨s, hs, he, e, _⟩ := suite_struct (nm := nm) (ext := ext) h.comp hc ht
    have hs' : (fmtOf nm ext fs).structs t.type = some s := e ▸ defined_struct h.comp hs he
    refine ⟨s, hs', fun u hu c hcf hcs A hA hA' hid => ?_⟩
    obtain ⟨s', hs'', _, h'⟩ := C41_parsed_partial hkeep hm h.ok h.ord hc hgen hcov hx ht hA hA' hid
    rw [hs'] at hs''
    cases hs''
    obtain ⟨v, hv, hq⟩ := h' u hu c hcf hcs
    exact ⟨v, hv, hq (Nat.lt_of_le_of_lt (C70_size hkeep.selects hc hw t ht v hv) (e ▸ hB s hs he))⟩
  · have := congrArg (List.map Prod.snd) (C71_exactly hkeep.selects h.ok hU hc hne).1
    rw [List.map_map, List.map_map, List.map_map] at this
    exact this

/-- **C72.** Sources that pass the first check yield code that passes the tests generated for it. -/
theorem C72_passing (h : passingB N B pkg nm exts srcs = true) :
    Yields pkg nm exts srcs fun p ext nm fs => Decides p ext nm fs ∧ Passing p ext nm fs := by
  simp only [passingB] at h
  split at h
  · next fs hp =>
    simp only [Bool.and_eq_true] at h
    obtain ⟨⟨⟨⟨⟨⟨h1, h2⟩, h3⟩, h4⟩, h5⟩, h6⟩, h7⟩ := h
    have hp := parseAll_parses hp
    have hc := checkedB_sound h1
    exact ⟨fs, hp, fun ord => textRuns_of hp (hc exExt).pkg (hc exExt).names (hc exExt).comp (hc exExt).res fun p hm =>
      ⟨emitted_compiles hm (compilesB_sound h1 h2), fun ext => ⟨decides_of hm (hc ext) (returnsB_sound h3 ext),
        passing_of hm (hc ext) (returnsB_sound h3 ext) h4 h5 h6 h7⟩⟩⟩
  · cases h

/-- **C72.** Sources that pass the second check also yield tests that cover all that can be parsed in unions. -/
theorem C72_covering (h : coveringB N B pkg nm exts srcs = true) :
    Yields pkg nm exts srcs fun p ext nm fs => Decides p ext nm fs ∧ Passing p ext nm fs ∧ Covering p ext nm fs := by
  simp only [coveringB] at h
  split at h
  · next fs hp =>
    simp only [Bool.and_eq_true] at h
    obtain ⟨⟨⟨⟨⟨⟨⟨h1, h2⟩, h3⟩, h4⟩, h5⟩, h6⟩, h7⟩, h8⟩ := h
    have hp := parseAll_parses hp
    have hc := checkedB_sound h1
    exact ⟨fs, hp, fun ord => textRuns_of hp (hc exExt).pkg (hc exExt).names (hc exExt).comp (hc exExt).res fun p hm =>
      ⟨emitted_compiles hm (compilesB_sound h1 h2), fun ext => ⟨decides_of hm (hc ext) (returnsB_sound h3 ext),
        passing_of hm (hc ext) (returnsB_sound h3 ext) h4 h5 h6 h7, covering_of hm (hc ext) h5 h6 h7 h8⟩⟩⟩
  · cases h

end

/-! ## Sources whose generated tests fail -/

/-- A generated test fails where the generator has random numbers from `seed`: it compiles, runs, and ends in a fatal error, in code
without user types. -/
def FailingTest (E : Tv.Env) (seed : E.R.σ) (p : Prog) (nm : String → String) (fs : List File) : Prop :=
  ∃ fuel corpus, generateFiles E fuel seed fs = .ok corpus ∧
    ∃ f ∈ corpusTests nm corpus, ∀ A, 2 ^ 32 ≤ A + 1 → A < 2 ^ 63 → (∀ d ∈ f.cases, d.length ≤ A) →
      ∃ F m, ∀ fuel, F ≤ fuel → runTest ⟨p, exExt, A⟩ fuel f = .fatal m

/-- Vectors are not generated: there is an error instead. -/
def NoVectors (E : Tv.Env) (seed : E.R.σ) (fs : List File) : Prop := ∃ fuel e, generateFiles E fuel seed fs = .err e

theorem runCases_fatal {M : Mach} {fn : String} (hm : ∀ d k k', k ≤ k' →
      callParse M k fn d = .timeout ∨ callParse M k fn d = callParse M k' fn d) : ∀ {ds : List Wire.Bytes},
    (∀ d ∈ ds, ∃ k o e, callParse M k fn d = .done .nil o e) → (∃ d ∈ ds, ∃ k o m, callParse M k fn d = .done .nil o (some m)) →
    ∃ F m, ∀ fuel, F ≤ fuel → runCases M fuel fn ds = .fatal m
  | [], _, h => by obtain ⟨d, hd, _⟩ := h; cases hd
  | d :: ds, h, h' => by
    have up : ∀ {d k o e}, callParse M k fn d = .done .nil o e → ∀ k', k ≤ k' → callParse M k' fn d = .done .nil o e := by
      intro d k o e hk k' hkk
      rcases hm d k k' hkk with h | h
      · rw [hk] at h; cases h
      · rw [← h, hk]
    obtain ⟨k, o, e, hk⟩ := h d List.mem_cons_self
    cases e with
    | some m => exact ⟨k, m, fun fuel hf => by simp only [runCases, up hk fuel hf]⟩
    | none =>
      obtain ⟨F, m, hF⟩ := runCases_fatal hm (ds := ds) (fun d hd => h d (List.mem_cons_of_mem _ hd)) (by
        obtain ⟨d', hd', k', o', m', hk'⟩ := h'
        rcases List.mem_cons.1 hd' with rfl | hd'
        · have := up hk (max k k') (by omega)
          rw [up hk' (max k k') (by omega)] at this
          cases this
        · exact ⟨d', hd', k', o', m', hk'⟩)
      exact ⟨max F k, m, fun fuel hf => by simp only [runCases, up hk fuel (by omega)]; exact hF fuel (by omega)⟩

/-- A random source that answers `Intn` (tv/generator.go:356) from a list, and with 1 after its end. -/
def listSrc : Intervals.RandSrc where
  σ := List Nat × Nat
  int63 := fun s => (UInt64.ofNat (s.2 % 2 ^ 63), (s.1, s.2 + 1))
  intn := fun n s => (s.1.headD 1 % n, (s.1.tail, s.2 + 1))
  read := fun n s => ((List.range n).map (fun i => UInt8.ofNat (s.2 + i)), (s.1, s.2 + 1))
  int63_lt := fun s => counterSrc.int63_lt s.2
  intn_lt := fun n s h => Nat.mod_lt _ h
  read_length := fun n s => by simp

/-- The example environment with this source. -/
def listEnv : Tv.Env := { exEnv with R := listSrc }

theorem listEnv_keeps : Keeps listEnv := fun _ _ => List.Perm.refl _

/-- Check that a test of struct `n` fails. -/
def failingB (N : Nat) (pkg : String) (nm : String → String) (srcs : List (List UInt8)) (E : Tv.Env) (K : Nat) (seed : E.R.σ)
    (n : String) : Bool :=
  match parseAll N srcs with
  | some fs => checkedB pkg nm fs && compilesB nm [] fs && returnsB nm fs && (fs.flatMap (·.contexts)).isEmpty &&
    (match generateFiles E K seed fs, (fmtOf nm exExt fs).structs n with
      | .ok corpus, some s => s.contexts.isEmpty && !s.extern && corpus.any fun t => decide (t.type = n) && !constrained t.vectors &&
          t.vectors.any fun v => match decStruct (fmtOf nm exExt fs) (2 ^ 32) noCtx 200 n v.data with
            | .err _ => decide (v.data.length < 2 ^ 32)
            | _ => false
      | _, _ => false)
  | none => false

/-- Check that there is an error. -/
def noVectorsB (N : Nat) (srcs : List (List UInt8)) (E : Tv.Env) (K : Nat) (seed : E.R.σ) : Bool :=
  match parseAll N srcs with
  | some fs => match generateFiles E K seed fs with
    | .err _ => true
    | _ => false
  | none => false

section
variable {N : Nat} {pkg : String} {nm : String → String} {srcs : List (List UInt8)} {n : String} {E : Tv.Env} {K : Nat} {seed : E.R.σ}

/-- **C72.** Sources that pass this check yield code that fails a test generated for it. -/
theorem C72_failing (h : failingB N pkg nm srcs E K seed n = true) :
    Yields pkg nm [] srcs fun p ext nm fs => Decides p ext nm fs ∧ FailingTest E seed p nm fs := by
  simp only [failingB] at h
  split at h
  · next fs hp =>
    simp only [Bool.and_eq_true] at h
    obtain ⟨⟨⟨⟨h1, h2⟩, h3⟩, hx⟩, h4⟩ := h
    have hp := parseAll_parses hp
    have hc := checkedB_sound h1
    refine ⟨fs, hp, fun ord => textRuns_of hp (hc exExt).pkg (hc exExt).names (hc exExt).comp (hc exExt).res fun p hm =>
      ⟨emitted_compiles hm (compilesB_sound h1 h2), fun ext => ⟨decides_of hm (hc ext) (returnsB_sound h3 ext), ?_⟩⟩⟩
    split at h4
    · next corpus s hg hs =>
      simp only [Bool.and_eq_true, List.any_eq_true, decide_eq_true_eq, Bool.not_eq_true', List.isEmpty_iff] at h4
      obtain ⟨⟨hsc, he⟩, t, ht, ⟨htn, hcon⟩, v, hv, hd⟩ := h4
      subst htn
      have hctx : CtxOK (fmtOf nm exExt fs) noCtx := ctxOK_of_check (by
        intro C hC
        rw [List.isEmpty_iff.1 hx] at hC
        cases hC)
      have G : Generated nm exExt ord fs p noCtx := ⟨hm, (hc exExt).ok, hctx⟩
      have hD := decides_of hm (hc exExt) (returnsB_sound h3 exExt)
      refine ⟨K, corpus, hg, ⟨"Test" ++ nm t.type ++ "Corpus", t.vectors.map (·.data), "Parse" ++ nm t.type⟩,
        ?_, fun A hA hA' hlen => ?_⟩
      · rw [corpusTests_eq]
        exact List.mem_map.2 ⟨t, List.mem_filter.2 ⟨ht, by rw [hcon]; rfl⟩, rfl⟩
      have hE : ExtFits (fmtOf nm exExt fs) A := by
        intro n s hs he args w v k h
        cases h
      have hargs : ctxArgs s noCtx = [] := by simp [ctxArgs, hsc]
      have wraps := fun d k => ctor_wraps (A := A) G hs he d [] k
      rw [hargs] at wraps
      have cases : ∀ d, d.length ≤ A → ∀ hid, (∃ val r, Accepts p exExt A (nm t.type) [] d hid val r) ∨
          ∃ m, Rejects p exExt A (nm t.type) [] d hid m := by
        intro d hd hid
        have := hD noCtx hctx t.type s hs d hid A hA' hA hd hE
        rw [hargs] at this
        by_cases hr : ∃ m, Rejects p exExt A (nm t.type) [] d hid m
        · exact .inr hr
        · rw [this.2] at hr
          push Not at hr
          obtain ⟨val, r, hr⟩ := hr
          exact .inl ⟨val, r, (this.1 val r).2 hr⟩
      have run : ∀ d, (∃ m, Rejects p exExt A (nm t.type) [] d [] m) →
          ∃ k o m, callParse ⟨p, exExt, A⟩ k ("Parse" ++ nm t.type) d = .done .nil o (some m) := by
        rintro d ⟨m, o, _, k, hk⟩
        refine ⟨k, .nil, m, ?_⟩
        rw [callParse_eq]
        have := wraps d k
        rw [hk] at this
        exact this
      refine runCases_fatal ?_ ?_ ?_
      · intro d k k' hk
        rw [callParse_eq, callParse_eq]
        exact runCtor_mono hk _ _ _
      · intro d hd
        rcases cases d (hlen d hd) [] with ⟨val, r, _, _, k, hk⟩ | h
        · refine ⟨k, val, none, ?_⟩
          rw [callParse_eq]
          have := wraps d k
          rw [hk] at this
          exact this
        · obtain ⟨k, o, m, h⟩ := run d h
          exact ⟨k, o, some m, h⟩
      · refine ⟨v.data, List.mem_map.2 ⟨v, hv, rfl⟩, run _ ?_⟩
        cases hdec : decStruct (fmtOf nm exExt fs) (2 ^ 32) noCtx 200 t.type v.data with
        | err m =>
          rw [hdec] at hd
          have hlt : v.data.length < 2 ^ 32 := of_decide_eq_true hd
          have hr := (rejects_iff (A := 2 ^ 32) G hs [] (by omega)).2 ⟨200, hdec⟩
          have hE' : ExtFits (fmtOf nm exExt fs) (2 ^ 32) := by
            intro n s hs he args w v k h
            cases h
          have hno := (hD noCtx hctx t.type s hs v.data [] (2 ^ 32) (by decide) (by decide) (by omega) hE').2.1 ⟨m, hr⟩
          have := (hD noCtx hctx t.type s hs v.data [] A hA' hA (hlen _ (List.mem_map.2 ⟨v, hv, rfl⟩)) hE).2.2 hno
          rw [hargs] at this
          exact this
        | ok q => rw [hdec] at hd; cases hd
        | panic m => rw [hdec] at hd; cases hd
        | timeout => rw [hdec] at hd; cases hd
    · cases h4
  · cases h

/-- **C72.** Sources that pass this check yield no vectors. -/
theorem C72_no_vectors (h : noVectorsB N srcs E K seed = true) :
    ∃ fs, ParsesAll srcs fs ∧ NoVectors E seed fs := by
  simp only [noVectorsB] at h
  split at h
  · next fs hp =>
    refine ⟨fs, parseAll_parses hp, K, ?_⟩
    split at h
    · next e he => exact ⟨e, he⟩
    · cases h
  · cases h

end

end Verif.Props
