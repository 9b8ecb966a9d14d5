import Verif.Props.TestText
import Verif.Props.EndToEnd
import Verif.Props.Effects
import Verif.Props.TvRuns
/-!
# C63: a run of the build command

All layers put together: the bytes of the files named on the command line, the files written, what they are when read by Go's rules,
and what the programs so read do.
-/
set_option linter.unusedVariables false
namespace Verif.Props
open Verif Verif.Ast Verif.Go Verif.Go.Read Verif.Syntax Verif.Gen Verif.Wire Verif.Spec Verif.Inspect Verif.Refine Verif.Tv Verif.Effects

/-- Read, with nesting as deep as needed. -/
def ReadsAs {α : Type} (f : Nat → List Char → Option α) (t : List Char) (x : α) : Prop := ∃ F, ∀ n, F ≤ n → f n t = some x

/-- Formatting and adjusting imports does not change what the text is: assumed of `imports.Process`. -/
def Faithful (process : List Char → Except String Effects.Bytes) : Prop :=
  ∀ t b, process t = .ok b → ∃ t', b = Peg.utf8 t' ∧ (∀ x, ReadsAs readGo t x → ReadsAs readGo t' x) ∧
    (∀ x, ReadsAs readTests t x → ReadsAs readTests t' x) ∧ (∀ x, ReadsAs readFuzz t x → ReadsAs readFuzz t' x) ∧
    buildLines t' = buildLines t

/-- The command is given names of files that can be read and parsed, and names can be printed. -/
structure Run (S : Sys) (cfg : Config) (read : String → Except String Effects.Bytes) (parser : Effects.Bytes → Except String File)
    (names : List String) (srcs : List Effects.Bytes) (fs : List File) : Prop where
  named : names ≠ []
  read : names.map read = srcs.map .ok
  parser : ∀ b f, parser b = .ok f ↔ Parses b f
  parsed : ParsesAll srcs fs
  pkg : GoIdent cfg.pkg
  texts : ∀ f ∈ fs, TextNames S.nm f
  process : Faithful S.process

/-- A file holds a text with a property. -/
def Holds (w : World) (p : Path) (P : List Char → Prop) : Prop := ∃ t, w.fs.files p = some (Peg.utf8 t) ∧ P t

/-- The path of a vector. -/
def vectorFile (S : Sys) (cfg : Config) (s : Suite) (v : Tv.Vector) : Path :=
  cfg.dir ++ ["testdata", "fuzz", s.type, "corpus", S.namer v.data]

section
variable {S : Sys} {cfg : Config} {read : String → Except String Effects.Bytes} {parser : Effects.Bytes → Except String File}
  {names : List String} {srcs : List Effects.Bytes} {fs : List File} {w w' : World}

theorem files_map (hp : ∀ b f, parser b = .ok f ↔ Parses b f) (h : ParsesAll srcs fs) (hr : names.map read = srcs.map .ok) :
    names.map (parseFile read parser) = fs.map .ok := by
  induction h generalizing names with
  | nil => simpa using hr
  | cons hb _ ih =>
    cases names with
    | nil => simp at hr
    | cons n ns =>
      simp only [List.map_cons, List.cons.injEq] at hr
      rw [List.map_cons, List.map_cons, ih hr.2]
      simp only [parseFile, hr.1, (hp _ _).2 hb]

theorem Run.build_eq (R : Run S cfg read parser names srcs fs) (w : World) :
    build S cfg (parseFile read parser) names w = package S cfg fs w :=
  C54_build_runs S cfg _ names fs w R.named (files_map R.parser R.parsed R.read)

theorem package_ok (h : package S cfg fs w = (.ok, w')) :
    (packagePlan S cfg fs).2 = .ok ∧ w'.fs = (packagePlan S cfg fs).1.foldl FS.apply w.fs := by
  rcases C44_plan S cfg fs w with ⟨-, h'⟩ | ⟨_, _, _, _, m, _, _, _, h'⟩
  · rw [h] at h'
    injection h' with h1 h2
    exact ⟨h1.symm, by rw [h2]⟩
  · rw [h] at h'; injection h' with h1; cases h1

theorem not_vector {x : String} {s : Suite} {v : Tv.Vector} :
    cfg.dir ++ [x] ≠ vectorPath S.namer (cfg.dir ++ ["testdata", "fuzz"]) s v := by
  intro h
  have := congrArg List.length h
  simp [vectorPath] at this

theorem not_same {x y : String} (h : x ≠ y) : cfg.dir ++ [x] ≠ cfg.dir ++ [y] := by simpa using h

/-- The files after a successful run. -/
theorem package_files (h : package S cfg fs w = (.ok, w')) :
    ∃ t b, GenText.marshallers cfg.pkg S.nm S.E.order fs = .ok t ∧ S.process t = .ok b ∧
      w'.fs.files (cfg.dir ++ ["gen-marshallers.go"]) = some b ∧
      ((generateFiles S.E S.fuel S.seed fs = .err .notImplemented ∧
          ∀ q, q ≠ cfg.dir ++ ["gen-marshallers.go"] → w'.fs.files q = w.fs.files q) ∨
       ∃ c b1 b2, generateFiles S.E S.fuel S.seed fs = .ok c ∧
         S.process (GenText.corpusTests cfg.pkg S.nm c) = .ok b1 ∧ S.process (GenText.fuzzers cfg.pkg S.nm c) = .ok b2 ∧
         w'.fs.files (cfg.dir ++ ["gen-marshallers_test.go"]) = some b1 ∧ w'.fs.files (cfg.dir ++ ["gen-fuzz.go"]) = some b2 ∧
         (NoCollision S.namer c → ∀ s ∈ c, ∀ v ∈ s.vectors, w'.fs.files (vectorFile S cfg s v) = some v.data) ∧
         ∀ q, q ≠ cfg.dir ++ ["gen-marshallers.go"] → q ≠ cfg.dir ++ ["gen-marshallers_test.go"] → q ≠ cfg.dir ++ ["gen-fuzz.go"] →
           (∀ s ∈ c, ∀ v ∈ s.vectors, q ≠ vectorFile S cfg s v) → w'.fs.files q = w.fs.files q) := by
  obtain ⟨h1, h2⟩ := package_ok h
  rw [h2]
  clear h h2
  revert h1
  unfold packagePlan
  cases hm : GenText.marshallers cfg.pkg S.nm S.E.order fs with
  | err m => intro h; cases h
  | panic m => intro h; cases h
  | ok t =>
    simp only
    cases hb : S.process t with
    | error m => intro h; cases h
    | ok b =>
      simp only
      cases hg : generateFiles S.E S.fuel S.seed fs with
      | panic m => intro h; cases h
      | timeout => intro h; cases h
      | err e =>
        cases e with
        | other m => intro h; cases h
        | notImplemented =>
          intro _
          refine ⟨t, b, rfl, hb, ?_, .inl ⟨rfl, ?_⟩⟩
          · simp [FS.apply, FS.put]
          · intro q hq
            simp [FS.apply, FS.put, hq]
      | ok c =>
        simp only
        cases ht : S.process (GenText.corpusTests cfg.pkg S.nm c) with
        | error m => intro h; cases h
        | ok b1 =>
          simp only
          cases hf : S.process (GenText.fuzzers cfg.pkg S.nm c) with
          | error m => intro h; cases h
          | ok b2 =>
            intro _
            have hmem : ∀ q x, Op.write q x ∈ Op.write (cfg.dir ++ ["gen-marshallers.go"]) b ::
                corpusOps S.namer (cfg.dir ++ ["testdata", "fuzz"]) c ++
                [Op.write (cfg.dir ++ ["gen-marshallers_test.go"]) b1, Op.write (cfg.dir ++ ["gen-fuzz.go"]) b2] ↔
                (q = cfg.dir ++ ["gen-marshallers.go"] ∧ x = b) ∨
                (∃ s ∈ c, ∃ v ∈ s.vectors, q = vectorPath S.namer (cfg.dir ++ ["testdata", "fuzz"]) s v ∧ x = v.data) ∨
                (q = cfg.dir ++ ["gen-marshallers_test.go"] ∧ x = b1) ∨ (q = cfg.dir ++ ["gen-fuzz.go"] ∧ x = b2) := by
              intro q x
              rw [List.cons_append, List.mem_cons, List.mem_append, mem_corpusOps]
              simp
            have hvf : ∀ s v, vectorFile S cfg s v = vectorPath S.namer (cfg.dir ++ ["testdata", "fuzz"]) s v := by
              intro s v; simp [vectorFile, vectorPath]
            refine ⟨t, b, rfl, hb, ?_, .inr ⟨c, b1, b2, rfl, ht, hf, ?_, ?_, ?_, ?_⟩⟩
            · apply foldl_files_written
              · intro x hx
                rcases (hmem _ _).1 hx with h | ⟨s, _, v, _, h, _⟩ | h | h
                · exact h.2
                · exact absurd h not_vector
                · exact absurd h.1 (not_same (by decide))
                · exact absurd h.1 (not_same (by decide))
              · exact ⟨b, (hmem _ _).2 (.inl ⟨rfl, rfl⟩)⟩
            · apply foldl_files_written
              · intro x hx
                rcases (hmem _ _).1 hx with h | ⟨s, _, v, _, h, _⟩ | h | h
                · exact absurd h.1 (not_same (by decide))
                · exact absurd h not_vector
                · exact h.2
                · exact absurd h.1 (not_same (by decide))
              · exact ⟨b1, (hmem _ _).2 (.inr (.inr (.inl ⟨rfl, rfl⟩)))⟩
            · apply foldl_files_written
              · intro x hx
                rcases (hmem _ _).1 hx with h | ⟨s, _, v, _, h, _⟩ | h | h
                · exact absurd h.1 (not_same (by decide))
                · exact absurd h not_vector
                · exact absurd h.1 (not_same (by decide))
                · exact h.2
              · exact ⟨b2, (hmem _ _).2 (.inr (.inr (.inr ⟨rfl, rfl⟩)))⟩
            · intro hc s hs v hv
              rw [hvf]
              apply foldl_files_written
              · intro x hx
                rcases (hmem _ _).1 hx with h | ⟨s', hs', v', hv', h, hx⟩ | h | h
                · exact absurd h.1.symm not_vector
                · rw [hx]
                  exact (hc s hs v hv s' hs' v' hv' (vectorPath_inj h).2).symm
                · exact absurd h.1.symm not_vector
                · exact absurd h.1.symm not_vector
              · exact ⟨_, (hmem _ _).2 (.inr (.inl ⟨s, hs, v, hv, rfl, rfl⟩))⟩
            · intro q q1 q2 q3 q4
              apply foldl_files_unchanged
              rintro p x hx rfl
              rcases (hmem _ _).1 hx with h | ⟨s, hs, v, hv, h, _⟩ | h | h
              · exact q1 h.1
              · exact q4 s hs v hv (by rw [hvf]; exact h)
              · exact q2 h.1
              · exact q3 h.1

/-- What was written is the program. -/
theorem run_program (R : Run S cfg read parser names srcs fs)
    (h : build S cfg (parseFile read parser) names w = (.ok, w')) :
    FilesCompatible fs ∧ Resolved fs ∧ ∃ p, Gen.marshallers S.nm S.E.order fs = .ok p ∧
      Holds w' (cfg.dir ++ ["gen-marshallers.go"]) fun t => ReadsAs readGo t (cfg.pkg, p) := by
  rw [R.build_eq] at h
  obtain ⟨t, b, ht, hb, hf, -⟩ := package_files h
  obtain ⟨o1, o2, -⟩ := C61_outcome (pkg := cfg.pkg) (nm := S.nm) (ord := S.E.order) R.parsed
  have hcomp : FilesCompatible fs := by
    by_contra hc
    obtain ⟨m, hm⟩ := o1 hc
    rw [ht] at hm; cases hm
  have hres : Resolved fs := by
    by_contra hr
    obtain ⟨m, hm⟩ := o2 hcomp hr
    rw [ht] at hm; cases hm
  refine ⟨hcomp, hres, ?_⟩
  obtain ⟨p, hm⟩ := (marshallers_outcome (nm := S.nm) S.E.order (parserShape_of_good R.parsed.good) hcomp).1 hres
  obtain ⟨t', ht', hr⟩ := C59_text_reads R.pkg R.parsed.good R.texts hm
  rw [ht] at ht'
  cases ht'
  obtain ⟨t', rfl, h1, -⟩ := R.process t b hb
  exact ⟨p, hm, t', hf, h1 _ hr⟩

/-- The program and the corpus, with everything that was written. -/
theorem run_files (R : Run S cfg read parser names srcs fs)
    (h : build S cfg (parseFile read parser) names w = (.ok, w')) :
    (generateFiles S.E S.fuel S.seed fs = .err .notImplemented ∧
      ∀ q, q ≠ cfg.dir ++ ["gen-marshallers.go"] → w'.fs.files q = w.fs.files q) ∨
    ∃ c, generateFiles S.E S.fuel S.seed fs = .ok c ∧
      Holds w' (cfg.dir ++ ["gen-marshallers_test.go"]) (fun t => ReadsAs readTests t (cfg.pkg, corpusTests S.nm c) ∧
        buildLines t = []) ∧
      Holds w' (cfg.dir ++ ["gen-fuzz.go"]) (fun t => ReadsAs readFuzz t (cfg.pkg, fuzzers S.nm c) ∧
        buildLines t = ["gofuzz".toList]) ∧
      (NoCollision S.namer c → ∀ s ∈ c, ∀ v ∈ s.vectors, w'.fs.files (vectorFile S cfg s v) = some v.data) ∧
      ∀ q, q ≠ cfg.dir ++ ["gen-marshallers.go"] → q ≠ cfg.dir ++ ["gen-marshallers_test.go"] → q ≠ cfg.dir ++ ["gen-fuzz.go"] →
        (∀ s ∈ c, ∀ v ∈ s.vectors, q ≠ vectorFile S cfg s v) → w'.fs.files q = w.fs.files q := by
  rw [R.build_eq] at h
  obtain ⟨t, b, ht, hb, hf, hn | ⟨c, b1, b2, hg, hb1, hb2, hf1, hf2, hv, hq⟩⟩ := package_files h
  · exact .inl hn
  · refine .inr ⟨c, hg, ?_, ?_, hv, hq⟩
    · obtain ⟨t', rfl, -, h1, -, h2⟩ := R.process _ b1 hb1
      obtain ⟨h3, h4⟩ := C62_tests_read R.pkg (corpus_types hg R.texts)
      exact ⟨t', hf1, h1 _ h3, h2.trans h4⟩
    · obtain ⟨t', rfl, -, -, h1, h2⟩ := R.process _ b2 hb2
      obtain ⟨h3, h4⟩ := C62_fuzz_read R.pkg (corpus_types hg R.texts)
      exact ⟨t', hf2, h1 _ h3, h2.trans h4⟩

/-- **C63.** If the command succeeds, the sources do not conflict and declare what they use; the file of marshallers holds
a Go program; and either vectors are not implemented for the format and no other file was touched, or the test file holds the test
functions of the corpus, the fuzz file its fuzzing functions and the tag under which it is built, each vector is stored in the
file named by its hash (if hashes tell vectors apart), and no other file was touched. -/
theorem C63_files (R : Run S cfg read parser names srcs fs) (h : build S cfg (parseFile read parser) names w = (.ok, w')) :
    FilesCompatible fs ∧ Resolved fs ∧
    (∃ p, Holds w' (cfg.dir ++ ["gen-marshallers.go"]) fun t => ReadsAs readGo t (cfg.pkg, p)) ∧
    ((generateFiles S.E S.fuel S.seed fs = .err .notImplemented ∧
      ∀ q, q ≠ cfg.dir ++ ["gen-marshallers.go"] → w'.fs.files q = w.fs.files q) ∨
    ∃ c, generateFiles S.E S.fuel S.seed fs = .ok c ∧
      Holds w' (cfg.dir ++ ["gen-marshallers_test.go"]) (fun t => ReadsAs readTests t (cfg.pkg, corpusTests S.nm c) ∧
        buildLines t = []) ∧
      Holds w' (cfg.dir ++ ["gen-fuzz.go"]) (fun t => ReadsAs readFuzz t (cfg.pkg, fuzzers S.nm c) ∧
        buildLines t = ["gofuzz".toList]) ∧
      (NoCollision S.namer c → ∀ s ∈ c, ∀ v ∈ s.vectors, w'.fs.files (vectorFile S cfg s v) = some v.data) ∧
      ∀ q, q ≠ cfg.dir ++ ["gen-marshallers.go"] → q ≠ cfg.dir ++ ["gen-marshallers_test.go"] → q ≠ cfg.dir ++ ["gen-fuzz.go"] →
        (∀ s ∈ c, ∀ v ∈ s.vectors, q ≠ vectorFile S cfg s v) → w'.fs.files q = w.fs.files q) := by
  obtain ⟨h1, h2, p, -, h3⟩ := run_program R h
  exact ⟨h1, h2, ⟨p, h3⟩, run_files R h⟩

/-- **C63.** If the command succeeds on well-formed sources, the program in the file of marshallers accepts exactly the encodings the
sources describe. -/
theorem C63_accepts (R : Run S cfg read parser names srcs fs) (h : build S cfg (parseFile read parser) names w = (.ok, w'))
    {ext : Go.Ext} (hok : FilesOK S.nm ext fs) (hord : OrdOK (fmtOf S.nm ext fs)) :
    ∃ p, Holds w' (cfg.dir ++ ["gen-marshallers.go"]) (fun t => ReadsAs readGo t (cfg.pkg, p)) ∧
      ∀ ctx, CtxOK (fmtOf S.nm ext fs) ctx → ∀ n s, (fmtOf S.nm ext fs).structs n = some s →
      ∀ d hid : Wire.Bytes, d.length < 2 ^ 63 → ∀ A, A < 2 ^ 63 → ∀ v r, Fits A v →
        (Accepts p ext A (S.nm n) (ctxArgs s ctx) d hid v r ↔ Enc (fmtOf S.nm ext fs) ctx n v d r) := by
  obtain ⟨h1, h2, p, hm, h3⟩ := run_program R h
  refine ⟨p, h3, fun ctx hctx n s hs d hid hd A hA v r hv => ?_⟩
  have G : Generated S.nm ext S.E.order fs p ctx := ⟨hm, hok, hctx⟩
  exact ⟨fun h => (parse_sound G hord hs hd h).1, fun h => parse_complete G hord hA hs hid hd hv h⟩

/-- **C63.** If moreover the format is in the class of C57 and has no contexts, the tests in the test file pass when run with the
program in the file of marshallers, and the fuzzing functions in the fuzz file tell encodings from other data. -/
theorem C63_tests (R : Run S cfg read parser names srcs fs) (h : build S cfg (parseFile read parser) names w = (.ok, w'))
    {ext : Go.Ext} (hok : FilesOK S.nm ext fs) (hord : OrdOK (fmtOf S.nm ext fs)) (hsel : Selects S.E) {B : Nat} {C O : String → Prop}
    (hg : FmtGen (fmtOf S.nm ext fs) B C O) {A : Nat} (hA : 2 ^ 32 ≤ A + 1) (hA' : A < 2 ^ 63)
    (hc : ∀ s ∈ fs.flatMap (·.structs), s.contexts = []) (himpl : generateFiles S.E S.fuel S.seed fs ≠ .err .notImplemented) :
    ∃ p ts zs, Holds w' (cfg.dir ++ ["gen-marshallers.go"]) (fun t => ReadsAs readGo t (cfg.pkg, p)) ∧
      Holds w' (cfg.dir ++ ["gen-marshallers_test.go"]) (fun t => ReadsAs readTests t (cfg.pkg, ts)) ∧
      Holds w' (cfg.dir ++ ["gen-fuzz.go"]) (fun t => ReadsAs readFuzz t (cfg.pkg, zs)) ∧
      (∀ t ∈ ts, (∀ d ∈ t.cases, d.length < B) → Passes p ext A t) ∧
      ∀ z ∈ zs, ∃ n s, (fmtOf S.nm ext fs).structs n = some s ∧ s.extern = false ∧
        z = ⟨"Fuzz" ++ S.nm n, "Parse" ++ S.nm n⟩ ∧ ∀ ctx, CtxOK (fmtOf S.nm ext fs) ctx → ∀ d : Wire.Bytes, d.length < 2 ^ 63 →
          ((∃ fuel, runFuzz ⟨p, ext, A⟩ fuel z d = .ret 1) → ∃ v r, Enc (fmtOf S.nm ext fs) ctx n v d r) ∧
          (∀ v r, Fits A v → Enc (fmtOf S.nm ext fs) ctx n v d r → ∃ fuel, runFuzz ⟨p, ext, A⟩ fuel z d = .ret 1) := by
  obtain ⟨h1, h2, p, hm, h3⟩ := run_program R h
  rcases run_files R h with ⟨hn, -⟩ | ⟨c, hgen, ⟨t1, a1, a2, -⟩, ⟨t2, b1, b2, -⟩, -⟩
  · exact absurd hn himpl
  · refine ⟨p, _, _, h3, ⟨t1, a1, a2⟩, ⟨t2, b1, b2⟩, ?_, ?_⟩
    · exact C57_tests_pass_partial hsel hm hok hord hgen hg hA hA' (fun t _ _ _ s hs => hc s (fmtOf_struct_mem hs).1)
    · intro z hz
      obtain ⟨t, ht, rfl⟩ : ∃ t ∈ c, z = ⟨"Fuzz" ++ S.nm t.type, "Parse" ++ S.nm t.type⟩ := by
        clear hgen a2 b2
        induction c with
        | nil => cases hz
        | cons t c ih =>
          simp only [fuzzers] at hz
          split at hz
          · obtain ⟨t', h1, h2⟩ := ih hz
            exact ⟨t', List.mem_cons_of_mem _ h1, h2⟩
          · rcases List.mem_cons.1 hz with rfl | hz
            · exact ⟨t, List.mem_cons_self .., rfl⟩
            · obtain ⟨t', h1, h2⟩ := ih hz
              exact ⟨t', List.mem_cons_of_mem _ h1, h2⟩
      have hty : t.type ∈ c.map (·.type) := List.mem_map.2 ⟨t, ht, rfl⟩
      rw [C58_suites hgen] at hty
      obtain ⟨s, hs, he⟩ := List.mem_map.1 hty
      obtain ⟨hs, hx⟩ := List.mem_filter.1 hs
      have hx : s.extern = false := by simpa using hx
      have hstr : (fmtOf S.nm ext fs).structs t.type = some s := by rw [← he]; exact defined_struct h1 hs hx
      refine ⟨t.type, s, hstr, hx, rfl, fun ctx hctx d hd => ?_⟩
      have := C57_fuzz (A := A) hm hok hord hstr hx (hc s hs) hd hctx
      exact ⟨this.1, fun v r hv he => this.2.1 v r hA' hv he⟩

/-- **C63.** If the sources do not conflict and declare what they use, the generator of vectors supports the format, and formatting
and file operations do not fail, then, given enough depth of calls, the command succeeds and tests are generated. -/
theorem C63_succeeds (R : Run S cfg read parser names srcs fs) (hcomp : FilesCompatible fs) (hres : Resolved fs)
    (hsel : Selects S.E) (ha : Answers S.E) {ext : Go.Ext} {O F : String → Prop} (hr : FmtRuns (fmtOf S.nm ext fs) O F)
    (hac : Acyclic (fmtOf S.nm ext fs)) (hp : ∀ t, ∃ b, S.process t = .ok b) (ho : ∀ i, S.orc i = none) :
    ∃ N, ∀ fuel, N ≤ fuel → (∀ e, generateFiles S.E fuel S.seed fs ≠ .err e) ∧ ∀ w,
      (build { S with fuel := fuel } cfg (parseFile read parser) names w).1 = .ok := by
  obtain ⟨N, hN⟩ := C60_succeeds hsel ha hcomp hr hac
  refine ⟨N, fun fuel hf => ?_⟩
  obtain ⟨c, hc⟩ := hN fuel hf S.seed
  refine ⟨fun e he => by rw [hc] at he; (cases he), fun w => ?_⟩
  have R' : Run { S with fuel := fuel } cfg read parser names srcs fs := ⟨R.named, R.read, R.parser, R.parsed, R.pkg, R.texts, R.process⟩
  rw [R'.build_eq]
  obtain ⟨t, ht⟩ := (C61_outcome (pkg := cfg.pkg) (nm := S.nm) (ord := S.E.order) R.parsed).2.2 hcomp hres
  obtain ⟨b, hb⟩ := hp t
  obtain ⟨b1, hb1⟩ := hp (GenText.corpusTests cfg.pkg S.nm c)
  obtain ⟨b2, hb2⟩ := hp (GenText.fuzzers cfg.pkg S.nm c)
  have hplan : (packagePlan { S with fuel := fuel } cfg fs).2 = .ok := by
    unfold packagePlan
    simp only [ht, hb, hc, hb1, hb2]
  rcases C44_plan { S with fuel := fuel } cfg fs w with ⟨-, h⟩ | ⟨_, _, _, f, m, _, _, hf, h⟩
  · rw [h]; exact hplan
  · exact absurd hf (by show S.orc _ ≠ some f; rw [ho]; simp)
end

/-! ### Example -/

/-- The parser. -/
noncomputable def theParser (b : Effects.Bytes) : Except String File :=
  match Peg.outcome (Peg.decode b) with
  | .ok f => .ok f
  | _ => .error "parse error"

theorem theParser_iff (b : Effects.Bytes) (f : File) : theParser b = .ok f ↔ Parses b f := by
  rw [parses_outcome]
  unfold theParser
  cases Peg.outcome (Peg.decode b) <;> simp

/-- Writing the text as it is printed. -/
def plainly (t : List Char) : Except String Effects.Bytes := .ok (Peg.utf8 t)

theorem plainly_faithful : Faithful plainly := by
  intro t b h
  cases h
  exact ⟨t, rfl, fun _ h => h, fun _ h => h, fun _ h => h, rfl⟩

/-- A source: an array with its length, and a choice. -/
def runText : List Char := chars! "struct vec { u8 n; u16 a[n]; }\nstruct msg { u8 tag; union u [tag] { 1: u8 a; 2..4: u16 b[2]; }; struct vec v; }"

/-- The declarations in it. -/
def runFile : File := ⟨[], [], [
  ⟨"vec", [], some [.leaf (uF "n" 8), .leaf (.field ⟨"a", .varArray (.int ⟨16, none⟩) (some (.idRef ⟨"", "n"⟩))⟩)]⟩,
  ⟨"msg", [], some [.leaf (uF "tag" 8), .union ⟨"u", ⟨"", "tag"⟩, none,
    [⟨some ⟨[tvLit 1]⟩, [uF "a" 8]⟩, ⟨some ⟨[⟨.literal 2, some (.literal 4)⟩]⟩, [.field ⟨"b", .fixedArray (.int ⟨16, none⟩) (.literal 2)⟩]⟩]⟩,
    .leaf (.field ⟨"v", .base (.struct "vec")⟩)]⟩], []⟩

theorem run_parses : Parses (Peg.utf8 runText) runFile := parsesB_parses (N := 300) (by decide +kernel)

theorem run_names : TextNames exNm runFile := textNames_of (by decide +kernel) (by decide +kernel)

/-- The system of the example: no operation fails. -/
def runSys : Sys := ⟨exNm, plainly, exNamer, zeroEnv, 0, (), fun _ => none⟩

/-- One file can be read. -/
def runRead (n : String) : Except String Effects.Bytes := if n = "run.trunnel" then .ok (Peg.utf8 runText) else .error "no such file"

theorem run_run (fuel : Nat) : Run { runSys with fuel := fuel } ⟨"run", ["out"]⟩ runRead theParser ["run.trunnel"] [Peg.utf8 runText] [runFile] where
  named := by decide
  read := rfl
  parser := theParser_iff
  parsed := .cons run_parses .nil
  pkg := goIdent_of (by decide +kernel)
  texts := List.forall_mem_singleton.2 run_names
  process := plainly_faithful

theorem run_ok : FilesOK exNm exExt [runFile] := by refine FilesOK.of_check ?_ ?_ ?_ <;> decide +kernel

theorem run_class : FmtGen (fmtOf exNm exExt [runFile]) (2 ^ 16) (· ∈ ["vec"]) (· ∈ ["vec"]) := by
  refine FmtGen.of_check 1 _ _ (by decide) ?_ ?_ ?_ ?_ <;> decide +kernel

/-- The command succeeds on the example, and the tests it writes pass. -/
example : ∃ N, ∀ fuel, N ≤ fuel → ∀ w, ∃ w', build { runSys with fuel := fuel } ⟨"run", ["out"]⟩ (parseFile runRead theParser) ["run.trunnel"] w = (.ok, w') ∧
    ∃ p ts, Holds w' ["out", "gen-marshallers.go"] (fun t => ReadsAs readGo t ("run", p)) ∧
      Holds w' ["out", "gen-marshallers_test.go"] (fun t => ReadsAs readTests t ("run", ts)) ∧
      ∀ t ∈ ts, (∀ d ∈ t.cases, d.length < 2 ^ 16) → Passes p exExt (2 ^ 32) t := by
  obtain ⟨N, h⟩ := C63_succeeds (run_run 0) (ext := exExt) (by decide +kernel) (by decide +kernel) zeroEnv_keeps.selects zeroEnv_answers
    (O := (· ∈ ["vec"])) (F := (· ∈ [])) (by refine FmtRuns.of_check _ _ ?_ ?_ ?_ <;> decide +kernel)
    (Acyclic.of_check (fun n => if n = "msg" then 1 else 0) (by decide +kernel)) (fun t => ⟨_, rfl⟩) (fun _ => rfl)
  refine ⟨N, fun fuel hf w => ?_⟩
  obtain ⟨h1, h2⟩ := h fuel hf
  have h2 := h2 w
  refine ⟨(build { runSys with fuel := fuel } ⟨"run", ["out"]⟩ (parseFile runRead theParser) ["run.trunnel"] w).2, Prod.ext h2 rfl, ?_⟩
  obtain ⟨p, ts, zs, a, b, -, c, -⟩ := C63_tests (run_run fuel) (w := w) (Prod.ext h2 rfl) run_ok (OrdOK.of_check (by decide +kernel)) zeroEnv_keeps.selects
    run_class (A := 2 ^ 32) (by decide) (by decide) (by decide +kernel) (h1 _)
  exact ⟨p, ts, a, b, c⟩

end Verif.Props
