import Verif.GenTextOrder
import Verif.Props.TvOrder
import Verif.Props.Build
/-!
# C79: builds are reproducible

Go iterates over maps in an unspecified order, another one in each run. The command writes the same files
with the same contents, in the same order, whatever these orders are.
-/
namespace Verif.Props
open Verif Verif.Ast Verif.Inspect Verif.Tv Verif.Effects

/-- The same system, but maps are iterated over in another order. -/
def anotherOrder (S : Sys) (o : IterOrder) : Sys := { S with E := S.E.withOrder o, seed := S.seed }

/-- C79: the text of the parsers does not depend on the order. -/
theorem C79_marshallers (pkg : String) (nm : String → String) (o o' : IterOrder) (fs : List File) :
    GenText.marshallers pkg nm o fs = GenText.marshallers pkg nm o' fs := by
  have hR := C10_map_order_independent o o' fs
  unfold GenText.marshallers
  cases h1 : newResolverFiles o fs <;> cases h2 : newResolverFiles o' fs <;> rw [h1, h2] at hR <;>
    simp only [SameOutcome] at hR
  · show Res.bind (GenText.fileList _ fs) _ = Res.bind (GenText.fileList _ fs) _
    rw [GenText.fileList_likeRes hR fs]
  · rw [hR]

theorem constrained_sameVectors {vs ws : List Tv.Vector} (h : List.Forall₂ SameVector vs ws) :
    Effects.constrained vs = Effects.constrained ws := by
  induction h with
  | nil => rfl
  | cons a _ ih =>
    simp only [Effects.constrained, List.length_pos_iff, ne_eq, a.2.2, ih]

theorem testCases_same {vs ws : List Tv.Vector} (h : List.Forall₂ SameVector vs ws) :
    GenText.testCases vs = GenText.testCases ws := by
  induction h with
  | nil => rfl
  | cons a _ ih => simp only [GenText.testCases, a.1, ih]

theorem testFuncs_same (nm : String → String) {c d : Corpus} (h : SameCorpus c d) :
    GenText.testFuncs nm c = GenText.testFuncs nm d := by
  unfold SameCorpus at h
  induction h with
  | nil => rfl
  | cons a _ ih =>
    simp only [GenText.testFuncs, GenText.testFunc, a.1, testCases_same a.2, constrained_sameVectors a.2, ih]

theorem fuzzFuncs_same (nm : String → String) {c d : Corpus} (h : SameCorpus c d) :
    GenText.fuzzFuncs nm c = GenText.fuzzFuncs nm d := by
  unfold SameCorpus at h
  induction h with
  | nil => rfl
  | cons a _ ih => simp only [GenText.fuzzFuncs, a.1, constrained_sameVectors a.2, ih]

theorem writeVectors_same (orc : Oracle) (namer : Effects.Bytes → String) (dir : Path) {vs ws : List Tv.Vector}
    (h : List.Forall₂ SameVector vs ws) (k : World → Result × World) :
    writeVectors orc namer dir vs k = writeVectors orc namer dir ws k := by
  induction h with
  | nil => rfl
  | cons a _ ih => simp only [writeVectors, a.1, ih]

theorem writeCorpus_same (orc : Oracle) (namer : Effects.Bytes → String) (base : Path) {c d : Corpus}
    (h : SameCorpus c d) (k : World → Result × World) :
    writeCorpus orc namer base c k = writeCorpus orc namer base d k := by
  unfold SameCorpus at h
  induction h with
  | nil => rfl
  | cons a _ ih => simp only [writeCorpus, a.1, writeVectors_same orc namer _ a.2, ih]

/-- C79: the texts of the tests and of the fuzzers do not depend on the order. -/
theorem C79_tests (pkg : String) (nm : String → String) (E : Env) (o : IterOrder) (fuel : Nat) (seed : E.R.σ)
    (fs : List File) {c d : Corpus} (hc : generateFiles E fuel seed fs = .ok c)
    (hd : generateFiles (E.withOrder o) fuel seed fs = .ok d) :
    GenText.corpusTests pkg nm c = GenText.corpusTests pkg nm d ∧
    GenText.fuzzers pkg nm c = GenText.fuzzers pkg nm d := by
  have h := C42_deterministic E o fuel seed fs
  rw [hc, hd] at h
  exact ⟨by simp only [GenText.corpusTests, testFuncs_same nm h], by simp only [GenText.fuzzers, fuzzFuncs_same nm h]⟩

theorem packageTests_same (S : Sys) (o : IterOrder) (cfg : Config) {c d : Corpus} (h : SameCorpus c d) :
    packageTests S cfg c = packageTests (anotherOrder S o) cfg d := by
  have hf : packageFuzz S cfg c = packageFuzz (anotherOrder S o) cfg d := by
    funext w
    simp only [packageFuzz, anotherOrder, GenText.fuzzers, fuzzFuncs_same S.nm h]
  funext w
  simp only [packageTests, hf]
  simp only [anotherOrder, GenText.corpusTests, testFuncs_same S.nm h]

theorem packageVectors_same (S : Sys) (o : IterOrder) (cfg : Config) (fs : List File) (w : World) :
    packageVectors S cfg fs w = packageVectors (anotherOrder S o) cfg fs w := by
  have h := C42_deterministic S.E o S.fuel S.seed fs
  unfold packageVectors
  have e : generateFiles (anotherOrder S o).E (anotherOrder S o).fuel (anotherOrder S o).seed fs =
      generateFiles (S.E.withOrder o) S.fuel S.seed fs := rfl
  rw [e]
  cases h1 : generateFiles S.E S.fuel S.seed fs with
  | ok c =>
    cases h2 : generateFiles (S.E.withOrder o) S.fuel S.seed fs with
    | ok d =>
      rw [h1, h2] at h
      simp only [packageTests_same S o cfg h, writeCorpus_same S.orc S.namer _ h]
      rfl
    | _ => rw [h1, h2] at h; exact h.elim
  | err e =>
    cases h2 : generateFiles (S.E.withOrder o) S.fuel S.seed fs with
    | err e' => rw [h1, h2] at h; cases h; rfl
    | _ => rw [h1, h2] at h; exact h.elim
  | panic e =>
    cases h2 : generateFiles (S.E.withOrder o) S.fuel S.seed fs with
    | panic e' => rw [h1, h2] at h; cases h; rfl
    | _ => rw [h1, h2] at h; exact h.elim
  | timeout =>
    cases h2 : generateFiles (S.E.withOrder o) S.fuel S.seed fs with
    | timeout => rfl
    | _ => rw [h1, h2] at h; exact h.elim

/-- C79: the command has the same outcome and leaves the same files, having done the same operations in the same
order, whatever order maps are iterated over in. -/
theorem C79_build (S : Sys) (o : IterOrder) (cfg : Config) (file : String → Except String File) (names : List String)
    (w : World) : build S cfg file names w = build (anotherOrder S o) cfg file names w := by
  unfold build
  split
  · rfl
  · cases parseFiles file names with
    | error m => rfl
    | ok fs =>
      have hv : packageVectors S cfg fs = packageVectors (anotherOrder S o) cfg fs :=
        funext (packageVectors_same S o cfg fs)
      simp only [package, hv]
      rw [C79_marshallers cfg.pkg S.nm S.E.order (anotherOrder S o).E.order fs]
      rfl

/-- The constants of a file with two constants, two contexts and two structs, as stored. -/
def storedConstants (r : Res Resolver) : List String :=
  match r with
  | .ok r => r.constants.entries.map (·.1)
  | _ => []

/-- Declarations of several of each kind, one referring to a context. -/
def exTwice : File :=
  { constants := [⟨"A", 1⟩, ⟨"B", 2⟩]
    contexts := exOrderFile.contexts ++ [⟨"d", [⟨"m", .base (.int U8)⟩]⟩]
    structs := exOrderFile.structs ++ [⟨"v", [], some [.leaf (.field ⟨"x", .fixedArray (.int U8) (.constRef "B")⟩)]⟩]
    pragmas := [] }

/-- The two orders do lead to different maps. -/
example : storedConstants (newResolverFiles idOrder [exTwice]) = ["A", "B"] ∧
    storedConstants (newResolverFiles revOrder [exTwice]) = ["B", "A"] := by decide +kernel

/-- Paths of operations, first first. -/
def opPaths (w : World) : List Path :=
  (w.done.map (fun op => match op with | .mkdirAll p => p | .write p _ => p)).reverse

/-- A file system without files. -/
def noFiles : World := ⟨⟨fun _ => none, fun _ => false⟩, []⟩

/-- The command does eight operations on the example, in both orders. -/
example : (opPaths (build exSys ⟨"p", ["out"]⟩ (fun _ => .ok exTwice) ["f"] noFiles).2).map (fun p => p.drop 1 |>.take 4) =
    [["gen-marshallers.go"], ["testdata", "fuzz", "t", "corpus"], ["testdata", "fuzz", "t", "corpus"],
      ["testdata", "fuzz", "t", "corpus"], ["testdata", "fuzz", "v", "corpus"], ["testdata", "fuzz", "v", "corpus"],
      ["gen-marshallers_test.go"], ["gen-fuzz.go"]] := by decide +kernel

example : build exSys ⟨"p", ["out"]⟩ (fun _ => .ok exTwice) ["f"] noFiles =
    build (anotherOrder exSys revOrder) ⟨"p", ["out"]⟩ (fun _ => .ok exTwice) ["f"] noFiles := C79_build ..

end Verif.Props
