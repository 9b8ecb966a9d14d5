import Verif.GoRand
import Verif.Props.GoldenCases
import Verif.Sha256
/-!
# Vectors of the repository compared with the model

With `math/rand` as the source of random numbers, the tests in the repository (golden files of gen/tests and examples, and the vectors written
out in tv/generator_test.go) are byte by byte those of the model.
-/
namespace Verif.Golden
open Verif Verif.Ast Verif.Go.Read Verif.Effects Verif.Tv Verif.Props

set_option maxRecDepth 100000

/-- The tests and fuzzing functions of a directory are those the tool makes of its source (gen/core.go:53-76), with seed 0 (gen/core.go:20,54:
neither cmd/trunnel/trunnel.go:31 nor gen/gen_test.go:51-56 sets another). -/
def Dir.Exact (d : Dir) : Prop := ∃ f fuel c, Parses (Peg.utf8 d.source) f ∧ generateFiles goEnv fuel (seeded 0) [f] = .ok c ∧
  readTests 200 d.tests = some (d.pkg, corpusTests camel c) ∧ readFuzz 200 d.fuzz = some (d.pkg, fuzzers camel c)

/-- The check of `Exact`. -/
def Dir.exactB (d : Dir) : Bool :=
  match Peg.parseBytes 200 (Peg.utf8 d.source) with
  | some (.ok f) =>
    match generateFiles goEnv 30 (seeded 0) [f] with
    | .ok c => decide (readTests 200 d.tests = some (d.pkg, corpusTests camel c)) &&
      decide (readFuzz 200 d.fuzz = some (d.pkg, fuzzers camel c))
    | _ => false
  | _ => false


theorem exact_of {d : Dir} (h : d.exactB = true) : d.Exact := by
  unfold Dir.exactB at h
  split at h
  · next f hp =>
    split at h
    · next c hg =>
      rw [Bool.and_eq_true, decide_eq_true_eq, decide_eq_true_eq] at h
      exact ⟨f, 30, c, parses_of_run hp, hg, h.1, h.2⟩
    · cases h
  · cases h

/-! ## Golden files -/

theorem color_exact : colorGolden.Exact := exact_of (by decide +kernel)

theorem constant_exact : constantGolden.Exact := exact_of (by decide +kernel)

theorem constraint_exact : constraintGolden.Exact := exact_of (by decide +kernel)

theorem contexts_exact : contextsGolden.Exact := exact_of (by decide +kernel)

theorem eos_exact : eosGolden.Exact := exact_of (by decide +kernel)

theorem fixie_exact : fixieGolden.Exact := exact_of (by decide +kernel)

theorem ints_exact : intsGolden.Exact := exact_of (by decide +kernel)

theorem nest_exact : nestGolden.Exact := exact_of (by decide +kernel)

theorem nulterm_exact : nultermGolden.Exact := exact_of (by decide +kernel)

theorem pos_exact : posGolden.Exact := exact_of (by decide +kernel)

theorem rem_exact : remGolden.Exact := exact_of (by decide +kernel)

theorem unionbasic_exact : unionbasicGolden.Exact := exact_of (by decide +kernel)

theorem unioncmds_exact : unioncmdsGolden.Exact := exact_of (by decide +kernel)

theorem unionlen_exact : unionlenGolden.Exact := exact_of (by decide +kernel)

theorem vararray_exact : vararrayGolden.Exact := exact_of (by decide +kernel)

theorem examples_color_exact : examples_colorGolden.Exact := exact_of (by decide +kernel)

theorem examples_date_exact : examples_dateGolden.Exact := exact_of (by decide +kernel)

/-! ## The cases of tv/generator_test.go

Those with a seed: the expected vectors are the ones of the model, with no constraints left in them. -/

/-- What the cases say (tv/generator_test.go:14-20). -/
def Expected (src : List Char) (c : Corpus) : Prop :=
  ∃ f fuel, Parses (Peg.utf8 src) f ∧ generateFiles goEnv fuel (seeded 42) [f] = .ok c

/-- The check of `Expected`. -/
def expectedB (src : List Char) (c : Corpus) : Bool :=
  match Peg.parseBytes 200 (Peg.utf8 src) with
  | some (.ok f) =>
    match generateFiles goEnv 30 (seeded 42) [f] with
    | .ok c' => decide (c' = c)
    | _ => false
  | _ => false

theorem expected_of {src : List Char} {c : Corpus} (h : expectedB src c = true) : Expected src c := by
  unfold expectedB at h
  split at h
  · next f hp =>
    split at h
    · next c' hg =>
      rw [decide_eq_true_eq] at h
      subst h
      exact ⟨f, 30, parses_of_run hp, hg⟩
    · cases h
  · cases h

/-- tv/generator_test.go:22-30. -/
theorem tv_inttype : Expected (List.flatten [
    chars! "struct color { u8 r; u8 g; u8 b; }"])
    [⟨"color", [⟨[0x7f, 0x8c, 0x53], .empty⟩]⟩] := expected_of (by decide +kernel)

/-- tv/generator_test.go:56-72. -/
theorem tv_nestedstruct : Expected (List.flatten [
    chars! "\n",
    chars! "\tstruct color { u8 r; u8 g; u8 b; };\n",
    chars! "\tstruct gradient {\n",
    chars! "\t\tstruct color from;\n",
    chars! "\t\tstruct color to;\n",
    chars! "\t};"])
    [⟨"color", [⟨[0x7f, 0x8c, 0x53], .empty⟩]⟩,
      ⟨"gradient", [⟨[0x97, 0x1b, 0xbf, 0x64, 0xb1, 0x96], .empty⟩]⟩] := expected_of (by decide +kernel)

/-- tv/generator_test.go:74-91. -/
theorem tv_nulterm : Expected (List.flatten [
    chars! "\n",
    chars! "\tstruct nul_term {\n",
    chars! "\t\tu16 pre;\n",
    chars! "\t\tnulterm s;\n",
    chars! "\t\tu8 post;\n",
    chars! "\t};"])
    [⟨"nul_term", [⟨[0x8c, 0x7f, 117, 107, 112, 116, 116, 0, 0x53], .empty⟩]⟩] := expected_of (by decide +kernel)

/-- tv/generator_test.go:165-178. -/
theorem tv_remaining : Expected (List.flatten [
    chars! "struct rem {\n",
    chars! "\t\tu32 head;\n",
    chars! "\t\tu8 tail[];\n",
    chars! "\t};"])
    [⟨"rem", [⟨[0x72, 0xe8, 0x9f, 0x5b, 0xb4, 0x4b, 0x9f, 0xbb, 0x97, 0x1b], .empty⟩]⟩] := expected_of (by decide +kernel)

/-- tv/generator_test.go:189-205. -/
theorem tv_unionbasic : Expected (List.flatten [
    chars! "struct basic {\n",
    chars! "\t\tu8 tag;\n",
    chars! "\t\tunion u[tag] {\n",
    chars! "\t\t\t1: u8 r; u8 g; u8 b;\n",
    chars! "\t\t\t2: u16 y; u8 m; u8 d;\n",
    chars! "\t\t};\n",
    chars! "\t\tu16 right_after_the_union;\n",
    chars! "\t};"])
    [⟨"basic", [⟨[0x01, 0xb1, 0x96, 0x7f, 0x53, 0x8c], .empty⟩, ⟨[0x02, 0x58, 0x08, 0xbf, 0x64, 0x53, 0x8c], .empty⟩]⟩] := expected_of (by decide +kernel)

/-- tv/generator_test.go:234-255. -/
theorem tv_uniondefault : Expected (List.flatten [
    chars! "struct basic {\n",
    chars! "\t\tu8 tag;\n",
    chars! "\t\tunion u[tag] {\n",
    chars! "\t\t\t1:\n",
    chars! "\t\t\t\tu32 a;\n",
    chars! "\t\t\tdefault:\n",
    chars! "\t\t\t\tu8 ukn[];\n",
    chars! "\t\t};\n",
    chars! "\t};"])
    [⟨"basic", [⟨[0x01, 0x09, 0xdd, 0x9d, 0x52], .empty⟩, ⟨[0xc4, 0xbc, 0x75, 0xd3, 0x61, 0x3f, 0x08, 0x58, 0x07, 0x9b, 0x70, 0xe0, 0xcb, 0x1a, 0x84, 0x9b, 0xd7, 0xdf], .empty⟩]⟩] := expected_of (by decide +kernel)

/-- tv/generator_test.go:275-295. -/
theorem tv_unioncommands : Expected (List.flatten [
    chars! "struct basic {\n",
    chars! "\t\tu8 tag;\n",
    chars! "\t\tunion u[tag] {\n",
    chars! "\t\t\t1: u32 a;\n",
    chars! "\t\t\t2..4: ; // empty\n",
    chars! "\t\t\t5: ignore;\n",
    chars! "\t\t\tdefault: fail;\n",
    chars! "\t\t};\n",
    chars! "\t};"])
    [⟨"basic", [⟨[0x01, 0x09, 0xdd, 0x9d, 0x52], .empty⟩, ⟨[0x02], .empty⟩, ⟨[0x05], .empty⟩, ⟨[0x05, 0xdf, 0xd7, 0x9b, 0x13, 0xdd, 0x1a, 0xac], .empty⟩]⟩] := expected_of (by decide +kernel)

/-- tv/generator_test.go:297-313. -/
theorem tv_ptr : Expected (List.flatten [
    chars! "struct haspos {\n",
    chars! "\t\tnulterm s;\n",
    chars! "\t\t@ptr pos1;\n",
    chars! "\t\tu32 after;\n",
    chars! "\t};"])
    [⟨"haspos", [⟨[117, 107, 112, 116, 116, 0, 0x53, 0x8c, 0x7f, 0x96], .empty⟩]⟩] := expected_of (by decide +kernel)

/-- tv/generator_test.go:315-326. -/
theorem tv_eos : Expected (List.flatten [
    chars! "struct haseos {\n",
    chars! "\t\tu8 r;\n",
    chars! "\t\tu8 g;\n",
    chars! "\t\tu8 b;\n",
    chars! "\t\teos;\n",
    chars! "\t};"])
    [⟨"haseos", [⟨[0x7f, 0x8c, 0x53], .empty⟩]⟩] := expected_of (by decide +kernel)

/-- tv/generator_test.go:328-332. -/
theorem tv_externstruct : Expected (List.flatten [
    chars! "extern struct ext;"])
    [] := expected_of (by decide +kernel)

/-- tv/generator_test.go:173-180. -/
theorem tv_leftover : (match Peg.parseBytes 200 (Peg.utf8 (List.flatten [
    chars! "struct leftover {\n",
    chars! "\t\tu32 head[2];\n",
    chars! "\t\tu32 mid[..-8];\n",
    chars! "\t\tu32 tail[2];\n",
    chars! "\t};"])) with
    | some (.ok f) => decide (generateFiles goEnv 30 (seeded 42) [f] = .err .notImplemented)
    | _ => false) = true := by decide +kernel

/-! ## Files of vectors -/

/-- The files of vectors written below testdata/fuzz (tv/corpus.go:54-70): directory, name and content. -/
def vectorFiles (d : Dir) : Option (List (String × String × List UInt8)) :=
  match Peg.parseBytes 200 (Peg.utf8 d.source) with
  | some (.ok f) =>
    match generateFiles goEnv 30 (seeded 0) [f] with
    | .ok c => some (c.flatMap fun s => s.vectors.map fun v => (s.type, Sha256.sha256namer v.data, v.data))
    | _ => none
  | _ => none

/-- examples/date/testdata/fuzz. -/
theorem date_files : vectorFiles examples_dateGolden =
    some [("date", "a729e4d40b3ac7e5183e9af46ac4c168295d30d453feb950d53e26f3a744973b", [59, 8, 1, 17])] := by decide +kernel

/-- examples/color/testdata/fuzz. -/
theorem color_files : vectorFiles examples_colorGolden =
    some [("color", "7eb3508f5adc365fbed9bc76a0901dc89a3d2a9c4e3c07c7eb3c1c778ae8c0e4", [253, 148, 1])] := by decide +kernel

/-- tv/corpus_test.go:34-35. -/
theorem hello_name : Sha256.sha256namer [104, 101, 108, 108, 111] =
    "2cf24dba5fb0a30e26e83b2ac5b9e29e1b161e5c1fa7425e73043362938b9824" := by decide +kernel

end Verif.Golden
