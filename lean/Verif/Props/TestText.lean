import Verif.GoReadTestText
import Verif.Props.GenTextCases
import Verif.Props.TvTests
/-!
# C62: the printed text of tests and fuzzing functions
-/
set_option linter.unusedVariables false
namespace Verif.Props
open Verif Verif.Ast Verif.Tv Verif.Go Verif.Go.Read Verif.Effects Verif.Syntax

/-- **C62.** For every corpus whose types become Go identifiers, the text printed as tests, read by Go's rules, is one
test function for each suite without constraints, in order: its name, the bytes of its vectors, and the function it calls. The file has no
build constraint. -/
theorem C62_tests_read {pkg : String} {nm : String → String} {c : Corpus} (hp : GoIdent pkg) (hc : ∀ s ∈ c, GoIdent (nm s.type)) :
    (∃ F, ∀ n, F ≤ n → readTests n (GenText.corpusTests pkg nm c) = some (pkg, corpusTests nm c)) ∧
    buildLines (GenText.corpusTests pkg nm c) = [] :=
  ⟨tests_read hp hc, buildLines_header _⟩

/-- **C62.** The text printed as fuzzing functions is one function for each suite without constraints, in order, in a file that
is only built with the tag `gofuzz`. -/
theorem C62_fuzz_read {pkg : String} {nm : String → String} {c : Corpus} (hp : GoIdent pkg) (hc : ∀ s ∈ c, GoIdent (nm s.type)) :
    (∃ F, ∀ n, F ≤ n → readFuzz n (GenText.fuzzers pkg nm c) = some (pkg, fuzzers nm c)) ∧
    buildLines (GenText.fuzzers pkg nm c) = ["gofuzz".toList] :=
  ⟨fuzz_read hp hc, buildLines_fuzz⟩

/-- Two readings of a text agree, if the nesting allowed is large enough for both. -/
theorem reads_unique {α : Type} {f : Nat → Option α} {a b : α} (ha : ∃ F, ∀ n, F ≤ n → f n = some a)
    (hb : ∃ F, ∀ n, F ≤ n → f n = some b) : a = b := by
  obtain ⟨F, h⟩ := ha
  obtain ⟨G, h'⟩ := hb
  have := (h (max F G) (by omega)).symm.trans (h' (max F G) (by omega))
  simpa using this

/-- **C62.** The text determines the tests: two corpora printed to the same text have the same test functions. -/
theorem C62_text_determines {pkg : String} {nm : String → String} {c c' : Corpus} (hp : GoIdent pkg) (hc : ∀ s ∈ c, GoIdent (nm s.type))
    (hc' : ∀ s ∈ c', GoIdent (nm s.type)) (h : GenText.corpusTests pkg nm c = GenText.corpusTests pkg nm c') :
    corpusTests nm c = corpusTests nm c' := by
  have h1 := (C62_tests_read hp hc).1
  have h2 := (C62_tests_read hp hc').1
  rw [h] at h1
  have := reads_unique h1 h2
  simpa using this

theorem type_printed {nm : String → String} {fs : List File} (h : ∀ f ∈ fs, TextNames nm f) :
    ∀ s ∈ fs.flatMap (·.structs), GoIdent (nm s.name) := by
  intro s hs
  obtain ⟨f, hf, hs⟩ := List.mem_flatMap.1 hs
  refine (h f hf).1 _ ?_
  simp only [printedNames, List.mem_append, List.mem_flatMap]
  exact .inr ⟨s, hs, by simp⟩

/-- The types of a generated corpus are structs of the files. -/
theorem corpus_types {E : Tv.Env} {fuel : Nat} {seed : E.R.σ} {fs : List File} {corpus : Corpus}
    (h : generateFiles E fuel seed fs = .ok corpus) {nm : String → String} (hn : ∀ f ∈ fs, TextNames nm f) :
    ∀ s ∈ corpus, GoIdent (nm s.type) := by
  intro t ht
  have h1 : t.type ∈ corpus.map (·.type) := List.mem_map.2 ⟨t, ht, rfl⟩
  rw [C58_suites h] at h1
  obtain ⟨s, hs, he⟩ := List.mem_map.1 h1
  rw [← he]
  exact type_printed hn s (List.mem_filter.1 hs).1

/-- **C62.** So the text printed for the vectors generated from files can be read. -/
theorem C62_generated {E : Tv.Env} {fuel : Nat} {seed : E.R.σ} {fs : List File} {corpus : Corpus} {pkg : String} {nm : String → String}
    (hp : GoIdent pkg) (hn : ∀ f ∈ fs, TextNames nm f) (h : generateFiles E fuel seed fs = .ok corpus) :
    (∃ F, ∀ n, F ≤ n → readTests n (GenText.corpusTests pkg nm corpus) = some (pkg, corpusTests nm corpus)) ∧
    ∃ F, ∀ n, F ≤ n → readFuzz n (GenText.fuzzers pkg nm corpus) = some (pkg, fuzzers nm corpus) :=
  ⟨(C62_tests_read hp (corpus_types h hn)).1, (C62_fuzz_read hp (corpus_types h hn)).1⟩

/-! ### Example: gen/tests/contexts

The files trunnel wrote, after `imports.Process`, are read as what is printed for the vectors in them. -/

/-- gen/tests/contexts/gen-marshallers_test.go. -/
def contextsTestGo : List Char := List.flatten [
    chars! "// Code generated by trunnel. DO NOT EDIT.\n",
    chars! "\n",
    chars! "package contexts\n",
    chars! "\n",
    chars! "import \"testing\"\n",
    chars! "\n",
    chars! "func TestPointCorpus(t *testing.T) {\n",
    chars! "\tcases := []struct {\n",
    chars! "\t\tData []byte\n",
    chars! "\t}{\n",
    chars! "\t\t{\n",
    chars! "\t\t\tData: []byte{0x25, 0x1},\n",
    chars! "\t\t},\n",
    chars! "\t}\n",
    chars! "\tfor _, c := range cases {\n",
    chars! "\t\t_, err := ParsePoint(c.Data)\n",
    chars! "\t\tif err != nil {\n",
    chars! "\t\t\tt.Fatal(err)\n",
    chars! "\t\t}\n",
    chars! "\t}\n",
    chars! "}\n"]

/-- gen/tests/contexts/gen-fuzz.go. -/
def contextsFuzzGo : List Char := List.flatten [
    chars! "// Code generated by trunnel. DO NOT EDIT.\n",
    chars! "\n",
    chars! "// +build gofuzz\n",
    chars! "\n",
    chars! "package contexts\n",
    chars! "\n",
    chars! "func FuzzPoint(data []byte) int {\n",
    chars! "\t_, err := ParsePoint(data)\n",
    chars! "\tif err != nil {\n",
    chars! "\t\treturn 0\n",
    chars! "\t}\n",
    chars! "\treturn 1\n",
    chars! "}\n"]

/-- A corpus: a vector of a struct without contexts, and one with a constraint on a context value. -/
def contextsCorpus : Corpus :=
  [⟨"point", [⟨[0x25, 0x1], (Cst.empty : Tv.Cst)⟩]⟩, ⟨"varsize", [⟨[0, 0, 0, 7, 1, 2], exCst⟩]⟩]

theorem contextsCorpus_types : ∀ s ∈ contextsCorpus, GoIdent (exNm s.type) := by
  intro s hs
  exact goIdent_of ((by decide +kernel : ∀ s ∈ contextsCorpus, goIdentB (exNm s.type) = true) s hs)

example : readTests 60 contextsTestGo = some ("contexts", corpusTests exNm contextsCorpus) := by decide +kernel
example : ∃ F, ∀ n, F ≤ n → readTests n (GenText.corpusTests "contexts" exNm contextsCorpus) =
    some ("contexts", [⟨"TestPointCorpus", [[0x25, 0x1]], "ParsePoint"⟩]) := by
  have := (C62_tests_read (pkg := "contexts") (goIdent_of (by decide +kernel)) contextsCorpus_types).1
  rwa [show corpusTests exNm contextsCorpus = [⟨"TestPointCorpus", [[0x25, 0x1]], "ParsePoint"⟩] by decide +kernel] at this
example : readFuzz 60 contextsFuzzGo = some ("contexts", fuzzers exNm contextsCorpus) := by decide +kernel
example : buildLines contextsFuzzGo = ["gofuzz".toList] ∧ buildLines contextsTestGo = [] := by decide +kernel

/-! Texts that are something else: the reader is not fooled. -/

/-- A fuzzing function with the body given. -/
def fuzzWith (body : List Char) : List Char := (chars! "package p\nfunc FuzzA(data []byte) int {\n") ++ body ++ (chars! "\n}\n")

example : readFuzz 30 (fuzzWith (chars! "_, err := ParseA(data)\nif err != nil {\nreturn 0\n}\nreturn 1")) = some ("p", [⟨"FuzzA", "ParseA"⟩]) := by decide +kernel
/-- The results exchanged. -/
example : readFuzz 30 (fuzzWith (chars! "_, err := ParseA(data)\nif err != nil {\nreturn 1\n}\nreturn 0")) = none := by decide +kernel
/-- The condition negated. -/
example : readFuzz 30 (fuzzWith (chars! "_, err := ParseA(data)\nif err == nil {\nreturn 0\n}\nreturn 1")) = none := by decide +kernel
/-- A line end before the brace. -/
example : readFuzz 30 (fuzzWith (chars! "_, err := ParseA(data)\nif err != nil\n{\nreturn 0\n}\nreturn 1")) = none := by decide +kernel
/-- The function called is hidden by the parameter. -/
example : readFuzz 30 (fuzzWith (chars! "_, err := data(data)\nif err != nil {\nreturn 0\n}\nreturn 1")) = none := by decide +kernel

/-- A test function with the cases given. -/
def testWith (cases : List Char) : List Char := (chars! "package p\nfunc TestA(t *testing.T) {\ncases := []struct {\nData []byte\n}{") ++ cases ++
  (chars! "}\nfor _, c := range cases {\n_, err := ParseA(c.Data)\nif err != nil {\nt.Fatal(err)\n}\n}\n}\n")

example : readTests 40 (testWith (chars! "\n{Data: []byte{0x1, 0xff, 7}},\n{Data: []byte{}},\n")) = some ("p", [⟨"TestA", [[1, 255, 7], []], "ParseA"⟩]) := by
  decide +kernel
example : readTests 40 (testWith []) = some ("p", [⟨"TestA", [], "ParseA"⟩]) := by decide +kernel
/-- A line end before the closing brace, without a comma. -/
example : readTests 40 (testWith (chars! "\n{Data: []byte{0x1, 0xff, 7}}\n")) = none := by decide +kernel
/-- A number that is not a byte. -/
example : readTests 40 (testWith (chars! "\n{Data: []byte{256}},\n")) = none := by decide +kernel
/-- Another field. -/
example : readTests 40 (testWith (chars! "\n{Bytes: []byte{1}},\n")) = none := by decide +kernel

end Verif.Props
