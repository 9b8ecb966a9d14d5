import Verif.GenText
import Verif.TestFns
/-!
# Model of the text printed by `gen/tests.go` and `gen/fuzz.go`

What the `printf` calls append to the buffer (gen/printer.go:35-39), before `imports.Process`. As in `Verif/GenText`
characters are code points and `name` is an arbitrary function `nm`.
-/
namespace Verif.GenText
open Verif Verif.Tv Verif.Effects

/-- What `%#v` prints for a byte (gen/tests.go:20): `0x` and hexadecimal digits in lower case. -/
def hexByte (b : UInt8) : Text := lit "0x" ++ Nat.toDigits 16 b.toNat

/-- What `%#v` prints for a byte slice (gen/tests.go:20) that is not nil. Vectors never have nil as data: all of them
come out of `append` (tv/generator.go:151) to slices made by `make` or `[]byte{}` (337, 349, 361, 378, 387), or are the
`[]byte{}` of a struct without members (123). -/
def bytesLit (d : Bytes) : Text := lit "[]byte{" ++ join (lit ", ") (d.map hexByte) ++ lit "}"

/-- gen/tests.go:19-21 the cases. -/
def testCases : List Tv.Vector → Text
  | [] => []
  | v :: vs => lit "{\nData: " ++ bytesLit v.data ++ lit ",\n},\n" ++ testCases vs

/-- gen/tests.go:15-30 a test function, for the type called `T` in Go. -/
def testFunc (T : String) (vs : List Tv.Vector) : Text :=
  lit "func Test" ++ lit T ++ lit "Corpus(t *testing.T) {\n" ++ lit "cases := []struct{\nData []byte\n}{\n" ++
  testCases vs ++ lit "}\n" ++ lit "for _, c := range cases {\n" ++ lit "_, err := Parse" ++ lit T ++ lit "(c.Data)\n" ++
  lit "if err != nil { t.Fatal(err) }\n" ++ lit "}\n" ++ lit "}\n\n"

/-- gen/tests.go:10-31 the loop of `CorpusTests`. -/
def testFuncs (nm : String → String) : Corpus → Text
  | [] => []
  | s :: ss => (if Effects.constrained s.vectors then [] else testFunc (nm s.type) s.vectors) ++ testFuncs nm ss

/-- gen/tests.go:6-34 `CorpusTests`, up to `imported`. -/
def corpusTests (pkg : String) (nm : String → String) (c : Corpus) : Text := header pkg ++ testFuncs nm c

/-- gen/fuzz.go:17-21 a fuzzing function. -/
def fuzzFunc (T : String) : Text :=
  lit "func Fuzz" ++ lit T ++ lit "(data []byte) int {\n" ++ lit "_, err := Parse" ++ lit T ++ lit "(data)\n" ++
  lit "if err != nil { return 0 }\n" ++ lit "return 1" ++ lit "}\n\n"

/-- gen/fuzz.go:13-22 the loop of `Fuzzers`. -/
def fuzzFuncs (nm : String → String) : Corpus → Text
  | [] => []
  | s :: ss => (if Effects.constrained s.vectors then [] else fuzzFunc (nm s.type)) ++ fuzzFuncs nm ss

/-- gen/fuzz.go:6-25 `Fuzzers`, up to `imported`; gen/printer.go:28-34 `markgenerated` and `pkg`. -/
def fuzzers (pkg : String) (nm : String → String) (c : Corpus) : Text :=
  lit "// Code generated by trunnel. DO NOT EDIT.\n\n" ++ lit "// +build gofuzz\n\n" ++
  (lit "package " ++ lit pkg ++ lit "\n\n") ++ fuzzFuncs nm c

end Verif.GenText
