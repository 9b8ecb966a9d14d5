# Formal model of trunnel (Lean 4)

Subject: `/repo` (mmcloughlin/trunnel, Go), read as text only; nothing in it is built or run.

## Trusted base

* Lean 4.33.0 kernel, and Mathlib as compiled here.  Theorems depend on no axiom
  other than `propext`, `Classical.choice`, `Quot.sound` (checked with `#print axioms`).
  No `sorry`, no added axiom, no `native_decide`, no `bv_decide`.
* That the Lean definitions describe the Go text.  Each definition cites the lines it models.
  Where a definition simplifies, its comment says so.
* For the generated parsers: the semantics we give to the subset of Go the generator emits
  (`Verif/GoSem`), including integer conversion on a 64-bit platform.
* Go's `sort.Sort`, `encoding/binary`, `bytes.IndexByte`, `go/format`, `snaker`, `crypto/sha256`,
  the operating system's file calls: modelled by their documented contract
  (sorting by a total order; format does not change meaning; file calls as map updates that may fail).

## Layers

| module | models |
|---|---|
| `Verif/Ast` | `ast/types.go` |
| `Verif/Intervals` | `internal/intervals/intervals.go` |
| `Verif/Inspect` | `inspect/inspect.go`, `inspect/branches.go` |
| `Verif/GoSyntax`, `Verif/GoSem` | the Go subset emitted by the generator, and its meaning |
| `Verif/Gen` | `gen/decl.go`: AST -> Go subset, function by function |
| `Verif/Wire` | *specification*: what a format means (a declarative encoding relation) |
| `Verif/Static` | *specification*: well-formed formats, order of references |
| `Verif/Decode` | reference decoder over source syntax (proof device) |
| `Verif/Refine*`, `Verif/GenRun` | the emitted program computes the reference decoder, outcome for outcome |
| `Verif/Sound`, `Verif/Complete` | the reference decoder accepts exactly what `Wire` describes |
| `Verif/Safety`, `Verif/Term`, `Verif/Closed`, `Verif/Used` | panics, termination, more/less input, used objects |
| `Verif/GoType` | *specification*: Go's scope and type rules for the emitted subset, unused variables included |
| `Verif/GoTypeUsed`, `Verif/GoTypeLemmas`, `Verif/GoTypeProg` | emitted programs obey them |
| `Verif/Check` | decidable checks of the conditions, used in examples |
| `Verif/Constraints` | `tv/constraints.go` |
| `Verif/Tv` | `tv/generator.go`, `tv/selector.go`, `tv/corpus.go:1-60` (heap of byte arrays and stores, so that aliasing by `append` is visible) |
| `Verif/TvOrder` | simulation between runs with different map iteration orders |
| `Verif/TvClass`, `Verif/TvCheck` | *specification*: a class of formats for which vectors are meant to be encodings; a sound checker for it |
| `Verif/TvHeap`, `Verif/TvAct`, `Verif/TvSem` | invariants of the vector generator: memory, stores, bytes against the encoding relation |
| `Verif/TvLeaf`, `Verif/TvElem`, `Verif/TvField`, `Verif/TvUnion`, `Verif/TvStruct`, `Verif/TvCtx` | each function of the vector generator keeps them |
| `Verif/TvKeys`, `Verif/TvCover` | which constraints the vector generator may add, and that no branch of a union is lost |
| `Verif/TestFns`, `Verif/GenTestText` | `gen/tests.go`, `gen/fuzz.go`: which functions are emitted, and their text |
| `Verif/GoReadTest`, `Verif/GoReadTestText` | *specification* of Go text that is a test or fuzzing function, and of build constraints; the printed text is read as such |
| `Verif/Effects` | `gen/core.go`, `tv/corpus.go`, `parse/parse.go`, `cmd/trunnel/trunnel.go` |
| `Verif/EncFits`, `Verif/Formats` | sizes of encoded values; a check on sources and its soundness |
| `Verif/TvFormats` | computable forms of the conditions on formats of C40, C41, C57, C60, C70, C71, sound for all user types |
| `Verif/Props/FormatTor`, `FormatTrunnel`, `FormatTrunnelMore`, `FormatTests`, `FormatParse` | the check evaluated on all trunnel files of the repository |
| `Verif/Props/TvNeeded` | C73: each condition of C40, C41, C57 and C60 is needed, by a format per condition |
| `Verif/Alloc` | C74: decoding with two limits on `make` |
| `Verif/SafetyInput` | C20: inputs on which decoding can panic |
| `Verif/TermBound` | C75: fuel that is enough |
| `Verif/GoTypeSound` | C77: values of a type (*specification*, first part); programs that pass `Verif/GoType` do not get stuck in `Verif/GoSem` |
| `Verif/GoCost`, `Verif/CostBound`, `Verif/CostLower` | C76: *specification* of the number of statements executed (beside `Verif/GoSem`), bounds from above for emitted programs and from below for all |
| `Verif/CodeSize`, `Verif/Props/WorkFormats` | C78: *specification* of the number of statements printed for a struct (first part), and its proof; the check for linear work evaluated on files of the repository |
| `Verif/GenTextOrder`, `Verif/Props/Reproducible` | C79: the text printed depends on answers of the resolver only; builds under different iteration orders |
| `Verif/GenOrder`, `Verif/GoOrder`, `Verif/Props/Rearrange` | C80: what is emitted for declarations in another order; typing and meaning of programs depend on lookups only |
| `Verif/Inline`, `Verif/Props/Inline` | C81: *specification* of replacing constants by their values; the generator does not see it |
| `Verif/Rename`, `Verif/OtherNames`, `Verif/Props/Rename` | C82: *specification* of renaming; what the generator makes of it; encodings under other Go names |
| `Verif/Grow`, `Verif/Props/Grow` | C83: what is emitted for declarations stays when others are added |
| `Verif/Linking`, `Verif/Props/Linking` | C84: *specification* of user code that does what a definition says (end of the first file); encodings depend on finitely many encodings of structs |
| `Verif/Golden`, `Verif/Props/GoldenCases` | golden files of the repository compared with the model (cases only) |
| `Verif/GoRand`, `Verif/Sha256` | `math/rand` (the source behind `gen/core.go:54`) and the names of corpus files (`tv/corpus.go`) |
| `Verif/Props/GoldenVectors`, `ParserCases`, `ParseCases`, `InspectCases` | the repository's own tests, transcribed and evaluated in the kernel (cases only) |
| `Verif/TestRun` | meaning of the test and fuzzing functions emitted by `gen/tests.go`, `gen/fuzz.go` |
| `Verif/TvRuns` | formats the vector generator works on (conditions on the source), and triples for its actions with invariants of the constraint stores |
| `Verif/TvSize`, `Verif/TvUses`, `Verif/TvFree` | sizes of vectors; which vectors record context values and which have no constraints at all |
| `Verif/GenText` | `gen/decl.go`, `gen/printer.go`: AST -> text, the same functions as `Verif/Gen` with the format strings of the code |
| `Verif/GoRead` | *specification*: tokens and grammar of the Go subset, and the program a text denotes |
| `Verif/GoReadLex`, `Verif/GoReadStmt`, `Verif/GoReadLine`, `Verif/GoReadHead`, `Verif/GoReadGen`, `Verif/GoReadBody`, `Verif/GoReadFile` | each printing function, read back, gives what the same function of `Verif/Gen` builds |
| `Verif/GoEq` | comparing programs, used in examples |
| `Verif/Peg` | `parse/trunnel.pigeon` and the interpreter in `gen-parser.go` |
| `Verif/Syntax`, `Verif/Print` | *specification*: the source language (spellings, layouts, meaning), its structural rules, a printer |
| `Verif/PegLemmas`, `Verif/PegTerm`, `Verif/PegTyped` | fuel does not matter, every text is decided, rules return values of the right kind |
| `Verif/PegLex`, `Verif/PegSound`, `Verif/PegRules` | what the parser accepts is in the language |
| `Verif/PegComplete`, `Verif/Utf8` | the language is accepted; bytes and characters |
| `Verif/PegDiag` | the same interpreter with positions, recorded errors and the farthest failure; the error text |
| `Verif/PegDiagPos`, `Verif/PegDiagMax`, `Verif/PegDiagErrs`, `Verif/PegDiagText`, `Verif/PegDiagMono` | *specification* of positions and unexpected terminals (first part of each), and that the interpreter keeps to it |
| `Verif/PrintLemmas`, `Verif/GoodLemmas` | the printer's output is in the language; what is in the language obeys the rules |

Property theorems live in `Verif/Props/*`, apart from helper lemmas.

## Plan per property

* C01-C05: model `thresholds` as an edge sweep over a sorted list with 64-bit wrapping counters;
  prove by induction that the sweep's level equals the number of intervals covering a point.
  C04 has a counterexample (empty set), stated as a negation and a `_partial` theorem.
* C06-C08: the random source is an arbitrary stream; rejection loop as a fuelled search with an
  explicit "still running" outcome.  C07 as a bijection between `[0,n)` and the set.
  C08 fails for the full set: negation plus `_partial`.
* C09-C14: maps as association functions; Go map traversal as an arbitrary permutation of entries.
* C15, C16: `NewBranches`/`Lookup` against the switch semantics.
* C17-C34: define the generator as a function producing Go-subset syntax; give that syntax a
  small-step-free (fuelled, big-step) semantics with explicit `panic`, `stuck` (does not compile /
  ill-scoped) and `timeout` outcomes; define separately a declarative encoding relation; prove
  (a) running the emitted code equals a reference decoder, and (b) the reference decoder is sound and
  complete for the relation.  The others follow from (a), (b) and the relation.
  C20, C21, C26, C36 have counterexamples in the code as it is; they are stated as negations with
  witnesses, plus `_partial` theorems under decidable conditions.
* C35: characterise the `panic`/error outcomes of the generator.
* C36: an independent checker of scope and type rules; emitted programs pass it under a condition on the source. Conversely, inversion of the
  checker along the generator gives what the source must be like when the emitted program passes (`Verif/Props/GenCompileNeeds.lean`).
* C37-C43: constraint maps as heap objects (aliasing matters); random source as an arbitrary
  stream; vectors checked against the encoding relation.  C40 fails in general: negations with
  witnesses, `_partial` for a decidable class.  C41 likewise: follow one vector through the loop over
  members, showing that each later member extends it because nothing it needs has been settled.
  What is settled is tracked by scope and name, so tags may be fields or context variables; `Glob` says which context
  variables a struct may settle and which decide its unions, also through nested structs.
* C44-C47, C54: file system as a map with an arbitrary failure oracle; paths are lists of components,
  permissions are not modelled, `imports.Process` is an arbitrary function on the printed text that may fail.
* C48-C53, C56: the parsing expression grammar interpreter with fuel (depth of nested calls) and a proof that enough fuel always
  exists; a separate description of the language as layouts of spellings of trees; the parser accepts exactly the language and
  returns what the tree denotes.  The other properties follow from this and from the description alone.
  The model turns bytes into runes before parsing instead of one by one, and leaves out memoisation (off by default), recovery
  and statistics of the pigeon runtime; the state shared by actions is a list of structs declared in place.
* C57, C58: a meaning for emitted tests (parse, then compare the rest), composed with C40 and C17-C19.
* C59: two models of the printer, one producing syntax trees (`Verif/Gen`) and one producing characters (`Verif/GenText`), and a
  reader of Go text written from the language specification only.  Reading is proved to undo printing, piece by piece: a
  printed piece is a token list however it is continued (no token runs into the next), and the parser consumes exactly
  these tokens.  Names must be identifiers; a context called like a keyword is a counterexample.
  `Props/GoldenCases` reads all golden files of the repository (`gen/tests`, `examples`) in the kernel: the source parses, the
  model's generator emits for it the very program the golden code is when read, and the golden tests pass when run with it.
  `Props/GoldenVectors` goes on with the random source the command uses (`rand.New(rand.NewSource(0))`, modelled in `Verif/GoRand`):
  the vectors the model generates are those in the golden tests and fuzzing functions, byte for byte, in all directories that have
  any; likewise for the vectors expected in `tv/generator_test.go` (seed 42) and the names and contents of corpus files.
  `Props/ParserCases` (`gen/tests/*/*_test.go`), `Props/ParseCases` (`parse/parse_test.go`) and `Props/InspectCases`
  (`inspect`, `internal/intervals`, `ast`) transcribe the other unit tests.  These are tests of the model, not proofs about all inputs;
  they are there as evidence that the model is the code.
  There the naming function is `camel` (`snaker.SnakeToCamel` as documented); theorems leave the naming function open.
* C60: no failure of the vector generator on a class of formats (`FmtRuns`): total-correctness triples `Post T Q`, where `T` says
  whether a timeout is allowed. The difficult part is that `cross` merges constraint stores and fails if they disagree: elements
  of arrays either have one shape only (then at most one vector is kept) or refer to no contexts (then context values are
  the same in all stores). A format outside each condition is shown to make the generator fail.
* C61: the layers composed for bytes of source.  The two models of the printer are shown to have the same outcome (text, error,
  panic) in all cases (`Verif/GenTextSame`).
* C62: as C59 for the text of tests and fuzzing functions.
* C63: a run of the build command from the bytes of its inputs to the files it leaves: their text, what it is when read, and
  what the program so read does.  `imports.Process` is assumed to keep what text is when read (`Faithful`).
* C64: as C41, following the tags of all unions at once (`Verif/TvCombos.lean`); counting by uniqueness of encodings (C55).
* C65: a count beside the interpreter (`Verif/PegCost.lean`), bounded below along the proof that every spelling parses.
* C66-C68: the interpreter again, with everything that goes into error texts, shown to agree with `Verif/Peg` when that is forgotten.
  Invariants of its state: where it is in the text, which wrong bytes were passed, and that the farthest failure is the last of
  all attempts made so far; attempts are described by a relation (`Tries`) that follows the grammar.
* C69: the conditions of C17-C21, C36 and C61 as one computable check on source bytes, with the condition that values fit removed by
  bounding the slices of encoded values.  The check is evaluated on all formats of the repository.
* C70: numbers of elements in constraint stores stay between 1 and 20, or at most the bytes of the unions whose lengths they are.
* C71: invariants of the stores from one address on: all constraints are local in structs without contexts (and are cleared at the end), a
  context value once recorded stays.  With C40, C41, C57, C58, C60 and C70 this gives a statement about tests with conditions on
  declarations only (`C71_corpus`).
* C72: these conditions as a computable check on source bytes, evaluated on the formats of the repository. Formats of `/repo` without a
  certificate: `pwbox`, `leftover` (twice) and `unionlo` have no vectors with the seed of the command; `unionbasic` has a failing test with seed 1
  and `socks5` with a random source given in the theorem (constraints of the enclosing struct are lost when a struct is entered; the
  golden test of `unionbasic` passes because seed 0 happens to draw a number that fits). `socks5`, `example`, `example2` and `tor-rend`
  (lost constraints) have failing tests with the seed of the command, and `ed25519_cert` and `cell_introduce1` (vectors overwritten
  through shared capacity) with another source, when the same check is run by `#eval`, which proves nothing; `prop220`, `prop224`, `tor.trunnel` are
  undecided and `derived` has a 64-bit length.
* C73: the check of C72 run on small sources outside one condition each, with the random source of the command.
* C74: induction on the decoder for two limits at once; a slice is made before its elements are looked at (`gen/decl.go:229`),
  so four bytes of input can ask for 2^32 - 1 elements.
* C20, 64-bit lengths: an invariant on the numbers decoded so far; a panic needs eight bytes of the input that form a number
  larger than what can be allocated.
* C75: in the model `fuel` bounds the iterations of each loop and the depth of calls, so that not running out of a given fuel is a
  statement about both.
* C76: a second function, beside the interpreter, counts statements executed, conditions tested and bytes that `bytes.IndexByte` looks
  at. `make`, the conversion to a string and `append` count one, user code counts one. Each statement is paid for by bytes consumed or
  by the length of the text, by induction on fuel; a loop whose elements consume bytes costs its body times the bytes consumed.
* C77: progress and preservation for the whole subset: a stack of types beside the stack of values of each name, grown by declarations and
  cut at the end of blocks. For this the interpreter gives a meaning to slicing and extending slices made by the program, and to
  assigning to fields of structs passed by value, which `gen` never emits; that memory is shared then is ignored.
* C78: one equation per function of `gen/decl.go`, as the number of statements printed depends on the declaration only; with it the constants of C76
  can be computed from the source.
* C79: C10 and C42 give resolvers that answer alike and vectors that are alike; the printers only ask the resolver, and whether a store is empty
  follows from its answers as no scope of it is empty.
* C80: lookups in files that load are determined by the set of declarations; emitting commutes with permutation; the checker and the interpreter
  look declarations up by names, which are distinct.
* C81: the generator asks for the value of integers and for contexts of structs only; one equation per function of `gen/decl.go`.
* C82: renaming a source and applying `name` is generating with `name` after the renaming, one equation per function; encodings are carried over
  from one naming to another by a translation of values directed by the declarations, so that C69 applies to both.
* C83: every function of the generator is monotone in the resolver; lookups in the files are lookups in all files, up to what the generator asks.
* C84: an encoding of members follows from finitely many encodings of structs, whatever else the format declares; with this both inclusions are
  by induction on nesting depth, and C69 applies to both programs.

## What the proofs show about the code as it is

Each entry is a theorem about accepted input on which the code does something its users would not expect.

| Where | What | Theorem |
|---|---|---|
| `internal/intervals` | `Simplify` leaves adjoining intervals apart | `C02_simplify_not_minimal` |
| `internal/intervals` | `Subtract` of the empty set empties the set | `C04_subtract_empty_wrong` |
| `internal/intervals` | `Random` never returns for the full 64-bit set | `C08_random_full_hangs` |
| `inspect` | whether files fit together depends on their order | `C11_order_matters` |
| `inspect` | a reversed range panics | `C13_intervals_panic` |
| `gen` | a length read before its field is parsed is the old value | `parse_unsound_forward`, `used_forward` |
| `gen` | parsing into a used object leaves old contents in fields of other cases | `used_stale` |
| `gen` | 64-bit lengths panic | `parse_panics_wide`, `parse_panics_wide_union` |
| `gen` | arrays of elements without size, and structs that contain themselves, loop for ever | `parse_hangs_empty_element`, `parse_hangs_self` |
| `gen` | a union without default accepts tags outside its cases | `union_no_default_accepts` |
| `gen` | a `@ptr` inside a union with a length is not the offset | `ptr_in_window_wrong` |
| `gen` | accepted source whose code does not compile | theorems of C36, `keyword_unreadable` |
| `gen` | a context that does not exist can be referred to by the letter of the receiver | `receiver_as_context` |
| `gen` | slices as long as a length field says are made before any element is read | `C74_for_nothing` |
| `gen` | four bytes make a loop run 2^32 - 1 times, if elements are empty | `C75_idle`, `C76_idle` |
| `inspect` | if a struct is declared extern twice with different contexts the last one counts, so the order of files decides whether the code compiles | `C80_contexts_needed` |
| `gen` tests | an argument is missing in tests of structs without vectors or with unused contexts | `C57_missing_argument`, `C71_no_vectors` |
| `tv` | vectors that are no encodings, as constraints are lost or ignored | theorems of C40 and C73, `trunnel_socks5_fails` |
| `tv` | cases without vectors | `C41_tag_as_length`, `C41_shared_tag` |
| `tv` | accepted formats on which generation fails or panics | theorems of C60 |
| `tv` | exponentially many vectors | `C64_exponential` |
| `parse` | integers above 2^63-1 and octals with a digit 8 or 9 are refused | `C48_decimal_large`, `C48_octal_digit` |
| `parse` | time exponential in the length of the source | `C65_exponential` |

## Not modelled

* `imports.Process` (formatting and import declarations of the printed text), doc strings, the exact text of error messages
  of the tools other than those of the parser.
* Go's compile-time checks other than those in `Verif/GoType`: unused imports, size limits
  of types.  Running out of memory, except that `make` panics beyond a bound `A`.
* Performance, except for the parser's repeated work (C65), the number of vectors (C64) and the work of generated parsers (C74-C76, C78).
