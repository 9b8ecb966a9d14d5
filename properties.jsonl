{"id": "C01", "title": "Interval set membership is union membership", "statement": "A set built from any list of integer intervals reports that it contains x exactly when at least one of the given intervals contains x (all of 0..2^64-1, including the end points).", "quantifier": "all finite lists of intervals, all 64-bit x", "why_tests_cant": "Tests sample a handful of interval lists; overlap/touch/nesting patterns are unbounded.", "anchors": ["internal/intervals/intervals.go: NewSet, Simplify, thresholds, Set.Contains, Interval.Contains"]}
{"id": "C02", "title": "Simplify yields a canonical disjoint form", "statement": "Simplify returns intervals that are increasing and pairwise disjoint, cover exactly the same integers, are never more numerous than the input, do not depend on the order of the input, and simplifying again changes nothing. (It does not merge adjacent intervals such as 5-10,11-15, although the doc comment says 'minimal'.)", "quantifier": "all finite lists of intervals and all reorderings of them", "why_tests_cant": "Order-independence ranges over all permutations of all lists.", "anchors": ["internal/intervals/intervals.go: Simplify, thresholds, edges.Less"]}
{"id": "C03", "title": "Overlaps decides sharing exactly", "statement": "Overlaps returns true exactly when two different entries of the list have an integer in common.", "quantifier": "all finite lists of intervals", "why_tests_cant": "Unbounded lists and boundary-touching combinations.", "anchors": ["internal/intervals/intervals.go: Overlaps, thresholds"]}
{"id": "C04", "title": "Subtract is set difference", "statement": "After s.Subtract(other), s contains x exactly when s contained x before and other does not contain x.", "quantifier": "all pairs of sets, all 64-bit x", "why_tests_cant": "Existing tests check six pairs; the edge cases at 0, 2^64-1 and the empty set are unsampled. (The claim fails for an empty other.)", "anchors": ["internal/intervals/intervals.go: Set.Subtract, complement"]}
{"id": "C05", "title": "IntType(n) is exactly the n-bit range", "statement": "The set of values of an n-bit integer contains x exactly when x < 2^n, for every n from 0 to 64.", "quantifier": "all n in 0..64, all 64-bit x", "why_tests_cant": "2^64 values of x.", "anchors": ["internal/intervals/intervals.go: Bits, IntType"]}
{"id": "C06", "title": "Random draws land in the set", "statement": "Whenever Random returns a value, that value is in the set; the generator is consulted until it gives an acceptable draw.", "quantifier": "all sets, all behaviours of the random source", "why_tests_cant": "The random source has unboundedly many behaviours; tests draw a sample.", "anchors": ["internal/intervals/intervals.go: Set.RandomWithGenerator, randuint64n, randuint64"]}
{"id": "C07", "title": "Random reaches every element, one draw each", "statement": "Below the accepted bound n (the number of elements), each element of the set is produced by exactly one of the n equally likely draws, so Random is uniform over the set.", "quantifier": "all non-empty sets other than the full 64-bit set, all elements", "why_tests_cant": "Observed frequencies never establish exact bijectivity.", "anchors": ["internal/intervals/intervals.go: Set.RandomWithGenerator, randuint64n"]}
{"id": "C08", "title": "Random terminates when an acceptable draw arrives", "statement": "For a non-empty set Random returns as soon as the source offers an acceptable draw, and one always exists. (Fails for the set of all 64-bit integers: then it loops forever.)", "quantifier": "all non-empty sets, all random sources", "why_tests_cant": "Non-termination on one specific set is not observable by a finite test.", "anchors": ["internal/intervals/intervals.go: randuint64n, Set.RandomWithGenerator, Interval.Size"]}
{"id": "C09", "title": "Resolver lookups return the declared items", "statement": "After a file is loaded, looking up a constant, context or struct name returns exactly the declaration the file gives for it, and reports absence for every name it does not declare; a file declaring the same name twice (within one kind) is rejected.", "quantifier": "all files, all names", "why_tests_cant": "All files and names.", "anchors": ["inspect/inspect.go: Structs, Contexts, Constants, Resolver.AddFile, Resolver.Struct, Resolver.Context, Resolver.Constant"]}
{"id": "C10", "title": "Loading does not depend on map iteration order", "statement": "Loading files gives the same success/failure and the same lookups whatever order Go iterates its maps in.", "quantifier": "all files, all iteration orders of every map traversed", "why_tests_cant": "Go randomises map order per run; tests cannot enumerate the schedules.", "anchors": ["inspect/inspect.go: Resolver.AddFile, NewResolverFiles"]}
{"id": "C11", "title": "Multi-file resolution rules", "statement": "Loading several files succeeds exactly when no single file repeats a name, equal-named constants agree in value across files, no context name appears twice, and every struct name has at most one definition, which is its last declaration in file order; the lookup then returns that last declaration. (Hence an extern declaration after the definition is an error: file order matters.)", "quantifier": "all lists of files", "why_tests_cant": "All file lists and orders.", "anchors": ["inspect/inspect.go: NewResolverFiles, AddFile, AddStruct, AddContext, SetConstant"]}
{"id": "C12", "title": "Integer resolution", "statement": "Resolving an integer returns a literal's own value, a constant reference's declared value, and an error exactly for an undeclared constant.", "quantifier": "all resolvers and integers", "why_tests_cant": "All environments.", "anchors": ["inspect/inspect.go: Resolver.Integer"]}
{"id": "C13", "title": "Integer lists denote exactly their listed values", "statement": "Building the interval set of an integer list succeeds exactly when all constants are defined and no integer is listed twice; the set then contains x exactly when x equals a listed single or lies in a listed range. A range whose high end is below its low end makes it panic.", "quantifier": "all resolvers, all integer lists with non-negative int64 values (the only ones the parser produces), all x", "why_tests_cant": "Unbounded lists and constants.", "anchors": ["inspect/inspect.go: Resolver.Intervals"]}
{"id": "C14", "title": "Tag/length references resolve to the first field of that name", "statement": "Looking up an integer reference returns the type of the first top-level field (or context field) of that name if it is an integer, and an error exactly when the context is unknown, no such field exists, or that field is not an integer.", "quantifier": "all resolvers, structs and references", "why_tests_cant": "All structs.", "anchors": ["inspect/inspect.go: Resolver.IntType, structFields"]}
{"id": "C15", "title": "Branch lookup agrees with the generated switch", "statement": "For every tag value representable in the tag's type, the branch found by Branches.Lookup is the case the generated parser executes: the first listed case containing the value, else the default, else none.", "quantifier": "all unions that compile, all tag values", "why_tests_cant": "2^64 tag values times all unions.", "anchors": ["inspect/branches.go: NewBranches, Branches.Lookup", "gen/decl.go: parseUnionMember, conditional"]}
{"id": "C16", "title": "Default branch is the exact complement", "statement": "The default branch's value set is exactly the values of the tag type that no explicit case lists, wherever default appears in the source.", "quantifier": "all unions with a default, all tag values", "why_tests_cant": "As above.", "anchors": ["inspect/branches.go: NewBranches"]}
{"id": "C17", "title": "Generated parser implements the format (soundness)", "statement": "If the generated Parse accepts data and returns rest, then data is a prefix followed by rest, and that prefix is a valid encoding of the returned value under the format's declarative meaning. (Fails when a tag or length names a field that comes later in the struct, which the generator accepts.)", "quantifier": "all well-formed files (references resolve to number fields, Go names do not collide) whose references only go back, all inputs, all context values", "why_tests_cant": "All formats and all byte strings.", "anchors": ["gen/decl.go: Marshallers, parse, parseMember, parseType, parseArray, parseUnionMember, constrained"]}
{"id": "C18", "title": "Generated parser implements the format (completeness)", "statement": "If data is a valid encoding of a value followed by rest (under the declarative meaning), the generated Parse accepts it, returns exactly that value and exactly that rest.", "quantifier": "all well-formed files whose references only go back, all values whose arrays fit in memory, all encodings, all context values", "why_tests_cant": "All formats and all byte strings.", "anchors": ["gen/decl.go: parse, parseMember, parseType, parseArray, parseUnionMember"]}
{"id": "C19", "title": "Returned remainder is a suffix of the input", "statement": "On success the returned slice is a suffix of the input; nothing outside the input's length (e.g. spare capacity of the slice) influences value, remainder or error.", "quantifier": "all accepted files, inputs, and contents of memory beyond the slice", "why_tests_cant": "Memory beyond the slice is not under test control.", "anchors": ["gen/decl.go: parse, constrained, parseIntType"]}
{"id": "C20", "title": "Generated parser never panics", "statement": "Calling the generated Parse on any input returns normally (value or error) or keeps running; it never panics. (Fails when a 64-bit field is used as an array or union length; then it needs eight consecutive bytes of the input to hold a number larger than the largest slice that can be allocated.)", "quantifier": "all accepted files, all inputs", "why_tests_cant": "A panic may need one specific 8-byte length.", "anchors": ["gen/decl.go: parseArray, constrained, lengthCheck"]}
{"id": "C21", "title": "Generated parser terminates", "statement": "The generated Parse returns on every input. (Fails for a to-the-end array whose element can consume nothing and for structs containing themselves.)", "quantifier": "all accepted files with non-circular structs whose to-the-end array elements consume at least one byte; all inputs", "why_tests_cant": "Non-termination is not testable.", "anchors": ["gen/decl.go: parseArray (nil constraint), parseType (StructRef)"]}
{"id": "C22", "title": "Integers are big-endian and exact", "statement": "A parsed u8/u16/u32/u64 field equals the big-endian value of exactly its 1/2/4/8 bytes; shorter input is an error.", "quantifier": "all byte strings", "why_tests_cant": "2^64 values.", "anchors": ["gen/decl.go: parseIntType"]}
{"id": "C23", "title": "Integer constraints are enforced exactly", "statement": "A constrained integer field is accepted exactly when its value is in the declared list of values and ranges.", "quantifier": "all constraint lists, all values", "why_tests_cant": "All lists and values.", "anchors": ["gen/decl.go: parseIntType, conditional"]}
{"id": "C24", "title": "Array lengths are exact", "statement": "A fixed array yields exactly its declared number of elements, a counted array exactly as many as its length field or context field says, and a to-the-end array consumes all remaining bytes.", "quantifier": "all array members, all inputs", "why_tests_cant": "All lengths.", "anchors": ["gen/decl.go: parseArray"]}
{"id": "C25", "title": "NUL-terminated strings", "statement": "A nulterm field yields the bytes up to, not including, the first zero byte and consumes that zero byte; it fails exactly when there is no zero byte.", "quantifier": "all byte strings", "why_tests_cant": "All strings.", "anchors": ["gen/decl.go: parseType (NulTermString)"]}
{"id": "C26", "title": "Exactly one union case is parsed", "statement": "A union parses the members of the first case listing the tag (the default if none, nothing if there is no default) and leaves the fields of all other cases at zero. (The manual's implied 'default: fail' does not hold.)", "quantifier": "all unions, tags and inputs", "why_tests_cant": "All unions.", "anchors": ["gen/decl.go: parseUnionMember", "docs/manual.html: unions"]}
{"id": "C27", "title": "Length-limited unions are confined", "statement": "A union with a length consumes exactly that many bytes, its body never sees bytes past them, and bytes it leaves unread are an error; a '..-N' extent leaves exactly the last N bytes.", "quantifier": "all such unions/arrays, all inputs", "why_tests_cant": "All lengths.", "anchors": ["gen/decl.go: constrained"]}
{"id": "C28", "title": "eos accepts only complete consumption", "statement": "A struct ending in eos is accepted exactly when nothing remains after its fields.", "quantifier": "all structs ending in eos, all inputs", "why_tests_cant": "All inputs.", "anchors": ["gen/decl.go: assertEnd, parseMember"]}
{"id": "C29", "title": "@ptr records the offset", "statement": "A top-level @ptr field of an accepted struct equals the number of input bytes consumed by the members before it.", "quantifier": "all structs, all inputs", "why_tests_cant": "All inputs.", "anchors": ["gen/decl.go: parseType (Ptr)"]}
{"id": "C30", "title": "Trailing data does not change the result", "statement": "For formats without to-the-end constructs (eos, [], ..-N, ignore), appending bytes to an accepted input changes neither the value nor what was consumed, only appends to the remainder.", "quantifier": "all such formats without extern structs and with no @ptr inside a length-limited union, all inputs and extensions", "why_tests_cant": "All extensions.", "anchors": ["gen/decl.go: parse"]}
{"id": "C31", "title": "Truncated input is rejected", "statement": "For formats without to-the-end constructs, no proper prefix of the consumed bytes is accepted with a different outcome: an accepted encoding is never a proper prefix of another accepted encoding.", "quantifier": "all such formats (as in the previous property), all inputs", "why_tests_cant": "All prefixes of all inputs.", "anchors": ["gen/decl.go: parse, lengthCheck"]}
{"id": "C32", "title": "ParseX wraps Parse", "statement": "ParseX returns the parsed object exactly when Parse on a new object succeeds, and nil with the same error otherwise.", "quantifier": "all structs, inputs, contexts", "why_tests_cant": "All inputs.", "anchors": ["gen/decl.go: parseConstructor"]}
{"id": "C33", "title": "Nested structs parse as they would standalone", "statement": "A struct-typed field holds exactly what that struct's own Parse yields on the bytes at that point with the same context values, and parsing continues at its remainder; its error is the outer error.", "quantifier": "all nestings, all inputs and contexts", "why_tests_cant": "Unbounded nesting.", "anchors": ["gen/decl.go: parseType (StructRef), contextArgs"]}
{"id": "C34", "title": "Parse into a used object", "statement": "For formats whose references only name fields parsed earlier on every path, calling Parse on an object holding arbitrary old contents gives the same error status and the same remainder as on a fresh object.", "quantifier": "all formats whose references name ordinary members parsed earlier or earlier members of the same union case; all old contents of the Go type, all inputs", "why_tests_cant": "All histories of the object.", "anchors": ["gen/decl.go: parse, ref"]}
{"id": "C35", "title": "Marshallers fails cleanly exactly on unresolvable files", "statement": "Generating code for files produced by the parser panics exactly when an integer constant or struct name it needs is not declared, and returns an error exactly when the files conflict; otherwise it emits code for every non-extern struct and every context.", "quantifier": "all lists of files the parser can produce", "why_tests_cant": "All files.", "anchors": ["gen/decl.go: Marshallers, files, file, structure, integer, parseType"]}
{"id": "C36", "title": "Generated code obeys Go's scope and type rules", "statement": "The generated package compiles, as far as Go's rules on scopes, types, constants, declarations, unused variables and return statements go, whenever the source names do not clash (with each other, with predeclared names, or with the variables of the generated code), integers written in constraints and cases fit their types, references name numbers, a union has at most one default, contexts used are declared, and the user's code provides the structs left extern. Every one of these conditions on names and integers is needed: e.g. a struct whose name starts with i and that contains a nulterm is accepted and yields code that does not compile. Conversely, for all files, if the emitted package compiles then names, fields, contexts and parameters are free of these clashes, every struct and context used is declared and has the contexts of its users, every length and tag reads a number, unions have at most one default, and the bounds of every constraint and case are values of the type compared.", "quantifier": "all lists of files meeting the condition, all translations of names to Go", "why_tests_cant": "All files and name choices.", "anchors": ["gen/decl.go: structure (receiver), parseType (NulTermString), contextSignature, conditional, tipe, structDecl, context, parseConstructor"]}
{"id": "C37", "title": "Constraint store is a conflict-checked map", "statement": "Set records a value and fails exactly when a different value is already recorded for the same scope and name, changing nothing else; Lookup returns what was last successfully set; LookupOrCreate returns the existing value or records the given one; ClearLocal removes exactly the local scope.", "quantifier": "all histories of constraint operations", "why_tests_cant": "All operation sequences.", "anchors": ["tv/constraints.go: Set, Lookup, LookupOrCreate, ClearScope"]}
{"id": "C38", "title": "Clone and Merge", "statement": "Clone yields an equal but independent store; Merge fails exactly when the two disagree on some key and otherwise is their union; neither depends on map iteration order.", "quantifier": "all stores, all later mutations, all iteration orders", "why_tests_cant": "Map orders and all stores.", "anchors": ["tv/constraints.go: Clone, Update, Merge, CloneGlobal"]}
{"id": "C39", "title": "intbytes is the inverse of big-endian decoding", "statement": "intbytes(x, bits) is bits/8 bytes long and decodes big-endian to x modulo 2^bits.", "quantifier": "all int64 x, all widths", "why_tests_cant": "2^64 values.", "anchors": ["tv/generator.go: intbytes"]}
{"id": "C40", "title": "Generated vectors are accepted by the generated parser", "statement": "Every test vector generated for a struct is accepted by that struct's generated Parse given context values satisfying the vector's constraints. (Fails for several accepted formats, e.g. a struct-typed field between a length field and its array; proved for a large decidable class.)", "quantifier": "all formats in the class, all random sources, all vectors", "why_tests_cant": "All formats and random streams.", "anchors": ["tv/generator.go: GenerateFiles, structure, members, member, union, array, lenconstrain"]}
{"id": "C41", "title": "Vectors cover every non-failing union branch", "statement": "With the exhaustive selector, each union case that is not 'fail' contributes vectors whose tag value lies in that case.", "quantifier": "all formats in a decidable class, all random sources", "why_tests_cant": "All formats and random streams.", "anchors": ["tv/generator.go: union", "inspect/branches.go: All"]}
{"id": "C42", "title": "Test vector generation is deterministic in the seed", "statement": "With the same files and random stream, generation yields the same corpus regardless of map iteration order.", "quantifier": "all files, streams, iteration orders", "why_tests_cant": "Map iteration schedules.", "anchors": ["tv/generator.go: GenerateFiles", "tv/constraints.go: Update"]}
{"id": "C43", "title": "Random sample selector", "statement": "RandomSampleSelector(n) returns min(n, m) of the m given vectors, each taken from a distinct position, and all of them unchanged when m <= n.", "quantifier": "all n, all vector lists, all permutations returned by the random source", "why_tests_cant": "All permutations.", "anchors": ["tv/selector.go: RandomSampleSelector"]}
{"id": "C44", "title": "Package writes files in order and stops at the first failure", "statement": "Package writes the marshaller file first; if vector generation is not implemented for the format it succeeds having written only that file; on any other failure it returns the error and writes nothing further.", "quantifier": "all files, all failure points of the file system", "why_tests_cant": "All crash/failure points.", "anchors": ["gen/core.go: Package"]}
{"id": "C45", "title": "Corpus on disk", "statement": "WriteCorpus leaves, for every suite and vector, a file under <type>/corpus whose content is exactly the vector's data (names being the hash of the data, assumed collision free); it changes no other path and writing the same corpus again changes nothing.", "quantifier": "all corpora, all prior file-system contents", "why_tests_cant": "All corpora.", "anchors": ["tv/corpus.go: writecorpus, sha256namer"]}
{"id": "C46", "title": "Tests and fuzzers are generated exactly for unconstrained suites", "statement": "CorpusTests and Fuzzers emit a function for a suite exactly when none of its vectors carries a constraint, in corpus order.", "quantifier": "all corpora", "why_tests_cant": "All corpora.", "anchors": ["gen/tests.go: CorpusTests, constrained", "gen/fuzz.go: Fuzzers"]}
{"id": "C47", "title": "Corpus lookup", "statement": "Corpus.Vectors(n) returns the vectors of the first suite added under type n, and nil when there is none; adding suites never changes earlier lookups that found one.", "quantifier": "all histories of AddSuite/AddVectors", "why_tests_cant": "All histories.", "anchors": ["tv/corpus.go: Corpus.Vectors, AddSuite, AddVectors"]}
{"id": "C48", "title": "Integer literals", "statement": "A literal written in decimal, 0x-hexadecimal or 0-octal denotes its mathematical value when that is below 2^63; larger values and octal-looking literals with digit 8 or 9 make the whole parse fail.", "quantifier": "all digit strings", "why_tests_cant": "All digit strings.", "anchors": ["parse/trunnel.pigeon: IntLiteral, HexLiteral, OctalLiteral, DecimalLiteral"]}
{"id": "C49", "title": "Every source text is decided", "statement": "Parsing any text terminates with a file or an error.", "quantifier": "all texts", "why_tests_cant": "Non-termination is not testable.", "anchors": ["parse/trunnel.pigeon: all rules", "parse/parse.go: String, Reader"]}
{"id": "C50", "title": "Printing then parsing is the identity", "statement": "Any well-formed file, written out in trunnel syntax, parses back to exactly that file.", "quantifier": "all well-formed files (any number and nesting of declarations)", "why_tests_cant": "All files.", "anchors": ["parse/trunnel.pigeon: all rules"]}
{"id": "C51", "title": "Whitespace and comments are insignificant", "statement": "Replacing any gap between tokens by any other sequence of spaces, tabs, carriage returns, newlines and comments (non-empty where the grammar demands a separator) does not change the parsed file.", "quantifier": "all files, all layouts", "why_tests_cant": "All layouts.", "anchors": ["parse/trunnel.pigeon: _, __, Skip, Comment"]}
{"id": "C52", "title": "Parsed files respect the structural rules", "statement": "In every file the parser returns: integer sizes are 8/16/32/64, eos and to-the-end arrays occur only last in a struct, ignore/fail only inside union cases (fail alone, ignore last), contexts contain only unconstrained integers, unions do not nest, and literals are in 0..2^63-1.", "quantifier": "all texts", "why_tests_cant": "All texts.", "anchors": ["parse/trunnel.pigeon: StructDecl, UnionBody, UnionFields, ContextMember"]}
{"id": "C53", "title": "Inline structs are hoisted exactly once", "statement": "A struct declared inside a member is replaced by a reference and appears exactly once among the file's structs, after all top-level ones, despite backtracking.", "quantifier": "all files with inline structs, any nesting", "why_tests_cant": "Backtracking schedules are unbounded.", "anchors": ["parse/trunnel.pigeon: StructRef, addLingeringDeclaration, File"]}
{"id": "C54", "title": "Reading several files is all or nothing", "statement": "parse.Files returns one AST per name in order, or an error if any file fails, never a partial result; the build command writes nothing when any input fails to parse.", "quantifier": "all lists of files, any failing position", "why_tests_cant": "All failure points.", "anchors": ["parse/parse.go: Files", "cmd/trunnel/trunnel.go: build"]}
{"id": "C55", "title": "Encodings are unambiguous", "statement": "Under the format's declarative meaning an input is the encoding of at most one value, followed by one rest.", "quantifier": "all well-formed files whose references only go back, all inputs and values", "why_tests_cant": "All formats and all byte strings.", "anchors": ["docs/manual.html", "gen/decl.go: parse"]}
{"id": "C56", "title": "The parser decides exactly the described language", "statement": "A sequence of bytes parses to a file if and only if it is the UTF-8 encoding of a layout of a list of declarations of the language, and the file is what the declarations denote; no text has two meanings.", "quantifier": "all byte sequences", "why_tests_cant": "All texts; ordered choice and backtracking make local tests inconclusive.", "anchors": ["parse/trunnel.pigeon: all rules", "parse/internal/parser/gen-parser.go: parser, parseRule, parseExpr"]}
{"id": "C57", "title": "Generated tests pass", "statement": "Every test function generated from a corpus passes when run with the generated parsers, and a fuzzing function returns 1 exactly on data that begin with an encoding.", "quantifier": "all formats in a decidable class, all random sources", "why_tests_cant": "The tests of one run say nothing about other formats, seeds and sources.", "anchors": ["gen/tests.go: CorpusTests", "gen/fuzz.go: Fuzzers", "tv/generator.go: GenerateFiles"]}
{"id": "C58", "title": "Every struct has a suite", "statement": "A generated corpus has exactly one suite for each struct that is not extern, in order of declaration.", "quantifier": "all lists of files, all random sources", "why_tests_cant": "All lists of files.", "anchors": ["tv/generator.go: files"]}
{"id": "C59", "title": "The printed text is the program", "statement": "The text the generator prints for parsed files, read by the lexical and syntactic rules of Go, is the program that the other properties speak about, in the package asked for.", "quantifier": "all parsed files whose names become Go identifiers, all package names", "why_tests_cant": "Printing is by string pieces; precedence, separators and automatic semicolons interact for unboundedly many nestings.", "anchors": ["gen/decl.go: marshallers", "gen/printer.go: printer"]}
{"id": "C60", "title": "The vector generator works on supported formats", "statement": "On a format without the unsupported constructs the vector generator never returns an error or panics; if no struct contains itself and draws of random numbers end, it returns a corpus.", "quantifier": "all formats in a decidable class, all random sources, map orders, slice growth policies and selectors", "why_tests_cant": "Errors come from merging constraint stores, whose contents depend on the format, the random draws and the order of choices.", "anchors": ["tv/generator.go: GenerateFiles, structure, array, union, cross", "tv/constraints.go: Merge", "inspect/branches.go: NewBranches"]}
{"id": "C61", "title": "From source to behaviour", "statement": "For trunnel sources as bytes: generation fails with an error exactly on conflicting files and with a panic exactly on undeclared names, and otherwise prints text which, read as Go, is a program whose Parse methods accept exactly the encodings the sources describe; under the conditions of the single properties this program compiles and its methods return on all data.", "quantifier": "all lists of source files, all context values, all data and values", "why_tests_cant": "Tests of one layer do not show that what one layer delivers is what the next one needs.", "anchors": ["parse/parse.go", "inspect/inspect.go: NewResolverFiles", "gen/decl.go: Marshallers"]}
{"id": "C62", "title": "The printed tests and fuzzing functions mean what was generated", "statement": "The text printed for a corpus, read by Go's rules, is exactly one test function and one fuzzing function for each suite without constraints, in order, with the bytes of the vectors and calling the suite's parse function; the text determines them; the test file has no build constraint, and the fuzz file is built only with the tag gofuzz.", "quantifier": "all corpora, packages and names that become Go identifiers", "why_tests_cant": "A wrong separator, a number in the wrong base or a swapped result shows only for some corpora.", "anchors": ["gen/tests.go: CorpusTests", "gen/fuzz.go: Fuzzers", "gen/printer.go"]}
{"id": "C63", "title": "A run of the build command", "statement": "If the build command succeeds, the inputs do not conflict and declare what they use; gen-marshallers.go holds a Go program that accepts exactly the encodings the inputs describe; and either vectors are not implemented for the format and no other file was touched, or the test and fuzz files hold the functions of the generated corpus, every vector is stored, no other file was touched, and (in the class of formats of C57, without contexts) the tests pass. On supported formats the command succeeds unless formatting or a file operation fails.", "quantifier": "all inputs, file systems, random sources and seeds, assuming that formatting keeps what text means", "why_tests_cant": "Each layer can be right on its own terms and the whole wrong: a file under the wrong name, tests that do not fit the program beside them.", "anchors": ["cmd/trunnel/trunnel.go: build", "parse/parse.go: Files", "gen/core.go: Package", "tv/corpus.go: WriteCorpus"]}
{"id": "C64", "title": "Every combination of union cases gets a vector", "statement": "With the selector used by default, whatever case that can be selected and does not fail is chosen for each union of a struct, some vector shows all these cases at once; so the number of vectors is at least the product of the numbers of such cases, and at least 2^n for n unions with two cases each.", "quantifier": "all formats in a decidable class, all random sources, map orders and slice growth policies, all choices of cases", "why_tests_cant": "The vectors of a union are combined with those of every later member through shared constraint stores; tests look at few unions, and the growth only shows with many.", "anchors": ["tv/generator.go: GenerateFiles, structure, union", "tv/selector.go: Exhaustive"]}
{"id": "C65", "title": "The parser's work multiplies with nesting", "statement": "Parsing ends after a definite number of evaluations of grammar expressions, and for every way to write declarations this number is at least the sum over the declared structs of a weight that multiplies by 3, 2, 1 or 4 at each level at which a struct is declared in place (as a member, an array of variable length, an array of constant length, or an array without length); so there are texts of at most 15 n + 10 characters that parse without errors and take 3^n, or 4^n, evaluations.", "quantifier": "all texts of all declarations, for the count all inputs", "why_tests_cant": "The growth shows only at depths that tests do not reach, where the run does not end in any practical time.", "anchors": ["parse/trunnel.pigeon: StructMember, SMArray, StructEnding, UnionField, ExtentSpec", "parse/internal/parser/gen-parser.go: parseExpr (ExprCnt)"]}
{"id": "C66", "title": "What a parse error says", "statement": "Every source text gets exactly one report, independent of bounds on nesting: its file if it parses, else one error text. The error text is either the report that no match was found or a list of different remarks, one per line, each about a byte that is not valid UTF-8 or about a number that is no literal of the language, with file, line, column, byte offset and reason. All wrong bytes are remarked on if the text reads as a file otherwise, and at least those up to the farthest failure if not. The offset of a position is the number of bytes before it.", "quantifier": "all byte sequences and file names", "why_tests_cant": "Positions go wrong only after backtracking, multi-byte characters, line feeds or invalid bytes at particular places; tests compare few messages.", "anchors": ["parse/internal/parser/gen-parser.go: read, restore, addErrAt, dedupe, errList.Error, parserError.Error"]}
{"id": "C67", "title": "The farthest failure and what was expected there", "statement": "Without remarks, the error text names the last position at which the grammar, tried in its order, meets something unexpected (a terminal that does not match, or one that does match inside a negation), after valid UTF-8 only; it lists in order, each once, exactly the terminals that would have been fine there, with the end of the text as EOF and last. Such a position always exists, and position and text are determined by the source text.", "quantifier": "all texts, matching or not", "why_tests_cant": "The set of expectations is collected over all attempts and resets whenever a failure lies farther; a wrong comparison shows only for some interleavings of attempts.", "anchors": ["parse/internal/parser/gen-parser.go: failAt, parse, parseNotExpr, parseLitMatcher, parseCharClassMatcher, parseAnyMatcher, listJoin"]}
{"id": "C68", "title": "Numbers are the only errors of actions", "statement": "The only action that reports an error is that of integer literals, and only for an octal number with a digit 8 or 9 (invalid syntax) or a number of at least 2^63 (value out of range), neither of which is a literal of the language; a text of valid UTF-8 without such a number in it is answered by its file or by the report that no match was found, never by remarks.", "quantifier": "all texts", "why_tests_cant": "Every action could return an error that would be shown instead of the place where parsing stopped.", "anchors": ["parse/trunnel.pigeon: IntLiteral, File, IntType", "parse/internal/parser/gen-parser.go: parseActionExpr"]}
{"id": "C69", "title": "A check on sources under which generated code decides the format", "statement": "There is a computable check on source bytes such that, for all sources that pass it: they parse, the tool prints Go text for them, the text read by Go's rules is a program obeying Go's scope and type rules, and on every input its Parse methods return a value and a rest if and only if the input is an encoding of the value followed by the rest, and return an error if and only if the input starts with no encoding. No encoded value has a slice longer than 2^32-1 or than the input. All formats shipped with the repository pass the check, except one with a 64-bit length, which passes the part without termination.", "quantifier": "all sources passing the check, all context values, inputs, map orders and user code whose values fit the memory", "why_tests_cant": "Tests run generated code on some inputs of some formats; nothing connects the shipped formats to a statement about all inputs.", "anchors": ["parse/parse.go: Reader", "gen/decl.go: Marshallers", "testdata/tor", "testdata/trunnel", "gen/tests", "parse/testdata"]}
{"id": "C70", "title": "The size of test vectors is bounded by the format", "statement": "The vectors of a struct have at most as many bytes as computed from its declaration by counting 20 elements for each array of variable length, 20 letters and a terminator for strings, 7 bytes for ignored data and the largest case for a union, if no number of elements is also the tag of a union, and counting as many elements as the union has bytes where a number of elements is the length of a union; the bound is reached for some random source, and exceeded if a count is a tag.", "quantifier": "all formats satisfying the condition, all random sources, selectors, map orders and growth policies", "why_tests_cant": "Sizes depend on random draws and on constraints passed between members; tests see a few seeds.", "anchors": ["tv/generator.go: structure, member, array, union", "tv/generator.go: randbtw, randbytes", "tv/constraints.go: LookupOrCreate"]}
{"id": "C71", "title": "Tests are generated for exactly the structs without contexts", "statement": "In well-formed files a struct without contexts gets a test and a fuzzing function, whatever was drawn: its vectors carry no constraints. A struct that uses a context variable in all its vectors gets none. If all structs with contexts do and all suites have vectors, the tests and fuzzing functions are those of the structs without contexts, in order of declaration. For formats satisfying conditions on their declarations alone the generator returns a corpus whose vectors are all accepted and whose tests all pass.", "quantifier": "all well-formed formats, all random sources, map orders, growth policies and selectors", "why_tests_cant": "Constraints are collected in maps shared between vectors; one that leaks silently drops a test, and one that is lost yields a test that does not compile.", "anchors": ["gen/tests.go: CorpusTests, constrained", "gen/fuzz.go: Fuzzers", "tv/generator.go: GenerateFiles, structure", "tv/constraints.go: ClearLocal, CloneGlobal"]}
{"id": "C72", "title": "A check on sources under which generated tests pass", "statement": "There is a computable check on source bytes such that, for all sources that pass it and whatever is drawn: generation of vectors does not fail, and ends if draws do; there is a suite for each struct; the generated program accepts every vector, and passes every generated test. A second check also ensures that, if no vectors are dropped, each case of a union that can be parsed is parsed in some vector, and there are tests for exactly the structs without contexts. Most formats shipped with the repository pass both; for two of the others a generated test fails, for three there are no vectors.", "quantifier": "all sources passing the check, all random sources, map orders, growth policies and selectors", "why_tests_cant": "The tool tests generated code with vectors that it draws itself; whether they can be wrong depends on draws, on capacities of slices and on the order of maps.", "anchors": ["gen/core.go: Package", "tv/generator.go: GenerateFiles", "gen/tests.go: CorpusTests", "testdata/tor", "testdata/trunnel", "gen/tests"]}
{"id": "C73", "title": "The conditions of the check on tests are needed", "statement": "There are sources, each outside one condition of the check of C72, that the tool accepts and for which the generated parser decides the format whatever the input, and yet a test generated with the seed the command uses fails: a struct between a number and the array it counts; an array of structs without members; a number or a tag with a restricted range; a length that does not fit its field; a struct or case that extends to the end of the input, followed by more. For others generation of vectors ends in an error or a panic: elements that may disagree about a context; a default case without values. Moving or changing one member gives a source that passes the check.", "quantifier": "all inputs to the generated parsers; the random source of the command", "why_tests_cant": "The golden tests of the repository pass: their formats are inside the conditions, or the seed happens to draw a number that fits.", "anchors": ["tv/generator.go: structure, members, union, lenconstrain, intType, array", "gen/core.go: 20, 54"]}
{"id": "C74", "title": "How large slices the generated parser makes", "statement": "If the fields that give numbers of elements have at most k bits, the generated Parse asks for no slice of more than 2^k-1 elements: from that limit of memory on, its outcome on every input is independent of the limit. It does ask for as many elements as the number in the input says, before it looks at the data: if a struct begins with a number and an array of that many elements, then on every input that begins with the number, however short, the parser panics if so many elements cannot be allocated; with the number alone as input it rejects the input if they can.", "quantifier": "all formats, all limits of memory, all inputs and context values", "why_tests_cant": "Memory use depends on numbers in the input that no test chooses; tests run with enough memory.", "anchors": ["gen/decl.go: 229", "gen/decl.go: 204-250 parseArray"]}
{"id": "C75", "title": "How often the loops of a generated parser run", "statement": "If elements of arrays whose length is in the input are never empty, then on every input no loop of the generated Parse runs more often, and calls nest no deeper, than the length of the input (or of the longest fixed array, if longer) plus a constant that depends on the nesting of structs only, whatever numbers of elements the input claims. With empty elements this fails: four bytes can make a loop run 2^32-1 times.", "quantifier": "all formats, all inputs and context values", "why_tests_cant": "An input that claims many elements is stopped by the first missing byte; that no loop goes on without reading cannot be seen from runs.", "anchors": ["gen/decl.go: 217-250", "gen/decl.go: 167-202"]}
{"id": "C76", "title": "Work of a generated parser is linear in the input", "statement": "If structs do not nest without end and elements of arrays whose length is in the input are never empty, the number of statements executed by the generated Parse (with conditions tested and bytes searched for the end of strings) is at most K times the length of the input plus C, on every input and for all context values; K and C depend only on the size of the emitted text, the longest fixed array of empty elements and the nesting of structs. With empty elements this fails: four bytes can make it execute 2^32-1 statements.", "quantifier": "all formats, all inputs and context values", "why_tests_cant": "Running time is measured on chosen inputs; a superlinear input need not be among them.", "anchors": ["gen/decl.go: 167-250", "gen/decl.go: 119-140"]}
{"id": "C77", "title": "Packages that compile do not get stuck", "statement": "In every package of the Go subset that obeys the scope and type rules, emitted or not, Parse called on an object of its type with contexts of the declared types, on any input, ends in a return, a run-time panic or not at all: it never uses a name without a declaration, applies an operation to a value of another type or runs off the end of a function. When it returns, the object and every object inside it have, at every declared field, a value of the declared type (numbers in the range of their width). The same for the ParseT functions. For emitted packages no other condition on the source is needed than that the package compiles.", "quantifier": "all programs of the subset, all sources, all inputs, all context values of the declared types, all user code that keeps the type of its receiver", "why_tests_cant": "The compiler is run on the packages of a few sources; that no accepted program can go wrong relates two definitions, the type rules and the meaning of statements, over all programs.", "anchors": ["gen/decl.go: 30-140", "gen/decl.go: 143-375"]}
{"id": "C78", "title": "The size of generated code, and sources whose parsers work in linear time", "statement": "The Parse method of a struct has exactly as many statements as a function of the struct's declaration says, at least one and at most eighteen for each of its members, unions, cases and members of cases, and two more; whatever constants, other structs and the order of files are. With C76 this gives a check on source bytes: for sources that pass it the tool prints a program that compiles, decides on every input whether it starts with an encoding, and executes at most K times the length of the input plus C statements, with K and C read off the source.", "quantifier": "all accepted sources, all inputs and context values, all user code", "why_tests_cant": "Golden files show the code of a few sources; nothing in the repository measures or bounds running time.", "anchors": ["gen/decl.go: 130-316", "ast/types.go: 27-130"]}
{"id": "C79", "title": "Builds are reproducible", "statement": "The command build run twice on the same source files with the same seed and the same failures of file operations has the same outcome, does the same file operations in the same order and leaves the same files with the same contents, whatever order Go iterates over maps in (declarations are kept in maps and copied out of them, as are the values that vectors need in contexts). In particular the texts of the parsers, of the tests and of the fuzzers do not depend on it, also when a run ends in an error.", "quantifier": "all source files, all iteration orders, all seeds, all failures, all prior states of the file system", "why_tests_cant": "Map iteration order is chosen anew in every run, so a test that passes or a golden file that matches once says nothing about other orders.", "anchors": ["gen/core.go: 43-86", "inspect/inspect.go: 73-117", "tv/constraints.go: 81-91", "gen/tests.go: 36-43"]}
{"id": "C80", "title": "The order of declarations and files does not matter", "statement": "If declarations are moved within and between files, and both sets of files load, all lookups answer alike, generation succeeds on both or neither, and the emitted programs consist of the same declarations in another order; if one compiles so does the other, new objects are the same and every Parse method and ParseT function has the same outcome on all inputs, with the same fuel, limit on memory and user code. Files can be given in any order if no struct is declared twice. If a struct is declared extern twice, with different contexts, the order matters: the program may compile in one order of the files only.", "quantifier": "all sets of files, all rearrangements, all inputs, all user code", "why_tests_cant": "Tests load files in one order; the number of orders is exponential, and that declarations after their uses and in other files have the same meaning is a statement about pairs of inputs.", "anchors": ["inspect/inspect.go: 73-135", "gen/decl.go: 30-83"]}
{"id": "C81", "title": "Constants are names for their values", "statement": "Replacing every use of a declared constant by its value and removing all declarations of constants changes neither the text printed for the parsers nor the program it stands for; if generation panics on one of the two, because of a name without declaration, it panics on the other with the same message. In what results only names without a declaration are left.", "quantifier": "all files that load, all iteration orders, all Go names", "why_tests_cant": "A test shows it for the constants of one file and the places where they are used there.", "anchors": ["inspect/inspect.go: 194-207", "gen/decl.go: 318-324"]}
{"id": "C82", "title": "Names are only names", "statement": "Giving other names to structs, fields and constants, consistently and different ones to different things, leaves everything but names as it is: the files load if and only if they did, and the text and the program generated are those generated for the original files with the new names in place of the old ones. For well-formed files Go names do not matter for what is parsed: two programs for the same files with different Go names, and hence the programs for files and for renamed files, accept the same inputs with the same numbers and bytes in the same places and the same rest, and reject the same inputs. The initial of a struct's name is not only a name: it becomes the receiver, and a struct called imsg instead of msg makes a package that does not compile.", "quantifier": "all files, all renamings that keep names of contexts and initials of structs, all Go names, all inputs and context values, all user code", "why_tests_cant": "Tests use the names they use; that nothing in the generator depends on particular names is a statement about pairs of sources.", "anchors": ["inspect/inspect.go: 73-135", "gen/decl.go: 30-140", "gen/decl.go: 303-308", "gen/core.go: 88-90"]}
{"id": "C83", "title": "Adding files does not change the code for the others", "statement": "If files generate, and generate together with further files, then the program and the text for all of them are the program and the text for the first ones followed by more, provided that declarations of the same struct name the same contexts: further files may declare anything, also define structs that were extern. Files that generate separately and load together generate together, the programs side by side. Without the condition on contexts this is false.", "quantifier": "all lists of files, all iteration orders, all Go names", "why_tests_cant": "A test compares the output for particular files; that every further declaration leaves the code for the earlier ones as it is, is a statement about all extensions.", "anchors": ["inspect/inspect.go: 73-135", "gen/decl.go: 13-49", "gen/decl.go: 183-191"]}
{"id": "C84", "title": "Generated parsers can stand for user code", "statement": "Let files leave some structs extern, and let further files define some of them or not. If the user code written for the extern structs accepts what these structs are in all files together, with the same values, then the structs defined in the first files mean the same in both settings, and for well-formed files the generated parsers accept the same inputs with the same values and rests and reject the same inputs, whether they call user code or the code generated for the further files. The condition holds with the same user code if the further files declare none of the extern structs.", "quantifier": "all well-formed files and further files, all user code, all context values, all inputs", "why_tests_cant": "User code is arbitrary and the definitions are, so that no finite set of programs shows that one can be replaced by the other.", "anchors": ["gen/decl.go: 30-49", "gen/decl.go: 119-138", "gen/decl.go: 183-191", "inspect/inspect.go: 73-98"]}
