import Verif.GenTestText
/-!
# Model of the parts that touch files

`gen/core.go`, `gen/tests.go`, `gen/fuzz.go`, `tv/corpus.go:48-77`, `parse/parse.go`,
`cmd/trunnel/trunnel.go`.

Simplifications: a path is the list of its components (all names joined by the code are identifiers,
hashes or literals, so `filepath.Join` just concatenates); permissions are not modelled; goimports
(gen/printer.go:19-21) is an arbitrary function on the printed text that may fail.
Any file operation may fail, decided by an oracle; a failing write may leave anything in the file it was
writing, a failing `MkdirAll` may create some of the directories.
-/
namespace Verif.Effects
open Verif Verif.Ast Verif.Inspect Verif.Tv

/-- A path: its components. Made by `filepath.Join`, gen/core.go:33-36,62, tv/corpus.go:57,64. -/
abbrev Path := List String

/-- Files with their content, and directories. What gen/core.go:38-40 and tv/corpus.go:54-71 change. -/
structure FS where
  files : Path → Option Bytes
  dirs : Path → Bool

/-- Operations that change the file system: tv/corpus.go:58 `MkdirAll`, tv/corpus.go:65 and gen/core.go:39
`WriteFile`. -/
inductive Op where
  | mkdirAll (p : Path)
  | write (p : Path) (b : Bytes)
deriving DecidableEq, Repr

/-- How an operation can fail: leaving content in the file written, or having created the first `depth`
directories of the path. The errors returned at gen/core.go:38-40, tv/corpus.go:58-67. -/
structure Failure where
  left : Option Bytes
  depth : Nat

/-- The failure oracle: outcome of the `n`-th operation. The operating system decides about gen/core.go:38-40, tv/corpus.go:58-67. -/
abbrev Oracle := Nat → Option Failure

/-- A written file. `ioutil.WriteFile`, gen/core.go:38-40, tv/corpus.go:65. -/
def FS.put (fs : FS) (p : Path) (c : Option Bytes) : FS :=
  { fs with files := fun q => if q = p then c else fs.files q }

/-- All directories on the way to `p`, up to depth `n`. `os.MkdirAll`, tv/corpus.go:58. -/
def FS.mkdirs (fs : FS) (p : Path) (n : Nat) : FS :=
  { fs with dirs := fun q => fs.dirs q || (q.isPrefixOf p && decide (q.length ≤ n)) }

/-- Effect of an operation that succeeds. gen/core.go:38-40, tv/corpus.go:58,65. -/
def FS.apply (fs : FS) : Op → FS
  | .mkdirAll p => fs.mkdirs p p.length
  | .write p b => fs.put p (some b)

/-- Effect of an operation that fails. gen/core.go:38-40, tv/corpus.go:58,65. -/
def FS.applyFailed (fs : FS) (f : Failure) : Op → FS
  | .mkdirAll p => fs.mkdirs p f.depth
  | .write p _ => fs.put p f.left

/-- World: the file system and the operations done so far, last first. gen/core.go:43-86. -/
structure World where
  fs : FS
  done : List Op

/-- Outcome of a command: an error, a panic, or a hang (not finished in the given steps). Of cmd/trunnel/trunnel.go:52-68. -/
inductive Result where
  | ok
  | err (m : String)
  | panic (m : String)
  | timeout
deriving DecidableEq, Repr

/-- Do an operation; then go on if it succeeded, and return its error if it failed
(gen/core.go:49-51, tv/corpus.go:58-60). -/
def perform (orc : Oracle) (op : Op) (msg : String) (k : World → Result × World) (w : World) :
    Result × World :=
  match orc w.done.length with
  | none => k ⟨w.fs.apply op, op :: w.done⟩
  | some f => (.err msg, ⟨w.fs.applyFailed f op, op :: w.done⟩)

/-! ## tv/corpus.go -/

/-- tv/corpus.go:62-68 the inner loop of `writecorpus`. -/
def writeVectors (orc : Oracle) (namer : Bytes → String) (dir : Path) :
    List Tv.Vector → (World → Result × World) → World → Result × World
  | [], k => k
  | v :: vs, k => perform orc (.write (dir ++ [namer v.data]) v.data) "failed to write file"
      (writeVectors orc namer dir vs k)

/-- tv/corpus.go:54-70 `writecorpus`, below directory `base` (tv/corpus.go:48-51); `k` is what the
caller does afterwards. -/
def writeCorpus (orc : Oracle) (namer : Bytes → String) (base : Path) :
    Corpus → (World → Result × World) → World → Result × World
  | [], k => k
  | s :: ss, k => perform orc (.mkdirAll (base ++ [s.type, "corpus"])) "could not create directory"
      (writeVectors orc namer (base ++ [s.type, "corpus"]) s.vectors (writeCorpus orc namer base ss k))

/-! ## gen/core.go -/

/-- gen/core.go:17-21 `Config`. -/
structure Config where
  pkg : String
  dir : Path

/-- What `Package` depends on besides its arguments: Go names (gen/core.go:88-90), `imports.Process` (gen/printer.go:19-21), the hash
(tv/corpus.go:73-77), and the environment and fuel of vector generation. -/
structure Sys where
  nm : String → String
  process : GenText.Text → Except String Bytes
  namer : Bytes → String
  E : Env
  fuel : Nat
  seed : E.R.σ
  orc : Oracle

/-- gen/core.go:76-85: the fuzzer file. -/
def packageFuzz (S : Sys) (cfg : Config) (c : Corpus) (w : World) : Result × World :=
  match S.process (GenText.fuzzers cfg.pkg S.nm c) with
  | .error m => (.err m, w)
  | .ok b => perform S.orc (.write (cfg.dir ++ ["gen-fuzz.go"]) b) "write" (fun w => (.ok, w)) w

/-- gen/core.go:67-74: the test file, then the fuzzer file. -/
def packageTests (S : Sys) (cfg : Config) (c : Corpus) (w : World) : Result × World :=
  match S.process (GenText.corpusTests cfg.pkg S.nm c) with
  | .error m => (.err m, w)
  | .ok b => perform S.orc (.write (cfg.dir ++ ["gen-marshallers_test.go"]) b) "write"
      (packageFuzz S cfg c) w

/-- gen/core.go:53-65: vector generation and the corpus, then the rest. -/
def packageVectors (S : Sys) (cfg : Config) (fs : List File) (w : World) : Result × World :=
  match generateFiles S.E S.fuel S.seed fs with
  | .err .notImplemented => (.ok, w)
  | .err (.other m) => (.err m, w)
  | .panic m => (.panic m, w)
  | .timeout => (.timeout, w)
  | .ok c => writeCorpus S.orc S.namer (cfg.dir ++ ["testdata", "fuzz"]) c (packageTests S cfg c) w

/-- gen/core.go:43-86 `Package`. `Marshallers` (gen/decl.go:13-19) is `GenText.marshallers` followed by
`imports.Process`. -/
def package (S : Sys) (cfg : Config) (fs : List File) (w : World) : Result × World :=
  match GenText.marshallers cfg.pkg S.nm S.E.order fs with
  | .err m => (.err m, w)
  | .panic m => (.panic m, w)
  | .ok t =>
    match S.process t with
    | .error m => (.err m, w)
    | .ok b => perform S.orc (.write (cfg.dir ++ ["gen-marshallers.go"]) b) "write"
        (packageVectors S cfg fs) w

/-! ## parse/parse.go and cmd/trunnel/trunnel.go -/

/-- parse/parse.go:15-17 `File`: open, read and parse. `read` may fail for any name. -/
def parseFile (read : String → Except String Bytes) (parser : Bytes → Except String File)
    (name : String) : Except String File :=
  match read name with
  | .error m => .error m
  | .ok b => parser b

/-- parse/parse.go:20-30 `Files`: the array filled so far is dropped on error. -/
def parseFiles (file : String → Except String File) : List String → Except String (List File)
  | [] => .ok []
  | n :: ns =>
    match file n with
    | .error m => .error m
    | .ok f =>
      match parseFiles file ns with
      | .error m => .error m
      | .ok fs => .ok (f :: fs)

/-- cmd/trunnel/trunnel.go:52-68 the action of `build`; errors become exit codes. -/
def build (S : Sys) (cfg : Config) (file : String → Except String File) (names : List String)
    (w : World) : Result × World :=
  if names.length = 0 then (.err "missing trunnel filenames", w)
  else
    match parseFiles file names with
    | .error m => (.err m, w)
    | .ok fs => package S cfg fs w

end Verif.Effects
