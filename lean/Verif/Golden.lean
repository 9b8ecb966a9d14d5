import Verif.GoReadTest
import Verif.TestRun
import Verif.GoEq
import Verif.GenRun
import Verif.Props.GenTextCases
/-!
# Comparing files the tool made with the model
-/
namespace Verif.Golden
open Verif Verif.Ast Verif.Go Verif.Go.Read Verif.Effects Verif.Props

/-- The parts between underscores, as `snaker` (a library, used at gen/core.go:89) splits names. -/
def splitUnderscore : List Char → List (List Char)
  | [] => [[]]
  | c :: cs =>
    match splitUnderscore cs with
    | w :: ws => if c = '_' then [] :: w :: ws else (c :: w) :: ws
    | [] => [[c]]

/-- Words `snaker` (gen/core.go:89) writes in capitals; only those relevant to the files compared are certain to be right. -/
def initialisms : List (List Char) :=
  ["API", "ASCII", "CPU", "CSS", "DNS", "EOF", "GUID", "HTML", "HTTP", "HTTPS", "ID", "IP", "JSON", "LHS", "QPS", "RAM", "RHS",
    "RPC", "SLA", "SMTP", "SSH", "TLS", "TTL", "UI", "UID", "UUID", "URI", "URL", "UTF8", "VM", "XML", "XSRF", "XSS"].map String.toList

/-- gen/core.go:87-90 `name`, with `snaker.SnakeToCamel` as documented (a library outside the repository). Theorems are about any
function in its place. -/
def camel (n : String) : String :=
  String.ofList ((splitUnderscore (n.toList.map Char.toLower)).flatMap fun w =>
    if w.map Char.toUpper ∈ initialisms then w.map Char.toUpper
    else match w with
      | [] => []
      | c :: cs => c.toUpper :: cs)

/-- The files of a directory: a source file, and what gen/core.go:44-70 wrote for it. -/
structure Dir where
  pkg : String
  source : List Char
  code : List Char
  tests : List Char
  fuzz : List Char

/-- The source parses, the generator emits a program for it, and the code is that program when read. -/
def Dir.Codes (d : Dir) (f : File) (p : Prog) : Prop :=
  Parses (Peg.utf8 d.source) f ∧ Gen.marshallers camel idOrder [f] = .ok p ∧ readGo 200 d.code = some (d.pkg, p)

/-- `Codes` for some file and program. -/
def Dir.CodeAgrees (d : Dir) : Prop := ∃ f p, d.Codes f p

/-- A test of some struct of the program (gen/tests.go:13-31): its name and the function called are made from the name of the
struct, and it passes when run with that program. -/
def TestFits (f : File) (p : Prog) (t : TestFn) : Prop :=
  ∃ s ∈ f.structs, t.name = "Test" ++ camel s.name ++ "Corpus" ∧ t.calls = "Parse" ++ camel s.name ∧ t.cases ≠ [] ∧
    runTest ⟨p, exExt, 2 ^ 32⟩ 1000 t = .pass

/-- A fuzzing function of some struct of the program (gen/fuzz.go:13-22). -/
def FuzzFits (f : File) (t : FuzzFn) : Prop :=
  ∃ s ∈ f.structs, t.name = "Fuzz" ++ camel s.name ∧ t.calls = "Parse" ++ camel s.name

/-- All files agree with the model. -/
def Dir.Agrees (d : Dir) : Prop := ∃ f p, d.Codes f p ∧
  ∃ ts us, readTests 200 d.tests = some (d.pkg, ts) ∧ (∀ t ∈ ts, TestFits f p t) ∧ ts ≠ [] ∧
    readFuzz 200 d.fuzz = some (d.pkg, us) ∧ (∀ t ∈ us, FuzzFits f t) ∧
    us.map (·.calls) = ts.map (·.calls)

/-- The check of `Codes`. -/
def Dir.program (d : Dir) : Option (File × Prog) :=
  match Peg.parseBytes 200 (Peg.utf8 d.source) with
  | some (.ok f) =>
    match Gen.marshallers camel idOrder [f] with
    | .ok p =>
      match readGo 200 d.code with
      | some (n, q) => if n = d.pkg && eqProg q p then some (f, p) else none
      | none => none
    | _ => none
  | _ => none

theorem program_codes {d : Dir} {f : File} {p : Prog} (h : d.program = some (f, p)) : d.Codes f p := by
  unfold Dir.program at h
  split at h
  · next f' hp =>
    split at h
    · next p' hm =>
      split at h
      · next n q hr =>
        split at h
        · next he =>
          simp only [Option.some.injEq, Prod.mk.injEq] at h
          obtain ⟨rfl, rfl⟩ := h
          rw [Bool.and_eq_true, decide_eq_true_eq] at he
          refine ⟨⟨200, fun fuel hf => ?_⟩, hm, ?_⟩
          · simp only [Peg.parseBytes, Peg.parseRunes] at hp ⊢
            rw [Peg.parseExpr_mono Peg.rules 200 fuel hf _ _ _ (by intro ht; rw [ht] at hp; cases hp)]
            exact hp
          · rw [hr, he.1, eqProg_eq he.2]
        · cases h
      · cases h
    · cases h
  · cases h

theorem codeAgrees_of {d : Dir} (h : d.program.isSome = true) : d.CodeAgrees := by
  cases hd : d.program with
  | none => rw [hd] at h; cases h
  | some r => exact ⟨r.1, r.2, program_codes hd⟩

/-- The check of `TestFits`. -/
def testFitsB (f : File) (p : Prog) (t : TestFn) : Bool :=
  (f.structs.any fun s => t.name = "Test" ++ camel s.name ++ "Corpus" && t.calls = "Parse" ++ camel s.name) && !t.cases.isEmpty &&
    decide (runTest ⟨p, exExt, 2 ^ 32⟩ 1000 t = .pass)

/-- The check of `FuzzFits`. -/
def fuzzFitsB (f : File) (t : FuzzFn) : Bool :=
  f.structs.any fun s => t.name = "Fuzz" ++ camel s.name && t.calls = "Parse" ++ camel s.name

/-- The check of `Agrees`. -/
def Dir.agreesB (d : Dir) : Bool :=
  match d.program with
  | some (f, p) =>
    match readTests 200 d.tests with
    | some (n, ts) =>
      match readFuzz 200 d.fuzz with
      | some (m, us) => n = d.pkg && m = d.pkg && !ts.isEmpty && ts.all (testFitsB f p) && us.all (fuzzFitsB f) &&
        us.map (·.calls) = ts.map (·.calls)
      | none => false
    | none => false
  | none => false

theorem agrees_of {d : Dir} (h : d.agreesB = true) : d.Agrees := by
  unfold Dir.agreesB at h
  split at h
  · next f p hp =>
    split at h
    · next n ts ht =>
      split at h
      · next m us hu =>
        simp only [Bool.and_eq_true, decide_eq_true_eq, List.all_eq_true] at h
        obtain ⟨⟨⟨⟨⟨rfl, h1⟩, h2⟩, h3⟩, h4⟩, h5⟩ := h
        refine ⟨f, p, program_codes hp, ts, us, ht, fun t hm => ?_, ?_, by rw [hu, h1], fun t hm => ?_, h5⟩
        · have := h3 t hm
          simp only [testFitsB, Bool.and_eq_true, List.any_eq_true, decide_eq_true_eq] at this
          obtain ⟨⟨⟨s, hs, h6, h7⟩, h8⟩, h9⟩ := this
          refine ⟨s, hs, h6, h7, fun hc => ?_, h9⟩
          rw [hc] at h8
          cases h8
        · intro hc; rw [hc] at h2; cases h2
        · have := h4 t hm
          simp only [fuzzFitsB, Bool.and_eq_true, List.any_eq_true, decide_eq_true_eq] at this
          obtain ⟨s, hs, h6, h7⟩ := this
          exact ⟨s, hs, h6, h7⟩
      · cases h
    · cases h
  · cases h

end Verif.Golden
