import Verif.Props.GenTextCases
import Verif.Props.GenSafe
import Verif.Props.GenCompiles
import Verif.GenTextSame
/-!
# From source bytes to behaviour (C61)

The layers put together: bytes of trunnel files, parsed; the Go text printed for them; that text, read by Go's rules;
the program so read, run.
-/
set_option linter.unusedVariables false
namespace Verif.Props
open Verif Verif.Ast Verif.Go Verif.Go.Read Verif.Syntax Verif.Gen Verif.Wire Verif.Spec Verif.Inspect Verif.Refine

/-- Source files, and the trees they are parsed to. -/
def ParsesAll : List (List UInt8) → List File → Prop := List.Forall₂ Parses

theorem ParsesAll.good {srcs : List (List UInt8)} {fs : List File} (h : ParsesAll srcs fs) : ∀ f ∈ fs, GoodFile f := by
  induction h with
  | nil => intro f hf; cases hf
  | cons hp _ ih =>
    intro f hf
    rcases List.mem_cons.1 hf with rfl | hf
    · exact C52_rules hp
    · exact ih f hf

theorem ident_ne {n : String} (h : IsIdent n) : n ≠ "" := by
  obtain ⟨c, cs, h1, _⟩ := h
  rintro rfl
  simp at h1

/-- Files that obey the rules have the shape the generator relies on. -/
theorem parserShape_of_good {fs : List File} (h : ∀ f ∈ fs, GoodFile f) : ParserShape fs := by
  intro f hf s hs
  have hg := (h f hf).2.2.1 s hs
  refine ⟨ident_ne hg.1, ?_⟩
  cases hm : s.members with
  | none => simp [Struct.ms, hm]
  | some ms =>
    obtain ⟨init, last, rfl, h1, h2⟩ := hg.2.2 ms hm
    have key : ∀ l : Leaf, (l = .fail ∨ l = .ignore) → Member.leaf l ∉ s.ms := by
      intro l hl hin
      simp only [Struct.ms, hm, Option.getD_some] at hin
      rcases List.mem_append.1 hin with hin | hin
      · rcases h1 _ hin with ⟨f, hf, _⟩ | ⟨n, hf, _⟩ <;> rcases hl with rfl | rfl <;> cases hf
      · rcases h2 with rfl | rfl | ⟨r, rfl, hr⟩
        · cases hin
        · rcases hl with rfl | rfl <;> simp at hin
        · simp only [List.mem_singleton, Member.leaf.injEq] at hin
          subst hin
          rcases hl with rfl | rfl <;> simp [IsRest] at hr
    exact ⟨key _ (.inl rfl), key _ (.inr rfl)⟩

section
variable {srcs : List (List UInt8)} {fs : List File} {pkg : String} {nm : String → String} {ord : IterOrder} {ext : Ext}

/-- **C61.** What comes out for parsed sources: an error if files conflict, otherwise a panic if a constant or
struct is not declared, and otherwise text. -/
theorem C61_outcome (hp : ParsesAll srcs fs) :
    (¬ FilesCompatible fs → ∃ m, GenText.marshallers pkg nm ord fs = .err m) ∧
    (FilesCompatible fs → ¬ Resolved fs → ∃ m, GenText.marshallers pkg nm ord fs = .panic m) ∧
    (FilesCompatible fs → Resolved fs → ∃ t, GenText.marshallers pkg nm ord fs = .ok t) := by
  have hsame := GenText.marshallers_same pkg nm ord fs
  refine ⟨fun h => ?_, fun h h' => ?_, fun h h' => ?_⟩
  · obtain ⟨m, hm⟩ := marshallers_conflict (nm := nm) ord h
    rcases hsame with ⟨a, b, h1, h2⟩ | ⟨m, h1, h2⟩ | ⟨m, h1, h2⟩
    · rw [hm] at h1; cases h1
    · exact ⟨m, h2⟩
    · rw [hm] at h1; cases h1
  · obtain ⟨m, hm⟩ := (marshallers_outcome (nm := nm) ord (parserShape_of_good hp.good) h).2 h'
    rcases hsame with ⟨a, b, h1, h2⟩ | ⟨m, h1, h2⟩ | ⟨m, h1, h2⟩
    · rw [hm] at h1; cases h1
    · rw [hm] at h1; cases h1
    · exact ⟨m, h2⟩
  · obtain ⟨p, hm⟩ := (marshallers_outcome (nm := nm) ord (parserShape_of_good hp.good) h).1 h'
    rcases hsame with ⟨a, b, h1, h2⟩ | ⟨m, h1, h2⟩ | ⟨m, h1, h2⟩
    · exact ⟨b, h2⟩
    · rw [hm] at h1; cases h1
    · rw [hm] at h1; cases h1

/-- Text is printed, and read by Go's rules it is a program with property `P`. -/
def TextRuns (pkg : String) (nm : String → String) (ord : IterOrder) (fs : List File) (P : Prog → Prop) : Prop :=
  ∃ t p, GenText.marshallers pkg nm ord fs = .ok t ∧ (∃ F, ∀ n, F ≤ n → readGo n t = some (pkg, p)) ∧ P p

theorem textRuns_of (hp : ParsesAll srcs fs) (hpkg : GoIdent pkg) (hnames : ∀ f ∈ fs, TextNames nm f)
    (hcomp : FilesCompatible fs) (hres : Resolved fs) {P : Prog → Prop} (h : ∀ p, Gen.marshallers nm ord fs = .ok p → P p) :
    TextRuns pkg nm ord fs P := by
  obtain ⟨p, hm⟩ := (marshallers_outcome (nm := nm) ord (parserShape_of_good hp.good) hcomp).1 hres
  obtain ⟨t, ht, hr⟩ := C59_text_reads hpkg hp.good hnames hm
  exact ⟨t, p, ht, hr, h p hm⟩

/-- **C61.** For sources that parse, do not conflict, declare what they use and are well-formed, the printed text is a Go
program whose `Parse` methods accept exactly the encodings the sources describe: for all context values, data and
values (with slices that can be allocated), the method returns the value and the rest iff the data is an encoding of
the value followed by the rest. -/
theorem C61_accepts (hp : ParsesAll srcs fs) (hpkg : GoIdent pkg) (hnames : ∀ f ∈ fs, TextNames nm f)
    (hcomp : FilesCompatible fs) (hres : Resolved fs) (hok : FilesOK nm ext fs) (hord : OrdOK (fmtOf nm ext fs)) :
    TextRuns pkg nm ord fs fun p => ∀ ctx, CtxOK (fmtOf nm ext fs) ctx → ∀ n s, (fmtOf nm ext fs).structs n = some s →
      ∀ w hid : Bytes, w.length < 2 ^ 63 → ∀ A, A < 2 ^ 63 → ∀ v r, Fits A v →
        (Accepts p ext A (nm n) (ctxArgs s ctx) w hid v r ↔ Enc (fmtOf nm ext fs) ctx n v w r) := by
  refine textRuns_of hp hpkg hnames hcomp hres fun p hm ctx hctx n s hs w hid hw A hA v r hv => ?_
  have G : Generated nm ext ord fs p ctx := ⟨hm, hok, hctx⟩
  exact ⟨fun h => (parse_sound G hord hs hw h).1, fun h => parse_complete G hord hA hs hid hw hv h⟩

/-- **C61.** If moreover lengths have at most 32 bits, structs do not contain themselves and elements of arrays that
extend to the end take at least one byte, then the methods of the printed program return, whatever the data: a value
and the rest, or an error. -/
theorem C61_returns (hp : ParsesAll srcs fs) (hpkg : GoIdent pkg) (hnames : ∀ f ∈ fs, TextNames nm f)
    (hcomp : FilesCompatible fs) (hres : Resolved fs) (hok : FilesOK nm ext fs) (hn : NarrowFmt (fmtOf nm ext fs))
    (hac : Acyclic (fmtOf nm ext fs))
    (hcons : ∀ n s, (fmtOf nm ext fs).structs n = some s → s.extern = false → ∀ n', NestsToEnd s n' →
      Consumes (fmtOf nm ext fs) n') :
    TextRuns pkg nm ord fs fun p => ∀ ctx, CtxOK (fmtOf nm ext fs) ctx → ∀ n s, (fmtOf nm ext fs).structs n = some s →
      ∀ w hid : Bytes, w.length < 2 ^ 63 → ∀ A, 2 ^ 32 ≤ A + 1 →
        (∃ v r, Accepts p ext A (nm n) (ctxArgs s ctx) w hid v r) ∨ ∃ m, Rejects p ext A (nm n) (ctxArgs s ctx) w hid m := by
  refine textRuns_of hp hpkg hnames hcomp hres fun p hm ctx hctx n s hs w hid hw A hA => ?_
  exact parse_total (⟨hm, hok, hctx⟩ : Generated nm ext ord fs p ctx) hn hA hac hcons hs hid hw

/-- **C61.** The printed program obeys the scope and type rules of Go, if integers fit their types and names do not
clash. -/
theorem C61_compiles {exts : List (String × List String)} (hp : ParsesAll srcs fs) (hpkg : GoIdent pkg)
    (hnames : ∀ f ∈ fs, TextNames nm f) (hcomp : FilesCompatible fs) (hres : Resolved fs) (hok : CompileOK nm ext fs exts) :
    TextRuns pkg nm ord fs fun p => compiles p exts = true :=
  textRuns_of hp hpkg hnames hcomp hres fun _ hm => emitted_compiles hm hok
end

/-! ### Example: gen/tests/contexts -/

/-- Context values. -/
def contextsCtx : Ctx := fun c => if c = "flag" then [("Flagval", .num 1)] else [("Countval", .num 2)]

theorem contexts_all : ParsesAll [Peg.utf8 contextsText] [contextsFile] := .cons contexts_parses .nil

theorem contexts_gen : Generated exNm exExt idOrder [contextsFile] (emitted [contextsFile]) contextsCtx where
  gen := marshallers_emitted (by decide +kernel)
  ok := by refine FilesOK.of_check ?_ ?_ ?_ <;> decide +kernel
  ctxOK := ctxOK_of_check (by
    intro C hC f hf _
    simp only [contextsFile, List.flatMap_cons, List.flatMap_nil, List.append_nil, List.mem_cons, List.not_mem_nil,
      or_false] at hC
    rcases hC with rfl | rfl
    · simp only [List.mem_cons, List.not_mem_nil, or_false] at hf
      subst hf
      exact ⟨1, by decide +kernel, by decide, by decide⟩
    · simp only [List.mem_cons, List.not_mem_nil, or_false] at hf
      subst hf
      exact ⟨2, by decide +kernel, by decide, by decide⟩)

theorem contexts_ord : OrdOK (fmtOf exNm exExt [contextsFile]) := OrdOK.of_check (by decide +kernel)

/-- The input in the example: `point`, `twosize`, `varsize` and the union. -/
def contextsIn : Bytes := [5, 6, 1, 2, 0, 0, 0, 9, 7, 8, 50, 60]

/-- Its value. -/
def contextsVal : Val :=
  .obj "Ccomplex" [("P", .obj "Point" [("X", .num 5), ("Y", .num 6)]),
    ("Tsz", .obj "Twosize" [("X", .num 0), ("Y", .num 258)]),
    ("Vsz", .obj "Varsize" [("A", .num 9), ("Msg", .slice [.num 7, .num 8])]), ("A", .nil), ("B", .slice [.num 12860])]

theorem contexts_enc : Enc (fmtOf exNm exExt [contextsFile]) contextsCtx "ccomplex" contextsVal contextsIn [] :=
  (parse_sound contexts_gen contexts_ord (n := "ccomplex") (s := structOf [contextsFile] "ccomplex") (A := 2 ^ 32) (hid := []) (by decide +kernel) (by decide) ((accepts_iff contexts_gen (by decide +kernel) _ (by decide)).2 ⟨9, by decide +kernel⟩)).1

/-- The text printed for the golden file accepts this input. -/
example : TextRuns "contexts" exNm idOrder [contextsFile] fun p =>
    Accepts p exExt (2 ^ 32) "Ccomplex" [.struct [("Flagval", .num 1)], .struct [("Countval", .num 2)]] contextsIn []
      contextsVal [] := by
  obtain ⟨t, p, ht, hr, h⟩ := C61_accepts (ord := idOrder) (pkg := "contexts") contexts_all (goIdent_of (by decide +kernel))
    (List.forall_mem_singleton.2 contexts_names) (by decide +kernel) (by decide +kernel) contexts_gen.ok contexts_ord
  exact ⟨t, p, ht, hr, (h _ contexts_gen.ctxOK "ccomplex" (structOf [contextsFile] "ccomplex") (by decide +kernel) contextsIn []
    (by decide) (2 ^ 32) (by decide) _ _ (by simp [contextsVal, Fits, FitsL, FitsF])).2 contexts_enc⟩

example : TextRuns "contexts" exNm idOrder [contextsFile] fun p => ∀ w : Bytes, w.length < 2 ^ 63 →
    (∃ v r, Accepts p exExt (2 ^ 32) "Ccomplex" [.struct [("Flagval", .num 1)], .struct [("Countval", .num 2)]] w [] v r) ∨
    ∃ m, Rejects p exExt (2 ^ 32) "Ccomplex" [.struct [("Flagval", .num 1)], .struct [("Countval", .num 2)]] w [] m := by
  obtain ⟨t, p, ht, hr, h⟩ := C61_returns (ord := idOrder) (pkg := "contexts") contexts_all (goIdent_of (by decide +kernel))
    (List.forall_mem_singleton.2 contexts_names) (by decide +kernel) (by decide +kernel) contexts_gen.ok
    (NarrowFmt.of_check (by decide +kernel)) (Acyclic.of_check (fun n => if n = "ccomplex" then 1 else 0) (by decide +kernel)) (by
      rintro n s hs he n' ⟨f, hf, hb⟩
      have : ∀ s ∈ [contextsFile].flatMap (·.structs), s.extern = false → ∀ f ∈ fieldsOf s.ms, ∀ b ∈ endBases f.type,
        b = .int ⟨8, none⟩ ∨ b = .int ⟨16, none⟩ := by decide +kernel
      rcases this s (fmtOf_struct_mem hs).1 he f hf _ hb with ht | ht <;> cases ht)
  exact ⟨t, p, ht, hr, fun w hw => h _ contexts_gen.ctxOK "ccomplex" (structOf [contextsFile] "ccomplex") (by decide +kernel) w []
    hw (2 ^ 32) (by decide)⟩

example : TextRuns "contexts" exNm idOrder [contextsFile] fun p => compiles p [] = true :=
  C61_compiles contexts_all (goIdent_of (by decide +kernel)) (List.forall_mem_singleton.2 contexts_names) (by decide +kernel)
    (by decide +kernel) (ext := exExt) {
      files := contexts_gen.ok
      fits := by decide +kernel
      ctxDecl := by decide +kernel
      ctxFields := by decide +kernel
      fields := by decide +kernel
      names := by decide +kernel
      builtins := by decide +kernel
      types := by decide +kernel
      externs := by
        intro n s hs he
        exact absurd he ((by decide +kernel : ∀ s ∈ [contextsFile].flatMap (·.structs), ¬ s.extern = true) s (fmtOf_struct_mem hs).1) }

/-- The same source twice: an error. -/
example : (∃ m, GenText.marshallers "p" exNm idOrder [contextsFile, contextsFile] = .err m) :=
  (C61_outcome (.cons contexts_parses contexts_all)).1 (by decide +kernel)

/-- `struct a { struct b x; }`, where `b` is nowhere declared: a panic. -/
def undeclaredFile : File := ⟨[], [], [⟨"a", [], some [.leaf (.field ⟨"x", .base (.struct "b")⟩)]⟩], []⟩

theorem undeclared_parses : Parses (Peg.utf8 (chars! "struct a { struct b x; }")) undeclaredFile :=
  parsesB_parses (N := 200) (by decide +kernel)

example : (∃ m, GenText.marshallers "p" exNm idOrder [undeclaredFile] = .panic m) :=
  (C61_outcome (.cons undeclared_parses .nil)).2.1 (by decide +kernel) (by decide +kernel)

end Verif.Props
