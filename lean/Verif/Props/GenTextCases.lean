import Verif.Props.GenText
import Verif.GoEq
/-!
# Concrete cases of the reading theorem

Golden files of the repository as examples.
-/
namespace Verif.Props
open Verif Verif.Ast Verif.Go Verif.Go.Read Verif.Syntax Verif.Gen

set_option maxRecDepth 20000

open Lean in
/-- The characters of a literal, as a list. -/
macro "chars! " s:str : term => do
  let cs := s.getString.toList.toArray.map fun c => (Syntax.mkCharLit c : TSyntax `term)
  `([$cs,*])

/-- Whether a string is an identifier of Go, computed. -/
def goIdentB (x : String) : Bool :=
  (match x.toList with
   | [] => false
   | c :: cs => letter c && cs.all wordChar) && keywords.lookup x.toList = none

theorem goIdent_of {x : String} (h : goIdentB x = true) : GoIdent x := by
  simp only [goIdentB, Bool.and_eq_true, decide_eq_true_eq] at h
  refine ⟨?_, h.2⟩
  cases hx : x.toList with
  | nil => rw [hx] at h; simp at h
  | cons c cs =>
    rw [hx] at h
    simp only [Bool.and_eq_true, List.all_eq_true] at h
    exact ⟨c, cs, rfl, h.1.1, h.1.2⟩

theorem textNames_of {nm : String → String} {f : File} (h : (printedNames f).all (fun n => goIdentB (nm n)) = true)
    (h' : (paramNames f).all (fun c => decide (keywords.lookup c.toList = none)) = true) : TextNames nm f :=
  ⟨fun n hn => goIdent_of (List.all_eq_true.1 h n hn), fun c hc => of_decide_eq_true (List.all_eq_true.1 h' c hc)⟩

/-- gen/tests/contexts/contexts.trunnel. -/
def contextsText : List Char := List.flatten [
    chars! "struct point {\n",
    chars! "  u8 x IN [0..254];\n",
    chars! "  u8 y;\n",
    chars! "}\n",
    chars! "\n",
    chars! "/** This holds a boolean */\n",
    chars! "context flag {\n",
    chars! "  /** This can hold a 1 or a 0. */\n",
    chars! "  u8 flagval;\n",
    chars! "}\n",
    chars! "\n",
    chars! "context count {\n",
    chars! "  u8 countval;\n",
    chars! "}\n",
    chars! "\n",
    chars! "struct twosize with context flag {\n",
    chars! "  union u[flag.flagval] {\n",
    chars! "     0: u32 x IN [0..0x7fffffff];\n",
    chars! "     1,3: u16 y;\n",
    chars! "  };\n",
    chars! "}\n",
    chars! "\n",
    chars! "struct varsize with context count {\n",
    chars! "  u32 a;\n",
    chars! "  u8 msg[count.countval];\n",
    chars! "}\n",
    chars! "\n",
    chars! "struct ccomplex with context flag, count {\n",
    chars! "  struct point p;\n",
    chars! "  struct twosize tsz;\n",
    chars! "  struct varsize vsz;\n",
    chars! "  union u[flag.flagval] with length count.countval {\n",
    chars! "     0: u8 a[];\n",
    chars! "     1: u16 b[];\n",
    chars! "  };\n",
    chars! "}\n"]

/-- The file it denotes. -/
def contextsFile : File :=
  ⟨[], [⟨"flag", [⟨"flagval", .base (.int ⟨8, none⟩)⟩]⟩, ⟨"count", [⟨"countval", .base (.int ⟨8, none⟩)⟩]⟩],
   [⟨"point", [], some [.leaf (.field ⟨"x", .base (.int ⟨8, some ⟨[⟨.literal 0, some (.literal 254)⟩]⟩⟩)⟩), .leaf (.field ⟨"y", .base (.int ⟨8, none⟩)⟩)]⟩,
    ⟨"twosize", ["flag"], some [.union ⟨"u", ⟨"flag", "flagval"⟩, none,
      [⟨some ⟨[⟨.literal 0, none⟩]⟩, [.field ⟨"x", .base (.int ⟨32, some ⟨[⟨.literal 0, some (.literal 0x7fffffff)⟩]⟩⟩)⟩]⟩,
       ⟨some ⟨[⟨.literal 1, none⟩, ⟨.literal 3, none⟩]⟩, [.field ⟨"y", .base (.int ⟨16, none⟩)⟩]⟩]⟩]⟩,
    ⟨"varsize", ["count"], some [.leaf (.field ⟨"a", .base (.int ⟨32, none⟩)⟩), .leaf (.field ⟨"msg", .varArray (.int ⟨8, none⟩) (some (.idRef ⟨"count", "countval"⟩))⟩)]⟩,
    ⟨"ccomplex", ["flag", "count"], some [.leaf (.field ⟨"p", .base (.struct "point")⟩), .leaf (.field ⟨"tsz", .base (.struct "twosize")⟩),
      .leaf (.field ⟨"vsz", .base (.struct "varsize")⟩),
      .union ⟨"u", ⟨"flag", "flagval"⟩, some (.idRef ⟨"count", "countval"⟩),
      [⟨some ⟨[⟨.literal 0, none⟩]⟩, [.field ⟨"a", .varArray (.int ⟨8, none⟩) none⟩]⟩,
       ⟨some ⟨[⟨.literal 1, none⟩]⟩, [.field ⟨"b", .varArray (.int ⟨16, none⟩) none⟩]⟩]⟩]⟩], []⟩

theorem parses_of_run {N : Nat} {b : List UInt8} {f : File} (h : Peg.parseBytes N b = some (.ok f)) : Parses b f := by
  refine ⟨N, fun fuel hf => ?_⟩
  simp only [Peg.parseBytes, Peg.parseRunes] at h ⊢
  rw [Peg.parseExpr_mono Peg.rules N fuel hf _ _ _ (by intro ht; rw [ht] at h; cases h)]
  exact h

/-- Whether the bytes parse to the file within `N` nested calls. -/
def parsesB (N : Nat) (b : List UInt8) (f : File) : Bool :=
  match Peg.parseBytes N b with
  | some (.ok g) => g = f
  | _ => false

theorem parsesB_parses {N : Nat} {b : List UInt8} {f : File} (h : parsesB N b f = true) : Parses b f := by
  refine parses_of_run (N := N) ?_
  simp only [parsesB] at h
  split at h
  · rename_i g hg; rw [hg, of_decide_eq_true h]
  · cases h

theorem contexts_parses : Parses (Peg.utf8 contextsText) contextsFile := parsesB_parses (N := 200) (by decide +kernel)

theorem contexts_names : TextNames exNm contextsFile := textNames_of (by decide +kernel) (by decide +kernel)

example : ∃ f t, Parses (Peg.utf8 contextsText) f ∧ GenText.marshallers "contexts" exNm idOrder [f] = .ok t ∧
    ∃ F, ∀ n, F ≤ n → readGo n t = some ("contexts", emitted [f]) := by
  obtain ⟨t, ht, h⟩ := C59_text_reads (pkg := "contexts") (goIdent_of (by decide +kernel))
    (List.forall_mem_singleton.2 (C52_rules contexts_parses)) (List.forall_mem_singleton.2 contexts_names)
    (marshallers_emitted (fs := [contextsFile]) (by decide +kernel))
  exact ⟨_, t, contexts_parses, ht, h⟩

/-- gen/tests/leftover/leftover.trunnel. -/
def leftoverText : List Char := List.flatten [
    chars! "struct leftover {\n",
    chars! "   u32 head[2];\n",
    chars! "   u32 mid[..-8];\n",
    chars! "   u32 tail[2];\n",
    chars! "};\n"]

/-- The file it denotes. -/
def leftoverFile : File :=
  ⟨[], [], [⟨"leftover", [], some [.leaf (.field ⟨"head", .fixedArray (.int ⟨32, none⟩) (.literal 2)⟩),
    .leaf (.field ⟨"mid", .varArray (.int ⟨32, none⟩) (some (.leftover (.literal 8)))⟩),
    .leaf (.field ⟨"tail", .fixedArray (.int ⟨32, none⟩) (.literal 2)⟩)]⟩], []⟩

theorem leftover_parses : Parses (Peg.utf8 leftoverText) leftoverFile := parsesB_parses (N := 200) (by decide +kernel)

/-- gen/tests/leftover/gen-marshallers.go: what trunnel wrote, after `imports.Process`. -/
def leftoverGo : List Char := List.flatten [
    chars! "// Code generated by trunnel. DO NOT EDIT.\n",
    chars! "\n",
    chars! "package leftover\n",
    chars! "\n",
    chars! "import (\n",
    chars! "\t\"encoding/binary\"\n",
    chars! "\t\"errors\"\n",
    chars! ")\n",
    chars! "\n",
    chars! "type Leftover struct {\n",
    chars! "\tHead [2]uint32\n",
    chars! "\tMid  []uint32\n",
    chars! "\tTail [2]uint32\n",
    chars! "}\n",
    chars! "\n",
    chars! "func (l *Leftover) Parse(data []byte) ([]byte, error) {\n",
    chars! "\tcur := data\n",
    chars! "\t{\n",
    chars! "\t\tfor idx := 0; idx < 2; idx++ {\n",
    chars! "\t\t\tif len(cur) < 4 {\n",
    chars! "\t\t\t\treturn nil, errors.New(\"data too short\")\n",
    chars! "\t\t\t}\n",
    chars! "\t\t\tl.Head[idx] = binary.BigEndian.Uint32(cur)\n",
    chars! "\t\t\tcur = cur[4:]\n",
    chars! "\t\t}\n",
    chars! "\t}\n",
    chars! "\t{\n",
    chars! "\t\tif len(cur) < 8 {\n",
    chars! "\t\t\treturn nil, errors.New(\"data too short\")\n",
    chars! "\t\t}\n",
    chars! "\t\trestore := cur[len(cur)-8:]\n",
    chars! "\t\tcur = cur[:len(cur)-8]\n",
    chars! "\t\tl.Mid = make([]uint32, 0)\n",
    chars! "\t\tfor len(cur) > 0 {\n",
    chars! "\t\t\tvar tmp uint32\n",
    chars! "\t\t\tif len(cur) < 4 {\n",
    chars! "\t\t\t\treturn nil, errors.New(\"data too short\")\n",
    chars! "\t\t\t}\n",
    chars! "\t\t\ttmp = binary.BigEndian.Uint32(cur)\n",
    chars! "\t\t\tcur = cur[4:]\n",
    chars! "\t\t\tl.Mid = append(l.Mid, tmp)\n",
    chars! "\t\t}\n",
    chars! "\t\tif len(cur) > 0 {\n",
    chars! "\t\t\treturn nil, errors.New(\"trailing data disallowed\")\n",
    chars! "\t\t}\n",
    chars! "\t\tcur = restore\n",
    chars! "\t}\n",
    chars! "\t{\n",
    chars! "\t\tfor idx := 0; idx < 2; idx++ {\n",
    chars! "\t\t\tif len(cur) < 4 {\n",
    chars! "\t\t\t\treturn nil, errors.New(\"data too short\")\n",
    chars! "\t\t\t}\n",
    chars! "\t\t\tl.Tail[idx] = binary.BigEndian.Uint32(cur)\n",
    chars! "\t\t\tcur = cur[4:]\n",
    chars! "\t\t}\n",
    chars! "\t}\n",
    chars! "\treturn cur, nil\n",
    chars! "}\n",
    chars! "\n",
    chars! "func ParseLeftover(data []byte) (*Leftover, error) {\n",
    chars! "\tl := new(Leftover)\n",
    chars! "\t_, err := l.Parse(data)\n",
    chars! "\tif err != nil {\n",
    chars! "\t\treturn nil, err\n",
    chars! "\t}\n",
    chars! "\treturn l, nil\n",
    chars! "}\n"]

theorem leftover_eq : ((readGo 200 leftoverGo).any fun r => r.1 = "leftover" && eqProg r.2 (emitted [leftoverFile])) = true := by
  decide +kernel

/-- The golden file, read by Go's rules, is the program of the model. -/
theorem leftover_golden : readGo 200 leftoverGo = some ("leftover", emitted [leftoverFile]) := by
  have h := leftover_eq
  cases hr : readGo 200 leftoverGo with
  | none => rw [hr] at h; simp at h
  | some r =>
    rw [hr] at h
    simp only [Option.any_some, Bool.and_eq_true, decide_eq_true_eq] at h
    rw [← h.1, ← eqProg_eq h.2]

/-- gen/tests/contexts/gen-marshallers.go. -/
def contextsGo : List Char := List.flatten [
    chars! "// Code generated by trunnel. DO NOT EDIT.\n",
    chars! "\n",
    chars! "package contexts\n",
    chars! "\n",
    chars! "import (\n",
    chars! "\t\"encoding/binary\"\n",
    chars! "\t\"errors\"\n",
    chars! ")\n",
    chars! "\n",
    chars! "type Flag struct {\n",
    chars! "\tFlagval uint8\n",
    chars! "}\n",
    chars! "\n",
    chars! "type Count struct {\n",
    chars! "\tCountval uint8\n",
    chars! "}\n",
    chars! "\n",
    chars! "type Point struct {\n",
    chars! "\tX uint8\n",
    chars! "\tY uint8\n",
    chars! "}\n",
    chars! "\n",
    chars! "func (p *Point) Parse(data []byte) ([]byte, error) {\n",
    chars! "\tcur := data\n",
    chars! "\t{\n",
    chars! "\t\tif len(cur) < 1 {\n",
    chars! "\t\t\treturn nil, errors.New(\"data too short\")\n",
    chars! "\t\t}\n",
    chars! "\t\tp.X = cur[0]\n",
    chars! "\t\tif !(0 <= p.X && p.X <= 254) {\n",
    chars! "\t\t\treturn nil, errors.New(\"integer constraint violated\")\n",
    chars! "\t\t}\n",
    chars! "\t\tcur = cur[1:]\n",
    chars! "\t}\n",
    chars! "\t{\n",
    chars! "\t\tif len(cur) < 1 {\n",
    chars! "\t\t\treturn nil, errors.New(\"data too short\")\n",
    chars! "\t\t}\n",
    chars! "\t\tp.Y = cur[0]\n",
    chars! "\t\tcur = cur[1:]\n",
    chars! "\t}\n",
    chars! "\treturn cur, nil\n",
    chars! "}\n",
    chars! "\n",
    chars! "func ParsePoint(data []byte) (*Point, error) {\n",
    chars! "\tp := new(Point)\n",
    chars! "\t_, err := p.Parse(data)\n",
    chars! "\tif err != nil {\n",
    chars! "\t\treturn nil, err\n",
    chars! "\t}\n",
    chars! "\treturn p, nil\n",
    chars! "}\n",
    chars! "\n",
    chars! "type Twosize struct {\n",
    chars! "\tX uint32\n",
    chars! "\tY uint16\n",
    chars! "}\n",
    chars! "\n",
    chars! "func (t *Twosize) Parse(data []byte, flag Flag) ([]byte, error) {\n",
    chars! "\tcur := data\n",
    chars! "\t{\n",
    chars! "\t\tswitch {\n",
    chars! "\t\tcase flag.Flagval == 0:\n",
    chars! "\t\t\t{\n",
    chars! "\t\t\t\tif len(cur) < 4 {\n",
    chars! "\t\t\t\t\treturn nil, errors.New(\"data too short\")\n",
    chars! "\t\t\t\t}\n",
    chars! "\t\t\t\tt.X = binary.BigEndian.Uint32(cur)\n",
    chars! "\t\t\t\tif !(0 <= t.X && t.X <= 2147483647) {\n",
    chars! "\t\t\t\t\treturn nil, errors.New(\"integer constraint violated\")\n",
    chars! "\t\t\t\t}\n",
    chars! "\t\t\t\tcur = cur[4:]\n",
    chars! "\t\t\t}\n",
    chars! "\t\tcase flag.Flagval == 1 || flag.Flagval == 3:\n",
    chars! "\t\t\t{\n",
    chars! "\t\t\t\tif len(cur) < 2 {\n",
    chars! "\t\t\t\t\treturn nil, errors.New(\"data too short\")\n",
    chars! "\t\t\t\t}\n",
    chars! "\t\t\t\tt.Y = binary.BigEndian.Uint16(cur)\n",
    chars! "\t\t\t\tcur = cur[2:]\n",
    chars! "\t\t\t}\n",
    chars! "\t\t}\n",
    chars! "\t}\n",
    chars! "\treturn cur, nil\n",
    chars! "}\n",
    chars! "\n",
    chars! "func ParseTwosize(data []byte, flag Flag) (*Twosize, error) {\n",
    chars! "\tt := new(Twosize)\n",
    chars! "\t_, err := t.Parse(data, flag)\n",
    chars! "\tif err != nil {\n",
    chars! "\t\treturn nil, err\n",
    chars! "\t}\n",
    chars! "\treturn t, nil\n",
    chars! "}\n",
    chars! "\n",
    chars! "type Varsize struct {\n",
    chars! "\tA   uint32\n",
    chars! "\tMsg []uint8\n",
    chars! "}\n",
    chars! "\n",
    chars! "func (v *Varsize) Parse(data []byte, count Count) ([]byte, error) {\n",
    chars! "\tcur := data\n",
    chars! "\t{\n",
    chars! "\t\tif len(cur) < 4 {\n",
    chars! "\t\t\treturn nil, errors.New(\"data too short\")\n",
    chars! "\t\t}\n",
    chars! "\t\tv.A = binary.BigEndian.Uint32(cur)\n",
    chars! "\t\tcur = cur[4:]\n",
    chars! "\t}\n",
    chars! "\t{\n",
    chars! "\t\tv.Msg = make([]uint8, int(count.Countval))\n",
    chars! "\t\tfor idx := 0; idx < int(count.Countval); idx++ {\n",
    chars! "\t\t\tif len(cur) < 1 {\n",
    chars! "\t\t\t\treturn nil, errors.New(\"data too short\")\n",
    chars! "\t\t\t}\n",
    chars! "\t\t\tv.Msg[idx] = cur[0]\n",
    chars! "\t\t\tcur = cur[1:]\n",
    chars! "\t\t}\n",
    chars! "\t}\n",
    chars! "\treturn cur, nil\n",
    chars! "}\n",
    chars! "\n",
    chars! "func ParseVarsize(data []byte, count Count) (*Varsize, error) {\n",
    chars! "\tv := new(Varsize)\n",
    chars! "\t_, err := v.Parse(data, count)\n",
    chars! "\tif err != nil {\n",
    chars! "\t\treturn nil, err\n",
    chars! "\t}\n",
    chars! "\treturn v, nil\n",
    chars! "}\n",
    chars! "\n",
    chars! "type Ccomplex struct {\n",
    chars! "\tP   *Point\n",
    chars! "\tTsz *Twosize\n",
    chars! "\tVsz *Varsize\n",
    chars! "\tA   []uint8\n",
    chars! "\tB   []uint16\n",
    chars! "}\n",
    chars! "\n",
    chars! "func (c *Ccomplex) Parse(data []byte, flag Flag, count Count) ([]byte, error) {\n",
    chars! "\tcur := data\n",
    chars! "\t{\n",
    chars! "\t\tvar err error\n",
    chars! "\t\tc.P = new(Point)\n",
    chars! "\t\tcur, err = c.P.Parse(cur)\n",
    chars! "\t\tif err != nil {\n",
    chars! "\t\t\treturn nil, err\n",
    chars! "\t\t}\n",
    chars! "\t}\n",
    chars! "\t{\n",
    chars! "\t\tvar err error\n",
    chars! "\t\tc.Tsz = new(Twosize)\n",
    chars! "\t\tcur, err = c.Tsz.Parse(cur, flag)\n",
    chars! "\t\tif err != nil {\n",
    chars! "\t\t\treturn nil, err\n",
    chars! "\t\t}\n",
    chars! "\t}\n",
    chars! "\t{\n",
    chars! "\t\tvar err error\n",
    chars! "\t\tc.Vsz = new(Varsize)\n",
    chars! "\t\tcur, err = c.Vsz.Parse(cur, count)\n",
    chars! "\t\tif err != nil {\n",
    chars! "\t\t\treturn nil, err\n",
    chars! "\t\t}\n",
    chars! "\t}\n",
    chars! "\t{\n",
    chars! "\t\tif len(cur) < int(count.Countval) {\n",
    chars! "\t\t\treturn nil, errors.New(\"data too short\")\n",
    chars! "\t\t}\n",
    chars! "\t\trestore := cur[int(count.Countval):]\n",
    chars! "\t\tcur = cur[:int(count.Countval)]\n",
    chars! "\t\tswitch {\n",
    chars! "\t\tcase flag.Flagval == 0:\n",
    chars! "\t\t\t{\n",
    chars! "\t\t\t\tc.A = make([]uint8, 0)\n",
    chars! "\t\t\t\tfor len(cur) > 0 {\n",
    chars! "\t\t\t\t\tvar tmp uint8\n",
    chars! "\t\t\t\t\tif len(cur) < 1 {\n",
    chars! "\t\t\t\t\t\treturn nil, errors.New(\"data too short\")\n",
    chars! "\t\t\t\t\t}\n",
    chars! "\t\t\t\t\ttmp = cur[0]\n",
    chars! "\t\t\t\t\tcur = cur[1:]\n",
    chars! "\t\t\t\t\tc.A = append(c.A, tmp)\n",
    chars! "\t\t\t\t}\n",
    chars! "\t\t\t}\n",
    chars! "\t\tcase flag.Flagval == 1:\n",
    chars! "\t\t\t{\n",
    chars! "\t\t\t\tc.B = make([]uint16, 0)\n",
    chars! "\t\t\t\tfor len(cur) > 0 {\n",
    chars! "\t\t\t\t\tvar tmp uint16\n",
    chars! "\t\t\t\t\tif len(cur) < 2 {\n",
    chars! "\t\t\t\t\t\treturn nil, errors.New(\"data too short\")\n",
    chars! "\t\t\t\t\t}\n",
    chars! "\t\t\t\t\ttmp = binary.BigEndian.Uint16(cur)\n",
    chars! "\t\t\t\t\tcur = cur[2:]\n",
    chars! "\t\t\t\t\tc.B = append(c.B, tmp)\n",
    chars! "\t\t\t\t}\n",
    chars! "\t\t\t}\n",
    chars! "\t\t}\n",
    chars! "\t\tif len(cur) > 0 {\n",
    chars! "\t\t\treturn nil, errors.New(\"trailing data disallowed\")\n",
    chars! "\t\t}\n",
    chars! "\t\tcur = restore\n",
    chars! "\t}\n",
    chars! "\treturn cur, nil\n",
    chars! "}\n",
    chars! "\n",
    chars! "func ParseCcomplex(data []byte, flag Flag, count Count) (*Ccomplex, error) {\n",
    chars! "\tc := new(Ccomplex)\n",
    chars! "\t_, err := c.Parse(data, flag, count)\n",
    chars! "\tif err != nil {\n",
    chars! "\t\treturn nil, err\n",
    chars! "\t}\n",
    chars! "\treturn c, nil\n",
    chars! "}\n"]

theorem contexts_eq : ((readGo 200 contextsGo).any fun r => r.1 = "contexts" && eqProg r.2 (emitted [contextsFile])) = true := by
  decide +kernel

/-- The golden file, read by Go's rules, is the program of the model. -/
theorem contexts_golden : readGo 200 contextsGo = some ("contexts", emitted [contextsFile]) := by
  have h := contexts_eq
  cases hr : readGo 200 contextsGo with
  | none => rw [hr] at h; simp at h
  | some r =>
    rw [hr] at h
    simp only [Option.any_some, Bool.and_eq_true, decide_eq_true_eq] at h
    rw [← h.1, ← eqProg_eq h.2]

/-! ## A name outside the class -/

/-- A context called `range`, used as a parameter. -/
def keywordText : List Char := chars! "context range { u8 n; } struct a with context range { u8 x; }"
/-- The file it denotes. -/
def keywordFile : File :=
  ⟨[], [⟨"range", [⟨"n", .base (.int ⟨8, none⟩)⟩]⟩], [⟨"a", ["range"], some [.leaf (.field ⟨"x", .base (.int ⟨8, none⟩)⟩)]⟩], []⟩
theorem keyword_parses : Parses (Peg.utf8 keywordText) keywordFile := parsesB_parses (N := 100) (by decide +kernel)

/-- What is printed for it. -/
def keywordGo : List Char :=
  match GenText.marshallers "p" exNm idOrder [keywordFile] with
  | .ok t => t
  | _ => []

/-- Its tokens up to `data []byte, range`. -/
def keywordToks : List Tok :=
  [.kw .package, .id "p", .op .semi, .kw .type, .id "Range", .kw .struct, .op .lbrace, .id "N", .id "uint8", .op .semi, .op .rbrace, .op .semi,
   .kw .type, .id "A", .kw .struct, .op .lbrace, .id "X", .id "uint8", .op .semi, .op .rbrace, .op .semi,
   .kw .func, .op .lparen, .id "a", .op .star, .id "A", .op .rparen, .id "Parse", .op .lparen, .id "data", .op .lbrack, .op .rbrack, .id "byte",
   .op .comma, .kw .range]

theorem keyword_toks : (tokens keywordGo).map (·.take 35) = some keywordToks := by decide +kernel

theorem keyword_stuck (m : Nat) (r : List Tok) : pFile (m + 30) (keywordToks ++ r) = none := rfl

theorem keyword_small : ∀ n < 30, pFile n ((tokens keywordGo).getD []) = none := by decide +kernel

/-- **C59 needs its condition on context names.** A source that parses and for which the generator succeeds, but whose
text is not read, whatever the bound: the context called `range` becomes a parameter. -/
theorem keyword_unreadable : Parses (Peg.utf8 keywordText) keywordFile ∧
    (∃ p, Gen.marshallers exNm idOrder [keywordFile] = .ok p) ∧
    ∃ t, GenText.marshallers "p" exNm idOrder [keywordFile] = .ok t ∧ ∀ n, readGo n t = none := by
  refine ⟨keyword_parses, ⟨_, marshallers_emitted (by decide +kernel)⟩, keywordGo, ?_, fun n => ?_⟩
  · have h : (GenText.marshallers "p" exNm idOrder [keywordFile]).isOk = true := by decide +kernel
    unfold keywordGo
    cases hm : GenText.marshallers "p" exNm idOrder [keywordFile] with
    | ok t => rfl
    | err m => rw [hm] at h; cases h
    | panic m => rw [hm] at h; cases h
  · have ht := keyword_toks
    cases hk : tokens keywordGo with
    | none => rw [hk] at ht; cases ht
    | some ts =>
      rw [hk, Option.map_some, Option.some.injEq] at ht
      have hs : ts = keywordToks ++ ts.drop 35 := by rw [← ht, List.take_append_drop]
      have hf : pFile n ts = none := by
        by_cases h : n < 30
        · have := keyword_small n h
          rwa [hk] at this
        · obtain ⟨m, rfl⟩ : ∃ m, n = m + 30 := ⟨n - 30, by omega⟩
          rw [hs]
          exact keyword_stuck m _
      simp only [readGo, hk, hf, Option.bind_eq_bind, Option.bind_some, Option.bind_none]

end Verif.Props
