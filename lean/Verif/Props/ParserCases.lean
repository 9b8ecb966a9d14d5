import Verif.Props.GoldenCases
/-!
# The tests of the generated parsers

The cases of gen/tests/*/*_test.go, run on the code in the repository (read from text, not made by the model's generator). They show that
the semantics of Go used here agrees with what these tests expect of it.
-/
namespace Verif.Golden
open Verif Verif.Ast Verif.Go Verif.Go.Read Verif.Effects Verif.Props

set_option maxRecDepth 100000

mutual
/-- Equality of values, as `assert.Equal` compares them (gen/tests/color/color_test.go:23), where spare capacity is not seen. -/
def eqVal : Val → Val → Bool
  | .nil, .nil => true
  | .num a, .num b => decide (a = b)
  | .bool a, .bool b => decide (a = b)
  | .str a, .str b => decide (a = b)
  | .bytes a _, .bytes b _ => decide (a = b)
  | .slice a, .slice b => eqVals a b
  | .array a, .array b => eqVals a b
  | .obj T a, .obj U b => decide (T = U) && eqFields a b
  | .struct a, .struct b => eqFields a b
  | .error a, .error b => decide (a = b)
  | _, _ => false
/-- The same for lists (gen/tests/color/color_test.go:23). -/
def eqVals : List Val → List Val → Bool
  | [], [] => true
  | a :: as, b :: bs => eqVal a b && eqVals as bs
  | _, _ => false
/-- The same for fields (gen/tests/color/color_test.go:23). -/
def eqFields : List (String × Val) → List (String × Val) → Bool
  | [], [] => true
  | a :: as, b :: bs => decide (a.1 = b.1) && eqVal a.2 b.2 && eqFields as bs
  | _, _ => false
end

/-- A composite literal `&T{…}` (gen/tests/color/color_test.go:23): fields not named are zero. -/
def composite (p : Prog) (T : String) (fs : List (String × Val)) : Val :=
  .obj T ((zeroFields p T).map fun f => (f.1, ((fs.find? (·.1 = f.1)).map (·.2)).getD f.2))

/-- A case (gen/tests/color/color_test.go:10-25): the type, the bytes, the contexts, and what is expected: an error, or fields and rest. -/
structure Case where
  type : String
  data : List UInt8
  args : List Val := []
  expect : Option ((Prog → List (String × Val)) × List UInt8)

/-- `new(T).Parse(data, args...)` (gen/tests/color/color_test.go:21), with some bound on the depth of calls. -/
def Case.out (p : Prog) (c : Case) : CallOut := runParse ⟨p, exExt, 2 ^ 32⟩ 100 c.type (.obj c.type (zeroFields p c.type)) (.bytes c.data []) c.args

/-- A case holds (gen/tests/color/color_test.go:22-24). -/
def Case.holds (p : Prog) (c : Case) : Bool :=
  match c.out p, c.expect with
  | .done _ _ (some _), none => true
  | .done v r none, some (fs, rest) => eqVal v (composite p c.type (fs p)) && eqVal r (.bytes rest [])
  | _, _ => false

/-- The code of a directory, read, meets the cases. -/
def Dir.Meets (d : Dir) (cs : List Case) : Prop := ∃ p, readGo 200 d.code = some (d.pkg, p) ∧ ∀ c ∈ cs, c.holds p = true

/-- The check of `Meets`. -/
def Dir.meetsB (d : Dir) (cs : List Case) : Bool :=
  match readGo 200 d.code with
  | some (n, p) => decide (n = d.pkg) && cs.all (·.holds p)
  | none => false

theorem meets_of {d : Dir} {cs : List Case} (h : d.meetsB cs = true) : d.Meets cs := by
  unfold Dir.meetsB at h
  split at h
  · next n p hr =>
    rw [Bool.and_eq_true, decide_eq_true_eq, List.all_eq_true] at h
    obtain ⟨rfl, h⟩ := h
    exact ⟨p, hr, h⟩
  · cases h

/-- Bytes of a text. -/
def txt (cs : List Char) : List UInt8 := cs.map fun c => UInt8.ofNat c.toNat

/-- `n` zero bytes. -/
def zeros (n : Nat) : List UInt8 := List.replicate n 0

/-- A slice or array of integers. -/
def ints (ns : List Nat) : List Val := ns.map fun n => .num n

/-- A case that is an error. -/
def bad (T : String) (d : List UInt8) (args : List Val := []) : Case := ⟨T, d, args, none⟩

/-- A case that is accepted. -/
def good (T : String) (d : List UInt8) (fs : List (String × Val)) (rest : List UInt8) (args : List Val := []) : Case :=
  ⟨T, d, args, some (fun _ => fs, rest)⟩

/-- A case that is accepted, where the fields need the program to be written. -/
def goodP (T : String) (d : List UInt8) (fs : Prog → List (String × Val)) (rest : List UInt8) (args : List Val := []) : Case :=
  ⟨T, d, args, some (fs, rest)⟩

/-- The bytes most cases end with. -/
def rest : List UInt8 := txt (chars! "rest")

/-- gen/tests/color/color_test.go:10-25. -/
theorem color_meets : colorGolden.Meets ((List.range 3).map (fun n => bad "Color" (zeros n)) ++
    [good "Color" (txt (chars! "Hello World!")) [("R", .num 72), ("G", .num 101), ("B", .num 108)] (txt (chars! "lo World!"))]) :=
  meets_of (by decide +kernel)

/-- gen/tests/constant/constant_test.go:10-27. -/
theorem constant_meets : constantGolden.Meets ((List.range 256).map (fun x =>
      if x ∈ [42, 0x42, 34] then good "Constants" [UInt8.ofNat x] [("X", .num x)] [] else bad "Constants" [UInt8.ofNat x]) ++
    [bad "Constants" []]) :=
  meets_of (by decide +kernel)

/-- gen/tests/constraint/constraint_test.go:11-15. -/
def pack (y m d : Nat) : List UInt8 := [UInt8.ofNat (y / 256), UInt8.ofNat (y % 256), UInt8.ofNat m, UInt8.ofNat d]

/-- A date, or an error. -/
def dateCase (y m d : Nat) (ok : Bool) : Case :=
  if ok then good "Date" (pack y m d) [("Year", .num y), ("Month", .num m), ("Day", .num d)] [] else bad "Date" (pack y m d)

/-- gen/tests/constraint/constraint_test.go:17-73, of the years those from 1900 to 2049. -/
theorem constraint_meets : constraintGolden.Meets ((List.range 4).map (fun n => bad "Date" ((pack 2017 11 15).take n)) ++
    [good "Date" (pack 2017 11 15 ++ txt (chars! "blah")) [("Year", .num 2017), ("Month", .num 11), ("Day", .num 15)] (txt (chars! "blah"))] ++
    (List.range 150).map (fun y => dateCase (1900 + y) 11 15 (70 ≤ y)) ++
    (List.range 256).map (fun m => dateCase 2017 m 15 (1 ≤ m && m ≤ 12)) ++
    (List.range 256).map (fun d => dateCase 2017 11 d (1 ≤ d && d ≤ 31))) :=
  meets_of (by decide +kernel)

/-- Contexts `Flag{a}` and `Count{b}` as arguments. -/
def flagCount (a b : Nat) : List Val := [.struct [("Flagval", .num a)], .struct [("Countval", .num b)]]

/-- gen/tests/contexts/contexts_test.go:9-91. -/
theorem contexts_meets : contextsGolden.Meets [
    bad "Ccomplex" [] (flagCount 0 0),
    bad "Ccomplex" [255] (flagCount 0 0),
    bad "Ccomplex" [254] (flagCount 0 0),
    bad "Ccomplex" [254, 13, 0] (flagCount 0 0),
    bad "Ccomplex" [254, 13, 0x80, 0, 0, 0] (flagCount 0 0),
    bad "Ccomplex" [254, 13, 0] (flagCount 1 0),
    bad "Ccomplex" [254, 13, 0, 1, 2, 3] (flagCount 0 3),
    bad "Ccomplex" [254, 13, 0, 1, 2, 3, 0, 1, 2, 3, 0] (flagCount 0 2),
    bad "Ccomplex" [254, 13, 0, 1, 2, 3, 0, 1, 2, 3, 0, 1, 0] (flagCount 0 2),
    goodP "Ccomplex" ([42, 13, 0, 1, 2, 3, 4, 5, 6, 7] ++ txt (chars! "helloworldrest"))
      (fun p => [("P", composite p "Point" [("X", .num 42), ("Y", .num 13)]), ("Tsz", composite p "Twosize" [("X", .num 0x00010203)]),
        ("Vsz", composite p "Varsize" [("A", .num 0x04050607), ("Msg", .slice (ints [104, 101, 108, 108, 111]))]),
        ("A", .slice (ints [119, 111, 114, 108, 100]))]) rest (flagCount 0 5),
    goodP "Ccomplex" ([42, 13, 0, 1, 4, 5, 6, 7] ++ txt (chars! "hello!") ++ [0, 1, 2, 3, 4, 5] ++ rest)
      (fun p => [("P", composite p "Point" [("X", .num 42), ("Y", .num 13)]), ("Tsz", composite p "Twosize" [("Y", .num 1)]),
        ("Vsz", composite p "Varsize" [("A", .num 0x04050607), ("Msg", .slice (ints [104, 101, 108, 108, 111, 33]))]),
        ("B", .slice (ints [0x0001, 0x0203, 0x0405]))]) rest (flagCount 1 6)] :=
  meets_of (by decide +kernel)

/-- gen/tests/eos/eos_test.go:10-36. -/
theorem eos_meets : eosGolden.Meets ((List.range 4).map (fun n => bad "Fourbytes" (zeros n)) ++
    (List.range 5).map (fun n => bad "Fourbytes" (zeros (n + 5))) ++
    [good "Fourbytes" [1, 2, 3, 4] [("X", .num 0x0102), ("Y", .num 0x0304)] []]) :=
  meets_of (by decide +kernel)

/-- gen/tests/fixie/fixie_test.go:10-59. -/
theorem fixie_meets : fixieGolden.Meets ((List.range 54).map (fun n => bad "FixieDemo" (zeros n)) ++
    [goodP "FixieDemo" ([0, 1, 2, 3, 4, 5, 6, 7] ++ txt (chars! "abcdefgh") ++ [0, 1, 2, 3, 4, 5, 6, 7, 0, 1, 2, 3, 4, 5, 6, 7,
        0, 1, 2, 3, 4, 5, 6, 7, 0, 1, 2, 3, 4, 5, 6, 7] ++ txt (chars! "rgbRGBrest"))
      (fun p => [("Bytes", .array (ints [0, 1, 2, 3, 4, 5, 6, 7])), ("Letters", .array (ints [97, 98, 99, 100, 101, 102, 103, 104])),
        ("Shortwords", .array (ints [0x0001, 0x0203, 0x0405, 0x0607])), ("Words", .array (ints [0x00010203, 0x04050607])),
        ("BigWords", .array (ints [0x0001020304050607, 0x0001020304050607])),
        ("Colors", .array [composite p "Color" [("R", .num 114), ("G", .num 103), ("B", .num 98)],
          composite p "Color" [("R", .num 82), ("G", .num 71), ("B", .num 66)]])]) rest]) :=
  meets_of (by decide +kernel)

/-- gen/tests/ints/ints_test.go:10-37. -/
theorem ints_meets : intsGolden.Meets ((List.range 15).map (fun n => bad "Ints" (zeros n)) ++
    [good "Ints" ([1, 2, 3, 4, 5, 6, 7, 8, 9, 10, 11, 12, 13, 14, 15] ++ rest) [("Byte", .num 0x01), ("Word", .num 0x0203),
      ("Dword", .num 0x04050607), ("Qword", .num 0x08090a0b0c0d0e0f)] rest]) :=
  meets_of (by decide +kernel)

/-- gen/tests/leftover/leftover_test.go:10-47, of the lengths those below 60. -/
theorem leftover_meets : leftoverGolden.Meets ((List.range 16).map (fun n => bad "Leftover" (zeros n)) ++
    ((List.range 60).filter (fun n => n % 4 ≠ 0)).map (fun n => bad "Leftover" (zeros n)) ++
    [good "Leftover" ([0, 0, 0, 0, 1, 1, 1, 1, 2, 2, 2, 2, 3, 3, 3, 3, 4, 4, 4, 4, 5, 5, 5, 5, 6, 6, 6, 6])
      [("Head", .array (ints [0, 0x01010101])), ("Mid", .slice (ints [0x02020202, 0x03030303, 0x04040404])),
        ("Tail", .array (ints [0x05050505, 0x06060606]))] []]) :=
  meets_of (by decide +kernel)

/-- gen/tests/nest/nest_test.go:10-33. -/
theorem nest_meets : nestGolden.Meets ((List.range 4).map (fun n => bad "Rect" (zeros n)) ++
    [goodP "Rect" ([1, 2, 3, 4] ++ rest) (fun p => [("NorthEast", composite p "Point" [("X", .num 1), ("Y", .num 2)]),
      ("SouthWest", composite p "Point" [("X", .num 3), ("Y", .num 4)])]) rest]) :=
  meets_of (by decide +kernel)

/-- gen/tests/nulterm/nulterm_test.go:10-44. -/
theorem nulterm_meets : nultermGolden.Meets ((List.range 6).map (fun n => bad "NulTerm" (zeros n)) ++
    [bad "NulTerm" ([1, 2, 3, 4] ++ txt (chars! "nonul")),
      good "NulTerm" ([1, 2, 3, 4] ++ txt (chars! "hello") ++ [0, 5] ++ rest)
        [("X", .num 0x01020304), ("S", .str (txt (chars! "hello"))), ("Y", .num 5)] rest]) :=
  meets_of (by decide +kernel)

/-- gen/tests/pos/pos_test.go:9-59. -/
theorem pos_meets : posGolden.Meets [bad "Haspos" [97], bad "Haspos" [97, 0, 98], bad "Haspos" [97, 0, 98, 0, 1],
    good "Haspos" (txt (chars! "Hello") ++ [0] ++ txt (chars! "World!") ++ [0, 0, 1, 2, 3] ++ rest)
      [("S1", .str (txt (chars! "Hello"))), ("Pos1", .num 6), ("S2", .str (txt (chars! "World!"))), ("Pos2", .num 13),
        ("X", .num 0x00010203)] rest] :=
  meets_of (by decide +kernel)

/-- gen/tests/rem/rem_test.go:11-56, of the lengths those below 24. -/
theorem rem_meets : remGolden.Meets ((List.range 4).map (fun n => bad "Rem" (zeros n)) ++
    (List.range 20).map (fun n => good "Rem" (zeros (4 + n)) [("Tail", .slice (ints (List.replicate n 0)))] []) ++
    [good "Rem" [0, 1, 2, 3] [("Head", .num 0x00010203), ("Tail", .slice [])] [],
      good "Rem" ([0, 1, 2, 3] ++ txt (chars! "thetail")) [("Head", .num 0x00010203),
        ("Tail", .slice (ints [116, 104, 101, 116, 97, 105, 108]))] []]) :=
  meets_of (by decide +kernel)

/-- gen/tests/unionbasic/unionbasic_test.go:10-91. -/
theorem unionbasic_meets : unionbasicGolden.Meets ([bad "Basic" [42, 0, 0, 0, 0], bad "Basic" [], bad "Basic" [2, 1],
    bad "Basic" [3, 1], bad "Basic" [4, 1], bad "Basic" [6, 1],
    goodP "Basic" ([2, 7, 225, 11, 15] ++ rest) (fun p => [("Tag", .num 2),
      ("D", composite p "Date" [("Year", .num 2017), ("Month", .num 11), ("Day", .num 15)])]) rest,
    good "Basic" ([3, 0, 1, 2, 3] ++ rest) [("Tag", .num 3), ("Num", .num 0x00010203)] rest,
    good "Basic" ([4, 0, 1, 2, 3, 4, 5, 6, 7] ++ rest) [("Tag", .num 4), ("Eightbytes", .array (ints [0, 1, 2, 3, 4, 5, 6, 7]))] rest,
    good "Basic" ([6] ++ txt (chars! "Hello World!") ++ [0] ++ rest) [("Tag", .num 6), ("String", .str (txt (chars! "Hello World!")))] rest] ++
    (List.range 4).map (fun n => bad "Basic" (2 :: zeros n))) :=
  meets_of (by decide +kernel)

/-- gen/tests/unioncmds/unioncmds_test.go:10-74. -/
theorem unioncmds_meets : unioncmdsGolden.Meets [bad "UnionCmds" [], bad "UnionCmds" [2], bad "UnionCmds" [123, 0, 1, 2],
    bad "UnionCmds" [1, 0, 1, 2],
    good "UnionCmds" ([1, 0, 1, 2, 3] ++ rest) [("Tag", .num 1), ("Y", .num 0x00010203)] rest,
    good "UnionCmds" ([42, 0, 1, 2, 3, 4, 5, 6, 7, 8, 9, 10, 11] ++ rest) [("Tag", .num 42),
      ("X", .array (ints [0x00010203, 0x04050607])), ("Y", .num 0x08090a0b)] rest] :=
  meets_of (by decide +kernel)

/-- gen/tests/unionlen/unionlen_test.go:10-104. -/
theorem unionlen_meets : unionlenGolden.Meets ([[0], [0, 0, 0], [0, 0, 42, 42], [0, 1, 0, 0], [0, 1, 0, 1, 82], [0, 1, 0, 2, 82, 71],
      [0, 1, 0, 6, 82, 71, 66, 98, 97, 100], [0, 2, 0, 1, 0], [0, 2, 0, 2, 7, 225], [0, 2, 0, 3, 7, 225, 11],
      [0, 1, 0, 3, 82, 71, 66, 0]].map (fun d => bad "UnionWithLen" d) ++
    [good "UnionWithLen" ([0, 1, 0, 3, 82, 71, 66, 0x13, 0x37] ++ rest) [("Tag", .num 1), ("UnionLen", .num 3), ("R", .num 82),
        ("G", .num 71), ("B", .num 66), ("RightAfterTheUnion", .num 0x1337)] rest,
      good "UnionWithLen" ([0, 2, 0, 7, 7, 225, 11, 16, 42, 42, 42, 0x13, 0x37] ++ rest) [("Tag", .num 2), ("UnionLen", .num 7),
        ("Year", .num 2017), ("Month", .num 11), ("Day", .num 16), ("RightAfterTheUnion", .num 0x1337)] rest,
      good "UnionWithLen" ([0x13, 0x37, 0, 12] ++ txt (chars! "Hello World!") ++ [0x13, 0x37] ++ rest) [("Tag", .num 0x1337),
        ("UnionLen", .num 12), ("Unparseable", .slice (ints ((chars! "Hello World!").map Char.toNat))),
        ("RightAfterTheUnion", .num 0x1337)] rest]) :=
  meets_of (by decide +kernel)

/-- gen/tests/unionlo/unionlo_test.go:10-96. -/
theorem unionlo_meets : unionloGolden.Meets ([[], [1], [1, 0, 0, 0, 0, 0, 0, 0, 0], [4, 0, 0, 0, 0, 0, 0, 0, 0],
      [4, 42, 1, 0, 0, 0, 0, 0, 0, 0, 0], [4, 42, 1, 2, 255, 0, 0, 0, 0, 0, 0, 0], [1, 2, 3, 0, 0, 0, 0, 0, 0, 0, 0]].map
        (fun d => bad "Unlo" d) ++
    [good "Unlo" ([1, 42, 3] ++ txt (chars! "abcrest")) [("Tag", .num 1), ("X", .num 42), ("Leftoverlen", .num 3),
        ("Leftovers", .slice (ints [97, 98, 99]))] rest,
      good "Unlo" ([2] ++ txt (chars! "Hello World!") ++ [3] ++ txt (chars! "abcrest")) [("Tag", .num 2),
        ("Y", .slice (ints ((chars! "Hello World!").map Char.toNat))), ("Leftoverlen", .num 3), ("Leftovers", .slice (ints [97, 98, 99]))] rest,
      good "Unlo" ([4, 42, 0, 1, 2, 3, 4, 5, 3] ++ txt (chars! "abcrest")) [("Tag", .num 4), ("Byte", .num 42),
        ("Z", .slice (ints [0x0001, 0x0203, 0x0405])), ("Leftoverlen", .num 3), ("Leftovers", .slice (ints [97, 98, 99]))] rest]) :=
  meets_of (by decide +kernel)

/-- gen/tests/vararray/vararray_test.go:11-56. -/
theorem vararray_meets : vararrayGolden.Meets ([bad "VarArray" (zeros 1), good "VarArray" (zeros 2) [("NWords", .num 0), ("Words", .slice [])] []] ++
    (List.range 9).map (fun n => bad "VarArray" ([0, UInt8.ofNat (n + 1)] ++ zeros (4 * (n + 1) - 1))) ++
    [good "VarArray" ([0, 3, 0, 1, 2, 3, 4, 5, 6, 7, 8, 9, 10, 11] ++ rest) [("NWords", .num 3),
      ("Words", .slice (ints [0x00010203, 0x04050607, 0x08090a0b]))] rest]) :=
  meets_of (by decide +kernel)

end Verif.Golden
