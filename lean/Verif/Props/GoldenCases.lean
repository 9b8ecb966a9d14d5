import Verif.Golden
/-!
# The golden files of the repository

For every directory of /repo/gen/tests and /repo/examples: the source, the generated code, and the generated tests and fuzzing
functions, read and compared in the kernel. These are cases, not general statements; they show that the models of the source
parser, of the generator, of the emitted test functions and of the meaning of Go describe what the tool did when these files were made.
-/
namespace Verif.Props
open Verif Verif.Ast Verif.Go Verif.Go.Read Verif.Effects Verif.Golden

set_option maxRecDepth 100000

/-- gen/tests/color. -/
def colorGolden : Dir where
  pkg := "color"
  source := List.flatten [
    chars! "struct color {\n",
    chars! "    u8 r;\n",
    chars! "    u8 g;\n",
    chars! "    u8 b;\n",
    chars! "}\n"]
  code := List.flatten [
    chars! "// Code generated by trunnel. DO NOT EDIT.\n",
    chars! "\n",
    chars! "package color\n",
    chars! "\n",
    chars! "import \"errors\"\n",
    chars! "\n",
    chars! "type Color struct {\n",
    chars! "\tR uint8\n",
    chars! "\tG uint8\n",
    chars! "\tB uint8\n",
    chars! "}\n",
    chars! "\n",
    chars! "func (c *Color) Parse(data []byte) ([]byte, error) {\n",
    chars! "\tcur := data\n",
    chars! "\t{\n",
    chars! "\t\tif len(cur) < 1 {\n",
    chars! "\t\t\treturn nil, errors.New(\"data too short\")\n",
    chars! "\t\t}\n",
    chars! "\t\tc.R = cur[0]\n",
    chars! "\t\tcur = cur[1:]\n",
    chars! "\t}\n",
    chars! "\t{\n",
    chars! "\t\tif len(cur) < 1 {\n",
    chars! "\t\t\treturn nil, errors.New(\"data too short\")\n",
    chars! "\t\t}\n",
    chars! "\t\tc.G = cur[0]\n",
    chars! "\t\tcur = cur[1:]\n",
    chars! "\t}\n",
    chars! "\t{\n",
    chars! "\t\tif len(cur) < 1 {\n",
    chars! "\t\t\treturn nil, errors.New(\"data too short\")\n",
    chars! "\t\t}\n",
    chars! "\t\tc.B = cur[0]\n",
    chars! "\t\tcur = cur[1:]\n",
    chars! "\t}\n",
    chars! "\treturn cur, nil\n",
    chars! "}\n",
    chars! "\n",
    chars! "func ParseColor(data []byte) (*Color, error) {\n",
    chars! "\tc := new(Color)\n",
    chars! "\t_, err := c.Parse(data)\n",
    chars! "\tif err != nil {\n",
    chars! "\t\treturn nil, err\n",
    chars! "\t}\n",
    chars! "\treturn c, nil\n",
    chars! "}\n"]
  tests := List.flatten [
    chars! "// Code generated by trunnel. DO NOT EDIT.\n",
    chars! "\n",
    chars! "package color\n",
    chars! "\n",
    chars! "import \"testing\"\n",
    chars! "\n",
    chars! "func TestColorCorpus(t *testing.T) {\n",
    chars! "\tcases := []struct {\n",
    chars! "\t\tData []byte\n",
    chars! "\t}{\n",
    chars! "\t\t{\n",
    chars! "\t\t\tData: []byte{0xfd, 0x94, 0x1},\n",
    chars! "\t\t},\n",
    chars! "\t}\n",
    chars! "\tfor _, c := range cases {\n",
    chars! "\t\t_, err := ParseColor(c.Data)\n",
    chars! "\t\tif err != nil {\n",
    chars! "\t\t\tt.Fatal(err)\n",
    chars! "\t\t}\n",
    chars! "\t}\n",
    chars! "}\n"]
  fuzz := List.flatten [
    chars! "// Code generated by trunnel. DO NOT EDIT.\n",
    chars! "\n",
    chars! "// +build gofuzz\n",
    chars! "\n",
    chars! "package color\n",
    chars! "\n",
    chars! "func FuzzColor(data []byte) int {\n",
    chars! "\t_, err := ParseColor(data)\n",
    chars! "\tif err != nil {\n",
    chars! "\t\treturn 0\n",
    chars! "\t}\n",
    chars! "\treturn 1\n",
    chars! "}\n"]

theorem color_agrees : colorGolden.Agrees := agrees_of (by decide +kernel)

/-- gen/tests/constant. -/
def constantGolden : Dir where
  pkg := "constant"
  source := List.flatten [
    chars! "const TEST_DEC = 42;\n",
    chars! "const TEST_HEX = 0x42;\n",
    chars! "const TEST_OCT = 042;\n",
    chars! "\n",
    chars! "struct constants {\n",
    chars! "    u8 x IN [ TEST_DEC, TEST_HEX, TEST_OCT ];\n",
    chars! "}\n"]
  code := List.flatten [
    chars! "// Code generated by trunnel. DO NOT EDIT.\n",
    chars! "\n",
    chars! "package constant\n",
    chars! "\n",
    chars! "import \"errors\"\n",
    chars! "\n",
    chars! "type Constants struct {\n",
    chars! "\tX uint8\n",
    chars! "}\n",
    chars! "\n",
    chars! "func (c *Constants) Parse(data []byte) ([]byte, error) {\n",
    chars! "\tcur := data\n",
    chars! "\t{\n",
    chars! "\t\tif len(cur) < 1 {\n",
    chars! "\t\t\treturn nil, errors.New(\"data too short\")\n",
    chars! "\t\t}\n",
    chars! "\t\tc.X = cur[0]\n",
    chars! "\t\tif !(c.X == 42 || c.X == 66 || c.X == 34) {\n",
    chars! "\t\t\treturn nil, errors.New(\"integer constraint violated\")\n",
    chars! "\t\t}\n",
    chars! "\t\tcur = cur[1:]\n",
    chars! "\t}\n",
    chars! "\treturn cur, nil\n",
    chars! "}\n",
    chars! "\n",
    chars! "func ParseConstants(data []byte) (*Constants, error) {\n",
    chars! "\tc := new(Constants)\n",
    chars! "\t_, err := c.Parse(data)\n",
    chars! "\tif err != nil {\n",
    chars! "\t\treturn nil, err\n",
    chars! "\t}\n",
    chars! "\treturn c, nil\n",
    chars! "}\n"]
  tests := List.flatten [
    chars! "// Code generated by trunnel. DO NOT EDIT.\n",
    chars! "\n",
    chars! "package constant\n",
    chars! "\n",
    chars! "import \"testing\"\n",
    chars! "\n",
    chars! "func TestConstantsCorpus(t *testing.T) {\n",
    chars! "\tcases := []struct {\n",
    chars! "\t\tData []byte\n",
    chars! "\t}{\n",
    chars! "\t\t{\n",
    chars! "\t\t\tData: []byte{0x42},\n",
    chars! "\t\t},\n",
    chars! "\t}\n",
    chars! "\tfor _, c := range cases {\n",
    chars! "\t\t_, err := ParseConstants(c.Data)\n",
    chars! "\t\tif err != nil {\n",
    chars! "\t\t\tt.Fatal(err)\n",
    chars! "\t\t}\n",
    chars! "\t}\n",
    chars! "}\n"]
  fuzz := List.flatten [
    chars! "// Code generated by trunnel. DO NOT EDIT.\n",
    chars! "\n",
    chars! "// +build gofuzz\n",
    chars! "\n",
    chars! "package constant\n",
    chars! "\n",
    chars! "func FuzzConstants(data []byte) int {\n",
    chars! "\t_, err := ParseConstants(data)\n",
    chars! "\tif err != nil {\n",
    chars! "\t\treturn 0\n",
    chars! "\t}\n",
    chars! "\treturn 1\n",
    chars! "}\n"]

theorem constant_agrees : constantGolden.Agrees := agrees_of (by decide +kernel)

/-- gen/tests/constraint. -/
def constraintGolden : Dir where
  pkg := "constraint"
  source := List.flatten [
    chars! "/** You can put constraints on integers.\n",
    chars! " *\n",
    chars! " *  You can also put in doxygen comments before structures and fields to make\n",
    chars! " *  them documented. */\n",
    chars! "struct date {\n",
    chars! "   /** You can use a range for a constraint */\n",
    chars! "   u16 year IN [ 1970..65535 ];\n",
    chars! "   /** You can use a list too */\n",
    chars! "   u8 month IN [ 1, 2, 3, 4, 5, 6, 7, 8, 9, 10, 11, 12 ];\n",
    chars! "   /** You can combine lists and ranges, even though this is a little silly:\n",
    chars! "    * we could write this as 1..31 instead. */\n",
    chars! "   u8 day IN [ 1,2,3..31 ];\n",
    chars! "}\n"]
  code := List.flatten [
    chars! "// Code generated by trunnel. DO NOT EDIT.\n",
    chars! "\n",
    chars! "package constraint\n",
    chars! "\n",
    chars! "import (\n",
    chars! "\t\"encoding/binary\"\n",
    chars! "\t\"errors\"\n",
    chars! ")\n",
    chars! "\n",
    chars! "type Date struct {\n",
    chars! "\tYear  uint16\n",
    chars! "\tMonth uint8\n",
    chars! "\tDay   uint8\n",
    chars! "}\n",
    chars! "\n",
    chars! "func (d *Date) Parse(data []byte) ([]byte, error) {\n",
    chars! "\tcur := data\n",
    chars! "\t{\n",
    chars! "\t\tif len(cur) < 2 {\n",
    chars! "\t\t\treturn nil, errors.New(\"data too short\")\n",
    chars! "\t\t}\n",
    chars! "\t\td.Year = binary.BigEndian.Uint16(cur)\n",
    chars! "\t\tif !(1970 <= d.Year && d.Year <= 65535) {\n",
    chars! "\t\t\treturn nil, errors.New(\"integer constraint violated\")\n",
    chars! "\t\t}\n",
    chars! "\t\tcur = cur[2:]\n",
    chars! "\t}\n",
    chars! "\t{\n",
    chars! "\t\tif len(cur) < 1 {\n",
    chars! "\t\t\treturn nil, errors.New(\"data too short\")\n",
    chars! "\t\t}\n",
    chars! "\t\td.Month = cur[0]\n",
    chars! "\t\tif !(d.Month == 1 || d.Month == 2 || d.Month == 3 || d.Month == 4 || d.Month == 5 || d.Month == 6 || d.Month == 7 || d.Month == 8 || d.Month == 9 || d.Month == 10 || d.Month == 11 || d.Month == 12) {\n",
    chars! "\t\t\treturn nil, errors.New(\"integer constraint violated\")\n",
    chars! "\t\t}\n",
    chars! "\t\tcur = cur[1:]\n",
    chars! "\t}\n",
    chars! "\t{\n",
    chars! "\t\tif len(cur) < 1 {\n",
    chars! "\t\t\treturn nil, errors.New(\"data too short\")\n",
    chars! "\t\t}\n",
    chars! "\t\td.Day = cur[0]\n",
    chars! "\t\tif !(d.Day == 1 || d.Day == 2 || (3 <= d.Day && d.Day <= 31)) {\n",
    chars! "\t\t\treturn nil, errors.New(\"integer constraint violated\")\n",
    chars! "\t\t}\n",
    chars! "\t\tcur = cur[1:]\n",
    chars! "\t}\n",
    chars! "\treturn cur, nil\n",
    chars! "}\n",
    chars! "\n",
    chars! "func ParseDate(data []byte) (*Date, error) {\n",
    chars! "\td := new(Date)\n",
    chars! "\t_, err := d.Parse(data)\n",
    chars! "\tif err != nil {\n",
    chars! "\t\treturn nil, err\n",
    chars! "\t}\n",
    chars! "\treturn d, nil\n",
    chars! "}\n"]
  tests := List.flatten [
    chars! "// Code generated by trunnel. DO NOT EDIT.\n",
    chars! "\n",
    chars! "package constraint\n",
    chars! "\n",
    chars! "import \"testing\"\n",
    chars! "\n",
    chars! "func TestDateCorpus(t *testing.T) {\n",
    chars! "\tcases := []struct {\n",
    chars! "\t\tData []byte\n",
    chars! "\t}{\n",
    chars! "\t\t{\n",
    chars! "\t\t\tData: []byte{0x3b, 0x8, 0x1, 0x11},\n",
    chars! "\t\t},\n",
    chars! "\t}\n",
    chars! "\tfor _, c := range cases {\n",
    chars! "\t\t_, err := ParseDate(c.Data)\n",
    chars! "\t\tif err != nil {\n",
    chars! "\t\t\tt.Fatal(err)\n",
    chars! "\t\t}\n",
    chars! "\t}\n",
    chars! "}\n"]
  fuzz := List.flatten [
    chars! "// Code generated by trunnel. DO NOT EDIT.\n",
    chars! "\n",
    chars! "// +build gofuzz\n",
    chars! "\n",
    chars! "package constraint\n",
    chars! "\n",
    chars! "func FuzzDate(data []byte) int {\n",
    chars! "\t_, err := ParseDate(data)\n",
    chars! "\tif err != nil {\n",
    chars! "\t\treturn 0\n",
    chars! "\t}\n",
    chars! "\treturn 1\n",
    chars! "}\n"]

theorem constraint_agrees : constraintGolden.Agrees := agrees_of (by decide +kernel)

/-- gen/tests/contexts. -/
def contextsGolden : Dir where
  pkg := "contexts"
  source := List.flatten [
    chars! "struct point {\n",
    chars! "  u8 x IN [0..254];\n",
    chars! "  u8 y;\n",
    chars! "}\n",
    chars! "\n",
    chars! "/** This holds a boolean */\n",
    chars! "context flag {\n",
    chars! "  /** This can hold a 1 or a 0. */\n",
    chars! "  u8 flagval;\n",
    chars! "}\n",
    chars! "\n",
    chars! "context count {\n",
    chars! "  u8 countval;\n",
    chars! "}\n",
    chars! "\n",
    chars! "struct twosize with context flag {\n",
    chars! "  union u[flag.flagval] {\n",
    chars! "     0: u32 x IN [0..0x7fffffff];\n",
    chars! "     1,3: u16 y;\n",
    chars! "  };\n",
    chars! "}\n",
    chars! "\n",
    chars! "struct varsize with context count {\n",
    chars! "  u32 a;\n",
    chars! "  u8 msg[count.countval];\n",
    chars! "}\n",
    chars! "\n",
    chars! "struct ccomplex with context flag, count {\n",
    chars! "  struct point p;\n",
    chars! "  struct twosize tsz;\n",
    chars! "  struct varsize vsz;\n",
    chars! "  union u[flag.flagval] with length count.countval {\n",
    chars! "     0: u8 a[];\n",
    chars! "     1: u16 b[];\n",
    chars! "  };\n",
    chars! "}\n"]
  code := List.flatten [
    chars! "// Code generated by trunnel. DO NOT EDIT.\n",
    chars! "\n",
    chars! "package contexts\n",
    chars! "\n",
    chars! "import (\n",
    chars! "\t\"encoding/binary\"\n",
    chars! "\t\"errors\"\n",
    chars! ")\n",
    chars! "\n",
    chars! "type Flag struct {\n",
    chars! "\tFlagval uint8\n",
    chars! "}\n",
    chars! "\n",
    chars! "type Count struct {\n",
    chars! "\tCountval uint8\n",
    chars! "}\n",
    chars! "\n",
    chars! "type Point struct {\n",
    chars! "\tX uint8\n",
    chars! "\tY uint8\n",
    chars! "}\n",
    chars! "\n",
    chars! "func (p *Point) Parse(data []byte) ([]byte, error) {\n",
    chars! "\tcur := data\n",
    chars! "\t{\n",
    chars! "\t\tif len(cur) < 1 {\n",
    chars! "\t\t\treturn nil, errors.New(\"data too short\")\n",
    chars! "\t\t}\n",
    chars! "\t\tp.X = cur[0]\n",
    chars! "\t\tif !(0 <= p.X && p.X <= 254) {\n",
    chars! "\t\t\treturn nil, errors.New(\"integer constraint violated\")\n",
    chars! "\t\t}\n",
    chars! "\t\tcur = cur[1:]\n",
    chars! "\t}\n",
    chars! "\t{\n",
    chars! "\t\tif len(cur) < 1 {\n",
    chars! "\t\t\treturn nil, errors.New(\"data too short\")\n",
    chars! "\t\t}\n",
    chars! "\t\tp.Y = cur[0]\n",
    chars! "\t\tcur = cur[1:]\n",
    chars! "\t}\n",
    chars! "\treturn cur, nil\n",
    chars! "}\n",
    chars! "\n",
    chars! "func ParsePoint(data []byte) (*Point, error) {\n",
    chars! "\tp := new(Point)\n",
    chars! "\t_, err := p.Parse(data)\n",
    chars! "\tif err != nil {\n",
    chars! "\t\treturn nil, err\n",
    chars! "\t}\n",
    chars! "\treturn p, nil\n",
    chars! "}\n",
    chars! "\n",
    chars! "type Twosize struct {\n",
    chars! "\tX uint32\n",
    chars! "\tY uint16\n",
    chars! "}\n",
    chars! "\n",
    chars! "func (t *Twosize) Parse(data []byte, flag Flag) ([]byte, error) {\n",
    chars! "\tcur := data\n",
    chars! "\t{\n",
    chars! "\t\tswitch {\n",
    chars! "\t\tcase flag.Flagval == 0:\n",
    chars! "\t\t\t{\n",
    chars! "\t\t\t\tif len(cur) < 4 {\n",
    chars! "\t\t\t\t\treturn nil, errors.New(\"data too short\")\n",
    chars! "\t\t\t\t}\n",
    chars! "\t\t\t\tt.X = binary.BigEndian.Uint32(cur)\n",
    chars! "\t\t\t\tif !(0 <= t.X && t.X <= 2147483647) {\n",
    chars! "\t\t\t\t\treturn nil, errors.New(\"integer constraint violated\")\n",
    chars! "\t\t\t\t}\n",
    chars! "\t\t\t\tcur = cur[4:]\n",
    chars! "\t\t\t}\n",
    chars! "\t\tcase flag.Flagval == 1 || flag.Flagval == 3:\n",
    chars! "\t\t\t{\n",
    chars! "\t\t\t\tif len(cur) < 2 {\n",
    chars! "\t\t\t\t\treturn nil, errors.New(\"data too short\")\n",
    chars! "\t\t\t\t}\n",
    chars! "\t\t\t\tt.Y = binary.BigEndian.Uint16(cur)\n",
    chars! "\t\t\t\tcur = cur[2:]\n",
    chars! "\t\t\t}\n",
    chars! "\t\t}\n",
    chars! "\t}\n",
    chars! "\treturn cur, nil\n",
    chars! "}\n",
    chars! "\n",
    chars! "func ParseTwosize(data []byte, flag Flag) (*Twosize, error) {\n",
    chars! "\tt := new(Twosize)\n",
    chars! "\t_, err := t.Parse(data, flag)\n",
    chars! "\tif err != nil {\n",
    chars! "\t\treturn nil, err\n",
    chars! "\t}\n",
    chars! "\treturn t, nil\n",
    chars! "}\n",
    chars! "\n",
    chars! "type Varsize struct {\n",
    chars! "\tA   uint32\n",
    chars! "\tMsg []uint8\n",
    chars! "}\n",
    chars! "\n",
    chars! "func (v *Varsize) Parse(data []byte, count Count) ([]byte, error) {\n",
    chars! "\tcur := data\n",
    chars! "\t{\n",
    chars! "\t\tif len(cur) < 4 {\n",
    chars! "\t\t\treturn nil, errors.New(\"data too short\")\n",
    chars! "\t\t}\n",
    chars! "\t\tv.A = binary.BigEndian.Uint32(cur)\n",
    chars! "\t\tcur = cur[4:]\n",
    chars! "\t}\n",
    chars! "\t{\n",
    chars! "\t\tv.Msg = make([]uint8, int(count.Countval))\n",
    chars! "\t\tfor idx := 0; idx < int(count.Countval); idx++ {\n",
    chars! "\t\t\tif len(cur) < 1 {\n",
    chars! "\t\t\t\treturn nil, errors.New(\"data too short\")\n",
    chars! "\t\t\t}\n",
    chars! "\t\t\tv.Msg[idx] = cur[0]\n",
    chars! "\t\t\tcur = cur[1:]\n",
    chars! "\t\t}\n",
    chars! "\t}\n",
    chars! "\treturn cur, nil\n",
    chars! "}\n",
    chars! "\n",
    chars! "func ParseVarsize(data []byte, count Count) (*Varsize, error) {\n",
    chars! "\tv := new(Varsize)\n",
    chars! "\t_, err := v.Parse(data, count)\n",
    chars! "\tif err != nil {\n",
    chars! "\t\treturn nil, err\n",
    chars! "\t}\n",
    chars! "\treturn v, nil\n",
    chars! "}\n",
    chars! "\n",
    chars! "type Ccomplex struct {\n",
    chars! "\tP   *Point\n",
    chars! "\tTsz *Twosize\n",
    chars! "\tVsz *Varsize\n",
    chars! "\tA   []uint8\n",
    chars! "\tB   []uint16\n",
    chars! "}\n",
    chars! "\n",
    chars! "func (c *Ccomplex) Parse(data []byte, flag Flag, count Count) ([]byte, error) {\n",
    chars! "\tcur := data\n",
    chars! "\t{\n",
    chars! "\t\tvar err error\n",
    chars! "\t\tc.P = new(Point)\n",
    chars! "\t\tcur, err = c.P.Parse(cur)\n",
    chars! "\t\tif err != nil {\n",
    chars! "\t\t\treturn nil, err\n",
    chars! "\t\t}\n",
    chars! "\t}\n",
    chars! "\t{\n",
    chars! "\t\tvar err error\n",
    chars! "\t\tc.Tsz = new(Twosize)\n",
    chars! "\t\tcur, err = c.Tsz.Parse(cur, flag)\n",
    chars! "\t\tif err != nil {\n",
    chars! "\t\t\treturn nil, err\n",
    chars! "\t\t}\n",
    chars! "\t}\n",
    chars! "\t{\n",
    chars! "\t\tvar err error\n",
    chars! "\t\tc.Vsz = new(Varsize)\n",
    chars! "\t\tcur, err = c.Vsz.Parse(cur, count)\n",
    chars! "\t\tif err != nil {\n",
    chars! "\t\t\treturn nil, err\n",
    chars! "\t\t}\n",
    chars! "\t}\n",
    chars! "\t{\n",
    chars! "\t\tif len(cur) < int(count.Countval) {\n",
    chars! "\t\t\treturn nil, errors.New(\"data too short\")\n",
    chars! "\t\t}\n",
    chars! "\t\trestore := cur[int(count.Countval):]\n",
    chars! "\t\tcur = cur[:int(count.Countval)]\n",
    chars! "\t\tswitch {\n",
    chars! "\t\tcase flag.Flagval == 0:\n",
    chars! "\t\t\t{\n",
    chars! "\t\t\t\tc.A = make([]uint8, 0)\n",
    chars! "\t\t\t\tfor len(cur) > 0 {\n",
    chars! "\t\t\t\t\tvar tmp uint8\n",
    chars! "\t\t\t\t\tif len(cur) < 1 {\n",
    chars! "\t\t\t\t\t\treturn nil, errors.New(\"data too short\")\n",
    chars! "\t\t\t\t\t}\n",
    chars! "\t\t\t\t\ttmp = cur[0]\n",
    chars! "\t\t\t\t\tcur = cur[1:]\n",
    chars! "\t\t\t\t\tc.A = append(c.A, tmp)\n",
    chars! "\t\t\t\t}\n",
    chars! "\t\t\t}\n",
    chars! "\t\tcase flag.Flagval == 1:\n",
    chars! "\t\t\t{\n",
    chars! "\t\t\t\tc.B = make([]uint16, 0)\n",
    chars! "\t\t\t\tfor len(cur) > 0 {\n",
    chars! "\t\t\t\t\tvar tmp uint16\n",
    chars! "\t\t\t\t\tif len(cur) < 2 {\n",
    chars! "\t\t\t\t\t\treturn nil, errors.New(\"data too short\")\n",
    chars! "\t\t\t\t\t}\n",
    chars! "\t\t\t\t\ttmp = binary.BigEndian.Uint16(cur)\n",
    chars! "\t\t\t\t\tcur = cur[2:]\n",
    chars! "\t\t\t\t\tc.B = append(c.B, tmp)\n",
    chars! "\t\t\t\t}\n",
    chars! "\t\t\t}\n",
    chars! "\t\t}\n",
    chars! "\t\tif len(cur) > 0 {\n",
    chars! "\t\t\treturn nil, errors.New(\"trailing data disallowed\")\n",
    chars! "\t\t}\n",
    chars! "\t\tcur = restore\n",
    chars! "\t}\n",
    chars! "\treturn cur, nil\n",
    chars! "}\n",
    chars! "\n",
    chars! "func ParseCcomplex(data []byte, flag Flag, count Count) (*Ccomplex, error) {\n",
    chars! "\tc := new(Ccomplex)\n",
    chars! "\t_, err := c.Parse(data, flag, count)\n",
    chars! "\tif err != nil {\n",
    chars! "\t\treturn nil, err\n",
    chars! "\t}\n",
    chars! "\treturn c, nil\n",
    chars! "}\n"]
  tests := List.flatten [
    chars! "// Code generated by trunnel. DO NOT EDIT.\n",
    chars! "\n",
    chars! "package contexts\n",
    chars! "\n",
    chars! "import \"testing\"\n",
    chars! "\n",
    chars! "func TestPointCorpus(t *testing.T) {\n",
    chars! "\tcases := []struct {\n",
    chars! "\t\tData []byte\n",
    chars! "\t}{\n",
    chars! "\t\t{\n",
    chars! "\t\t\tData: []byte{0x25, 0x1},\n",
    chars! "\t\t},\n",
    chars! "\t}\n",
    chars! "\tfor _, c := range cases {\n",
    chars! "\t\t_, err := ParsePoint(c.Data)\n",
    chars! "\t\tif err != nil {\n",
    chars! "\t\t\tt.Fatal(err)\n",
    chars! "\t\t}\n",
    chars! "\t}\n",
    chars! "}\n"]
  fuzz := List.flatten [
    chars! "// Code generated by trunnel. DO NOT EDIT.\n",
    chars! "\n",
    chars! "// +build gofuzz\n",
    chars! "\n",
    chars! "package contexts\n",
    chars! "\n",
    chars! "func FuzzPoint(data []byte) int {\n",
    chars! "\t_, err := ParsePoint(data)\n",
    chars! "\tif err != nil {\n",
    chars! "\t\treturn 0\n",
    chars! "\t}\n",
    chars! "\treturn 1\n",
    chars! "}\n"]

theorem contexts_agrees : contextsGolden.Agrees := agrees_of (by decide +kernel)

/-- gen/tests/eos. -/
def eosGolden : Dir where
  pkg := "eos"
  source := List.flatten [
    chars! "struct fourbytes {\n",
    chars! "   u16 x;\n",
    chars! "   u16 y;\n",
    chars! "   eos;\n",
    chars! "}\n"]
  code := List.flatten [
    chars! "// Code generated by trunnel. DO NOT EDIT.\n",
    chars! "\n",
    chars! "package eos\n",
    chars! "\n",
    chars! "import (\n",
    chars! "\t\"encoding/binary\"\n",
    chars! "\t\"errors\"\n",
    chars! ")\n",
    chars! "\n",
    chars! "type Fourbytes struct {\n",
    chars! "\tX uint16\n",
    chars! "\tY uint16\n",
    chars! "}\n",
    chars! "\n",
    chars! "func (f *Fourbytes) Parse(data []byte) ([]byte, error) {\n",
    chars! "\tcur := data\n",
    chars! "\t{\n",
    chars! "\t\tif len(cur) < 2 {\n",
    chars! "\t\t\treturn nil, errors.New(\"data too short\")\n",
    chars! "\t\t}\n",
    chars! "\t\tf.X = binary.BigEndian.Uint16(cur)\n",
    chars! "\t\tcur = cur[2:]\n",
    chars! "\t}\n",
    chars! "\t{\n",
    chars! "\t\tif len(cur) < 2 {\n",
    chars! "\t\t\treturn nil, errors.New(\"data too short\")\n",
    chars! "\t\t}\n",
    chars! "\t\tf.Y = binary.BigEndian.Uint16(cur)\n",
    chars! "\t\tcur = cur[2:]\n",
    chars! "\t}\n",
    chars! "\t{\n",
    chars! "\t\tif len(cur) > 0 {\n",
    chars! "\t\t\treturn nil, errors.New(\"trailing data disallowed\")\n",
    chars! "\t\t}\n",
    chars! "\t}\n",
    chars! "\treturn cur, nil\n",
    chars! "}\n",
    chars! "\n",
    chars! "func ParseFourbytes(data []byte) (*Fourbytes, error) {\n",
    chars! "\tf := new(Fourbytes)\n",
    chars! "\t_, err := f.Parse(data)\n",
    chars! "\tif err != nil {\n",
    chars! "\t\treturn nil, err\n",
    chars! "\t}\n",
    chars! "\treturn f, nil\n",
    chars! "}\n"]
  tests := List.flatten [
    chars! "// Code generated by trunnel. DO NOT EDIT.\n",
    chars! "\n",
    chars! "package eos\n",
    chars! "\n",
    chars! "import \"testing\"\n",
    chars! "\n",
    chars! "func TestFourbytesCorpus(t *testing.T) {\n",
    chars! "\tcases := []struct {\n",
    chars! "\t\tData []byte\n",
    chars! "\t}{\n",
    chars! "\t\t{\n",
    chars! "\t\t\tData: []byte{0xfd, 0xc2, 0x1, 0x94},\n",
    chars! "\t\t},\n",
    chars! "\t}\n",
    chars! "\tfor _, c := range cases {\n",
    chars! "\t\t_, err := ParseFourbytes(c.Data)\n",
    chars! "\t\tif err != nil {\n",
    chars! "\t\t\tt.Fatal(err)\n",
    chars! "\t\t}\n",
    chars! "\t}\n",
    chars! "}\n"]
  fuzz := List.flatten [
    chars! "// Code generated by trunnel. DO NOT EDIT.\n",
    chars! "\n",
    chars! "// +build gofuzz\n",
    chars! "\n",
    chars! "package eos\n",
    chars! "\n",
    chars! "func FuzzFourbytes(data []byte) int {\n",
    chars! "\t_, err := ParseFourbytes(data)\n",
    chars! "\tif err != nil {\n",
    chars! "\t\treturn 0\n",
    chars! "\t}\n",
    chars! "\treturn 1\n",
    chars! "}\n"]

theorem eos_agrees : eosGolden.Agrees := agrees_of (by decide +kernel)

/-- gen/tests/fixie. -/
def fixieGolden : Dir where
  pkg := "fixie"
  source := List.flatten [
    chars! "struct color { u8 r; u8 g; u8 b; }\n",
    chars! "\n",
    chars! "const NUM_BYTES = 8;\n",
    chars! "\n",
    chars! "struct fixie_demo {\n",
    chars! "   u8 bytes[NUM_BYTES];\n",
    chars! "   char letters[8];\n",
    chars! "   u16 shortwords[4];\n",
    chars! "   u32 words[2];\n",
    chars! "   u64 big_words[2];\n",
    chars! "   struct color colors[2];\n",
    chars! "}\n"]
  code := List.flatten [
    chars! "// Code generated by trunnel. DO NOT EDIT.\n",
    chars! "\n",
    chars! "package fixie\n",
    chars! "\n",
    chars! "import (\n",
    chars! "\t\"encoding/binary\"\n",
    chars! "\t\"errors\"\n",
    chars! ")\n",
    chars! "\n",
    chars! "type Color struct {\n",
    chars! "\tR uint8\n",
    chars! "\tG uint8\n",
    chars! "\tB uint8\n",
    chars! "}\n",
    chars! "\n",
    chars! "func (c *Color) Parse(data []byte) ([]byte, error) {\n",
    chars! "\tcur := data\n",
    chars! "\t{\n",
    chars! "\t\tif len(cur) < 1 {\n",
    chars! "\t\t\treturn nil, errors.New(\"data too short\")\n",
    chars! "\t\t}\n",
    chars! "\t\tc.R = cur[0]\n",
    chars! "\t\tcur = cur[1:]\n",
    chars! "\t}\n",
    chars! "\t{\n",
    chars! "\t\tif len(cur) < 1 {\n",
    chars! "\t\t\treturn nil, errors.New(\"data too short\")\n",
    chars! "\t\t}\n",
    chars! "\t\tc.G = cur[0]\n",
    chars! "\t\tcur = cur[1:]\n",
    chars! "\t}\n",
    chars! "\t{\n",
    chars! "\t\tif len(cur) < 1 {\n",
    chars! "\t\t\treturn nil, errors.New(\"data too short\")\n",
    chars! "\t\t}\n",
    chars! "\t\tc.B = cur[0]\n",
    chars! "\t\tcur = cur[1:]\n",
    chars! "\t}\n",
    chars! "\treturn cur, nil\n",
    chars! "}\n",
    chars! "\n",
    chars! "func ParseColor(data []byte) (*Color, error) {\n",
    chars! "\tc := new(Color)\n",
    chars! "\t_, err := c.Parse(data)\n",
    chars! "\tif err != nil {\n",
    chars! "\t\treturn nil, err\n",
    chars! "\t}\n",
    chars! "\treturn c, nil\n",
    chars! "}\n",
    chars! "\n",
    chars! "type FixieDemo struct {\n",
    chars! "\tBytes      [8]uint8\n",
    chars! "\tLetters    [8]byte\n",
    chars! "\tShortwords [4]uint16\n",
    chars! "\tWords      [2]uint32\n",
    chars! "\tBigWords   [2]uint64\n",
    chars! "\tColors     [2]*Color\n",
    chars! "}\n",
    chars! "\n",
    chars! "func (f *FixieDemo) Parse(data []byte) ([]byte, error) {\n",
    chars! "\tcur := data\n",
    chars! "\t{\n",
    chars! "\t\tfor idx := 0; idx < 8; idx++ {\n",
    chars! "\t\t\tif len(cur) < 1 {\n",
    chars! "\t\t\t\treturn nil, errors.New(\"data too short\")\n",
    chars! "\t\t\t}\n",
    chars! "\t\t\tf.Bytes[idx] = cur[0]\n",
    chars! "\t\t\tcur = cur[1:]\n",
    chars! "\t\t}\n",
    chars! "\t}\n",
    chars! "\t{\n",
    chars! "\t\tfor idx := 0; idx < 8; idx++ {\n",
    chars! "\t\t\tif len(cur) < 1 {\n",
    chars! "\t\t\t\treturn nil, errors.New(\"data too short\")\n",
    chars! "\t\t\t}\n",
    chars! "\t\t\tf.Letters[idx] = cur[0]\n",
    chars! "\t\t\tcur = cur[1:]\n",
    chars! "\t\t}\n",
    chars! "\t}\n",
    chars! "\t{\n",
    chars! "\t\tfor idx := 0; idx < 4; idx++ {\n",
    chars! "\t\t\tif len(cur) < 2 {\n",
    chars! "\t\t\t\treturn nil, errors.New(\"data too short\")\n",
    chars! "\t\t\t}\n",
    chars! "\t\t\tf.Shortwords[idx] = binary.BigEndian.Uint16(cur)\n",
    chars! "\t\t\tcur = cur[2:]\n",
    chars! "\t\t}\n",
    chars! "\t}\n",
    chars! "\t{\n",
    chars! "\t\tfor idx := 0; idx < 2; idx++ {\n",
    chars! "\t\t\tif len(cur) < 4 {\n",
    chars! "\t\t\t\treturn nil, errors.New(\"data too short\")\n",
    chars! "\t\t\t}\n",
    chars! "\t\t\tf.Words[idx] = binary.BigEndian.Uint32(cur)\n",
    chars! "\t\t\tcur = cur[4:]\n",
    chars! "\t\t}\n",
    chars! "\t}\n",
    chars! "\t{\n",
    chars! "\t\tfor idx := 0; idx < 2; idx++ {\n",
    chars! "\t\t\tif len(cur) < 8 {\n",
    chars! "\t\t\t\treturn nil, errors.New(\"data too short\")\n",
    chars! "\t\t\t}\n",
    chars! "\t\t\tf.BigWords[idx] = binary.BigEndian.Uint64(cur)\n",
    chars! "\t\t\tcur = cur[8:]\n",
    chars! "\t\t}\n",
    chars! "\t}\n",
    chars! "\t{\n",
    chars! "\t\tfor idx := 0; idx < 2; idx++ {\n",
    chars! "\t\t\tvar err error\n",
    chars! "\t\t\tf.Colors[idx] = new(Color)\n",
    chars! "\t\t\tcur, err = f.Colors[idx].Parse(cur)\n",
    chars! "\t\t\tif err != nil {\n",
    chars! "\t\t\t\treturn nil, err\n",
    chars! "\t\t\t}\n",
    chars! "\t\t}\n",
    chars! "\t}\n",
    chars! "\treturn cur, nil\n",
    chars! "}\n",
    chars! "\n",
    chars! "func ParseFixieDemo(data []byte) (*FixieDemo, error) {\n",
    chars! "\tf := new(FixieDemo)\n",
    chars! "\t_, err := f.Parse(data)\n",
    chars! "\tif err != nil {\n",
    chars! "\t\treturn nil, err\n",
    chars! "\t}\n",
    chars! "\treturn f, nil\n",
    chars! "}\n"]
  tests := List.flatten [
    chars! "// Code generated by trunnel. DO NOT EDIT.\n",
    chars! "\n",
    chars! "package fixie\n",
    chars! "\n",
    chars! "import \"testing\"\n",
    chars! "\n",
    chars! "func TestColorCorpus(t *testing.T) {\n",
    chars! "\tcases := []struct {\n",
    chars! "\t\tData []byte\n",
    chars! "\t}{\n",
    chars! "\t\t{\n",
    chars! "\t\t\tData: []byte{0xfd, 0x94, 0x1},\n",
    chars! "\t\t},\n",
    chars! "\t}\n",
    chars! "\tfor _, c := range cases {\n",
    chars! "\t\t_, err := ParseColor(c.Data)\n",
    chars! "\t\tif err != nil {\n",
    chars! "\t\t\tt.Fatal(err)\n",
    chars! "\t\t}\n",
    chars! "\t}\n",
    chars! "}\n",
    chars! "\n",
    chars! "func TestFixieDemoCorpus(t *testing.T) {\n",
    chars! "\tcases := []struct {\n",
    chars! "\t\tData []byte\n",
    chars! "\t}{\n",
    chars! "\t\t{\n",
    chars! "\t\t\tData: []byte{0x51, 0xe1, 0xec, 0x85, 0xe2, 0x2e, 0x89, 0x78, 0xa1, 0xd4, 0xf, 0x85, 0x51, 0x46, 0x39, 0xd, 0xe0, 0xb1, 0xa7, 0x9e, 0xaf, 0x48, 0x18, 0xd, 0x2d, 0xb, 0x75, 0xfb, 0x2a, 0xbd, 0xf4, 0x4a, 0x4f, 0xf9, 0x5f, 0xf6, 0x62, 0xa5, 0xee, 0xe8, 0xd3, 0xff, 0x12, 0x4, 0x5b, 0x73, 0xc8, 0x6e, 0x41, 0xc0, 0xfc, 0x2f, 0xfa, 0xc2},\n",
    chars! "\t\t},\n",
    chars! "\t}\n",
    chars! "\tfor _, c := range cases {\n",
    chars! "\t\t_, err := ParseFixieDemo(c.Data)\n",
    chars! "\t\tif err != nil {\n",
    chars! "\t\t\tt.Fatal(err)\n",
    chars! "\t\t}\n",
    chars! "\t}\n",
    chars! "}\n"]
  fuzz := List.flatten [
    chars! "// Code generated by trunnel. DO NOT EDIT.\n",
    chars! "\n",
    chars! "// +build gofuzz\n",
    chars! "\n",
    chars! "package fixie\n",
    chars! "\n",
    chars! "func FuzzColor(data []byte) int {\n",
    chars! "\t_, err := ParseColor(data)\n",
    chars! "\tif err != nil {\n",
    chars! "\t\treturn 0\n",
    chars! "\t}\n",
    chars! "\treturn 1\n",
    chars! "}\n",
    chars! "\n",
    chars! "func FuzzFixieDemo(data []byte) int {\n",
    chars! "\t_, err := ParseFixieDemo(data)\n",
    chars! "\tif err != nil {\n",
    chars! "\t\treturn 0\n",
    chars! "\t}\n",
    chars! "\treturn 1\n",
    chars! "}\n"]

theorem fixie_agrees : fixieGolden.Agrees := agrees_of (by decide +kernel)

/-- gen/tests/ints. -/
def intsGolden : Dir where
  pkg := "ints"
  source := List.flatten [
    chars! "struct ints {\n",
    chars! "    u8 byte;\n",
    chars! "    u16 word;\n",
    chars! "    u32 dword;\n",
    chars! "    u64 qword;\n",
    chars! "}\n"]
  code := List.flatten [
    chars! "// Code generated by trunnel. DO NOT EDIT.\n",
    chars! "\n",
    chars! "package ints\n",
    chars! "\n",
    chars! "import (\n",
    chars! "\t\"encoding/binary\"\n",
    chars! "\t\"errors\"\n",
    chars! ")\n",
    chars! "\n",
    chars! "type Ints struct {\n",
    chars! "\tByte  uint8\n",
    chars! "\tWord  uint16\n",
    chars! "\tDword uint32\n",
    chars! "\tQword uint64\n",
    chars! "}\n",
    chars! "\n",
    chars! "func (i *Ints) Parse(data []byte) ([]byte, error) {\n",
    chars! "\tcur := data\n",
    chars! "\t{\n",
    chars! "\t\tif len(cur) < 1 {\n",
    chars! "\t\t\treturn nil, errors.New(\"data too short\")\n",
    chars! "\t\t}\n",
    chars! "\t\ti.Byte = cur[0]\n",
    chars! "\t\tcur = cur[1:]\n",
    chars! "\t}\n",
    chars! "\t{\n",
    chars! "\t\tif len(cur) < 2 {\n",
    chars! "\t\t\treturn nil, errors.New(\"data too short\")\n",
    chars! "\t\t}\n",
    chars! "\t\ti.Word = binary.BigEndian.Uint16(cur)\n",
    chars! "\t\tcur = cur[2:]\n",
    chars! "\t}\n",
    chars! "\t{\n",
    chars! "\t\tif len(cur) < 4 {\n",
    chars! "\t\t\treturn nil, errors.New(\"data too short\")\n",
    chars! "\t\t}\n",
    chars! "\t\ti.Dword = binary.BigEndian.Uint32(cur)\n",
    chars! "\t\tcur = cur[4:]\n",
    chars! "\t}\n",
    chars! "\t{\n",
    chars! "\t\tif len(cur) < 8 {\n",
    chars! "\t\t\treturn nil, errors.New(\"data too short\")\n",
    chars! "\t\t}\n",
    chars! "\t\ti.Qword = binary.BigEndian.Uint64(cur)\n",
    chars! "\t\tcur = cur[8:]\n",
    chars! "\t}\n",
    chars! "\treturn cur, nil\n",
    chars! "}\n",
    chars! "\n",
    chars! "func ParseInts(data []byte) (*Ints, error) {\n",
    chars! "\ti := new(Ints)\n",
    chars! "\t_, err := i.Parse(data)\n",
    chars! "\tif err != nil {\n",
    chars! "\t\treturn nil, err\n",
    chars! "\t}\n",
    chars! "\treturn i, nil\n",
    chars! "}\n"]
  tests := List.flatten [
    chars! "// Code generated by trunnel. DO NOT EDIT.\n",
    chars! "\n",
    chars! "package ints\n",
    chars! "\n",
    chars! "import \"testing\"\n",
    chars! "\n",
    chars! "func TestIntsCorpus(t *testing.T) {\n",
    chars! "\tcases := []struct {\n",
    chars! "\t\tData []byte\n",
    chars! "\t}{\n",
    chars! "\t\t{\n",
    chars! "\t\t\tData: []byte{0x73, 0x4, 0x5b, 0x41, 0xd3, 0xff, 0x12, 0x1, 0x94, 0xfd, 0xc2, 0xfa, 0x2f, 0xfc, 0xc0},\n",
    chars! "\t\t},\n",
    chars! "\t}\n",
    chars! "\tfor _, c := range cases {\n",
    chars! "\t\t_, err := ParseInts(c.Data)\n",
    chars! "\t\tif err != nil {\n",
    chars! "\t\t\tt.Fatal(err)\n",
    chars! "\t\t}\n",
    chars! "\t}\n",
    chars! "}\n"]
  fuzz := List.flatten [
    chars! "// Code generated by trunnel. DO NOT EDIT.\n",
    chars! "\n",
    chars! "// +build gofuzz\n",
    chars! "\n",
    chars! "package ints\n",
    chars! "\n",
    chars! "func FuzzInts(data []byte) int {\n",
    chars! "\t_, err := ParseInts(data)\n",
    chars! "\tif err != nil {\n",
    chars! "\t\treturn 0\n",
    chars! "\t}\n",
    chars! "\treturn 1\n",
    chars! "}\n"]

theorem ints_agrees : intsGolden.Agrees := agrees_of (by decide +kernel)

/-- gen/tests/leftover. -/
def leftoverGolden : Dir where
  pkg := "leftover"
  source := List.flatten [
    chars! "struct leftover {\n",
    chars! "   u32 head[2];\n",
    chars! "   u32 mid[..-8];\n",
    chars! "   u32 tail[2];\n",
    chars! "};\n"]
  code := List.flatten [
    chars! "// Code generated by trunnel. DO NOT EDIT.\n",
    chars! "\n",
    chars! "package leftover\n",
    chars! "\n",
    chars! "import (\n",
    chars! "\t\"encoding/binary\"\n",
    chars! "\t\"errors\"\n",
    chars! ")\n",
    chars! "\n",
    chars! "type Leftover struct {\n",
    chars! "\tHead [2]uint32\n",
    chars! "\tMid  []uint32\n",
    chars! "\tTail [2]uint32\n",
    chars! "}\n",
    chars! "\n",
    chars! "func (l *Leftover) Parse(data []byte) ([]byte, error) {\n",
    chars! "\tcur := data\n",
    chars! "\t{\n",
    chars! "\t\tfor idx := 0; idx < 2; idx++ {\n",
    chars! "\t\t\tif len(cur) < 4 {\n",
    chars! "\t\t\t\treturn nil, errors.New(\"data too short\")\n",
    chars! "\t\t\t}\n",
    chars! "\t\t\tl.Head[idx] = binary.BigEndian.Uint32(cur)\n",
    chars! "\t\t\tcur = cur[4:]\n",
    chars! "\t\t}\n",
    chars! "\t}\n",
    chars! "\t{\n",
    chars! "\t\tif len(cur) < 8 {\n",
    chars! "\t\t\treturn nil, errors.New(\"data too short\")\n",
    chars! "\t\t}\n",
    chars! "\t\trestore := cur[len(cur)-8:]\n",
    chars! "\t\tcur = cur[:len(cur)-8]\n",
    chars! "\t\tl.Mid = make([]uint32, 0)\n",
    chars! "\t\tfor len(cur) > 0 {\n",
    chars! "\t\t\tvar tmp uint32\n",
    chars! "\t\t\tif len(cur) < 4 {\n",
    chars! "\t\t\t\treturn nil, errors.New(\"data too short\")\n",
    chars! "\t\t\t}\n",
    chars! "\t\t\ttmp = binary.BigEndian.Uint32(cur)\n",
    chars! "\t\t\tcur = cur[4:]\n",
    chars! "\t\t\tl.Mid = append(l.Mid, tmp)\n",
    chars! "\t\t}\n",
    chars! "\t\tif len(cur) > 0 {\n",
    chars! "\t\t\treturn nil, errors.New(\"trailing data disallowed\")\n",
    chars! "\t\t}\n",
    chars! "\t\tcur = restore\n",
    chars! "\t}\n",
    chars! "\t{\n",
    chars! "\t\tfor idx := 0; idx < 2; idx++ {\n",
    chars! "\t\t\tif len(cur) < 4 {\n",
    chars! "\t\t\t\treturn nil, errors.New(\"data too short\")\n",
    chars! "\t\t\t}\n",
    chars! "\t\t\tl.Tail[idx] = binary.BigEndian.Uint32(cur)\n",
    chars! "\t\t\tcur = cur[4:]\n",
    chars! "\t\t}\n",
    chars! "\t}\n",
    chars! "\treturn cur, nil\n",
    chars! "}\n",
    chars! "\n",
    chars! "func ParseLeftover(data []byte) (*Leftover, error) {\n",
    chars! "\tl := new(Leftover)\n",
    chars! "\t_, err := l.Parse(data)\n",
    chars! "\tif err != nil {\n",
    chars! "\t\treturn nil, err\n",
    chars! "\t}\n",
    chars! "\treturn l, nil\n",
    chars! "}\n"]
  tests := []
  fuzz := []

theorem leftover_agrees : leftoverGolden.CodeAgrees := codeAgrees_of (by decide +kernel)

/-- gen/tests/nest. -/
def nestGolden : Dir where
  pkg := "nest"
  source := List.flatten [
    chars! "struct point {\n",
    chars! "    u8 x;\n",
    chars! "    u8 y;\n",
    chars! "};\n",
    chars! "\n",
    chars! "struct rect {\n",
    chars! "    struct point north_east;\n",
    chars! "    struct point south_west;\n",
    chars! "};\n"]
  code := List.flatten [
    chars! "// Code generated by trunnel. DO NOT EDIT.\n",
    chars! "\n",
    chars! "package nest\n",
    chars! "\n",
    chars! "import \"errors\"\n",
    chars! "\n",
    chars! "type Point struct {\n",
    chars! "\tX uint8\n",
    chars! "\tY uint8\n",
    chars! "}\n",
    chars! "\n",
    chars! "func (p *Point) Parse(data []byte) ([]byte, error) {\n",
    chars! "\tcur := data\n",
    chars! "\t{\n",
    chars! "\t\tif len(cur) < 1 {\n",
    chars! "\t\t\treturn nil, errors.New(\"data too short\")\n",
    chars! "\t\t}\n",
    chars! "\t\tp.X = cur[0]\n",
    chars! "\t\tcur = cur[1:]\n",
    chars! "\t}\n",
    chars! "\t{\n",
    chars! "\t\tif len(cur) < 1 {\n",
    chars! "\t\t\treturn nil, errors.New(\"data too short\")\n",
    chars! "\t\t}\n",
    chars! "\t\tp.Y = cur[0]\n",
    chars! "\t\tcur = cur[1:]\n",
    chars! "\t}\n",
    chars! "\treturn cur, nil\n",
    chars! "}\n",
    chars! "\n",
    chars! "func ParsePoint(data []byte) (*Point, error) {\n",
    chars! "\tp := new(Point)\n",
    chars! "\t_, err := p.Parse(data)\n",
    chars! "\tif err != nil {\n",
    chars! "\t\treturn nil, err\n",
    chars! "\t}\n",
    chars! "\treturn p, nil\n",
    chars! "}\n",
    chars! "\n",
    chars! "type Rect struct {\n",
    chars! "\tNorthEast *Point\n",
    chars! "\tSouthWest *Point\n",
    chars! "}\n",
    chars! "\n",
    chars! "func (r *Rect) Parse(data []byte) ([]byte, error) {\n",
    chars! "\tcur := data\n",
    chars! "\t{\n",
    chars! "\t\tvar err error\n",
    chars! "\t\tr.NorthEast = new(Point)\n",
    chars! "\t\tcur, err = r.NorthEast.Parse(cur)\n",
    chars! "\t\tif err != nil {\n",
    chars! "\t\t\treturn nil, err\n",
    chars! "\t\t}\n",
    chars! "\t}\n",
    chars! "\t{\n",
    chars! "\t\tvar err error\n",
    chars! "\t\tr.SouthWest = new(Point)\n",
    chars! "\t\tcur, err = r.SouthWest.Parse(cur)\n",
    chars! "\t\tif err != nil {\n",
    chars! "\t\t\treturn nil, err\n",
    chars! "\t\t}\n",
    chars! "\t}\n",
    chars! "\treturn cur, nil\n",
    chars! "}\n",
    chars! "\n",
    chars! "func ParseRect(data []byte) (*Rect, error) {\n",
    chars! "\tr := new(Rect)\n",
    chars! "\t_, err := r.Parse(data)\n",
    chars! "\tif err != nil {\n",
    chars! "\t\treturn nil, err\n",
    chars! "\t}\n",
    chars! "\treturn r, nil\n",
    chars! "}\n"]
  tests := List.flatten [
    chars! "// Code generated by trunnel. DO NOT EDIT.\n",
    chars! "\n",
    chars! "package nest\n",
    chars! "\n",
    chars! "import \"testing\"\n",
    chars! "\n",
    chars! "func TestPointCorpus(t *testing.T) {\n",
    chars! "\tcases := []struct {\n",
    chars! "\t\tData []byte\n",
    chars! "\t}{\n",
    chars! "\t\t{\n",
    chars! "\t\t\tData: []byte{0x94, 0x1},\n",
    chars! "\t\t},\n",
    chars! "\t}\n",
    chars! "\tfor _, c := range cases {\n",
    chars! "\t\t_, err := ParsePoint(c.Data)\n",
    chars! "\t\tif err != nil {\n",
    chars! "\t\t\tt.Fatal(err)\n",
    chars! "\t\t}\n",
    chars! "\t}\n",
    chars! "}\n",
    chars! "\n",
    chars! "func TestRectCorpus(t *testing.T) {\n",
    chars! "\tcases := []struct {\n",
    chars! "\t\tData []byte\n",
    chars! "\t}{\n",
    chars! "\t\t{\n",
    chars! "\t\t\tData: []byte{0x2f, 0xfa, 0xc2, 0xfd},\n",
    chars! "\t\t},\n",
    chars! "\t}\n",
    chars! "\tfor _, c := range cases {\n",
    chars! "\t\t_, err := ParseRect(c.Data)\n",
    chars! "\t\tif err != nil {\n",
    chars! "\t\t\tt.Fatal(err)\n",
    chars! "\t\t}\n",
    chars! "\t}\n",
    chars! "}\n"]
  fuzz := List.flatten [
    chars! "// Code generated by trunnel. DO NOT EDIT.\n",
    chars! "\n",
    chars! "// +build gofuzz\n",
    chars! "\n",
    chars! "package nest\n",
    chars! "\n",
    chars! "func FuzzPoint(data []byte) int {\n",
    chars! "\t_, err := ParsePoint(data)\n",
    chars! "\tif err != nil {\n",
    chars! "\t\treturn 0\n",
    chars! "\t}\n",
    chars! "\treturn 1\n",
    chars! "}\n",
    chars! "\n",
    chars! "func FuzzRect(data []byte) int {\n",
    chars! "\t_, err := ParseRect(data)\n",
    chars! "\tif err != nil {\n",
    chars! "\t\treturn 0\n",
    chars! "\t}\n",
    chars! "\treturn 1\n",
    chars! "}\n"]

theorem nest_agrees : nestGolden.Agrees := agrees_of (by decide +kernel)

/-- gen/tests/nulterm. -/
def nultermGolden : Dir where
  pkg := "nulterm"
  source := List.flatten [
    chars! "struct nul_term {\n",
    chars! "    u32 x;\n",
    chars! "    nulterm s;\n",
    chars! "    u8 y;\n",
    chars! "}\n"]
  code := List.flatten [
    chars! "// Code generated by trunnel. DO NOT EDIT.\n",
    chars! "\n",
    chars! "package nulterm\n",
    chars! "\n",
    chars! "import (\n",
    chars! "\t\"bytes\"\n",
    chars! "\t\"encoding/binary\"\n",
    chars! "\t\"errors\"\n",
    chars! ")\n",
    chars! "\n",
    chars! "type NulTerm struct {\n",
    chars! "\tX uint32\n",
    chars! "\tS string\n",
    chars! "\tY uint8\n",
    chars! "}\n",
    chars! "\n",
    chars! "func (n *NulTerm) Parse(data []byte) ([]byte, error) {\n",
    chars! "\tcur := data\n",
    chars! "\t{\n",
    chars! "\t\tif len(cur) < 4 {\n",
    chars! "\t\t\treturn nil, errors.New(\"data too short\")\n",
    chars! "\t\t}\n",
    chars! "\t\tn.X = binary.BigEndian.Uint32(cur)\n",
    chars! "\t\tcur = cur[4:]\n",
    chars! "\t}\n",
    chars! "\t{\n",
    chars! "\t\ti := bytes.IndexByte(cur, 0)\n",
    chars! "\t\tif i < 0 {\n",
    chars! "\t\t\treturn nil, errors.New(\"could not parse nul-term string\")\n",
    chars! "\t\t}\n",
    chars! "\t\tn.S, cur = string(cur[:i]), cur[i+1:]\n",
    chars! "\t}\n",
    chars! "\t{\n",
    chars! "\t\tif len(cur) < 1 {\n",
    chars! "\t\t\treturn nil, errors.New(\"data too short\")\n",
    chars! "\t\t}\n",
    chars! "\t\tn.Y = cur[0]\n",
    chars! "\t\tcur = cur[1:]\n",
    chars! "\t}\n",
    chars! "\treturn cur, nil\n",
    chars! "}\n",
    chars! "\n",
    chars! "func ParseNulTerm(data []byte) (*NulTerm, error) {\n",
    chars! "\tn := new(NulTerm)\n",
    chars! "\t_, err := n.Parse(data)\n",
    chars! "\tif err != nil {\n",
    chars! "\t\treturn nil, err\n",
    chars! "\t}\n",
    chars! "\treturn n, nil\n",
    chars! "}\n"]
  tests := List.flatten [
    chars! "// Code generated by trunnel. DO NOT EDIT.\n",
    chars! "\n",
    chars! "package nulterm\n",
    chars! "\n",
    chars! "import \"testing\"\n",
    chars! "\n",
    chars! "func TestNulTermCorpus(t *testing.T) {\n",
    chars! "\tcases := []struct {\n",
    chars! "\t\tData []byte\n",
    chars! "\t}{\n",
    chars! "\t\t{\n",
    chars! "\t\t\tData: []byte{0x94, 0xfd, 0xc2, 0xfa, 0x62, 0x79, 0x68, 0x69, 0x7a, 0x7a, 0x0, 0x1},\n",
    chars! "\t\t},\n",
    chars! "\t}\n",
    chars! "\tfor _, c := range cases {\n",
    chars! "\t\t_, err := ParseNulTerm(c.Data)\n",
    chars! "\t\tif err != nil {\n",
    chars! "\t\t\tt.Fatal(err)\n",
    chars! "\t\t}\n",
    chars! "\t}\n",
    chars! "}\n"]
  fuzz := List.flatten [
    chars! "// Code generated by trunnel. DO NOT EDIT.\n",
    chars! "\n",
    chars! "// +build gofuzz\n",
    chars! "\n",
    chars! "package nulterm\n",
    chars! "\n",
    chars! "func FuzzNulTerm(data []byte) int {\n",
    chars! "\t_, err := ParseNulTerm(data)\n",
    chars! "\tif err != nil {\n",
    chars! "\t\treturn 0\n",
    chars! "\t}\n",
    chars! "\treturn 1\n",
    chars! "}\n"]

theorem nulterm_agrees : nultermGolden.Agrees := agrees_of (by decide +kernel)

/-- gen/tests/pos. -/
def posGolden : Dir where
  pkg := "pos"
  source := List.flatten [
    chars! "struct haspos {\n",
    chars! "    nulterm s1;\n",
    chars! "    /** Position right after the first NUL. */\n",
    chars! "    @ptr pos1;\n",
    chars! "    nulterm s2;\n",
    chars! "    @ptr pos2;\n",
    chars! "    u32 x;\n",
    chars! "}\n"]
  code := List.flatten [
    chars! "// Code generated by trunnel. DO NOT EDIT.\n",
    chars! "\n",
    chars! "package pos\n",
    chars! "\n",
    chars! "import (\n",
    chars! "\t\"bytes\"\n",
    chars! "\t\"encoding/binary\"\n",
    chars! "\t\"errors\"\n",
    chars! ")\n",
    chars! "\n",
    chars! "type Haspos struct {\n",
    chars! "\tS1   string\n",
    chars! "\tPos1 int\n",
    chars! "\tS2   string\n",
    chars! "\tPos2 int\n",
    chars! "\tX    uint32\n",
    chars! "}\n",
    chars! "\n",
    chars! "func (h *Haspos) Parse(data []byte) ([]byte, error) {\n",
    chars! "\tcur := data\n",
    chars! "\t{\n",
    chars! "\t\ti := bytes.IndexByte(cur, 0)\n",
    chars! "\t\tif i < 0 {\n",
    chars! "\t\t\treturn nil, errors.New(\"could not parse nul-term string\")\n",
    chars! "\t\t}\n",
    chars! "\t\th.S1, cur = string(cur[:i]), cur[i+1:]\n",
    chars! "\t}\n",
    chars! "\t{\n",
    chars! "\t\th.Pos1 = len(data) - len(cur)\n",
    chars! "\t}\n",
    chars! "\t{\n",
    chars! "\t\ti := bytes.IndexByte(cur, 0)\n",
    chars! "\t\tif i < 0 {\n",
    chars! "\t\t\treturn nil, errors.New(\"could not parse nul-term string\")\n",
    chars! "\t\t}\n",
    chars! "\t\th.S2, cur = string(cur[:i]), cur[i+1:]\n",
    chars! "\t}\n",
    chars! "\t{\n",
    chars! "\t\th.Pos2 = len(data) - len(cur)\n",
    chars! "\t}\n",
    chars! "\t{\n",
    chars! "\t\tif len(cur) < 4 {\n",
    chars! "\t\t\treturn nil, errors.New(\"data too short\")\n",
    chars! "\t\t}\n",
    chars! "\t\th.X = binary.BigEndian.Uint32(cur)\n",
    chars! "\t\tcur = cur[4:]\n",
    chars! "\t}\n",
    chars! "\treturn cur, nil\n",
    chars! "}\n",
    chars! "\n",
    chars! "func ParseHaspos(data []byte) (*Haspos, error) {\n",
    chars! "\th := new(Haspos)\n",
    chars! "\t_, err := h.Parse(data)\n",
    chars! "\tif err != nil {\n",
    chars! "\t\treturn nil, err\n",
    chars! "\t}\n",
    chars! "\treturn h, nil\n",
    chars! "}\n"]
  tests := List.flatten [
    chars! "// Code generated by trunnel. DO NOT EDIT.\n",
    chars! "\n",
    chars! "package pos\n",
    chars! "\n",
    chars! "import \"testing\"\n",
    chars! "\n",
    chars! "func TestHasposCorpus(t *testing.T) {\n",
    chars! "\tcases := []struct {\n",
    chars! "\t\tData []byte\n",
    chars! "\t}{\n",
    chars! "\t\t{\n",
    chars! "\t\t\tData: []byte{0x61, 0x6b, 0x62, 0x6c, 0x65, 0x0, 0x62, 0x79, 0x68, 0x69, 0x7a, 0x7a, 0x0, 0x1, 0x94, 0xfd, 0xc2},\n",
    chars! "\t\t},\n",
    chars! "\t}\n",
    chars! "\tfor _, c := range cases {\n",
    chars! "\t\t_, err := ParseHaspos(c.Data)\n",
    chars! "\t\tif err != nil {\n",
    chars! "\t\t\tt.Fatal(err)\n",
    chars! "\t\t}\n",
    chars! "\t}\n",
    chars! "}\n"]
  fuzz := List.flatten [
    chars! "// Code generated by trunnel. DO NOT EDIT.\n",
    chars! "\n",
    chars! "// +build gofuzz\n",
    chars! "\n",
    chars! "package pos\n",
    chars! "\n",
    chars! "func FuzzHaspos(data []byte) int {\n",
    chars! "\t_, err := ParseHaspos(data)\n",
    chars! "\tif err != nil {\n",
    chars! "\t\treturn 0\n",
    chars! "\t}\n",
    chars! "\treturn 1\n",
    chars! "}\n"]

theorem pos_agrees : posGolden.Agrees := agrees_of (by decide +kernel)

/-- gen/tests/rem. -/
def remGolden : Dir where
  pkg := "rem"
  source := List.flatten [
    chars! "struct rem {\n",
    chars! "    u32 head;\n",
    chars! "    u8 tail[];\n",
    chars! "};\n"]
  code := List.flatten [
    chars! "// Code generated by trunnel. DO NOT EDIT.\n",
    chars! "\n",
    chars! "package rem\n",
    chars! "\n",
    chars! "import (\n",
    chars! "\t\"encoding/binary\"\n",
    chars! "\t\"errors\"\n",
    chars! ")\n",
    chars! "\n",
    chars! "type Rem struct {\n",
    chars! "\tHead uint32\n",
    chars! "\tTail []uint8\n",
    chars! "}\n",
    chars! "\n",
    chars! "func (r *Rem) Parse(data []byte) ([]byte, error) {\n",
    chars! "\tcur := data\n",
    chars! "\t{\n",
    chars! "\t\tif len(cur) < 4 {\n",
    chars! "\t\t\treturn nil, errors.New(\"data too short\")\n",
    chars! "\t\t}\n",
    chars! "\t\tr.Head = binary.BigEndian.Uint32(cur)\n",
    chars! "\t\tcur = cur[4:]\n",
    chars! "\t}\n",
    chars! "\t{\n",
    chars! "\t\tr.Tail = make([]uint8, 0)\n",
    chars! "\t\tfor len(cur) > 0 {\n",
    chars! "\t\t\tvar tmp uint8\n",
    chars! "\t\t\tif len(cur) < 1 {\n",
    chars! "\t\t\t\treturn nil, errors.New(\"data too short\")\n",
    chars! "\t\t\t}\n",
    chars! "\t\t\ttmp = cur[0]\n",
    chars! "\t\t\tcur = cur[1:]\n",
    chars! "\t\t\tr.Tail = append(r.Tail, tmp)\n",
    chars! "\t\t}\n",
    chars! "\t}\n",
    chars! "\treturn cur, nil\n",
    chars! "}\n",
    chars! "\n",
    chars! "func ParseRem(data []byte) (*Rem, error) {\n",
    chars! "\tr := new(Rem)\n",
    chars! "\t_, err := r.Parse(data)\n",
    chars! "\tif err != nil {\n",
    chars! "\t\treturn nil, err\n",
    chars! "\t}\n",
    chars! "\treturn r, nil\n",
    chars! "}\n"]
  tests := List.flatten [
    chars! "// Code generated by trunnel. DO NOT EDIT.\n",
    chars! "\n",
    chars! "package rem\n",
    chars! "\n",
    chars! "import \"testing\"\n",
    chars! "\n",
    chars! "func TestRemCorpus(t *testing.T) {\n",
    chars! "\tcases := []struct {\n",
    chars! "\t\tData []byte\n",
    chars! "\t}{\n",
    chars! "\t\t{\n",
    chars! "\t\t\tData: []byte{0xa5, 0xee, 0xe8, 0x2a, 0x62, 0xf6, 0x5f, 0xf9, 0x4f, 0x6e, 0xc8, 0x73, 0x5b, 0x4, 0x12, 0xff, 0xd3, 0x41, 0xc0},\n",
    chars! "\t\t},\n",
    chars! "\t}\n",
    chars! "\tfor _, c := range cases {\n",
    chars! "\t\t_, err := ParseRem(c.Data)\n",
    chars! "\t\tif err != nil {\n",
    chars! "\t\t\tt.Fatal(err)\n",
    chars! "\t\t}\n",
    chars! "\t}\n",
    chars! "}\n"]
  fuzz := List.flatten [
    chars! "// Code generated by trunnel. DO NOT EDIT.\n",
    chars! "\n",
    chars! "// +build gofuzz\n",
    chars! "\n",
    chars! "package rem\n",
    chars! "\n",
    chars! "func FuzzRem(data []byte) int {\n",
    chars! "\t_, err := ParseRem(data)\n",
    chars! "\tif err != nil {\n",
    chars! "\t\treturn 0\n",
    chars! "\t}\n",
    chars! "\treturn 1\n",
    chars! "}\n"]

theorem rem_agrees : remGolden.Agrees := agrees_of (by decide +kernel)

/-- gen/tests/unionbasic. -/
def unionbasicGolden : Dir where
  pkg := "unionbasic"
  source := List.flatten [
    chars! "const T_DATE = 2;\n",
    chars! "const T_INTEGER = 3;\n",
    chars! "const T_INTARRAY = 4;\n",
    chars! "const T_VARARRAY = 5;\n",
    chars! "const T_STRING = 6;\n",
    chars! "\n",
    chars! "struct date {\n",
    chars! "    u16 year;\n",
    chars! "    u8 month;\n",
    chars! "    u8 day;\n",
    chars! "};\n",
    chars! "\n",
    chars! "struct basic {\n",
    chars! "   u8 tag IN [ T_DATE, T_INTEGER, T_INTARRAY, T_VARARRAY, T_STRING ];\n",
    chars! "   union value[tag] {\n",
    chars! "    T_DATE : struct date d;\n",
    chars! "    T_INTEGER : u32 num;\n",
    chars! "    T_INTARRAY : u8 eightbytes[8];\n",
    chars! "    T_STRING : nulterm string;\n",
    chars! "   };\n",
    chars! "};\n"]
  code := List.flatten [
    chars! "// Code generated by trunnel. DO NOT EDIT.\n",
    chars! "\n",
    chars! "package unionbasic\n",
    chars! "\n",
    chars! "import (\n",
    chars! "\t\"bytes\"\n",
    chars! "\t\"encoding/binary\"\n",
    chars! "\t\"errors\"\n",
    chars! ")\n",
    chars! "\n",
    chars! "type Date struct {\n",
    chars! "\tYear  uint16\n",
    chars! "\tMonth uint8\n",
    chars! "\tDay   uint8\n",
    chars! "}\n",
    chars! "\n",
    chars! "func (d *Date) Parse(data []byte) ([]byte, error) {\n",
    chars! "\tcur := data\n",
    chars! "\t{\n",
    chars! "\t\tif len(cur) < 2 {\n",
    chars! "\t\t\treturn nil, errors.New(\"data too short\")\n",
    chars! "\t\t}\n",
    chars! "\t\td.Year = binary.BigEndian.Uint16(cur)\n",
    chars! "\t\tcur = cur[2:]\n",
    chars! "\t}\n",
    chars! "\t{\n",
    chars! "\t\tif len(cur) < 1 {\n",
    chars! "\t\t\treturn nil, errors.New(\"data too short\")\n",
    chars! "\t\t}\n",
    chars! "\t\td.Month = cur[0]\n",
    chars! "\t\tcur = cur[1:]\n",
    chars! "\t}\n",
    chars! "\t{\n",
    chars! "\t\tif len(cur) < 1 {\n",
    chars! "\t\t\treturn nil, errors.New(\"data too short\")\n",
    chars! "\t\t}\n",
    chars! "\t\td.Day = cur[0]\n",
    chars! "\t\tcur = cur[1:]\n",
    chars! "\t}\n",
    chars! "\treturn cur, nil\n",
    chars! "}\n",
    chars! "\n",
    chars! "func ParseDate(data []byte) (*Date, error) {\n",
    chars! "\td := new(Date)\n",
    chars! "\t_, err := d.Parse(data)\n",
    chars! "\tif err != nil {\n",
    chars! "\t\treturn nil, err\n",
    chars! "\t}\n",
    chars! "\treturn d, nil\n",
    chars! "}\n",
    chars! "\n",
    chars! "type Basic struct {\n",
    chars! "\tTag        uint8\n",
    chars! "\tD          *Date\n",
    chars! "\tNum        uint32\n",
    chars! "\tEightbytes [8]uint8\n",
    chars! "\tString     string\n",
    chars! "}\n",
    chars! "\n",
    chars! "func (b *Basic) Parse(data []byte) ([]byte, error) {\n",
    chars! "\tcur := data\n",
    chars! "\t{\n",
    chars! "\t\tif len(cur) < 1 {\n",
    chars! "\t\t\treturn nil, errors.New(\"data too short\")\n",
    chars! "\t\t}\n",
    chars! "\t\tb.Tag = cur[0]\n",
    chars! "\t\tif !(b.Tag == 2 || b.Tag == 3 || b.Tag == 4 || b.Tag == 5 || b.Tag == 6) {\n",
    chars! "\t\t\treturn nil, errors.New(\"integer constraint violated\")\n",
    chars! "\t\t}\n",
    chars! "\t\tcur = cur[1:]\n",
    chars! "\t}\n",
    chars! "\t{\n",
    chars! "\t\tswitch {\n",
    chars! "\t\tcase b.Tag == 2:\n",
    chars! "\t\t\t{\n",
    chars! "\t\t\t\tvar err error\n",
    chars! "\t\t\t\tb.D = new(Date)\n",
    chars! "\t\t\t\tcur, err = b.D.Parse(cur)\n",
    chars! "\t\t\t\tif err != nil {\n",
    chars! "\t\t\t\t\treturn nil, err\n",
    chars! "\t\t\t\t}\n",
    chars! "\t\t\t}\n",
    chars! "\t\tcase b.Tag == 3:\n",
    chars! "\t\t\t{\n",
    chars! "\t\t\t\tif len(cur) < 4 {\n",
    chars! "\t\t\t\t\treturn nil, errors.New(\"data too short\")\n",
    chars! "\t\t\t\t}\n",
    chars! "\t\t\t\tb.Num = binary.BigEndian.Uint32(cur)\n",
    chars! "\t\t\t\tcur = cur[4:]\n",
    chars! "\t\t\t}\n",
    chars! "\t\tcase b.Tag == 4:\n",
    chars! "\t\t\t{\n",
    chars! "\t\t\t\tfor idx := 0; idx < 8; idx++ {\n",
    chars! "\t\t\t\t\tif len(cur) < 1 {\n",
    chars! "\t\t\t\t\t\treturn nil, errors.New(\"data too short\")\n",
    chars! "\t\t\t\t\t}\n",
    chars! "\t\t\t\t\tb.Eightbytes[idx] = cur[0]\n",
    chars! "\t\t\t\t\tcur = cur[1:]\n",
    chars! "\t\t\t\t}\n",
    chars! "\t\t\t}\n",
    chars! "\t\tcase b.Tag == 6:\n",
    chars! "\t\t\t{\n",
    chars! "\t\t\t\ti := bytes.IndexByte(cur, 0)\n",
    chars! "\t\t\t\tif i < 0 {\n",
    chars! "\t\t\t\t\treturn nil, errors.New(\"could not parse nul-term string\")\n",
    chars! "\t\t\t\t}\n",
    chars! "\t\t\t\tb.String, cur = string(cur[:i]), cur[i+1:]\n",
    chars! "\t\t\t}\n",
    chars! "\t\t}\n",
    chars! "\t}\n",
    chars! "\treturn cur, nil\n",
    chars! "}\n",
    chars! "\n",
    chars! "func ParseBasic(data []byte) (*Basic, error) {\n",
    chars! "\tb := new(Basic)\n",
    chars! "\t_, err := b.Parse(data)\n",
    chars! "\tif err != nil {\n",
    chars! "\t\treturn nil, err\n",
    chars! "\t}\n",
    chars! "\treturn b, nil\n",
    chars! "}\n"]
  tests := List.flatten [
    chars! "// Code generated by trunnel. DO NOT EDIT.\n",
    chars! "\n",
    chars! "package unionbasic\n",
    chars! "\n",
    chars! "import \"testing\"\n",
    chars! "\n",
    chars! "func TestDateCorpus(t *testing.T) {\n",
    chars! "\tcases := []struct {\n",
    chars! "\t\tData []byte\n",
    chars! "\t}{\n",
    chars! "\t\t{\n",
    chars! "\t\t\tData: []byte{0xfd, 0xc2, 0x94, 0x1},\n",
    chars! "\t\t},\n",
    chars! "\t}\n",
    chars! "\tfor _, c := range cases {\n",
    chars! "\t\t_, err := ParseDate(c.Data)\n",
    chars! "\t\tif err != nil {\n",
    chars! "\t\t\tt.Fatal(err)\n",
    chars! "\t\t}\n",
    chars! "\t}\n",
    chars! "}\n",
    chars! "\n",
    chars! "func TestBasicCorpus(t *testing.T) {\n",
    chars! "\tcases := []struct {\n",
    chars! "\t\tData []byte\n",
    chars! "\t}{\n",
    chars! "\t\t{\n",
    chars! "\t\t\tData: []byte{0x3, 0xfc, 0x59, 0x2f, 0xfa},\n",
    chars! "\t\t},\n",
    chars! "\t\t{\n",
    chars! "\t\t\tData: []byte{0x3, 0xc1, 0x8f, 0xd, 0xce},\n",
    chars! "\t\t},\n",
    chars! "\t\t{\n",
    chars! "\t\t\tData: []byte{0x4, 0x8a, 0xf, 0x0, 0x3f, 0x5c, 0x4, 0x77, 0xcc},\n",
    chars! "\t\t},\n",
    chars! "\t\t{\n",
    chars! "\t\t\tData: []byte{0x6, 0x76, 0x77, 0x73, 0x68, 0x6f, 0x69, 0x70, 0x67, 0x7a, 0x6d, 0x67, 0x61, 0x78, 0x0},\n",
    chars! "\t\t},\n",
    chars! "\t}\n",
    chars! "\tfor _, c := range cases {\n",
    chars! "\t\t_, err := ParseBasic(c.Data)\n",
    chars! "\t\tif err != nil {\n",
    chars! "\t\t\tt.Fatal(err)\n",
    chars! "\t\t}\n",
    chars! "\t}\n",
    chars! "}\n"]
  fuzz := List.flatten [
    chars! "// Code generated by trunnel. DO NOT EDIT.\n",
    chars! "\n",
    chars! "// +build gofuzz\n",
    chars! "\n",
    chars! "package unionbasic\n",
    chars! "\n",
    chars! "func FuzzDate(data []byte) int {\n",
    chars! "\t_, err := ParseDate(data)\n",
    chars! "\tif err != nil {\n",
    chars! "\t\treturn 0\n",
    chars! "\t}\n",
    chars! "\treturn 1\n",
    chars! "}\n",
    chars! "\n",
    chars! "func FuzzBasic(data []byte) int {\n",
    chars! "\t_, err := ParseBasic(data)\n",
    chars! "\tif err != nil {\n",
    chars! "\t\treturn 0\n",
    chars! "\t}\n",
    chars! "\treturn 1\n",
    chars! "}\n"]

theorem unionbasic_agrees : unionbasicGolden.Agrees := agrees_of (by decide +kernel)

/-- gen/tests/unioncmds. -/
def unioncmdsGolden : Dir where
  pkg := "unioncmds"
  source := List.flatten [
    chars! "struct union_cmds {\n",
    chars! "    u8 tag;\n",
    chars! "    union u[tag] {\n",
    chars! "        1:\n",
    chars! "            ; // empty case\n",
    chars! "        2:\n",
    chars! "            fail;\n",
    chars! "        default:\n",
    chars! "            u32 x[2];\n",
    chars! "    };\n",
    chars! "    u32 y;\n",
    chars! "}\n"]
  code := List.flatten [
    chars! "// Code generated by trunnel. DO NOT EDIT.\n",
    chars! "\n",
    chars! "package unioncmds\n",
    chars! "\n",
    chars! "import (\n",
    chars! "\t\"encoding/binary\"\n",
    chars! "\t\"errors\"\n",
    chars! ")\n",
    chars! "\n",
    chars! "type UnionCmds struct {\n",
    chars! "\tTag uint8\n",
    chars! "\tX   [2]uint32\n",
    chars! "\tY   uint32\n",
    chars! "}\n",
    chars! "\n",
    chars! "func (u *UnionCmds) Parse(data []byte) ([]byte, error) {\n",
    chars! "\tcur := data\n",
    chars! "\t{\n",
    chars! "\t\tif len(cur) < 1 {\n",
    chars! "\t\t\treturn nil, errors.New(\"data too short\")\n",
    chars! "\t\t}\n",
    chars! "\t\tu.Tag = cur[0]\n",
    chars! "\t\tcur = cur[1:]\n",
    chars! "\t}\n",
    chars! "\t{\n",
    chars! "\t\tswitch {\n",
    chars! "\t\tcase u.Tag == 1:\n",
    chars! "\t\tcase u.Tag == 2:\n",
    chars! "\t\t\t{\n",
    chars! "\t\t\t\treturn nil, errors.New(\"disallowed case\")\n",
    chars! "\t\t\t}\n",
    chars! "\t\tdefault:\n",
    chars! "\t\t\t{\n",
    chars! "\t\t\t\tfor idx := 0; idx < 2; idx++ {\n",
    chars! "\t\t\t\t\tif len(cur) < 4 {\n",
    chars! "\t\t\t\t\t\treturn nil, errors.New(\"data too short\")\n",
    chars! "\t\t\t\t\t}\n",
    chars! "\t\t\t\t\tu.X[idx] = binary.BigEndian.Uint32(cur)\n",
    chars! "\t\t\t\t\tcur = cur[4:]\n",
    chars! "\t\t\t\t}\n",
    chars! "\t\t\t}\n",
    chars! "\t\t}\n",
    chars! "\t}\n",
    chars! "\t{\n",
    chars! "\t\tif len(cur) < 4 {\n",
    chars! "\t\t\treturn nil, errors.New(\"data too short\")\n",
    chars! "\t\t}\n",
    chars! "\t\tu.Y = binary.BigEndian.Uint32(cur)\n",
    chars! "\t\tcur = cur[4:]\n",
    chars! "\t}\n",
    chars! "\treturn cur, nil\n",
    chars! "}\n",
    chars! "\n",
    chars! "func ParseUnionCmds(data []byte) (*UnionCmds, error) {\n",
    chars! "\tu := new(UnionCmds)\n",
    chars! "\t_, err := u.Parse(data)\n",
    chars! "\tif err != nil {\n",
    chars! "\t\treturn nil, err\n",
    chars! "\t}\n",
    chars! "\treturn u, nil\n",
    chars! "}\n"]
  tests := List.flatten [
    chars! "// Code generated by trunnel. DO NOT EDIT.\n",
    chars! "\n",
    chars! "package unioncmds\n",
    chars! "\n",
    chars! "import \"testing\"\n",
    chars! "\n",
    chars! "func TestUnionCmdsCorpus(t *testing.T) {\n",
    chars! "\tcases := []struct {\n",
    chars! "\t\tData []byte\n",
    chars! "\t}{\n",
    chars! "\t\t{\n",
    chars! "\t\t\tData: []byte{0x1, 0x1, 0x94, 0xfd, 0xc2},\n",
    chars! "\t\t},\n",
    chars! "\t\t{\n",
    chars! "\t\t\tData: []byte{0x87, 0x4e, 0xa3, 0xae, 0x5e, 0xfa, 0x2f, 0xfc, 0xcc, 0x1, 0x94, 0xfd, 0xc2},\n",
    chars! "\t\t},\n",
    chars! "\t}\n",
    chars! "\tfor _, c := range cases {\n",
    chars! "\t\t_, err := ParseUnionCmds(c.Data)\n",
    chars! "\t\tif err != nil {\n",
    chars! "\t\t\tt.Fatal(err)\n",
    chars! "\t\t}\n",
    chars! "\t}\n",
    chars! "}\n"]
  fuzz := List.flatten [
    chars! "// Code generated by trunnel. DO NOT EDIT.\n",
    chars! "\n",
    chars! "// +build gofuzz\n",
    chars! "\n",
    chars! "package unioncmds\n",
    chars! "\n",
    chars! "func FuzzUnionCmds(data []byte) int {\n",
    chars! "\t_, err := ParseUnionCmds(data)\n",
    chars! "\tif err != nil {\n",
    chars! "\t\treturn 0\n",
    chars! "\t}\n",
    chars! "\treturn 1\n",
    chars! "}\n"]

theorem unioncmds_agrees : unioncmdsGolden.Agrees := agrees_of (by decide +kernel)

/-- gen/tests/unionlen. -/
def unionlenGolden : Dir where
  pkg := "unionlen"
  source := List.flatten [
    chars! "struct union_with_len {\n",
    chars! "    u16 tag;\n",
    chars! "    u16 union_len;\n",
    chars! "\n",
    chars! "    union u[tag] with length union_len {\n",
    chars! "        1:\n",
    chars! "            u8 r;\n",
    chars! "            u8 g;\n",
    chars! "            u8 b;\n",
    chars! "        2:\n",
    chars! "            u16 year;\n",
    chars! "            u8 month;\n",
    chars! "            u8 day;\n",
    chars! "            ...;\n",
    chars! "        default:\n",
    chars! "            u8 unparseable[];\n",
    chars! "  };\n",
    chars! "\n",
    chars! "  u16 right_after_the_union;\n",
    chars! "};\n"]
  code := List.flatten [
    chars! "// Code generated by trunnel. DO NOT EDIT.\n",
    chars! "\n",
    chars! "package unionlen\n",
    chars! "\n",
    chars! "import (\n",
    chars! "\t\"encoding/binary\"\n",
    chars! "\t\"errors\"\n",
    chars! ")\n",
    chars! "\n",
    chars! "type UnionWithLen struct {\n",
    chars! "\tTag                uint16\n",
    chars! "\tUnionLen           uint16\n",
    chars! "\tR                  uint8\n",
    chars! "\tG                  uint8\n",
    chars! "\tB                  uint8\n",
    chars! "\tYear               uint16\n",
    chars! "\tMonth              uint8\n",
    chars! "\tDay                uint8\n",
    chars! "\tUnparseable        []uint8\n",
    chars! "\tRightAfterTheUnion uint16\n",
    chars! "}\n",
    chars! "\n",
    chars! "func (u *UnionWithLen) Parse(data []byte) ([]byte, error) {\n",
    chars! "\tcur := data\n",
    chars! "\t{\n",
    chars! "\t\tif len(cur) < 2 {\n",
    chars! "\t\t\treturn nil, errors.New(\"data too short\")\n",
    chars! "\t\t}\n",
    chars! "\t\tu.Tag = binary.BigEndian.Uint16(cur)\n",
    chars! "\t\tcur = cur[2:]\n",
    chars! "\t}\n",
    chars! "\t{\n",
    chars! "\t\tif len(cur) < 2 {\n",
    chars! "\t\t\treturn nil, errors.New(\"data too short\")\n",
    chars! "\t\t}\n",
    chars! "\t\tu.UnionLen = binary.BigEndian.Uint16(cur)\n",
    chars! "\t\tcur = cur[2:]\n",
    chars! "\t}\n",
    chars! "\t{\n",
    chars! "\t\tif len(cur) < int(u.UnionLen) {\n",
    chars! "\t\t\treturn nil, errors.New(\"data too short\")\n",
    chars! "\t\t}\n",
    chars! "\t\trestore := cur[int(u.UnionLen):]\n",
    chars! "\t\tcur = cur[:int(u.UnionLen)]\n",
    chars! "\t\tswitch {\n",
    chars! "\t\tcase u.Tag == 1:\n",
    chars! "\t\t\t{\n",
    chars! "\t\t\t\tif len(cur) < 1 {\n",
    chars! "\t\t\t\t\treturn nil, errors.New(\"data too short\")\n",
    chars! "\t\t\t\t}\n",
    chars! "\t\t\t\tu.R = cur[0]\n",
    chars! "\t\t\t\tcur = cur[1:]\n",
    chars! "\t\t\t}\n",
    chars! "\t\t\t{\n",
    chars! "\t\t\t\tif len(cur) < 1 {\n",
    chars! "\t\t\t\t\treturn nil, errors.New(\"data too short\")\n",
    chars! "\t\t\t\t}\n",
    chars! "\t\t\t\tu.G = cur[0]\n",
    chars! "\t\t\t\tcur = cur[1:]\n",
    chars! "\t\t\t}\n",
    chars! "\t\t\t{\n",
    chars! "\t\t\t\tif len(cur) < 1 {\n",
    chars! "\t\t\t\t\treturn nil, errors.New(\"data too short\")\n",
    chars! "\t\t\t\t}\n",
    chars! "\t\t\t\tu.B = cur[0]\n",
    chars! "\t\t\t\tcur = cur[1:]\n",
    chars! "\t\t\t}\n",
    chars! "\t\tcase u.Tag == 2:\n",
    chars! "\t\t\t{\n",
    chars! "\t\t\t\tif len(cur) < 2 {\n",
    chars! "\t\t\t\t\treturn nil, errors.New(\"data too short\")\n",
    chars! "\t\t\t\t}\n",
    chars! "\t\t\t\tu.Year = binary.BigEndian.Uint16(cur)\n",
    chars! "\t\t\t\tcur = cur[2:]\n",
    chars! "\t\t\t}\n",
    chars! "\t\t\t{\n",
    chars! "\t\t\t\tif len(cur) < 1 {\n",
    chars! "\t\t\t\t\treturn nil, errors.New(\"data too short\")\n",
    chars! "\t\t\t\t}\n",
    chars! "\t\t\t\tu.Month = cur[0]\n",
    chars! "\t\t\t\tcur = cur[1:]\n",
    chars! "\t\t\t}\n",
    chars! "\t\t\t{\n",
    chars! "\t\t\t\tif len(cur) < 1 {\n",
    chars! "\t\t\t\t\treturn nil, errors.New(\"data too short\")\n",
    chars! "\t\t\t\t}\n",
    chars! "\t\t\t\tu.Day = cur[0]\n",
    chars! "\t\t\t\tcur = cur[1:]\n",
    chars! "\t\t\t}\n",
    chars! "\t\t\t{\n",
    chars! "\t\t\t\tcur = []byte{}\n",
    chars! "\t\t\t}\n",
    chars! "\t\tdefault:\n",
    chars! "\t\t\t{\n",
    chars! "\t\t\t\tu.Unparseable = make([]uint8, 0)\n",
    chars! "\t\t\t\tfor len(cur) > 0 {\n",
    chars! "\t\t\t\t\tvar tmp uint8\n",
    chars! "\t\t\t\t\tif len(cur) < 1 {\n",
    chars! "\t\t\t\t\t\treturn nil, errors.New(\"data too short\")\n",
    chars! "\t\t\t\t\t}\n",
    chars! "\t\t\t\t\ttmp = cur[0]\n",
    chars! "\t\t\t\t\tcur = cur[1:]\n",
    chars! "\t\t\t\t\tu.Unparseable = append(u.Unparseable, tmp)\n",
    chars! "\t\t\t\t}\n",
    chars! "\t\t\t}\n",
    chars! "\t\t}\n",
    chars! "\t\tif len(cur) > 0 {\n",
    chars! "\t\t\treturn nil, errors.New(\"trailing data disallowed\")\n",
    chars! "\t\t}\n",
    chars! "\t\tcur = restore\n",
    chars! "\t}\n",
    chars! "\t{\n",
    chars! "\t\tif len(cur) < 2 {\n",
    chars! "\t\t\treturn nil, errors.New(\"data too short\")\n",
    chars! "\t\t}\n",
    chars! "\t\tu.RightAfterTheUnion = binary.BigEndian.Uint16(cur)\n",
    chars! "\t\tcur = cur[2:]\n",
    chars! "\t}\n",
    chars! "\treturn cur, nil\n",
    chars! "}\n",
    chars! "\n",
    chars! "func ParseUnionWithLen(data []byte) (*UnionWithLen, error) {\n",
    chars! "\tu := new(UnionWithLen)\n",
    chars! "\t_, err := u.Parse(data)\n",
    chars! "\tif err != nil {\n",
    chars! "\t\treturn nil, err\n",
    chars! "\t}\n",
    chars! "\treturn u, nil\n",
    chars! "}\n"]
  tests := List.flatten [
    chars! "// Code generated by trunnel. DO NOT EDIT.\n",
    chars! "\n",
    chars! "package unionlen\n",
    chars! "\n",
    chars! "import \"testing\"\n",
    chars! "\n",
    chars! "func TestUnionWithLenCorpus(t *testing.T) {\n",
    chars! "\tcases := []struct {\n",
    chars! "\t\tData []byte\n",
    chars! "\t}{\n",
    chars! "\t\t{\n",
    chars! "\t\t\tData: []byte{0x0, 0x1, 0x0, 0x3, 0xfa, 0xc2, 0xfd, 0x1, 0x94},\n",
    chars! "\t\t},\n",
    chars! "\t\t{\n",
    chars! "\t\t\tData: []byte{0x0, 0x2, 0x0, 0x4, 0xe2, 0xd6, 0xf3, 0xc3, 0x1, 0x94},\n",
    chars! "\t\t},\n",
    chars! "\t\t{\n",
    chars! "\t\t\tData: []byte{0x0, 0x2, 0x0, 0x6, 0xbe, 0xcc, 0xed, 0x54, 0x2f, 0xfc, 0x1, 0x94},\n",
    chars! "\t\t},\n",
    chars! "\t\t{\n",
    chars! "\t\t\tData: []byte{0x97, 0x18, 0x0, 0x7, 0x5a, 0x52, 0x88, 0x5e, 0xae, 0xa3, 0x4e, 0x1, 0x94},\n",
    chars! "\t\t},\n",
    chars! "\t}\n",
    chars! "\tfor _, c := range cases {\n",
    chars! "\t\t_, err := ParseUnionWithLen(c.Data)\n",
    chars! "\t\tif err != nil {\n",
    chars! "\t\t\tt.Fatal(err)\n",
    chars! "\t\t}\n",
    chars! "\t}\n",
    chars! "}\n"]
  fuzz := List.flatten [
    chars! "// Code generated by trunnel. DO NOT EDIT.\n",
    chars! "\n",
    chars! "// +build gofuzz\n",
    chars! "\n",
    chars! "package unionlen\n",
    chars! "\n",
    chars! "func FuzzUnionWithLen(data []byte) int {\n",
    chars! "\t_, err := ParseUnionWithLen(data)\n",
    chars! "\tif err != nil {\n",
    chars! "\t\treturn 0\n",
    chars! "\t}\n",
    chars! "\treturn 1\n",
    chars! "}\n"]

theorem unionlen_agrees : unionlenGolden.Agrees := agrees_of (by decide +kernel)

/-- gen/tests/unionlo. -/
def unionloGolden : Dir where
  pkg := "unionlo"
  source := List.flatten [
    chars! "struct unlo {\n",
    chars! "   u8 tag;\n",
    chars! "   union u[tag] with length ..-8 {\n",
    chars! "     1: u8 x;\n",
    chars! "     2: u8 y[];\n",
    chars! "     4: u8 byte; u16 z[];\n",
    chars! "   };\n",
    chars! "   u8 leftoverlen;\n",
    chars! "   u8 leftovers[leftoverlen];\n",
    chars! "};\n"]
  code := List.flatten [
    chars! "// Code generated by trunnel. DO NOT EDIT.\n",
    chars! "\n",
    chars! "package unionlo\n",
    chars! "\n",
    chars! "import (\n",
    chars! "\t\"encoding/binary\"\n",
    chars! "\t\"errors\"\n",
    chars! ")\n",
    chars! "\n",
    chars! "type Unlo struct {\n",
    chars! "\tTag         uint8\n",
    chars! "\tX           uint8\n",
    chars! "\tY           []uint8\n",
    chars! "\tByte        uint8\n",
    chars! "\tZ           []uint16\n",
    chars! "\tLeftoverlen uint8\n",
    chars! "\tLeftovers   []uint8\n",
    chars! "}\n",
    chars! "\n",
    chars! "func (u *Unlo) Parse(data []byte) ([]byte, error) {\n",
    chars! "\tcur := data\n",
    chars! "\t{\n",
    chars! "\t\tif len(cur) < 1 {\n",
    chars! "\t\t\treturn nil, errors.New(\"data too short\")\n",
    chars! "\t\t}\n",
    chars! "\t\tu.Tag = cur[0]\n",
    chars! "\t\tcur = cur[1:]\n",
    chars! "\t}\n",
    chars! "\t{\n",
    chars! "\t\tif len(cur) < 8 {\n",
    chars! "\t\t\treturn nil, errors.New(\"data too short\")\n",
    chars! "\t\t}\n",
    chars! "\t\trestore := cur[len(cur)-8:]\n",
    chars! "\t\tcur = cur[:len(cur)-8]\n",
    chars! "\t\tswitch {\n",
    chars! "\t\tcase u.Tag == 1:\n",
    chars! "\t\t\t{\n",
    chars! "\t\t\t\tif len(cur) < 1 {\n",
    chars! "\t\t\t\t\treturn nil, errors.New(\"data too short\")\n",
    chars! "\t\t\t\t}\n",
    chars! "\t\t\t\tu.X = cur[0]\n",
    chars! "\t\t\t\tcur = cur[1:]\n",
    chars! "\t\t\t}\n",
    chars! "\t\tcase u.Tag == 2:\n",
    chars! "\t\t\t{\n",
    chars! "\t\t\t\tu.Y = make([]uint8, 0)\n",
    chars! "\t\t\t\tfor len(cur) > 0 {\n",
    chars! "\t\t\t\t\tvar tmp uint8\n",
    chars! "\t\t\t\t\tif len(cur) < 1 {\n",
    chars! "\t\t\t\t\t\treturn nil, errors.New(\"data too short\")\n",
    chars! "\t\t\t\t\t}\n",
    chars! "\t\t\t\t\ttmp = cur[0]\n",
    chars! "\t\t\t\t\tcur = cur[1:]\n",
    chars! "\t\t\t\t\tu.Y = append(u.Y, tmp)\n",
    chars! "\t\t\t\t}\n",
    chars! "\t\t\t}\n",
    chars! "\t\tcase u.Tag == 4:\n",
    chars! "\t\t\t{\n",
    chars! "\t\t\t\tif len(cur) < 1 {\n",
    chars! "\t\t\t\t\treturn nil, errors.New(\"data too short\")\n",
    chars! "\t\t\t\t}\n",
    chars! "\t\t\t\tu.Byte = cur[0]\n",
    chars! "\t\t\t\tcur = cur[1:]\n",
    chars! "\t\t\t}\n",
    chars! "\t\t\t{\n",
    chars! "\t\t\t\tu.Z = make([]uint16, 0)\n",
    chars! "\t\t\t\tfor len(cur) > 0 {\n",
    chars! "\t\t\t\t\tvar tmp uint16\n",
    chars! "\t\t\t\t\tif len(cur) < 2 {\n",
    chars! "\t\t\t\t\t\treturn nil, errors.New(\"data too short\")\n",
    chars! "\t\t\t\t\t}\n",
    chars! "\t\t\t\t\ttmp = binary.BigEndian.Uint16(cur)\n",
    chars! "\t\t\t\t\tcur = cur[2:]\n",
    chars! "\t\t\t\t\tu.Z = append(u.Z, tmp)\n",
    chars! "\t\t\t\t}\n",
    chars! "\t\t\t}\n",
    chars! "\t\t}\n",
    chars! "\t\tif len(cur) > 0 {\n",
    chars! "\t\t\treturn nil, errors.New(\"trailing data disallowed\")\n",
    chars! "\t\t}\n",
    chars! "\t\tcur = restore\n",
    chars! "\t}\n",
    chars! "\t{\n",
    chars! "\t\tif len(cur) < 1 {\n",
    chars! "\t\t\treturn nil, errors.New(\"data too short\")\n",
    chars! "\t\t}\n",
    chars! "\t\tu.Leftoverlen = cur[0]\n",
    chars! "\t\tcur = cur[1:]\n",
    chars! "\t}\n",
    chars! "\t{\n",
    chars! "\t\tu.Leftovers = make([]uint8, int(u.Leftoverlen))\n",
    chars! "\t\tfor idx := 0; idx < int(u.Leftoverlen); idx++ {\n",
    chars! "\t\t\tif len(cur) < 1 {\n",
    chars! "\t\t\t\treturn nil, errors.New(\"data too short\")\n",
    chars! "\t\t\t}\n",
    chars! "\t\t\tu.Leftovers[idx] = cur[0]\n",
    chars! "\t\t\tcur = cur[1:]\n",
    chars! "\t\t}\n",
    chars! "\t}\n",
    chars! "\treturn cur, nil\n",
    chars! "}\n",
    chars! "\n",
    chars! "func ParseUnlo(data []byte) (*Unlo, error) {\n",
    chars! "\tu := new(Unlo)\n",
    chars! "\t_, err := u.Parse(data)\n",
    chars! "\tif err != nil {\n",
    chars! "\t\treturn nil, err\n",
    chars! "\t}\n",
    chars! "\treturn u, nil\n",
    chars! "}\n"]
  tests := []
  fuzz := []

theorem unionlo_agrees : unionloGolden.CodeAgrees := codeAgrees_of (by decide +kernel)

/-- gen/tests/vararray. -/
def vararrayGolden : Dir where
  pkg := "vararray"
  source := List.flatten [
    chars! "struct var_array {\n",
    chars! "    u16 n_words;\n",
    chars! "    u32 words[n_words];\n",
    chars! "};\n"]
  code := List.flatten [
    chars! "// Code generated by trunnel. DO NOT EDIT.\n",
    chars! "\n",
    chars! "package vararray\n",
    chars! "\n",
    chars! "import (\n",
    chars! "\t\"encoding/binary\"\n",
    chars! "\t\"errors\"\n",
    chars! ")\n",
    chars! "\n",
    chars! "type VarArray struct {\n",
    chars! "\tNWords uint16\n",
    chars! "\tWords  []uint32\n",
    chars! "}\n",
    chars! "\n",
    chars! "func (v *VarArray) Parse(data []byte) ([]byte, error) {\n",
    chars! "\tcur := data\n",
    chars! "\t{\n",
    chars! "\t\tif len(cur) < 2 {\n",
    chars! "\t\t\treturn nil, errors.New(\"data too short\")\n",
    chars! "\t\t}\n",
    chars! "\t\tv.NWords = binary.BigEndian.Uint16(cur)\n",
    chars! "\t\tcur = cur[2:]\n",
    chars! "\t}\n",
    chars! "\t{\n",
    chars! "\t\tv.Words = make([]uint32, int(v.NWords))\n",
    chars! "\t\tfor idx := 0; idx < int(v.NWords); idx++ {\n",
    chars! "\t\t\tif len(cur) < 4 {\n",
    chars! "\t\t\t\treturn nil, errors.New(\"data too short\")\n",
    chars! "\t\t\t}\n",
    chars! "\t\t\tv.Words[idx] = binary.BigEndian.Uint32(cur)\n",
    chars! "\t\t\tcur = cur[4:]\n",
    chars! "\t\t}\n",
    chars! "\t}\n",
    chars! "\treturn cur, nil\n",
    chars! "}\n",
    chars! "\n",
    chars! "func ParseVarArray(data []byte) (*VarArray, error) {\n",
    chars! "\tv := new(VarArray)\n",
    chars! "\t_, err := v.Parse(data)\n",
    chars! "\tif err != nil {\n",
    chars! "\t\treturn nil, err\n",
    chars! "\t}\n",
    chars! "\treturn v, nil\n",
    chars! "}\n"]
  tests := List.flatten [
    chars! "// Code generated by trunnel. DO NOT EDIT.\n",
    chars! "\n",
    chars! "package vararray\n",
    chars! "\n",
    chars! "import \"testing\"\n",
    chars! "\n",
    chars! "func TestVarArrayCorpus(t *testing.T) {\n",
    chars! "\tcases := []struct {\n",
    chars! "\t\tData []byte\n",
    chars! "\t}{\n",
    chars! "\t\t{\n",
    chars! "\t\t\tData: []byte{0x0, 0xf, 0x4e, 0xe2, 0xd3, 0xd0, 0x78, 0x8, 0x75, 0xd6, 0xe1, 0x51, 0x14, 0x55, 0x2e, 0xe2, 0x85, 0xec, 0xd4, 0xa1, 0x78, 0x89, 0x46, 0x51, 0x85, 0xf, 0xe0, 0xb1, 0xd, 0x39, 0xaf, 0x48, 0xa7, 0x9e, 0x75, 0xfb, 0x18, 0xd, 0xf4, 0x4a, 0x2d, 0xb, 0xee, 0xe8, 0x2a, 0xbd, 0x5f, 0xf6, 0x62, 0xa5, 0xc8, 0x6e, 0x4f, 0xf9, 0x12, 0x4, 0x5b, 0x73, 0xc0, 0x41, 0xd3, 0xff},\n",
    chars! "\t\t},\n",
    chars! "\t}\n",
    chars! "\tfor _, c := range cases {\n",
    chars! "\t\t_, err := ParseVarArray(c.Data)\n",
    chars! "\t\tif err != nil {\n",
    chars! "\t\t\tt.Fatal(err)\n",
    chars! "\t\t}\n",
    chars! "\t}\n",
    chars! "}\n"]
  fuzz := List.flatten [
    chars! "// Code generated by trunnel. DO NOT EDIT.\n",
    chars! "\n",
    chars! "// +build gofuzz\n",
    chars! "\n",
    chars! "package vararray\n",
    chars! "\n",
    chars! "func FuzzVarArray(data []byte) int {\n",
    chars! "\t_, err := ParseVarArray(data)\n",
    chars! "\tif err != nil {\n",
    chars! "\t\treturn 0\n",
    chars! "\t}\n",
    chars! "\treturn 1\n",
    chars! "}\n"]

theorem vararray_agrees : vararrayGolden.Agrees := agrees_of (by decide +kernel)

/-- examples/color. -/
def examples_colorGolden : Dir where
  pkg := "color"
  source := List.flatten [
    chars! "struct color {\n",
    chars! "  u8 r;\n",
    chars! "  u8 g;\n",
    chars! "  u8 b;\n",
    chars! "};\n"]
  code := List.flatten [
    chars! "// Code generated by trunnel. DO NOT EDIT.\n",
    chars! "\n",
    chars! "package color\n",
    chars! "\n",
    chars! "import \"errors\"\n",
    chars! "\n",
    chars! "type Color struct {\n",
    chars! "\tR uint8\n",
    chars! "\tG uint8\n",
    chars! "\tB uint8\n",
    chars! "}\n",
    chars! "\n",
    chars! "func (c *Color) Parse(data []byte) ([]byte, error) {\n",
    chars! "\tcur := data\n",
    chars! "\t{\n",
    chars! "\t\tif len(cur) < 1 {\n",
    chars! "\t\t\treturn nil, errors.New(\"data too short\")\n",
    chars! "\t\t}\n",
    chars! "\t\tc.R = cur[0]\n",
    chars! "\t\tcur = cur[1:]\n",
    chars! "\t}\n",
    chars! "\t{\n",
    chars! "\t\tif len(cur) < 1 {\n",
    chars! "\t\t\treturn nil, errors.New(\"data too short\")\n",
    chars! "\t\t}\n",
    chars! "\t\tc.G = cur[0]\n",
    chars! "\t\tcur = cur[1:]\n",
    chars! "\t}\n",
    chars! "\t{\n",
    chars! "\t\tif len(cur) < 1 {\n",
    chars! "\t\t\treturn nil, errors.New(\"data too short\")\n",
    chars! "\t\t}\n",
    chars! "\t\tc.B = cur[0]\n",
    chars! "\t\tcur = cur[1:]\n",
    chars! "\t}\n",
    chars! "\treturn cur, nil\n",
    chars! "}\n",
    chars! "\n",
    chars! "func ParseColor(data []byte) (*Color, error) {\n",
    chars! "\tc := new(Color)\n",
    chars! "\t_, err := c.Parse(data)\n",
    chars! "\tif err != nil {\n",
    chars! "\t\treturn nil, err\n",
    chars! "\t}\n",
    chars! "\treturn c, nil\n",
    chars! "}\n"]
  tests := List.flatten [
    chars! "// Code generated by trunnel. DO NOT EDIT.\n",
    chars! "\n",
    chars! "package color\n",
    chars! "\n",
    chars! "import \"testing\"\n",
    chars! "\n",
    chars! "func TestColorCorpus(t *testing.T) {\n",
    chars! "\tcases := []struct {\n",
    chars! "\t\tData []byte\n",
    chars! "\t}{\n",
    chars! "\t\t{\n",
    chars! "\t\t\tData: []byte{0xfd, 0x94, 0x1},\n",
    chars! "\t\t},\n",
    chars! "\t}\n",
    chars! "\tfor _, c := range cases {\n",
    chars! "\t\t_, err := ParseColor(c.Data)\n",
    chars! "\t\tif err != nil {\n",
    chars! "\t\t\tt.Fatal(err)\n",
    chars! "\t\t}\n",
    chars! "\t}\n",
    chars! "}\n"]
  fuzz := List.flatten [
    chars! "// Code generated by trunnel. DO NOT EDIT.\n",
    chars! "\n",
    chars! "// +build gofuzz\n",
    chars! "\n",
    chars! "package color\n",
    chars! "\n",
    chars! "func FuzzColor(data []byte) int {\n",
    chars! "\t_, err := ParseColor(data)\n",
    chars! "\tif err != nil {\n",
    chars! "\t\treturn 0\n",
    chars! "\t}\n",
    chars! "\treturn 1\n",
    chars! "}\n"]

theorem examples_color_agrees : examples_colorGolden.Agrees := agrees_of (by decide +kernel)

/-- examples/date. -/
def examples_dateGolden : Dir where
  pkg := "date"
  source := List.flatten [
    chars! "struct date {\n",
    chars! "   u16 year IN [ 1970..65535 ];\n",
    chars! "   u8 month IN [ 1, 2, 3, 4, 5, 6, 7, 8, 9, 10, 11, 12 ];\n",
    chars! "   u8 day IN [ 1,2,3..31 ];\n",
    chars! "};\n"]
  code := List.flatten [
    chars! "// Code generated by trunnel. DO NOT EDIT.\n",
    chars! "\n",
    chars! "package date\n",
    chars! "\n",
    chars! "import (\n",
    chars! "\t\"encoding/binary\"\n",
    chars! "\t\"errors\"\n",
    chars! ")\n",
    chars! "\n",
    chars! "type Date struct {\n",
    chars! "\tYear  uint16\n",
    chars! "\tMonth uint8\n",
    chars! "\tDay   uint8\n",
    chars! "}\n",
    chars! "\n",
    chars! "func (d *Date) Parse(data []byte) ([]byte, error) {\n",
    chars! "\tcur := data\n",
    chars! "\t{\n",
    chars! "\t\tif len(cur) < 2 {\n",
    chars! "\t\t\treturn nil, errors.New(\"data too short\")\n",
    chars! "\t\t}\n",
    chars! "\t\td.Year = binary.BigEndian.Uint16(cur)\n",
    chars! "\t\tif !(1970 <= d.Year && d.Year <= 65535) {\n",
    chars! "\t\t\treturn nil, errors.New(\"integer constraint violated\")\n",
    chars! "\t\t}\n",
    chars! "\t\tcur = cur[2:]\n",
    chars! "\t}\n",
    chars! "\t{\n",
    chars! "\t\tif len(cur) < 1 {\n",
    chars! "\t\t\treturn nil, errors.New(\"data too short\")\n",
    chars! "\t\t}\n",
    chars! "\t\td.Month = cur[0]\n",
    chars! "\t\tif !(d.Month == 1 || d.Month == 2 || d.Month == 3 || d.Month == 4 || d.Month == 5 || d.Month == 6 || d.Month == 7 || d.Month == 8 || d.Month == 9 || d.Month == 10 || d.Month == 11 || d.Month == 12) {\n",
    chars! "\t\t\treturn nil, errors.New(\"integer constraint violated\")\n",
    chars! "\t\t}\n",
    chars! "\t\tcur = cur[1:]\n",
    chars! "\t}\n",
    chars! "\t{\n",
    chars! "\t\tif len(cur) < 1 {\n",
    chars! "\t\t\treturn nil, errors.New(\"data too short\")\n",
    chars! "\t\t}\n",
    chars! "\t\td.Day = cur[0]\n",
    chars! "\t\tif !(d.Day == 1 || d.Day == 2 || (3 <= d.Day && d.Day <= 31)) {\n",
    chars! "\t\t\treturn nil, errors.New(\"integer constraint violated\")\n",
    chars! "\t\t}\n",
    chars! "\t\tcur = cur[1:]\n",
    chars! "\t}\n",
    chars! "\treturn cur, nil\n",
    chars! "}\n",
    chars! "\n",
    chars! "func ParseDate(data []byte) (*Date, error) {\n",
    chars! "\td := new(Date)\n",
    chars! "\t_, err := d.Parse(data)\n",
    chars! "\tif err != nil {\n",
    chars! "\t\treturn nil, err\n",
    chars! "\t}\n",
    chars! "\treturn d, nil\n",
    chars! "}\n"]
  tests := List.flatten [
    chars! "// Code generated by trunnel. DO NOT EDIT.\n",
    chars! "\n",
    chars! "package date\n",
    chars! "\n",
    chars! "import \"testing\"\n",
    chars! "\n",
    chars! "func TestDateCorpus(t *testing.T) {\n",
    chars! "\tcases := []struct {\n",
    chars! "\t\tData []byte\n",
    chars! "\t}{\n",
    chars! "\t\t{\n",
    chars! "\t\t\tData: []byte{0x3b, 0x8, 0x1, 0x11},\n",
    chars! "\t\t},\n",
    chars! "\t}\n",
    chars! "\tfor _, c := range cases {\n",
    chars! "\t\t_, err := ParseDate(c.Data)\n",
    chars! "\t\tif err != nil {\n",
    chars! "\t\t\tt.Fatal(err)\n",
    chars! "\t\t}\n",
    chars! "\t}\n",
    chars! "}\n"]
  fuzz := List.flatten [
    chars! "// Code generated by trunnel. DO NOT EDIT.\n",
    chars! "\n",
    chars! "// +build gofuzz\n",
    chars! "\n",
    chars! "package date\n",
    chars! "\n",
    chars! "func FuzzDate(data []byte) int {\n",
    chars! "\t_, err := ParseDate(data)\n",
    chars! "\tif err != nil {\n",
    chars! "\t\treturn 0\n",
    chars! "\t}\n",
    chars! "\treturn 1\n",
    chars! "}\n"]

theorem examples_date_agrees : examples_dateGolden.Agrees := agrees_of (by decide +kernel)

end Verif.Props
