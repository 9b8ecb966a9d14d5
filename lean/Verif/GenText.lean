import Verif.Gen
/-!
# Model of the text printed by `gen/decl.go`

`Verif/Gen` models the generator with Go text replaced by syntax trees.  Here are the same functions with the text
itself: what the `printf` calls append to the buffer (gen/printer.go:10-12, 35-39), before
`imports.Process` (gen/printer.go:19-21), which formats the text and adds imports.  As in `Verif/Gen`, a panic
of the generator is `Res.panic`, `name` is an arbitrary function `nm`, and `g.data` is the constant `"cur"`.
Characters are Unicode code points, not the bytes of their encoding.
-/
namespace Verif.GenText
open Verif Verif.Ast Verif.Inspect Verif.Gen

/-- The contents of a buffer. `printer.buf`, gen/printer.go:10-12. -/
abbrev Text := List Char

/-- Literal parts of format strings. Arguments of `printf`, gen/printer.go:35-39. -/
def lit (s : String) : Text := s.toList

/-- `strconv.FormatInt(x, 10)` (gen/decl.go:323), `strconv.Itoa` (206) and `%d` (210, 217, 344). -/
def itoa : Int → Text
  | .ofNat n => Nat.toDigits 10 n
  | .negSucc n => '-' :: Nat.toDigits 10 (n + 1)

/-- gen/decl.go:318-324 `integer`. -/
def integer (g : Cfg) (i : Integer) : Res Text := do
  let k ← Gen.integer g i
  .ok (itoa k)

/-- gen/decl.go:303-308 `ref`. -/
def ref (g : Cfg) (recv : String) (r : IDRef) : Text :=
  if r.scope = "" then lit recv ++ lit "." ++ lit (g.nm r.name) else lit r.scope ++ lit "." ++ lit (g.nm r.name)

/-- gen/decl.go:310-312 `lengthCheck`. -/
def lengthCheck (min : Text) : Text :=
  lit "if len(cur) < " ++ min ++ lit " { return nil, errors.New(\"data too short\") }\n"

/-- gen/decl.go:314-316 `assertEnd`. -/
def assertEnd : Text := lit "if len(cur) > 0 { return nil, errors.New(\"trailing data disallowed\") }\n"

/-- gen/decl.go:328-335 one clause of `conditional`. -/
def clause (g : Cfg) (v : Text) (r : IntegerRange) : Res Text :=
  match r.high with
  | none => do
    let lo ← integer g r.low
    .ok (v ++ lit " == " ++ lo)
  | some h => do
    let lo ← integer g r.low
    let hi ← integer g h
    .ok (lit "(" ++ lo ++ lit " <= " ++ v ++ lit " && " ++ v ++ lit " <= " ++ hi ++ lit ")")

/-- gen/decl.go:327-335 the loop of `conditional`. -/
def clauses (g : Cfg) (v : Text) : List IntegerRange → Res (List Text)
  | [] => .ok []
  | r :: rs => do
    let c ← clause g v r
    let cs ← clauses g v rs
    .ok (c :: cs)

/-- `strings.Join(parts, sep)` (gen/decl.go:336). -/
def join (sep : Text) : List Text → Text
  | [] => []
  | [t] => t
  | t :: ts => t ++ sep ++ join sep ts

/-- gen/decl.go:326-337 `conditional`. -/
def conditional (g : Cfg) (v : Text) (l : IntegerList) : Res Text := do
  let cs ← clauses g v l.ranges
  .ok (join (lit " || ") cs)

/-- gen/decl.go:339-350 `tipe` on the types allowed as array elements. -/
def tipeBase (g : Cfg) : Base → Text
  | .int t => lit "uint" ++ itoa t.size
  | .char => lit "byte"
  | .struct n => lit "*" ++ lit (g.nm n)

/-- gen/decl.go:339-358 `tipe`. -/
def tipe (g : Cfg) : Ty → Res Text
  | .base b => .ok (tipeBase g b)
  | .ptr => .ok (lit "int")
  | .nulterm => .ok (lit "string")
  | .fixedArray b n => do
    let k ← integer g n
    .ok (lit "[" ++ k ++ lit "]" ++ tipeBase g b)
  | .varArray b _ => .ok (lit "[]" ++ tipeBase g b)

/-- gen/decl.go:368-374 `contextArgs`. -/
def contextArgs : List String → Text
  | [] => []
  | n :: ns => lit ", " ++ lit n ++ contextArgs ns

/-- gen/decl.go:360-366 `contextSignature`. -/
def contextSignature (g : Cfg) : List String → Text
  | [] => []
  | n :: ns => lit ", " ++ lit n ++ lit " " ++ lit (g.nm n) ++ contextSignature g ns

/-- gen/decl.go:212-216 the constraint check in `parseIntType`. -/
def intCheck (g : Cfg) (lhs : Text) (t : IntType) : Res Text :=
  match t.constraint with
  | none => .ok []
  | some l => do
    let c ← conditional g lhs l
    .ok (lit "if !(" ++ c ++ lit ") {\n" ++ lit "return nil, errors.New(\"integer constraint violated\")\n" ++ lit "}\n")

/-- gen/decl.go:207-211 the read in `parseIntType`. -/
def intRead (lhs : Text) (t : IntType) : Text :=
  if t.size / 8 = 1 then lhs ++ lit " = cur[0]\n"
  else lhs ++ lit " = binary.BigEndian.Uint" ++ itoa t.size ++ lit "(cur)\n"

/-- gen/decl.go:204-218 `parseIntType`. -/
def parseIntType (g : Cfg) (lhs : Text) (t : IntType) : Res Text := do
  let check ← intCheck g lhs t
  .ok (lengthCheck (itoa (t.size / 8 : Nat)) ++ intRead lhs t ++ check ++
    (lit "cur = cur[" ++ itoa (t.size / 8 : Nat) ++ lit ":]\n"))

/-- gen/decl.go:167-202 `parseType` on the types allowed as array elements: `IntType`, `CharType`
(178), `StructRef` (183-191). -/
def parseBase (g : Cfg) (lhs : Text) : Base → Res Text
  | .int t => parseIntType g lhs t
  | .char => parseIntType g lhs U8
  | .struct n =>
    match g.res.struct n with
    | none => .panic "struct not found"
    | some s => .ok (lit "var err error\n" ++ (lhs ++ lit " = new(" ++ lit (g.nm n) ++ lit ")\n") ++
        (lit "cur, err = " ++ lhs ++ lit ".Parse(cur" ++ contextArgs s.contexts ++ lit ")\n") ++
        lit "if err != nil { return nil, err }\n")

/-- gen/decl.go:282-293 the length check and extent in `constrained`. -/
def extent (g : Cfg) (recv : String) : LengthConstraint → Res (Text × Text)
  | .leftover k => do
    let k ← integer g k
    .ok (lengthCheck k, lit "len(cur)-" ++ k)
  | .idRef r => .ok (lengthCheck (lit "int(" ++ ref g recv r ++ lit ")"), lit "int(" ++ ref g recv r ++ lit ")")

/-- gen/decl.go:279-300 `constrained`; `body` is what the callback prints. -/
def constrained (g : Cfg) (recv : String) (c : LengthConstraint) (body : Res Text) : Res Text := do
  let e ← extent g recv c
  let b ← body
  .ok (e.1 ++ (lit "restore := cur[" ++ e.2 ++ lit ":]\n") ++ (lit "cur = cur[:" ++ e.2 ++ lit "]\n") ++ b ++
    assertEnd ++ lit "cur = restore\n")

/-- gen/decl.go:222-225 `parseArray` for a fixed size. -/
def parseFixed (g : Cfg) (lhs : Text) (b : Base) (n : Integer) : Res Text := do
  let k ← integer g n
  let body ← parseBase g (lhs ++ lit "[idx]") b
  .ok (lit "for idx := 0; idx < " ++ k ++ lit "; idx++ {\n" ++ body ++ lit "}\n")

/-- gen/decl.go:239-245 `parseArray` with no constraint. -/
def parseRem (g : Cfg) (lhs : Text) (b : Base) : Res Text := do
  let body ← parseBase g (lit "tmp") b
  .ok ((lhs ++ lit " = make([]" ++ tipeBase g b ++ lit ", 0)\n") ++ lit "for len(cur) > 0 {\n" ++
    (lit "var tmp " ++ tipeBase g b ++ lit "\n") ++ body ++ (lhs ++ lit " = append(" ++ lhs ++ lit ", tmp)\n") ++
    lit "}\n")

/-- gen/decl.go:227-250 `parseArray` for variable-length arrays. -/
def parseVar (g : Cfg) (recv : String) (lhs : Text) (b : Base) : Option LengthConstraint → Res Text
  | some (.idRef r) => do
    let body ← parseBase g (lhs ++ lit "[idx]") b
    .ok ((lhs ++ lit " = make([]" ++ tipeBase g b ++ lit ", " ++ (lit "int(" ++ ref g recv r ++ lit ")") ++ lit ")\n") ++
      (lit "for idx := 0; idx < " ++ (lit "int(" ++ ref g recv r ++ lit ")") ++ lit "; idx++ {\n") ++ body ++ lit "}\n")
  | some (.leftover k) => constrained g recv (.leftover k) (parseRem g lhs b)
  | none => parseRem g lhs b

/-- gen/decl.go:167-202 `parseType`. -/
def parseType (g : Cfg) (recv : String) (lhs : Text) : Ty → Res Text
  | .nulterm => .ok (lit "i := bytes.IndexByte(cur, 0)\n" ++
      lit "if i < 0 { return nil, errors.New(\"could not parse nul-term string\") }\n" ++
      (lhs ++ lit ", cur = string(cur[:i]), cur[i+1:]\n"))
  | .base b => parseBase g lhs b
  | .ptr => .ok (lhs ++ lit " = len(data) - len(cur)\n")
  | .fixedArray b n => parseFixed g lhs b n
  | .varArray b c => parseVar g recv lhs b c

/-- gen/decl.go:142-165 `parseMember` on the members allowed in union cases. -/
def parseLeaf (g : Cfg) (recv : String) : Leaf → Res Text
  | .field f => do
    let ss ← parseType g recv (lit recv ++ lit "." ++ lit (g.nm f.name)) f.type
    .ok (lit "{\n" ++ ss ++ lit "}\n")
  | .eos => .ok (lit "{\n" ++ assertEnd ++ lit "}\n")
  | .ignore => .ok (lit "{\n" ++ lit "cur = []byte{}\n" ++ lit "}\n")
  | .fail => .ok (lit "{\n" ++ lit "return nil, errors.New(\"disallowed case\")" ++ lit "}\n")

/-- gen/decl.go:272-274 the members of one case. -/
def parseLeaves (g : Cfg) (recv : String) : List Leaf → Res Text
  | [] => .ok []
  | l :: ls => do
    let s ← parseLeaf g recv l
    let ss ← parseLeaves g recv ls
    .ok (s ++ ss)

/-- gen/decl.go:267-271 `default:` or `case cond:`. -/
def caseHead (g : Cfg) (tag : Text) (c : UnionCase) : Res Text :=
  match c.case with
  | none => .ok (lit "default:\n")
  | some l => do
    let e ← conditional g tag l
    .ok (lit "case " ++ e ++ lit ":\n")

/-- gen/decl.go:266-275 the clauses of the switch. -/
def parseCases (g : Cfg) (recv : String) (tag : Text) : List UnionCase → Res Text
  | [] => .ok []
  | c :: cs => do
    let head ← caseHead g tag c
    let body ← parseLeaves g recv c.members
    let rest ← parseCases g recv tag cs
    .ok (head ++ body ++ rest)

/-- gen/decl.go:264-276 `parseUnionMember` without a length. -/
def parseSwitch (g : Cfg) (recv : String) (u : UnionMember) : Res Text := do
  let cs ← parseCases g recv (ref g recv u.tag) u.cases
  .ok (lit "switch {\n" ++ cs ++ lit "}\n")

/-- gen/decl.go:252-277 `parseUnionMember`. -/
def parseUnion (g : Cfg) (recv : String) (u : UnionMember) : Res Text :=
  match u.length with
  | some c => constrained g recv c (parseSwitch g recv u)
  | none => parseSwitch g recv u

/-- gen/decl.go:142-165 `parseMember`. -/
def parseMember (g : Cfg) (recv : String) : Member → Res Text
  | .leaf l => parseLeaf g recv l
  | .union u => do
    let ss ← parseUnion g recv u
    .ok (lit "{\n" ++ ss ++ lit "}\n")

/-- gen/decl.go:135-137 the loop over members. -/
def parseMembers (g : Cfg) (recv : String) : List Member → Res Text
  | [] => .ok []
  | m :: ms => do
    let s ← parseMember g recv m
    let ss ← parseMembers g recv ms
    .ok (s ++ ss)

/-- gen/decl.go:130-140 `parse`. -/
def parse (g : Cfg) (recv : String) (s : Struct) : Res Text := do
  let body ← parseMembers g recv s.ms
  .ok ((lit "func (" ++ lit recv ++ lit " *" ++ lit (g.nm s.name) ++ lit ") Parse(data []byte" ++
      contextSignature g s.contexts ++ lit ") ([]byte, error) {\n") ++ lit "cur := data\n" ++ body ++
    lit "return cur, nil\n}\n\n")

/-- gen/decl.go:119-127 `parseConstructor`. -/
def parseConstructor (g : Cfg) (recv : String) (s : Struct) : Text :=
  (lit "func Parse" ++ lit (g.nm s.name) ++ lit "(data []byte" ++ contextSignature g s.contexts ++ lit ") (*" ++
      lit (g.nm s.name) ++ lit ", error) {\n") ++
    (lit recv ++ lit " := new(" ++ lit (g.nm s.name) ++ lit ")\n") ++
    (lit "_, err := " ++ lit recv ++ lit ".Parse(data" ++ contextArgs s.contexts ++ lit ")\n") ++
    lit "if err != nil { return nil, err }\n" ++ (lit "return " ++ lit recv ++ lit ", nil\n") ++ lit "}\n\n"

/-- gen/decl.go:95-96 a field declaration. -/
def fieldDecl (g : Cfg) (f : Field) : Res Text := do
  let t ← tipe g f.type
  .ok (lit "\t" ++ lit (g.nm f.name) ++ lit " " ++ t ++ lit "\n")

/-- gen/decl.go:108-115 the members of a union case: `fail`, `ignore` and `eos` declare nothing. -/
def leafDecls (g : Cfg) : List Leaf → Res Text
  | [] => .ok []
  | .field f :: ls => do
    let d ← fieldDecl g f
    let ds ← leafDecls g ls
    .ok (d ++ ds)
  | _ :: ls => leafDecls g ls

/-- gen/decl.go:106-117 `structUnionMemberDecl`. -/
def caseDecls (g : Cfg) : List UnionCase → Res Text
  | [] => .ok []
  | c :: cs => do
    let d ← leafDecls g c.members
    let ds ← caseDecls g cs
    .ok (d ++ ds)

/-- gen/decl.go:93-104 `structMemberDecl`. -/
def structMemberDecl (g : Cfg) : Member → Res Text
  | .leaf (.field f) => fieldDecl g f
  | .union u => caseDecls g u.cases
  | .leaf .eos => .ok []
  | .leaf _ => .panic "unexpected type"

/-- gen/decl.go:87-89 the loop of `structDecl`. -/
def memberDecls (g : Cfg) : List Member → Res Text
  | [] => .ok []
  | m :: ms => do
    let d ← structMemberDecl g m
    let ds ← memberDecls g ms
    .ok (d ++ ds)

/-- gen/decl.go:85-91 `structDecl`. -/
def structDecl (g : Cfg) (s : Struct) : Res Text := do
  let fs ← memberDecls g s.ms
  .ok (lit "type " ++ lit (g.nm s.name) ++ lit " struct {\n" ++ fs ++ lit "}\n\n")

/-- gen/decl.go:63-69 `context`. -/
def context (g : Cfg) (c : Context) : Res Text := do
  let fs ← leafDecls g (c.members.map .field)
  .ok (lit "type " ++ lit (g.nm c.name) ++ lit " struct {\n" ++ fs ++ lit "}\n\n")

/-- gen/decl.go:71-83 `structure`. -/
def structure_ (g : Cfg) (s : Struct) : Res Text :=
  if s.extern then .ok []
  else do
    let recv ← receiver s
    let d ← structDecl g s
    let m ← parse g recv s
    .ok (d ++ m ++ parseConstructor g recv s)

/-- gen/decl.go:52-54 the loop over contexts. -/
def fileContexts (g : Cfg) : List Context → Res Text
  | [] => .ok []
  | c :: cs => do
    let d ← context g c
    let p ← fileContexts g cs
    .ok (d ++ p)

/-- gen/decl.go:56-58 the loop over structs. -/
def fileStructs (g : Cfg) : List Struct → Res Text
  | [] => .ok []
  | s :: ss => do
    let p ← structure_ g s
    let q ← fileStructs g ss
    .ok (p ++ q)

/-- gen/decl.go:51-61 `file`. -/
def file (g : Cfg) (f : File) : Res Text := do
  let p ← fileContexts g f.contexts
  let q ← fileStructs g f.structs
  .ok (p ++ q)

/-- gen/decl.go:37-41 the loop over files. -/
def fileList (g : Cfg) : List File → Res Text
  | [] => .ok []
  | f :: fs => do
    let p ← file g f
    let q ← fileList g fs
    .ok (p ++ q)

/-- gen/printer.go:22-33 `header`. -/
def header (pkg : String) : Text :=
  lit "// Code generated by trunnel. DO NOT EDIT.\n\n" ++ (lit "package " ++ lit pkg ++ lit "\n\n")

/-- gen/decl.go:13-49 `Marshallers`, `files`, `init`: the text given to `imports.Process`. -/
def marshallers (pkg : String) (nm : String → String) (o : IterOrder) (fs : List File) : Res Text := do
  let r ← newResolverFiles o fs
  let t ← fileList ⟨r, nm⟩ fs
  .ok (header pkg ++ t)

end Verif.GenText
