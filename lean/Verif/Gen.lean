import Verif.Inspect
import Verif.GoSyntax
/-!
# Model of `gen/decl.go`: the marshaller generator

Function by function, with Go text replaced by its syntax tree (`Verif/GoSyntax`).  A Go panic of the
generator is `Res.panic`, an error return is `Res.err`.

Simplifications:
* `nm` is `name` (gen/core.go:88-90), i.e. the third-party `snaker.SnakeToCamel` after lower-casing;
  it is an arbitrary function here.
* `g.data` (gen/decl.go:27) is `"cur"` whenever it is used (gen/decl.go:134), so it is a constant;
  `g.receiver` is a parameter.
* `imports.Process` (gen/printer.go:20-22), which formats the text and adds imports, is the identity.
-/
namespace Verif.Gen
open Verif Verif.Ast Verif.Inspect Verif.Go

/-- What the generator methods read: the resolver (gen/decl.go:24) and `name` (gen/core.go:88-90). -/
structure Cfg where
  res : Resolver
  nm : String → String

/-- gen/decl.go:134 `g.data`. -/
def cur : Expr := .var "cur"

/-- gen/decl.go:318-324 `integer`: an unresolved constant panics. -/
def integer (g : Cfg) (i : Integer) : Res Int :=
  match g.res.integer i with
  | .ok v => .ok v
  | .err m => .panic m
  | .panic m => .panic m

/-- gen/decl.go:303-308 `ref`. -/
def ref (g : Cfg) (recv : String) (r : IDRef) : Expr :=
  if r.scope = "" then .field (.var recv) (g.nm r.name) else .field (.var r.scope) (g.nm r.name)

/-- gen/decl.go:310-312 `lengthCheck`. -/
def lengthCheck (min : Expr) : Stmt := .ifS (.lt (.len cur) min) [.retNew "data too short"]

/-- gen/decl.go:314-316 `assertEnd`. -/
def assertEnd : Stmt := .ifS (.gt (.len cur) (.lit 0)) [.retNew "trailing data disallowed"]

/-- gen/decl.go:328-335 one clause of `conditional`. -/
def clause (g : Cfg) (v : Expr) (r : IntegerRange) : Res Expr :=
  match r.high with
  | none => do
    let lo ← integer g r.low
    .ok (.eq v (.lit lo))
  | some h => do
    let lo ← integer g r.low
    let hi ← integer g h
    .ok (.and (.le (.lit lo) v) (.le v (.lit hi)))

/-- gen/decl.go:327-335 the loop of `conditional`. -/
def clauses (g : Cfg) (v : Expr) : List IntegerRange → Res (List Expr)
  | [] => .ok []
  | r :: rs => do
    let c ← clause g v r
    let cs ← clauses g v rs
    .ok (c :: cs)

/-- gen/decl.go:336 `strings.Join(clauses, " || ")`; the empty string is no expression. -/
def joinOr : List Expr → Expr
  | [] => .bad
  | c :: cs => cs.foldl .or c

/-- gen/decl.go:326-337 `conditional`. -/
def conditional (g : Cfg) (v : Expr) (l : IntegerList) : Res Expr := do
  let cs ← clauses g v l.ranges
  .ok (joinOr cs)

/-- gen/decl.go:339-350 `tipe` on the types allowed as array elements. -/
def tipeBase (g : Cfg) : Base → GTy
  | .int t => .uint t.size
  | .char => .byte
  | .struct n => .ptr (g.nm n)

/-- gen/decl.go:339-358 `tipe`. -/
def tipe (g : Cfg) : Ty → Res GTy
  | .base b => .ok (tipeBase g b)
  | .ptr => .ok .int
  | .nulterm => .ok .string
  | .fixedArray b n => do
    let k ← integer g n
    .ok (.array k (tipeBase g b))
  | .varArray b _ => .ok (.slice (tipeBase g b))

/-- gen/decl.go:212-216 the constraint check in `parseIntType`. -/
def intCheck (g : Cfg) (lhs : LV) (t : IntType) : Res (List Stmt) :=
  match t.constraint with
  | none => .ok []
  | some l => do
    let c ← conditional g lhs.expr l
    .ok [Stmt.ifS (.not c) [.retNew "integer constraint violated"]]

/-- gen/decl.go:207-211 the read in `parseIntType`. -/
def intRead (lhs : LV) (t : IntType) : Stmt :=
  if t.size / 8 = 1 then .assign lhs (.index cur (.lit 0)) else .assign lhs (.beUint t.size cur)

/-- gen/decl.go:204-218 `parseIntType`. -/
def parseIntType (g : Cfg) (lhs : LV) (t : IntType) : Res (List Stmt) := do
  let check ← intCheck g lhs t
  .ok ([lengthCheck (.lit (t.size / 8 : Nat)), intRead lhs t] ++ check ++
    [.assign (.var "cur") (.sliceFrom cur (.lit (t.size / 8 : Nat)))])

/-- gen/decl.go:167-202 `parseType` on the types allowed as array elements: `IntType`, `CharType`
(178), `StructRef` (183-191). -/
def parseBase (g : Cfg) (lhs : LV) : Base → Res (List Stmt)
  | .int t => parseIntType g lhs t
  | .char => parseIntType g lhs U8
  | .struct n =>
    match g.res.struct n with
    | none => .panic "struct not found"
    | some s => .ok [
        .varDecl "err" .error,
        .assign lhs (.new (g.nm n)),
        .callParse "cur" "err" lhs cur s.contexts,
        .ifS (.notNil (.var "err")) [.retErr "err"]]

/-- gen/decl.go:282-293 the length check and extent printed by `constrained`. -/
def extent (g : Cfg) (recv : String) : LengthConstraint → Res (Stmt × Expr)
  | .leftover k => do
    let k ← integer g k
    .ok (lengthCheck (.lit k), .sub (.len cur) (.lit k))
  | .idRef r => .ok (lengthCheck (.toInt (ref g recv r)), .toInt (ref g recv r))

/-- gen/decl.go:279-300 `constrained`; `body` is what the callback prints. -/
def constrained (g : Cfg) (recv : String) (c : LengthConstraint) (body : Res (List Stmt)) :
    Res (List Stmt) := do
  let e ← extent g recv c
  let b ← body
  .ok ([e.1, .define "restore" (.sliceFrom cur e.2), .assign (.var "cur") (.sliceTo cur e.2)] ++ b ++
    [assertEnd, .assign (.var "cur") (.var "restore")])

/-- The location `lhs+"[idx]"` (gen/decl.go:224,231). Arrays occur only as fields, so `lhs` is
`r.F` there. -/
def elemLV : LV → LV
  | .field x f => .index x f "idx"
  | l => l

/-- gen/decl.go:222-225 `parseArray` for a fixed size. -/
def parseFixed (g : Cfg) (lhs : LV) (b : Base) (n : Integer) : Res (List Stmt) := do
  let k ← integer g n
  let body ← parseBase g (elemLV lhs) b
  .ok [.forIdx "idx" (.lit k) body]

/-- gen/decl.go:239-245 `parseArray` with no constraint. -/
def parseRem (g : Cfg) (lhs : LV) (b : Base) : Res (List Stmt) := do
  let body ← parseBase g (.var "tmp") b
  .ok [.assign lhs (.make (tipeBase g b) (.lit 0)),
    .forC (.gt (.len cur) (.lit 0))
      ([.varDecl "tmp" (tipeBase g b)] ++ body ++ [.assign lhs (.append lhs.expr (.var "tmp"))])]

/-- gen/decl.go:227-250 `parseArray` for variable-length arrays. -/
def parseVar (g : Cfg) (recv : String) (lhs : LV) (b : Base) :
    Option LengthConstraint → Res (List Stmt)
  | some (.idRef r) => do
    let body ← parseBase g (elemLV lhs) b
    .ok [.assign lhs (.make (tipeBase g b) (.toInt (ref g recv r))),
      .forIdx "idx" (.toInt (ref g recv r)) body]
  | some (.leftover k) => constrained g recv (.leftover k) (parseRem g lhs b)
  | none => parseRem g lhs b

/-- gen/decl.go:167-202 `parseType`. -/
def parseType (g : Cfg) (recv : String) (lhs : LV) : Ty → Res (List Stmt)
  | .nulterm => .ok [
      .define "i" (.indexByte0 cur),
      .ifS (.lt (.var "i") (.lit 0)) [.retNew "could not parse nul-term string"],
      .assign2 lhs (.var "cur") (.toStr (.sliceTo cur (.var "i")))
        (.sliceFrom cur (.add (.var "i") (.lit 1)))]
  | .base b => parseBase g lhs b
  | .ptr => .ok [.assign lhs (.sub (.len (.var "data")) (.len cur))]
  | .fixedArray b n => parseFixed g lhs b n
  | .varArray b c => parseVar g recv lhs b c

/-- gen/decl.go:142-165 `parseMember` on the members allowed in union cases. -/
def parseLeaf (g : Cfg) (recv : String) : Leaf → Res Stmt
  | .field f => do
    let ss ← parseType g recv (.field recv (g.nm f.name)) f.type
    .ok (.block ss)
  | .eos => .ok (.block [assertEnd])
  | .ignore => .ok (.block [.assign (.var "cur") .emptyBytes])
  | .fail => .ok (.block [.retNew "disallowed case"])

/-- gen/decl.go:272-274 the members of one case. -/
def parseLeaves (g : Cfg) (recv : String) : List Leaf → Res (List Stmt)
  | [] => .ok []
  | l :: ls => do
    let s ← parseLeaf g recv l
    let ss ← parseLeaves g recv ls
    .ok (s :: ss)

/-- gen/decl.go:267-271 `default:` or `case cond:`. -/
def caseHead (g : Cfg) (tag : Expr) (c : UnionCase) : Res (Option Expr) :=
  match c.case with
  | none => .ok none
  | some l => do
    let e ← conditional g tag l
    .ok (some e)

/-- gen/decl.go:266-275 the clauses of the switch. -/
def parseCases (g : Cfg) (recv : String) (tag : Expr) :
    List UnionCase → Res (List (Option Expr × List Stmt))
  | [] => .ok []
  | c :: cs => do
    let head ← caseHead g tag c
    let body ← parseLeaves g recv c.members
    let rest ← parseCases g recv tag cs
    .ok ((head, body) :: rest)

/-- gen/decl.go:264-276 `parseUnionMember` without a length. -/
def parseSwitch (g : Cfg) (recv : String) (u : UnionMember) : Res (List Stmt) := do
  let cs ← parseCases g recv (ref g recv u.tag) u.cases
  .ok [.switch cs]

/-- gen/decl.go:252-277 `parseUnionMember`. -/
def parseUnion (g : Cfg) (recv : String) (u : UnionMember) : Res (List Stmt) :=
  match u.length with
  | some c => constrained g recv c (parseSwitch g recv u)
  | none => parseSwitch g recv u

/-- gen/decl.go:142-165 `parseMember`. -/
def parseMember (g : Cfg) (recv : String) : Member → Res Stmt
  | .leaf l => parseLeaf g recv l
  | .union u => do
    let ss ← parseUnion g recv u
    .ok (.block ss)

/-- gen/decl.go:135-137 the loop over members. -/
def parseMembers (g : Cfg) (recv : String) : List Member → Res (List Stmt)
  | [] => .ok []
  | m :: ms => do
    let s ← parseMember g recv m
    let ss ← parseMembers g recv ms
    .ok (s :: ss)

/-- gen/decl.go:360-366 `contextSignature`. -/
def contextSignature (g : Cfg) (names : List String) : List (String × String) :=
  names.map (fun n => (n, g.nm n))

/-- gen/decl.go:130-140 `parse`. -/
def parse (g : Cfg) (recv : String) (s : Struct) : Res Method := do
  let body ← parseMembers g recv s.ms
  .ok { type := g.nm s.name, recv := recv, params := contextSignature g s.contexts,
        body := [.define "cur" (.var "data")] ++ body ++ [.ret cur] }

/-- gen/decl.go:119-127 `parseConstructor`. -/
def parseConstructor (g : Cfg) (recv : String) (s : Struct) : Ctor :=
  { type := g.nm s.name, params := contextSignature g s.contexts,
    body := [
      .define recv (.new (g.nm s.name)),
      .callDefine "err" (.var recv) (.var "data") s.contexts,
      .ifS (.notNil (.var "err")) [.retErr "err"],
      .ret (.var recv)] }

/-- gen/decl.go:95-96 a field declaration. -/
def fieldDecl (g : Cfg) (f : Field) : Res (String × GTy) := do
  let t ← tipe g f.type
  .ok (g.nm f.name, t)

/-- gen/decl.go:108-115 the members of a union case: `fail`, `ignore` and `eos` declare nothing. -/
def leafDecls (g : Cfg) : List Leaf → Res (List (String × GTy))
  | [] => .ok []
  | .field f :: ls => do
    let d ← fieldDecl g f
    let ds ← leafDecls g ls
    .ok (d :: ds)
  | _ :: ls => leafDecls g ls

/-- gen/decl.go:106-117 `structUnionMemberDecl`. -/
def caseDecls (g : Cfg) : List UnionCase → Res (List (String × GTy))
  | [] => .ok []
  | c :: cs => do
    let d ← leafDecls g c.members
    let ds ← caseDecls g cs
    .ok (d ++ ds)

/-- gen/decl.go:93-104 `structMemberDecl`. -/
def structMemberDecl (g : Cfg) : Member → Res (List (String × GTy))
  | .leaf (.field f) => do
    let d ← fieldDecl g f
    .ok [d]
  | .union u => caseDecls g u.cases
  | .leaf .eos => .ok []
  | .leaf _ => .panic "unexpected type"

/-- gen/decl.go:87-89 the loop of `structDecl`. -/
def memberDecls (g : Cfg) : List Member → Res (List (String × GTy))
  | [] => .ok []
  | m :: ms => do
    let d ← structMemberDecl g m
    let ds ← memberDecls g ms
    .ok (d ++ ds)

/-- gen/decl.go:85-91 `structDecl`. -/
def structDecl (g : Cfg) (s : Struct) : Res TypeDecl := do
  let fs ← memberDecls g s.ms
  .ok ⟨g.nm s.name, fs⟩

/-- gen/decl.go:63-69 `context`. -/
def context (g : Cfg) (c : Context) : Res TypeDecl := do
  let fs ← leafDecls g (c.members.map .field)
  .ok ⟨g.nm c.name, fs⟩

/-- gen/decl.go:76 `strings.ToLower(s.Name[:1])`: the first letter in lower case; an empty name
panics. -/
def receiver (s : Struct) : Res String :=
  match s.name.toList with
  | [] => .panic "slice bounds out of range"
  | c :: _ => .ok (String.ofList [c.toLower])

/-- Concatenation of printed declarations (gen/decl.go:22 the shared print buffer). -/
def append (p q : Prog) : Prog := ⟨p.types ++ q.types, p.methods ++ q.methods, p.ctors ++ q.ctors⟩

/-- gen/decl.go:71-83 `structure`. -/
def structure_ (g : Cfg) (s : Struct) : Res Prog :=
  if s.extern then .ok ⟨[], [], []⟩
  else do
    let recv ← receiver s
    let d ← structDecl g s
    let m ← parse g recv s
    .ok ⟨[d], [m], [parseConstructor g recv s]⟩

/-- gen/decl.go:52-54 the loop over contexts. -/
def fileContexts (g : Cfg) : List Context → Res Prog
  | [] => .ok ⟨[], [], []⟩
  | c :: cs => do
    let d ← context g c
    let p ← fileContexts g cs
    .ok (append ⟨[d], [], []⟩ p)

/-- gen/decl.go:56-58 the loop over structs. -/
def fileStructs (g : Cfg) : List Struct → Res Prog
  | [] => .ok ⟨[], [], []⟩
  | s :: ss => do
    let p ← structure_ g s
    let q ← fileStructs g ss
    .ok (append p q)

/-- gen/decl.go:51-61 `file`. -/
def file (g : Cfg) (f : File) : Res Prog := do
  let p ← fileContexts g f.contexts
  let q ← fileStructs g f.structs
  .ok (append p q)

/-- gen/decl.go:37-41 the loop over files. -/
def fileList (g : Cfg) : List File → Res Prog
  | [] => .ok ⟨[], [], []⟩
  | f :: fs => do
    let p ← file g f
    let q ← fileList g fs
    .ok (append p q)

/-- gen/decl.go:13-49 `Marshallers`, `files`, `init`. -/
def marshallers (nm : String → String) (o : IterOrder) (fs : List File) : Res Prog := do
  let r ← newResolverFiles o fs
  fileList ⟨r, nm⟩ fs

end Verif.Gen
