import Verif.GoSyntax
/-!
# Specification: scope and type rules of the emitted Go subset

A checker for `Verif/GoSyntax` following the Go specification ("Declarations and scope", "Types",
"Assignability", "Constants", "Terminating statements").  It does not mention the generator.

Not covered: unused imports, size limits of types, names from other files of the package except those behind
`extern` structs.
-/
namespace Verif.Go

/-- Go keywords (Go spec "Keywords"). No name of gen/decl.go:64,86,96,121 may be one. -/
def keywords : List String :=
  ["break", "case", "chan", "const", "continue", "default", "defer", "else", "fallthrough", "for", "func",
   "go", "goto", "if", "import", "interface", "map", "package", "range", "return", "select", "struct",
   "switch", "type", "var"]

/-- Predeclared identifiers and imported packages the emitted code uses (gen/decl.go:121-345). -/
def builtins : List String :=
  ["len", "make", "append", "new", "nil", "string", "int", "byte", "error", "uint8", "uint16", "uint32",
   "uint64", "errors", "binary", "bytes"]

/-- `uint8` and `byte` are the same type (Go spec "Numeric types"). gen/decl.go:343-346. -/
def norm : GTy → GTy
  | .uint 8 => .byte
  | .array n t => .array n (norm t)
  | .slice t => .slice (norm t)
  | t => t

/-- Type of an expression: an untyped constant, a boolean, a struct by value, or a type of the generated
declarations. Of expressions printed at gen/decl.go:121-336. -/
inductive XT where
  | const (n : Int)
  | bool
  | named (T : String)
  | ty (t : GTy)
deriving Repr, DecidableEq

/-- `[]byte`. gen/decl.go:121,131. -/
abbrev XT.bytes : XT := .ty (.slice .byte)

/-- Variables in scope. gen/decl.go:131-133,170,184,223,230,242,295. -/
abbrev TEnv := String → Option XT

/-- Package-level declarations: struct types with their fields, and `Parse` methods with the types of their
parameters after `data`. Printed at gen/decl.go:63-140. -/
structure Sig where
  types : List (String × List (String × GTy))
  parse : List (String × List String)

/-- Whether a constant can be a value of the integer type (Go spec "Representability"). Numbers printed at gen/decl.go:318-333. -/
def fits (n : Int) : GTy → Bool
  | .byte => decide (0 ≤ n ∧ n < 2 ^ 8)
  | .uint k => decide (0 ≤ n ∧ n < 2 ^ k)
  | .int => decide (-2 ^ 63 ≤ n ∧ n < 2 ^ 63)
  | _ => false

/-- Integer types. gen/decl.go:343-348. -/
def isInt : GTy → Bool
  | .byte | .int => true
  | .uint _ => true
  | _ => false

/-- Whether an expression can be assigned to a variable of type `t` (Go spec "Assignability"). gen/decl.go:123,172,181,190,208-210,244. -/
def assignable : XT → XT → Bool
  | .const n, .ty t => fits n t
  | a, b => a == b

/-- Operands of a comparison. gen/decl.go:171,311-315,331-333. -/
def comparable : XT → XT → Bool
  | .ty a, .ty b => isInt a && a == b
  | .const n, .ty t => fits n t
  | .ty t, .const n => fits n t
  | _, _ => false

/-- Operands of `int` arithmetic, lengths and indices. gen/decl.go:172,217,229,295-296. -/
def isIndex : XT → Bool
  | .ty .int => true
  | .const n => decide (0 ≤ n ∧ n < 2 ^ 63)
  | _ => false

/-- Well-formed types; their names must not be hidden by variables. gen/decl.go:339-358. -/
def validTy (P : Sig) (E : TEnv) : GTy → Bool
  | .string => (E "string").isNone
  | .uint 8 => (E "uint8").isNone
  | .uint 16 => (E "uint16").isNone
  | .uint 32 => (E "uint32").isNone
  | .uint 64 => (E "uint64").isNone
  | .uint _ => false
  | .byte => (E "byte").isNone
  | .int => (E "int").isNone
  | .ptr T => (P.types.lookup T).isSome && (E T).isNone
  | .array n t => decide (0 ≤ n ∧ n < 2 ^ 63) && validTy P E t
  | .slice t => validTy P E t
  | .error => (E "error").isNone

/-- `if c then a`. Auxiliary to the checks of statements printed at gen/decl.go:121-316. -/
def guardT {α : Type} (c : Bool) (a : Option α) : Option α := if c then a else none

/-- Type of a field. gen/decl.go:146,303-308. -/
def fieldTy (P : Sig) (T f : String) : Option XT :=
  match P.types.lookup T with
  | none => none
  | some fs => if f = "_" then none else (fs.lookup f).map (fun t => .ty (norm t))

/-- Type of an expression, if it has one. Expressions printed at gen/decl.go:121-336. -/
def typeOf (P : Sig) (E : TEnv) : Expr → Option XT
  | .bad => none
  | .var x => E x
  | .field e f =>
    match typeOf P E e with
    | some (.named T) => fieldTy P T f
    | some (.ty (.ptr T)) => fieldTy P T f
    | _ => none
  | .index e i =>
    match typeOf P E e, typeOf P E i with
    | some (.ty (.slice t)), some i => guardT (isIndex i) (some (.ty t))
    | some (.ty (.array _ t)), some (.ty .int) => some (.ty t)
    | _, _ => none
  | .lit n => some (.const n)
  | .len e =>
    match typeOf P E e with
    | some (.ty (.slice _)) => guardT (E "len").isNone (some (.ty .int))
    | _ => none
  | .add a b =>
    match typeOf P E a, typeOf P E b with
    | some (.ty .int), some b => guardT (isIndex b) (some (.ty .int))
    | _, _ => none
  | .sub a b =>
    match typeOf P E a, typeOf P E b with
    | some (.ty .int), some b => guardT (isIndex b) (some (.ty .int))
    | _, _ => none
  | .lt a b => cmpTy (typeOf P E a) (typeOf P E b)
  | .le a b => cmpTy (typeOf P E a) (typeOf P E b)
  | .gt a b => cmpTy (typeOf P E a) (typeOf P E b)
  | .eq a b => cmpTy (typeOf P E a) (typeOf P E b)
  | .and a b => boolTy (typeOf P E a) (typeOf P E b)
  | .or a b => boolTy (typeOf P E a) (typeOf P E b)
  | .not a => boolTy (typeOf P E a) (some .bool)
  | .toInt e =>
    match typeOf P E e with
    | some (.ty t) => guardT (isInt t && (E "int").isNone) (some (.ty .int))
    | _ => none
  | .toStr e =>
    match typeOf P E e with
    | some (.ty (.slice .byte)) => guardT (E "string").isNone (some (.ty .string))
    | _ => none
  | .sliceFrom e i => sliceTy (typeOf P E e) (typeOf P E i)
  | .sliceTo e i => sliceTy (typeOf P E e) (typeOf P E i)
  | .indexByte0 e =>
    match typeOf P E e with
    | some (.ty (.slice .byte)) => guardT (E "bytes").isNone (some (.ty .int))
    | _ => none
  | .beUint bits e =>
    match typeOf P E e with
    | some (.ty (.slice .byte)) =>
      guardT ((E "binary").isNone && (bits == 16 || bits == 32 || bits == 64)) (some (.ty (.uint bits)))
    | _ => none
  | .emptyBytes => guardT (E "byte").isNone (some .bytes)
  | .make t n =>
    match typeOf P E n with
    | some i => guardT (isIndex i && validTy P E t && (E "make").isNone) (some (.ty (.slice (norm t))))
    | none => none
  | .new T => guardT ((E "new").isNone && validTy P E (.ptr T)) (some (.ty (.ptr T)))
  | .append a b =>
    match typeOf P E a, typeOf P E b with
    | some (.ty (.slice t)), some b => guardT ((E "append").isNone && assignable b (.ty t)) (some (.ty (.slice t)))
    | _, _ => none
  | .notNil e =>
    match typeOf P E e with
    | some (.ty .error) => guardT (E "nil").isNone (some .bool)
    | _ => none
where
  /-- Comparisons. -/
  cmpTy : Option XT → Option XT → Option XT
    | some a, some b => guardT (comparable a b) (some .bool)
    | _, _ => none
  /-- Boolean operators. -/
  boolTy : Option XT → Option XT → Option XT
    | some .bool, some .bool => some .bool
    | _, _ => none
  /-- Slices of a byte slice. -/
  sliceTy : Option XT → Option XT → Option XT
    | some (.ty (.slice .byte)), some i => guardT (isIndex i) (some .bytes)
    | _, _ => none

/-- Bind a name. The blank identifier is never bound. gen/decl.go:133,170,184,242,295. -/
def TEnv.bind (E : TEnv) (x : String) (t : XT) : TEnv := fun y => if y = x ∧ x ≠ "_" then some t else E y

/-- Type of a variable declared by `x := e`. gen/decl.go:122,133,170,223,295. -/
def defTy : XT → Option XT
  | .const n => guardT (fits n .int) (some (.ty .int))
  | t => some t

/-- Whether `x` can be declared in a block that already declares `blk`. gen/decl.go:122-123,133,170,184,242,295. -/
def declarable (blk : List String) (x : String) : Bool := !(blk.contains x) && !(keywords.contains x) && x != "_"

/-- Whether an assignment `l = e` is correct. gen/decl.go:172,181,185,208-217,229,244,296,299. -/
def assignOK (P : Sig) (E : TEnv) (l : LV) (e : Expr) : Bool :=
  match typeOf P E l.expr, typeOf P E e with
  | some t, some u => assignable u t
  | _, _ => false

/-- Whether a call `l.Parse(data, args...)` is correct. gen/decl.go:190. -/
def callOK (P : Sig) (E : TEnv) (l : LV) (data : Expr) (args : List String) : Bool :=
  match typeOf P E l.expr with
  | some (.ty (.ptr T)) =>
    match P.parse.lookup T with
    | some ps => typeOf P E data == some .bytes && args.map E == ps.map (fun p => some (.named p))
    | none => false
  | _ => false

/-- The result types of a function: the first is `R`, the second `error`. gen/decl.go:131. -/
abbrev Scope := TEnv × List String

mutual
/-- Check one statement in a scope (variables, and those declared in the current block); gives the scope
after it. `R` is the first result type of the function. Statements printed at gen/decl.go:121-316. -/
def chk (P : Sig) (R : XT) : Stmt → Scope → Option Scope
  | .define x e, (E, blk) =>
    match typeOf P E e with
    | some t => (defTy t).bind fun t => guardT (declarable blk x) (some (E.bind x t, x :: blk))
    | none => none
  | .varDecl x t, (E, blk) => guardT (declarable blk x && validTy P E t) (some (E.bind x (.ty (norm t)), x :: blk))
  | .assign l e, (E, blk) => guardT (assignOK P E l e) (some (E, blk))
  | .assign2 l m e f, (E, blk) => guardT (assignOK P E l e && assignOK P E m f) (some (E, blk))
  | .callParse d x l data args, (E, blk) =>
    guardT (callOK P E l data args && E d == some .bytes && E x == some (.ty .error)) (some (E, blk))
  | .callDefine x l data args, (E, blk) =>
    guardT (callOK P E l data args && declarable blk x) (some (E.bind x (.ty .error), x :: blk))
  | .ifS c body, (E, blk) => guardT (typeOf P E c == some .bool) ((chks P R body (E, [])).map fun _ => (E, blk))
  | .block body, (E, blk) => (chks P R body (E, [])).map fun _ => (E, blk)
  | .forIdx x n body, (E, blk) =>
    guardT (declarable [] x && (typeOf P (E.bind x (.ty .int)) (.lt (.var x) n) == some .bool))
      ((chks P R body (E.bind x (.ty .int), [])).map fun _ => (E, blk))
  | .forC c body, (E, blk) => guardT (typeOf P E c == some .bool) ((chks P R body (E, [])).map fun _ => (E, blk))
  | .switch cs, (E, blk) =>
    guardT ((cs.filter (fun c => c.1.isNone)).length ≤ 1) ((chkClauses P R cs E).map fun _ => (E, blk))
  | .retNew _, (E, blk) => guardT ((E "nil").isNone && (E "errors").isNone) (some (E, blk))
  | .retErr x, (E, blk) => guardT ((E "nil").isNone && E x == some (.ty .error)) (some (E, blk))
  | .ret e, (E, blk) => guardT ((E "nil").isNone && typeOf P E e == some R) (some (E, blk))
termination_by structural s => s

/-- Check a statement list. gen/decl.go:135-137. -/
def chks (P : Sig) (R : XT) : List Stmt → Scope → Option Scope
  | [], s => some s
  | st :: ss, s => (chk P R st s).bind (chks P R ss)
termination_by structural ss => ss

/-- Check the clauses of a switch. gen/decl.go:265-276. -/
def chkClauses (P : Sig) (R : XT) : List (Option Expr × List Stmt) → TEnv → Option Unit
  | [], _ => some ()
  | (c, body) :: cs, E =>
    guardT (match c with | none => true | some c => typeOf P E c == some .bool)
      ((chks P R body (E, [])).bind fun _ => chkClauses P R cs E)
termination_by structural cs => cs
end

/-- Whether a statement list ends in a return statement. gen/decl.go:138,125. -/
def terminates : List Stmt → Bool
  | [] => false
  | [.ret _] => true
  | _ :: ss => terminates ss

/-! ## Unused variables

A variable declared in a function body must be used (Go spec "Variable declarations", implementation restriction).
Being assigned to is no use. -/

/-- Whether an expression mentions variable `x`. gen/decl.go:121-336. -/
def exprUses (x : String) : Expr → Bool
  | .bad | .lit _ | .emptyBytes | .new _ => false
  | .var y => y == x
  | .field e _ | .len e | .not e | .toInt e | .toStr e | .indexByte0 e | .beUint _ e | .make _ e | .notNil e => exprUses x e
  | .index a b | .add a b | .sub a b | .lt a b | .le a b | .gt a b | .eq a b | .and a b | .or a b | .sliceFrom a b
  | .sliceTo a b | .append a b => exprUses x a || exprUses x b

/-- Whether an assignment to a location uses `x`: not if the location is the variable itself. gen/decl.go:146. -/
def lvUses (x : String) : LV → Bool
  | .var _ => false
  | .field y _ => y == x
  | .index y _ i => y == x || i == x

/-- The variable a statement declares in its block. gen/decl.go:133,170,184,242,295. -/
def declares : Stmt → Option String
  | .define x _ => some x
  | .varDecl x _ => some x
  | .callDefine x _ _ _ => some x
  | _ => none

mutual
/-- Whether a statement uses the variable `x` of its surroundings. gen/decl.go:121-316. -/
def uses (x : String) : Stmt → Bool
  | .define _ e => exprUses x e
  | .varDecl _ _ => false
  | .assign l e => lvUses x l || exprUses x e
  | .assign2 l m e f => lvUses x l || lvUses x m || exprUses x e || exprUses x f
  | .callParse _ _ l data args => exprUses x l.expr || exprUses x data || args.contains x
  | .callDefine _ l data args => exprUses x l.expr || exprUses x data || args.contains x
  | .ifS c body => exprUses x c || usesL x body
  | .block body => usesL x body
  | .forIdx y n body => y != x && (exprUses x n || usesL x body)
  | .forC c body => exprUses x c || usesL x body
  | .switch cs => usesClauses x cs
  | .retNew _ => false
  | .retErr y => y == x
  | .ret e => exprUses x e
termination_by structural s => s

/-- Whether a list of statements uses `x`; a new declaration of `x` hides it from then on. gen/decl.go:135-137. -/
def usesL (x : String) : List Stmt → Bool
  | [] => false
  | s :: ss => uses x s || (declares s != some x && usesL x ss)
termination_by structural ss => ss

/-- Whether clauses use `x`. gen/decl.go:265-276. -/
def usesClauses (x : String) : List (Option Expr × List Stmt) → Bool
  | [] => false
  | (c, body) :: cs => (match c with | none => false | some e => exprUses x e) || usesL x body || usesClauses x cs
termination_by structural cs => cs
end

mutual
/-- Whether the variables declared in the blocks inside a statement are used; the variable of a `for` is, by the
condition. `restore`, `i`, `err`, `tmp`, `cur`: gen/decl.go:133,170,184,242,295. -/
def used : Stmt → Bool
  | .ifS _ body => usedL body
  | .block body => usedL body
  | .forIdx _ _ body => usedL body
  | .forC _ body => usedL body
  | .switch cs => usedClauses cs
  | _ => true
termination_by structural s => s

/-- Whether the variables declared in a list of statements are used afterwards. gen/decl.go:133,170,184,242,295. -/
def usedL : List Stmt → Bool
  | [] => true
  | s :: ss => (match declares s with | none => true | some x => usesL x ss) && used s && usedL ss
termination_by structural ss => ss

/-- Whether the variables declared in clauses are used. gen/decl.go:265-276. -/
def usedClauses : List (Option Expr × List Stmt) → Bool
  | [] => true
  | (_, body) :: cs => usedL body && usedClauses cs
termination_by structural cs => cs
end

/-- Bind parameters; two parameters of one name are not allowed. gen/decl.go:121,131,360-366. -/
def bindT : List (String × XT) → Scope → Option Scope
  | [], s => some s
  | (x, t) :: ps, (E, blk) => guardT (declarable blk x) (bindT ps (E.bind x t, x :: blk))

/-- Check a function with the given parameters and first result type. gen/decl.go:121,131. -/
def chkFunc (P : Sig) (ps : List (String × XT)) (R : XT) (body : List Stmt) : Bool :=
  match bindT ps (fun _ => none, []) with
  | none => false
  | some s => (chks P R body s).isSome && terminates body && usedL body

/-- Check a method: its type and the types of its parameters are declared. gen/decl.go:131-138. -/
def chkMethod (P : Sig) (m : Method) : Bool :=
  (P.types.lookup m.type).isSome && m.params.all (fun p => (P.types.lookup p.2).isSome) &&
  chkFunc P ((m.recv, .ty (.ptr m.type)) :: ("data", .bytes) :: m.params.map (fun p => (p.1, .named p.2))) .bytes m.body

/-- Check a constructor. gen/decl.go:121-126. -/
def chkCtor (P : Sig) (c : Ctor) : Bool :=
  (P.types.lookup c.type).isSome && c.params.all (fun p => (P.types.lookup p.2).isSome) &&
  chkFunc P (("data", .bytes) :: c.params.map (fun p => (p.1, .named p.2))) (.ty (.ptr c.type)) c.body

/-- Names that can be declared at package level and for fields. gen/decl.go:64,86,96. -/
def goodName (x : String) : Bool := !(keywords.contains x) && x != "_"

/-- Check a type declaration: distinct good field names of declared types. gen/decl.go:64-68,86-90. -/
def chkType (P : Sig) (d : TypeDecl) : Bool :=
  goodName d.name && d.fields.all (fun f => goodName f.1 && validTy P (fun _ => none) f.2) &&
  decide ((d.fields.map (·.1)).Nodup)

/-- Names a program declares at package level. gen/decl.go:64,86,121. -/
def Prog.names (p : Prog) : List String := p.types.map (·.name) ++ p.ctors.map (fun c => "Parse" ++ c.type)

/-- Package-level declarations visible to a program; `exts` are the types written by the user, with the
parameters of their `Parse`. gen/decl.go:63-140; user types are those at gen/decl.go:72-74. -/
def Prog.sig (p : Prog) (exts : List (String × List String)) : Sig where
  types := p.types.map (fun d => (d.name, d.fields)) ++ exts.map (fun e => (e.1, []))
  parse := p.methods.map (fun m => (m.type, m.params.map (·.2))) ++ exts

/-- Whether a program compiles, next to the user's types. Package-level names are distinct and hide no
predeclared name or package in use; a type has neither two methods nor a field called `Parse` next to its
method. The file printed by gen/decl.go:30-61. -/
def compiles (p : Prog) (exts : List (String × List String)) : Bool :=
  decide ((p.names ++ exts.map (·.1)).Nodup) &&
  p.names.all (fun x => !(builtins.contains x)) &&
  decide ((p.methods.map (·.type)).Nodup) &&
  p.types.all (chkType (p.sig exts)) &&
  p.types.all (fun d => !(p.methods.any (fun m => m.type == d.name)) || !((d.fields.map (·.1)).contains "Parse")) &&
  p.methods.all (chkMethod (p.sig exts)) &&
  p.ctors.all (chkCtor (p.sig exts))

end Verif.Go
