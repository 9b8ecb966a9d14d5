import Verif.GoSyntax
/-!
# Specification: reading Go source text

The lexical and syntactic grammar of Go, as far as emitted code needs it, following the Go language
specification: longest tokens, automatic semicolons, binary operators with precedence, statements, declarations.
Text outside the subset is not read (`none`).  The result is a syntax tree of general Go forms (`GExpr`,
`GStmt`, `GDecl`), and from this the program of `Verif/GoSyntax` is taken (`progOf`).

The subset leaves out: letters outside ASCII, number literals other than decimal and hexadecimal integers, characters,
raw strings and escapes, block comments, `...`, function literals, labels, `else`, `if` and `switch` with an initial
statement or a value, composite literals of named types, grouped declarations and parameters.
-/
namespace Verif.Go.Read
open Verif Verif.Go

/-! ## Tokens -/

/-- Keywords of Go. -/
inductive Kw where
  | break | case | chan | const | continue | default | defer | else | fallthrough | for | func | go | goto | if
  | import | interface | map | package | range | return | select | struct | switch | type | var
deriving DecidableEq, Repr

/-- Spelling of keywords. -/
def keywords : List (List Char × Kw) := [
  ("break".toList, .break), ("case".toList, .case), ("chan".toList, .chan), ("const".toList, .const),
  ("continue".toList, .continue), ("default".toList, .default), ("defer".toList, .defer), ("else".toList, .else),
  ("fallthrough".toList, .fallthrough), ("for".toList, .for), ("func".toList, .func), ("go".toList, .go),
  ("goto".toList, .goto), ("if".toList, .if), ("import".toList, .import), ("interface".toList, .interface),
  ("map".toList, .map), ("package".toList, .package), ("range".toList, .range), ("return".toList, .return),
  ("select".toList, .select), ("struct".toList, .struct), ("switch".toList, .switch), ("type".toList, .type),
  ("var".toList, .var)]

/-- Operators and punctuation; those not used in the subset are `other`. -/
inductive Op where
  | lparen | rparen | lbrack | rbrack | lbrace | rbrace | comma | semi | colon | dot
  | assign | define | eq | ne | lt | le | gt | ge | and | or | not | plus | minus | star | inc | dec
  | other (s : List Char)
deriving DecidableEq, Repr

/-- Spelling of operators and punctuation (all of Go but `...`). -/
def operators : List (List Char × Op) := [
  (['('], .lparen), ([')'], .rparen), (['['], .lbrack), ([']'], .rbrack), (['{'], .lbrace), (['}'], .rbrace),
  ([','], .comma), ([';'], .semi), ([':'], .colon), (['.'], .dot), (['='], .assign), ([':', '='], .define),
  (['=', '='], .eq), (['!', '='], .ne), (['<'], .lt), (['<', '='], .le), (['>'], .gt), (['>', '='], .ge),
  (['&', '&'], .and), (['|', '|'], .or), (['!'], .not), (['+'], .plus), (['-'], .minus), (['*'], .star),
  (['+', '+'], .inc), (['-', '-'], .dec)] ++
  ["&", "|", "^", "/", "%", "~", "&^", "<<", ">>", "<-", "+=", "-=", "*=", "/=", "%=", "&=", "|=", "^=", "<<=", ">>=",
    "&^="].map (fun s => (s.toList, .other s.toList))

/-- Tokens. -/
inductive Tok where
  | id (x : String)
  | kw (k : Kw)
  | int (n : Nat)
  | str (s : String)
  | op (o : Op)
deriving DecidableEq, Repr

/-! ## Lexical analysis

An automaton reading one character at a time. A token is complete when the next character does not extend it. -/

/-- ASCII letters and underscore. -/
def letter (c : Char) : Bool := c.isAlpha || c = '_'

/-- Letters and digits. -/
def wordChar (c : Char) : Bool := c.isAlphanum || c = '_'

/-- What is being read. -/
inductive Mode where
  | start
  | word (w : List Char)
  | num (w : List Char)
  | hex (w : List Char)
  | op (w : List Char)
  | str (w : List Char)
  | comment
  | bad
deriving DecidableEq, Repr

/-- A word is a keyword or an identifier. -/
def wordTok (w : List Char) : Tok :=
  match keywords.lookup w with
  | some k => .kw k
  | none => .id (String.ofList w)

/-- The value of decimal digits. -/
def decimal (ds : List Char) : Nat := ds.foldl (fun n c => n * 10 + (c.toNat - 48)) 0

/-- The value of a hexadecimal digit. -/
def hexVal (c : Char) : Option Nat :=
  if c.isDigit then some (c.toNat - 48)
  else if 'a' ≤ c ∧ c ≤ 'f' then some (c.toNat - 87)
  else if 'A' ≤ c ∧ c ≤ 'F' then some (c.toNat - 55)
  else none

/-- The value of hexadecimal digits. -/
def hexadecimal (ds : List Char) : Nat := ds.foldl (fun n c => n * 16 + (hexVal c).getD 0) 0

/-- The operator spelled `w`. -/
def opTok (w : List Char) : Tok := .op ((operators.lookup w).getD (.other w))

/-- Whether a newline after this token is a semicolon: identifiers, literals, `break`, `continue`,
`fallthrough`, `return`, `++`, `--`, `)`, `]`, `}`. -/
def ends : Tok → Bool
  | .id _ | .int _ | .str _ => true
  | .kw k => k ∈ [.break, .continue, .fallthrough, .return]
  | .op o => o ∈ [.inc, .dec, .rparen, .rbrack, .rbrace]

/-- The pending token, if any, is complete. `semi` tells whether a newline now is a semicolon. -/
def cut : Mode → Bool → List Tok × Bool
  | .word w, _ => ([wordTok w], ends (wordTok w))
  | .num w, _ => ([.int (decimal w)], true)
  | .hex w, _ => ([.int (hexadecimal w)], true)
  | .op w, _ => ([opTok w], ends (opTok w))
  | _, semi => ([], semi)

/-- Read a character with no token pending. -/
def fresh (semi : Bool) (c : Char) : List Tok × Mode × Bool :=
  if c = '\n' then (if semi then [.op .semi] else [], .start, false)
  else if c = ' ' || c = '\t' || c = '\r' then ([], .start, semi)
  else if letter c then ([], .word [c], semi)
  else if c.isDigit then ([], .num [c], semi)
  else if c = '"' then ([], .str [], semi)
  else if (operators.lookup [c]).isSome then ([], .op [c], semi)
  else ([], .bad, semi)

/-- Complete the pending token, then read a character. -/
def next (m : Mode) (semi : Bool) (c : Char) : List Tok × Mode × Bool :=
  let p := cut m semi
  let q := fresh p.2 c
  (p.1 ++ q.1, q.2)

/-- Read a character. -/
def step (m : Mode) (semi : Bool) (c : Char) : List Tok × Mode × Bool :=
  match m with
  | .start => fresh semi c
  | .word w => if wordChar c then ([], .word (w ++ [c]), semi) else next m semi c
  | .num w =>
    if c.isDigit then ([], if w = ['0'] then .bad else .num (w ++ [c]), semi)
    else if w = ['0'] ∧ (c = 'x' ∨ c = 'X') then ([], .hex [], semi)
    else if letter c || c = '.' then ([], .bad, semi)
    else next m semi c
  | .hex w =>
    if (hexVal c).isSome then ([], .hex (w ++ [c]), semi)
    else if w = [] || letter c || c = '.' then ([], .bad, semi)
    else next m semi c
  | .op w =>
    if w ++ [c] = ['/', '/'] then ([], .comment, semi)
    else if w ++ [c] = ['/', '*'] then ([], .bad, semi)
    else if (operators.lookup (w ++ [c])).isSome then ([], .op (w ++ [c]), semi)
    else next m semi c
  | .str w =>
    if c = '"' then ([.str (String.ofList w)], .start, true)
    else if c = '\\' || c = '\n' then ([], .bad, semi)
    else ([], .str (w ++ [c]), semi)
  | .comment => if c = '\n' then fresh semi c else ([], .comment, semi)
  | .bad => ([], .bad, semi)

/-- Read characters. -/
def scan : Mode → Bool → List Char → List Tok × Mode × Bool
  | m, semi, [] => ([], m, semi)
  | m, semi, c :: cs =>
    let p := step m semi c
    let q := scan p.2.1 p.2.2 cs
    (p.1 ++ q.1, q.2)

/-- The tokens of a text, with a semicolon at the end where a newline would be one. -/
def tokens (text : List Char) : Option (List Tok) :=
  let p := scan .start false text
  match p.2.1 with
  | .bad | .str _ | .hex [] => none
  | m =>
    let q := cut m p.2.2
    some (p.1 ++ q.1 ++ if q.2 then [.op .semi] else [])

/-! ## Syntax trees -/

/-- Types: names, names of packages, pointers, slices, arrays with a literal length, structs. -/
inductive GType where
  | name (x : String)
  | qual (p x : String)
  | ptr (t : GType)
  | slice (t : GType)
  | array (n : Nat) (t : GType)
  | struct (fields : List (String × GType))

/-- Expressions. `type` is a type in an argument list or before arguments, `lit` a composite literal, whose type can be
left out inside another one and whose elements can have a key. -/
inductive GExpr where
  | id (x : String)
  | int (n : Nat)
  | str (s : String)
  | type (t : GType)
  | lit (t : Option GType) (es : List (Option String × GExpr))
  | sel (e : GExpr) (f : String)
  | index (e i : GExpr)
  | slice (e : GExpr) (lo hi : Option GExpr)
  | call (f : GExpr) (args : List GExpr)
  | unary (o : Op) (e : GExpr)
  | binary (o : Op) (a b : GExpr)

/-- Statements. -/
inductive GStmt where
  | expr (e : GExpr)
  | define (l r : List GExpr)
  | assign (l r : List GExpr)
  | inc (e : GExpr)
  | varDecl (x : String) (t : GType)
  | ret (es : List GExpr)
  | block (ss : List GStmt)
  | ifS (c : GExpr) (ss : List GStmt)
  | forever (ss : List GStmt)
  | while (c : GExpr) (ss : List GStmt)
  | forS (init : GStmt) (c : GExpr) (post : GStmt) (ss : List GStmt)
  | range (l : List GExpr) (e : GExpr) (ss : List GStmt)
  | switch (cs : List (Option (List GExpr) × List GStmt))

/-- Declarations: `type x struct { … }`, methods and functions. -/
inductive GDecl where
  | struct (x : String) (fields : List (String × GType))
  | method (recv : String) (t : GType) (x : String) (params : List (String × GType)) (results : List GType) (body : List GStmt)
  | func (x : String) (params : List (String × GType)) (results : List GType) (body : List GStmt)

/-! ## Parsing

Recursive descent; `n` bounds the depth of calls. -/

/-- Precedence of binary operators; 0 if it is none. -/
def prec : Op → Nat
  | .or => 1
  | .and => 2
  | .eq | .ne | .lt | .le | .gt | .ge => 3
  | .plus | .minus => 4
  | .star => 5
  | .other s => if s ∈ ["|".toList, "^".toList] then 4 else
      if s ∈ ["/".toList, "%".toList, "<<".toList, ">>".toList, "&".toList, "&^".toList] then 5 else 0
  | _ => 0

mutual
/-- A type. -/
def pType : Nat → List Tok → Option (GType × List Tok)
  | 0, _ => none
  | n + 1, ts =>
    match ts with
    | .id p :: .op .dot :: .id x :: r => some (.qual p x, r)
    | .id _ :: .op .dot :: _ => none
    | .id x :: r => some (.name x, r)
    | .op .star :: r => (pType n r).map fun p => (.ptr p.1, p.2)
    | .op .lbrack :: .op .rbrack :: r => (pType n r).map fun p => (.slice p.1, p.2)
    | .op .lbrack :: .int k :: .op .rbrack :: r => (pType n r).map fun p => (.array k p.1, p.2)
    | .kw .struct :: .op .lbrace :: r =>
      match pFields n r with
      | some (fs, .op .rbrace :: r) => some (.struct fs, r)
      | _ => none
    | _ => none

/-- Fields of a struct type, each ended by a semicolon, up to `}`. -/
def pFields : Nat → List Tok → Option (List (String × GType) × List Tok)
  | 0, _ => none
  | n + 1, ts =>
    match ts with
    | .op .rbrace :: _ => some ([], ts)
    | .id x :: r =>
      match pType n r with
      | some (t, .op .semi :: r) => (pFields n r).map fun p => ((x, t) :: p.1, p.2)
      | _ => none
    | _ => none
end

mutual
/-- An expression of operators of precedence at least `p`. -/
def pBin : Nat → Nat → List Tok → Option (GExpr × List Tok)
  | 0, _, _ => none
  | n + 1, p, ts =>
    match pUnary n ts with
    | none => none
    | some (x, r) => binLoop n p x r

/-- More operands to the right of `x`. -/
def binLoop : Nat → Nat → GExpr → List Tok → Option (GExpr × List Tok)
  | 0, _, _, _ => none
  | n + 1, p, x, ts =>
    match ts with
    | .op o :: r =>
      if prec o ≠ 0 ∧ p ≤ prec o then
        match pBin n (prec o + 1) r with
        | none => none
        | some (y, r) => binLoop n p (.binary o x y) r
      else some (x, ts)
    | _ => some (x, ts)

/-- An operand with unary operators. -/
def pUnary : Nat → List Tok → Option (GExpr × List Tok)
  | 0, _ => none
  | n + 1, ts =>
    match ts with
    | .op .not :: r => (pUnary n r).map fun p => (.unary .not p.1, p.2)
    | .op .minus :: r => (pUnary n r).map fun p => (.unary .minus p.1, p.2)
    | .id x :: r => postLoop n (.id x) r
    | .int k :: r => postLoop n (.int k) r
    | .str s :: r => postLoop n (.str s) r
    | .op .lparen :: r =>
      match pBin n 1 r with
      | some (x, .op .rparen :: r) => postLoop n x r
      | _ => none
    | .op .lbrack :: _ =>
      match pType n ts with
      | some (t, .op .lbrace :: r) =>
        match pElems n r with
        | some (es, r) => postLoop n (.lit (some t) es) r
        | none => none
      | some (t, .op .lparen :: r) => postLoop n (.type t) (.op .lparen :: r)
      | some (t, r) => some (.type t, r)
      | none => none
    | _ => none

/-- Selectors, calls, indices and slices after an operand. -/
def postLoop : Nat → GExpr → List Tok → Option (GExpr × List Tok)
  | 0, _, _ => none
  | n + 1, x, ts =>
    match ts with
    | .op .dot :: .id f :: r => postLoop n (.sel x f) r
    | .op .dot :: _ => none
    | .op .lparen :: .op .rparen :: r => postLoop n (.call x []) r
    | .op .lparen :: r =>
      match pList n r with
      | some (as, .op .rparen :: r) => postLoop n (.call x as) r
      | _ => none
    | .op .lbrack :: .op .colon :: .op .rbrack :: r => postLoop n (.slice x none none) r
    | .op .lbrack :: .op .colon :: r =>
      match pBin n 1 r with
      | some (i, .op .rbrack :: r) => postLoop n (.slice x none (some i)) r
      | _ => none
    | .op .lbrack :: r =>
      match pBin n 1 r with
      | some (i, .op .rbrack :: r) => postLoop n (.index x i) r
      | some (i, .op .colon :: .op .rbrack :: r) => postLoop n (.slice x (some i) none) r
      | some (i, .op .colon :: r) =>
        match pBin n 1 r with
        | some (j, .op .rbrack :: r) => postLoop n (.slice x (some i) (some j)) r
        | _ => none
      | _ => none
    | _ => some (x, ts)

/-- Expressions separated by commas. -/
def pList : Nat → List Tok → Option (List GExpr × List Tok)
  | 0, _ => none
  | n + 1, ts =>
    match pBin n 1 ts with
    | none => none
    | some (x, .op .comma :: r) => (pList n r).map fun p => (x :: p.1, p.2)
    | some (x, r) => some ([x], r)

/-- Elements of a composite literal, up to and including `}`; a comma may follow the last one. -/
def pElems : Nat → List Tok → Option (List (Option String × GExpr) × List Tok)
  | 0, _ => none
  | n + 1, ts =>
    match ts with
    | .op .rbrace :: r => some ([], r)
    | _ =>
      match pElem n ts with
      | some (e, .op .comma :: r) => (pElems n r).map fun p => (e :: p.1, p.2)
      | some (e, .op .rbrace :: r) => some ([e], r)
      | _ => none

/-- An element with or without a key, which must be an identifier. -/
def pElem : Nat → List Tok → Option ((Option String × GExpr) × List Tok)
  | 0, _ => none
  | n + 1, ts =>
    match ts with
    | .id k :: .op .colon :: r => (pVal n r).map fun p => ((some k, p.1), p.2)
    | _ => (pVal n ts).map fun p => ((none, p.1), p.2)

/-- The value of an element: an expression, or elements in braces. -/
def pVal : Nat → List Tok → Option (GExpr × List Tok)
  | 0, _ => none
  | n + 1, ts =>
    match ts with
    | .op .lbrace :: r => (pElems n r).map fun p => (.lit none p.1, p.2)
    | _ => pBin n 1 ts
end

/-- A statement that is an expression, an assignment, a short declaration or an increment. -/
def pSimple (n : Nat) (ts : List Tok) : Option (GStmt × List Tok) :=
  match pList n ts with
  | some (l, .op .define :: r) => (pList n r).map fun p => (.define l p.1, p.2)
  | some (l, .op .assign :: r) => (pList n r).map fun p => (.assign l p.1, p.2)
  | some ([x], .op .inc :: r) => some (.inc x, r)
  | some ([x], r) => some (.expr x, r)
  | _ => none

/-- The header `l := range e`. -/
def pRange (n : Nat) (ts : List Tok) : Option ((List GExpr × GExpr) × List Tok) :=
  match pList n ts with
  | some (l, .op .define :: .kw .range :: r) => (pBin n 1 r).map fun p => ((l, p.1), p.2)
  | _ => none

mutual
/-- A statement. -/
def pStmt : Nat → List Tok → Option (GStmt × List Tok)
  | 0, _ => none
  | n + 1, ts =>
    match ts with
    | .kw .return :: .op .semi :: r => some (.ret [], .op .semi :: r)
    | .kw .return :: .op .rbrace :: r => some (.ret [], .op .rbrace :: r)
    | .kw .return :: r => (pList n r).map fun p => (.ret p.1, p.2)
    | .kw .var :: .id x :: r => (pType n r).map fun p => (.varDecl x p.1, p.2)
    | .op .lbrace :: r => (pBlock n (.op .lbrace :: r)).map fun p => (.block p.1, p.2)
    | .kw .if :: r =>
      match pBin n 1 r with
      | none => none
      | some (c, r) => (pBlock n r).map fun p => (.ifS c p.1, p.2)
    | .kw .for :: .op .lbrace :: r => (pBlock n (.op .lbrace :: r)).map fun p => (.forever p.1, p.2)
    | .kw .for :: r =>
      match pSimple n r with
      | some (init, .op .semi :: r) =>
        match pBin n 1 r with
        | some (c, .op .semi :: r) =>
          match pSimple n r with
          | none => none
          | some (post, r) => (pBlock n r).map fun p => (.forS init c post p.1, p.2)
        | _ => none
      | some (.expr c, r) => (pBlock n r).map fun p => (.while c p.1, p.2)
      | some _ => none
      | none =>
        match pRange n r with
        | none => none
        | some (h, r) => (pBlock n r).map fun p => (.range h.1 h.2 p.1, p.2)
    | .kw .switch :: .op .lbrace :: r =>
      match pClauses n r with
      | some (cs, .op .rbrace :: r) => some (.switch cs, r)
      | _ => none
    | _ => pSimple n ts

/-- `{ … }`. -/
def pBlock : Nat → List Tok → Option (List GStmt × List Tok)
  | 0, _ => none
  | n + 1, ts =>
    match ts with
    | .op .lbrace :: r =>
      match pStmts n r with
      | some (ss, .op .rbrace :: r) => some (ss, r)
      | _ => none
    | _ => none

/-- Statements, up to `}`, `case` or `default`. -/
def pStmts : Nat → List Tok → Option (List GStmt × List Tok)
  | 0, _ => none
  | n + 1, ts =>
    match ts with
    | .op .rbrace :: _ | .kw .case :: _ | .kw .default :: _ => some ([], ts)
    | .op .semi :: r => pStmts n r
    | _ =>
      match pStmt n ts with
      | some (s, .op .semi :: r) => (pStmts n r).map fun p => (s :: p.1, p.2)
      | some (s, .op .rbrace :: r) => some ([s], .op .rbrace :: r)
      | _ => none

/-- Clauses of a switch, up to `}`. -/
def pClauses : Nat → List Tok → Option (List (Option (List GExpr) × List GStmt) × List Tok)
  | 0, _ => none
  | n + 1, ts =>
    match ts with
    | .op .rbrace :: _ => some ([], ts)
    | .kw .default :: .op .colon :: r =>
      match pStmts n r with
      | none => none
      | some (ss, r) => (pClauses n r).map fun p => ((none, ss) :: p.1, p.2)
    | .kw .case :: r =>
      match pList n r with
      | some (es, .op .colon :: r) =>
        match pStmts n r with
        | none => none
        | some (ss, r) => (pClauses n r).map fun p => ((some es, ss) :: p.1, p.2)
      | _ => none
    | _ => none
end

/-- Parameters `x T, …` up to `)`, at least one. -/
def pParams : Nat → List Tok → Option (List (String × GType) × List Tok)
  | 0, _ => none
  | n + 1, ts =>
    match ts with
    | .id x :: r =>
      match pType n r with
      | some (t, .op .comma :: r) => (pParams n r).map fun p => ((x, t) :: p.1, p.2)
      | some (t, .op .rparen :: r) => some ([(x, t)], r)
      | _ => none
    | _ => none

/-- Result types `T, …` up to `)`, at least one. -/
def pResults : Nat → List Tok → Option (List GType × List Tok)
  | 0, _ => none
  | n + 1, ts =>
    match pType n ts with
    | some (t, .op .comma :: r) => (pResults n r).map fun p => (t :: p.1, p.2)
    | some (t, .op .rparen :: r) => some ([t], r)
    | _ => none

/-- Parameters, results and body of a function. -/
def pSig (n : Nat) (ts : List Tok) : Option ((List (String × GType) × List GType × List GStmt) × List Tok) :=
  match ts with
  | .op .lparen :: r =>
    match pParams n r with
    | some (ps, .op .lparen :: r) =>
      match pResults n r with
      | none => none
      | some (rs, r) => (pBlock n r).map fun p => ((ps, rs, p.1), p.2)
    | some (ps, .op .lbrace :: r) => (pBlock n (.op .lbrace :: r)).map fun p => ((ps, [], p.1), p.2)
    | some (ps, r) =>
      match pType n r with
      | none => none
      | some (t, r) => (pBlock n r).map fun p => ((ps, [t], p.1), p.2)
    | none => none
  | _ => none

/-- The rest of `import ( … )`. -/
def pImports : List Tok → Option (List Tok)
  | .str _ :: .op .semi :: r => pImports r
  | .op .rparen :: .op .semi :: r => some r
  | _ => none

/-- Declarations up to the end of the text, each ended by a semicolon. Imports are skipped. -/
def pDecls : Nat → List Tok → Option (List GDecl)
  | 0, _ => none
  | n + 1, ts =>
    match ts with
    | [] => some []
    | .kw .import :: .str _ :: .op .semi :: r => pDecls n r
    | .kw .import :: .op .lparen :: r =>
      match pImports r with
      | some r => pDecls n r
      | none => none
    | .kw .type :: .id x :: .kw .struct :: .op .lbrace :: r =>
      match pFields n r with
      | some (fs, .op .rbrace :: .op .semi :: r) => (pDecls n r).map (.struct x fs :: ·)
      | _ => none
    | .kw .func :: .op .lparen :: .id v :: r =>
      match pType n r with
      | some (t, .op .rparen :: .id x :: r) =>
        match pSig n r with
        | some ((ps, rs, b), .op .semi :: r) => (pDecls n r).map (.method v t x ps rs b :: ·)
        | _ => none
      | _ => none
    | .kw .func :: .id x :: r =>
      match pSig n r with
      | some ((ps, rs, b), .op .semi :: r) => (pDecls n r).map (.func x ps rs b :: ·)
      | _ => none
    | _ => none

/-- A source file: the package clause and declarations. -/
def pFile (n : Nat) : List Tok → Option (String × List GDecl)
  | .kw .package :: .id x :: .op .semi :: r => (pDecls n r).map fun ds => (x, ds)
  | _ => none

/-! ## From general forms to those of `Verif/GoSyntax` -/

/-- Types. -/
def tyOf : GType → Option GTy
  | .name x =>
    if x = "string" then some .string
    else if x = "uint8" then some (.uint 8)
    else if x = "uint16" then some (.uint 16)
    else if x = "uint32" then some (.uint 32)
    else if x = "uint64" then some (.uint 64)
    else if x = "byte" then some .byte
    else if x = "int" then some .int
    else if x = "error" then some .error
    else none
  | .qual _ _ => none
  | .struct _ => none
  | .ptr (.name x) => some (.ptr x)
  | .ptr _ => none
  | .slice t => (tyOf t).map .slice
  | .array n t => (tyOf t).map (.array n)

/-- A call of a predeclared or package function with one argument. -/
def callOf (f : GExpr) (e : Expr) : Option Expr :=
  match f with
  | .id x => if x = "len" then some (.len e) else if x = "int" then some (.toInt e)
      else if x = "string" then some (.toStr e) else none
  | .sel (.sel (.id p) q) x =>
    if p = "binary" ∧ q = "BigEndian" then
      if x = "Uint8" then some (.beUint 8 e)
      else if x = "Uint16" then some (.beUint 16 e)
      else if x = "Uint32" then some (.beUint 32 e)
      else if x = "Uint64" then some (.beUint 64 e)
      else none
    else none
  | _ => none

/-- Binary operators but `!=`. -/
def binOf (o : Op) (a b : Expr) : Option Expr :=
  match o with
  | .plus => some (.add a b)
  | .minus => some (.sub a b)
  | .lt => some (.lt a b)
  | .le => some (.le a b)
  | .gt => some (.gt a b)
  | .eq => some (.eq a b)
  | .and => some (.and a b)
  | .or => some (.or a b)
  | _ => none

/-- Expressions. -/
def exprOf : GExpr → Option Expr
  | .id x => some (.var x)
  | .int n => some (.lit n)
  | .str _ => none
  | .type _ => none
  | .lit (some (.slice (.name b))) [] => if b = "byte" then some .emptyBytes else none
  | .lit _ _ => none
  | .sel e f => (exprOf e).map (.field · f)
  | .index e i => do return .index (← exprOf e) (← exprOf i)
  | .slice e (some i) none => do return .sliceFrom (← exprOf e) (← exprOf i)
  | .slice e none (some i) => do return .sliceTo (← exprOf e) (← exprOf i)
  | .slice _ _ _ => none
  | .call f [.type t, e] =>
    match f, t with
    | .id x, .slice t => if x = "make" then do return .make (← tyOf t) (← exprOf e) else none
    | _, _ => none
  | .call f [a, b] =>
    match f with
    | .id x => if x = "append" then do return .append (← exprOf a) (← exprOf b) else none
    | .sel (.id p) x =>
      if p = "bytes" ∧ x = "IndexByte" then
        match b with
        | .int 0 => (exprOf a).map .indexByte0
        | _ => none
      else none
    | _ => none
  | .call f [e] =>
    match f, e with
    | .id g, .id T => if g = "new" then some (.new T) else callOf f (.var T)
    | _, _ => do callOf f (← exprOf e)
  | .call _ _ => none
  | .unary .not e => (exprOf e).map .not
  | .unary _ _ => none
  | .binary .ne a (.id x) => if x = "nil" then (exprOf a).map .notNil else none
  | .binary o a b => do binOf o (← exprOf a) (← exprOf b)

/-- Locations. -/
def lvOf : GExpr → Option LV
  | .id x => some (.var x)
  | .sel (.id x) f => some (.field x f)
  | .index (.sel (.id x) f) (.id i) => some (.index x f i)
  | _ => none

/-- Identifiers. -/
def nameOf : GExpr → Option String
  | .id x => some x
  | _ => none

/-- A call `l.Parse(data, args…)`. -/
def parseCallOf : GExpr → Option (LV × Expr × List String)
  | .call (.sel l f) (d :: args) => if f = "Parse" then do some (← lvOf l, ← exprOf d, ← args.mapM nameOf) else none
  | _ => none

/-- `return nil, errors.New(m)`, `return nil, x` and `return e, nil`. -/
def retOf : List GExpr → Option Stmt
  | [a, .call (.sel (.id p) f) [.str m]] =>
    match a with
    | .id x => if x = "nil" ∧ p = "errors" ∧ f = "New" then some (.retNew m) else none
    | _ => none
  | [a, .id y] =>
    match a with
    | .id x => if x = "nil" then some (.retErr y) else if y = "nil" then some (.ret (.var x)) else none
    | _ => if y = "nil" then (exprOf a).map .ret else none
  | _ => none

/-- Assignments. -/
def assignOf : List GExpr → List GExpr → Option Stmt
  | [l], [e] => do return .assign (← lvOf l) (← exprOf e)
  | [l, m], [e, f] => do return .assign2 (← lvOf l) (← lvOf m) (← exprOf e) (← exprOf f)
  | [.id d, .id e], [c] => (parseCallOf c).map fun p => .callParse d e p.1 p.2.1 p.2.2
  | _, _ => none

/-- Short declarations. -/
def defineOf : List GExpr → List GExpr → Option Stmt
  | [.id x], [e] => (exprOf e).map (.define x)
  | [.id b, .id e], [c] => if b = "_" then (parseCallOf c).map fun p => .callDefine e p.1 p.2.1 p.2.2 else none
  | _, _ => none

/-- The header `x := 0; x < n; x++`. -/
def headerOf : GStmt → GExpr → GStmt → Option (String × Expr)
  | .define [.id x] [.int 0], .binary .lt (.id y) e, .inc (.id z) =>
    if x = y ∧ x = z then (exprOf e).map fun n => (x, n) else none
  | _, _, _ => none

mutual
/-- Statements. -/
def stmtOf : GStmt → Option Stmt
  | .expr _ => none
  | .define l r => defineOf l r
  | .assign l r => assignOf l r
  | .inc _ => none
  | .varDecl x t => (tyOf t).map (.varDecl x)
  | .ret es => retOf es
  | .block ss => (stmtsOf ss).map .block
  | .ifS c ss => do return .ifS (← exprOf c) (← stmtsOf ss)
  | .forever _ => none
  | .while c ss => do return .forC (← exprOf c) (← stmtsOf ss)
  | .forS i c p ss =>
    match headerOf i c p with
    | none => none
    | some h => (stmtsOf ss).map (.forIdx h.1 h.2)
  | .range _ _ _ => none
  | .switch cs => (clausesOf cs).map .switch

/-- Lists of statements. -/
def stmtsOf : List GStmt → Option (List Stmt)
  | [] => some []
  | s :: ss => do return (← stmtOf s) :: (← stmtsOf ss)

/-- Clauses. -/
def clausesOf : List (Option (List GExpr) × List GStmt) → Option (List (Option Expr × List Stmt))
  | [] => some []
  | (none, ss) :: cs => do return (none, ← stmtsOf ss) :: (← clausesOf cs)
  | (some [e], ss) :: cs => do return (some (← exprOf e), ← stmtsOf ss) :: (← clausesOf cs)
  | (some _, _) :: _ => none
end

/-- Parameters after `data []byte`: a name and a type name each. -/
def paramsOf : List (String × GType) → Option (List (String × String))
  | (x, .slice (.name b)) :: ps =>
    if x = "data" ∧ b = "byte" then ps.mapM fun p => match p with
      | (x, .name t) => some (x, t)
      | _ => none
    else none
  | _ => none

/-- A field of a struct type. -/
def fieldOf (p : String × GType) : Option (String × GTy) := (tyOf p.2).map fun t => (p.1, t)

/-- Declarations. -/
def declOf : GDecl → Option Prog
  | .struct x fs => (fs.mapM fieldOf).map fun fs => ⟨[⟨x, fs⟩], [], []⟩
  | .method v (.ptr (.name T)) x ps [.slice (.name b), .name e] body =>
    if x = "Parse" ∧ b = "byte" ∧ e = "error" then do
      some ⟨[], [⟨T, v, ← paramsOf ps, ← stmtsOf body⟩], []⟩
    else none
  | .func x ps [.ptr (.name T), .name e] body =>
    if x = "Parse" ++ T ∧ e = "error" then do some ⟨[], [], [⟨T, ← paramsOf ps, ← stmtsOf body⟩]⟩
    else none
  | _ => none

/-- Declarations in order, by kind. -/
def progOf : List GDecl → Option Prog
  | [] => some ⟨[], [], []⟩
  | d :: ds => do
    let p ← declOf d
    let q ← progOf ds
    some ⟨p.types ++ q.types, p.methods ++ q.methods, p.ctors ++ q.ctors⟩

/-- Read the text of a source file: package name and program. -/
def readGo (n : Nat) (text : List Char) : Option (String × Prog) := do
  let ts ← tokens text
  let f ← pFile n ts
  let p ← progOf f.2
  some (f.1, p)

end Verif.Go.Read
