import Verif.PegTyped
/-!
# What the source parser reports

`Verif/Peg.lean` models which texts `parse/internal/parser/gen-parser.go` accepts and what it returns for them. Here
the same interpreter is modelled with everything that goes into the error it returns: the position in the text, the list
of recorded errors, and the farthest position where a match failed together with what was expected there.

Texts are lists of characters. As in `Verif/Peg.lean`, statistics, the memo table and the expression kinds the grammar does
not use are left out. What a panic would report is left out too: `Verif/PegTyped.lean` shows there is none.
-/
namespace Verif.Peg
open Verif Verif.Ast

/-! ## Positions and errors -/

/-- gen-parser.go:3172-3175 `position`. -/
structure Pos where
  line : Nat
  col : Nat
  offset : Nat
deriving Repr, DecidableEq

/-- The number of bytes `utf8.DecodeRune` reports for a rune (gen-parser.go:3604 `n`). -/
def Rune.width : Rune → Nat
  | .ok c => c.utf8Size
  | .bad _ => 1

/-- gen-parser.go:3181-3183 `p.pt.w` for the current rune: 0 at the end. -/
def headWidth : List Rune → Nat
  | [] => 0
  | r :: _ => r.width

/-- gen-parser.go:3609-3612: the current rune is a line feed. -/
def headNewline : List Rune → Bool
  | [] => false
  | r :: _ => r.char == '\n'

/-- The errors that can be recorded: an invalid byte (gen-parser.go:3615) or what an action returned (3901-3903), here the
text the action was given. -/
inductive Cause where
  | encoding
  | action (text : List Rune)
deriving Repr, DecidableEq

/-- gen-parser.go:3354-3359 `parserError`, with the rule on top of the stack of rules instead of the `prefix` made from it; `expected`
is not kept, as nothing reads it. -/
structure PErr where
  rule : Option RuleName
  pos : Pos
  inner : Cause
deriving Repr, DecidableEq

/-- The state of the parser (gen-parser.go:3434-3475): as `St`, with the position (`p.pt`), the list of errors (`p.errs`), and
`p.maxFailPos` and `p.maxFailExpected`. -/
structure DSt where
  rest : List Rune
  pos : Pos
  ling : List Val
  errs : List PErr
  maxPos : Pos
  maxExp : List (List Char)

/-- gen-parser.go:3605-3617, the second part of `read`: `rest` begins at the new offset. -/
def DSt.look (rule : Option RuleName) (rest : List Rune) (offset : Nat) (st : DSt) : DSt :=
  let pos : Pos := if headNewline rest then ⟨st.pos.line + 1, 0, offset⟩ else ⟨st.pos.line, st.pos.col + 1, offset⟩
  { st with
    rest := rest
    pos := pos
    errs := if headBad rest then st.errs ++ [⟨rule, pos, .encoding⟩] else st.errs }

/-- gen-parser.go:3602-3618 `read`; `rule` is the top of `p.rstack`, for 3615 `addErr` (3554-3580). -/
def DSt.read (rule : Option RuleName) (st : DSt) : DSt :=
  st.look rule (st.rest.drop 1) (st.pos.offset + headWidth st.rest)

/-- gen-parser.go:3621-3629 `restore`: nothing happens when the offset is the same. -/
def DSt.restore (st saved : DSt) : DSt :=
  if saved.pos.offset = st.pos.offset then st else { st with rest := saved.rest, pos := saved.pos }

/-- gen-parser.go:3672-3678 `restoreState` followed by `restore`. -/
def DSt.back (st saved : DSt) : DSt := ({ st with ling := saved.ling } : DSt).restore saved

/-- gen-parser.go:3582-3600 `failAt`; `inv` is `p.maxFailInvertExpected`. -/
def DSt.failAt (inv fail : Bool) (pos : Pos) (want : List Char) (st : DSt) : DSt :=
  if fail = inv then
    if pos.offset < st.maxPos.offset then st
    else
      let st : DSt := if pos.offset > st.maxPos.offset then { st with maxPos := pos, maxExp := [] } else st
      let want := if inv then '!' :: want else want
      { st with maxExp := st.maxExp ++ [want] }
  else st

/-- gen-parser.go:3681-3683 `sliceFrom`. -/
def DSt.slice (start st : DSt) : List Rune := start.rest.take (start.rest.length - st.rest.length)

/-! ## Descriptions of terminals -/

/-- How a character is written inside quotes by `strconv.AppendQuote` (gen-parser.go:4089) and inside a class in the grammar;
only for printable ASCII characters and the escapes that occur. -/
def escape (c : Char) : List Char :=
  if c = '\n' then ['\\', 'n']
  else if c = '\t' then ['\\', 't']
  else if c = '\r' then ['\\', 'r']
  else if c = '"' then ['\\', '"']
  else if c = '\\' then ['\\', '\\']
  else [c]

/-- gen-parser.go:4085-4089: a literal as it is shown. -/
def litWant (s : String) : List Char := '"' :: (s.toList.flatMap escape ++ ['"'])

/-- The field `val` of a character class, e.g. gen-parser.go:1994, which is the class as written in the grammar (e.g.
trunnel.pigeon:459): in `trunnel.pigeon` ranges come before single characters. -/
def clsWant (chars : List Char) (ranges : List (Char × Char)) : List Char :=
  '[' :: (ranges.flatMap (fun r => escape r.1 ++ '-' :: escape r.2) ++ chars.flatMap escape ++ [']'])

/-! ## The interpreter -/

/-- The result of `parseExpr`, as `R`. gen-parser.go `parseExpr`. -/
inductive DR where
  | ok (v : Val) (env : Env) (st : DSt)
  | fail (st : DSt)
  | panic
  | timeout

/-- gen-parser.go:4091-4101 the loop of `parseLitMatcher`. As in `Verif/Peg.lean`, the end of the text matches no character: in Go
it looks like U+FFFD, which no literal of the grammar contains. -/
def dLitLoop (rule : Option RuleName) : List Char → DSt → Bool × DSt
  | [], st => (true, st)
  | c :: cs, st =>
    match st.rest with
    | [] => (false, st)
    | r :: _ => if r.char = c then dLitLoop rule cs (st.read rule) else (false, st)

/-- gen-parser.go:4192-4211 the loop of `parseSeqExpr`; `start` is the state to go back to. -/
def dSeqLoop (rec : Expr → Env → DSt → DR) (start : DSt) : List Expr → List Val → Env → DSt → DR
  | [], vals, env, st => .ok (.list vals) env st
  | e :: es, vals, env, st =>
    match rec e env st with
    | .ok v env st => dSeqLoop rec start es (vals ++ [v]) env st
    | .fail st => .fail (st.back start)
    | .panic => .panic
    | .timeout => .timeout

/-- gen-parser.go:4046-4063 the loop of `parseChoiceExpr`. -/
def dChoiceLoop (rec : Expr → Env → DSt → DR) : List Expr → Env → DSt → DR
  | [], _, st => .fail st
  | e :: es, env, st =>
    match rec e [] st with
    | .ok v _ st => .ok v env st
    | .fail st' => dChoiceLoop rec es env { st' with ling := st.ling }
    | .panic => .panic
    | .timeout => .timeout

/-- gen-parser.go:4248-4256 the loop of `parseZeroOrMoreExpr`, for at most `n` rounds. -/
def dStarLoop (rec : DSt → DR) (env : Env) : Nat → List Val → DSt → DR
  | 0, _, _ => .timeout
  | n + 1, vals, st =>
    match rec st with
    | .ok v _ st => dStarLoop rec env n (vals ++ [v]) st
    | .fail st => .ok (.list vals) env st
    | .panic => .panic
    | .timeout => .timeout

/-- gen-parser.go:3822-3885 `parseExpr`, with the given rules and at most `n` nested calls, inside `rule` (the top of
`p.rstack`), with `inv` for `p.maxFailInvertExpected`. -/
def parseD (rules : RuleName → Expr) : Nat → Option RuleName → Bool → Expr → Env → DSt → DR
  | 0, _, _, _, _, _ => .timeout
  | n + 1, rule, inv, e, env, st =>
    let rec' := parseD rules n rule inv
    match e with
    -- gen-parser.go:3887-3910 `parseActionExpr`: an error is recorded at the start of the match
    | .action e run =>
      match rec' e env st with
      | .ok _ env st' =>
        match run env (DSt.slice st st') st'.ling with
        | some (v, err) =>
          .ok v env { st' with errs := if err then st'.errs ++ [⟨rule, st.pos, .action (DSt.slice st st')⟩] else st'.errs }
        | none => .panic
      | r => r
    -- gen-parser.go:4192-4211 `parseSeqExpr`
    | .seq es => dSeqLoop rec' st es [] env st
    -- gen-parser.go:4041-4063 `parseChoiceExpr`
    | .choice es => dChoiceLoop rec' es env st
    -- gen-parser.go:4175-4190 `parseRuleRefExpr`, 3793-3820 `parseRule`
    | .ref r =>
      match parseD rules n (some r) inv (rules r) [] st with
      | .ok v _ st => .ok v env st
      | r => r
    -- gen-parser.go:4065-4078 `parseLabeledExpr`
    | .label l e =>
      match rec' e [] st with
      | .ok v _ st => .ok v ((l, v) :: env) st
      | r => r
    -- gen-parser.go:4241-4257 `parseZeroOrMoreExpr`
    | .star e => dStarLoop (rec' e []) env n [] st
    -- gen-parser.go:4141-4161 `parseOneOrMoreExpr`
    | .plus e =>
      match rec' e [] st with
      | .ok v _ st => dStarLoop (rec' e []) env n [v] st
      | r => r
    -- gen-parser.go:4259-4269 `parseZeroOrOneExpr`
    | .opt e =>
      match rec' e [] st with
      | .ok v _ st => .ok v env st
      | .fail st => .ok .nil env st
      | r => r
    -- gen-parser.go:4123-4139 `parseNotExpr`
    | .not e =>
      match parseD rules n rule (!inv) e [] st with
      | .ok _ _ st' => .fail (st'.back st)
      | .fail st' => .ok .nil env (st'.back st)
      | r => r
    -- gen-parser.go:4080-4105 `parseLitMatcher`
    | .lit s =>
      match dLitLoop rule s.toList st with
      | (true, st') => .ok (.bytes (DSt.slice st st')) env (st'.failAt inv true st.pos (litWant s))
      | (false, st') => .fail ((st'.failAt inv false st.pos (litWant s)).restore st)
    -- gen-parser.go:3960-4024 `parseCharClassMatcher`
    | .cls chars ranges =>
      match st.rest with
      | [] => .fail (st.failAt inv false st.pos (clsWant chars ranges))
      | r :: _ =>
        if inClass chars ranges r.char then
          .ok (.bytes [r]) env ((st.read rule).failAt inv true st.pos (clsWant chars ranges))
        else .fail (st.failAt inv false st.pos (clsWant chars ranges))
    -- gen-parser.go:3944-3958 `parseAnyMatcher`
    | .any =>
      match st.rest with
      | [] => .fail (st.failAt inv false st.pos ['.'])
      | r :: _ => .ok (.bytes [r]) env ((st.read rule).failAt inv true st.pos ['.'])
    -- gen-parser.go:4213-4223 `parseStateCodeExpr`
    | .code run => .ok .nil env { st with ling := run env st.ling }

/-! ## The error returned -/

/-- The names of the rules in gen-parser.go:40-2304 (`name`; no rule has a `displayName`). -/
def RuleName.name : RuleName → String
  | .File => "File"
  | .Declaration => "Declaration"
  | .ConstDeclaration => "ConstDeclaration"
  | .ContextDeclaration => "ContextDeclaration"
  | .ContextMember => "ContextMember"
  | .StructDeclaration => "StructDeclaration"
  | .StructDecl => "StructDecl"
  | .StructIdentifier => "StructIdentifier"
  | .ExternDeclaration => "ExternDeclaration"
  | .PragmaDeclaration => "PragmaDeclaration"
  | .ContextRefs => "ContextRefs"
  | .StructMember => "StructMember"
  | .StructEnding => "StructEnding"
  | .StructEOS => "StructEOS"
  | .SMArray => "SMArray"
  | .SMFixedArray => "SMFixedArray"
  | .SMVarArray => "SMVarArray"
  | .LengthConstraint => "LengthConstraint"
  | .Leftover => "Leftover"
  | .SMRemainder => "SMRemainder"
  | .ArrayBase => "ArrayBase"
  | .SMInteger => "SMInteger"
  | .SMPosition => "SMPosition"
  | .SMString => "SMString"
  | .SMStruct => "SMStruct"
  | .SMUnion => "SMUnion"
  | .UnionLength => "UnionLength"
  | .UnionMember => "UnionMember"
  | .UnionCase => "UnionCase"
  | .UnionBody => "UnionBody"
  | .UnionFields => "UnionFields"
  | .UnionField => "UnionField"
  | .ExtentSpec => "ExtentSpec"
  | .StructRef => "StructRef"
  | .CharType => "CharType"
  | .IntType => "IntType"
  | .IntConstraint => "IntConstraint"
  | .IntList => "IntList"
  | .IntListMember => "IntListMember"
  | .Integer => "Integer"
  | .IntegerConstRef => "IntegerConstRef"
  | .IntegerLiteral => "IntegerLiteral"
  | .IDRef => "IDRef"
  | .IdentifierList => "IdentifierList"
  | .Identifier => "Identifier"
  | .ConstIdentifier => "ConstIdentifier"
  | .IntLiteral => "IntLiteral"
  | .DecimalLiteral => "DecimalLiteral"
  | .HexLiteral => "HexLiteral"
  | .OctalLiteral => "OctalLiteral"
  | .SourceChar => "SourceChar"
  | .Comment => "Comment"
  | .MultiLineComment => "MultiLineComment"
  | .SingleLineComment => "SingleLineComment"
  | .gap1 => "__"
  | .gap => "_"
  | .Skip => "Skip"
  | .Whitespace => "Whitespace"
  | .EOL => "EOL"
  | .EOF => "EOF"

/-- `fmt.Sprintf("%d", n)`. gen-parser.go `position.String`, `addErrAt`. -/
def dec (n : Nat) : List Char := Nat.toDigits 10 n

/-- The error of `strconv.ParseInt(s, 0, 64)` (trunnel.pigeon:470) on a string of digits: `*NumError` of the standard library,
whose `Err` is `ErrSyntax` if a digit is not below the base and `ErrRange` otherwise. -/
def numError (cs : List Char) : List Char :=
  let bad : Bool :=
    match cs with
    | '0' :: 'x' :: c :: cs => (digits 16 (c :: cs) 0).isNone
    | '0' :: cs => (digits 8 cs 0).isNone
    | cs => (digits 10 cs 0).isNone
  "strconv.ParseInt: parsing \"".toList ++ cs ++ "\": ".toList ++
    (if bad then "invalid syntax".toList else "value out of range".toList)

/-- `p.Cause.Error()` (gen-parser.go:3364): `errInvalidEncoding` (gen-parser.go:2994) or the error of an action. Only the action of
`IntLiteral` is seen to return an error; the text for others is not modelled. -/
def Cause.text : Cause → List Char
  | .encoding => "invalid encoding".toList
  | .action t => numError (t.map Rune.char)

/-- The prefix built by gen-parser.go:3558-3578 `addErrAt`. -/
def errPrefix (filename : List Char) (rule : Option RuleName) (pos : Pos) : List Char :=
  (if filename = [] then [] else filename ++ [':']) ++
    (dec pos.line ++ ':' :: dec pos.col ++ " (".toList ++ dec pos.offset ++ [')']) ++
    match rule with
    | none => []
    | some r => ": rule ".toList ++ r.name.toList

/-- gen-parser.go:3362-3365 `Error` of a `parserError`. -/
def PErr.text (filename : List Char) (e : PErr) : List Char :=
  errPrefix filename e.rule e.pos ++ ": ".toList ++ e.inner.text

/-- gen-parser.go:3322-3332 `dedupe`, on the texts of the errors; `seen` is the map. -/
def dedupe {α : Type} [DecidableEq α] : List α → List α → List α
  | _, [] => []
  | seen, x :: xs => if x ∈ seen then dedupe seen xs else x :: dedupe (x :: seen) xs

/-- `strings.Join`. gen-parser.go `errList.Error`, `listJoin`. -/
def join (sep : List Char) : List (List Char) → List Char
  | [] => []
  | [x] => x
  | x :: y :: xs => x ++ sep ++ join sep (y :: xs)

/-- gen-parser.go:3334-3350 `Error` of an `errList`, after 3314-3320 `err`. -/
def errText (msgs : List (List Char)) : List Char := join ['\n'] (dedupe [] msgs)

/-- Comparison of strings in Go: by bytes, which for the ASCII texts sorted here is by characters. gen-parser.go `parse`, `sort.Strings`. -/
def leText : List Char → List Char → Bool
  | [], _ => true
  | _ :: _, [] => false
  | a :: as, b :: bs => if a = b then leText as bs else a.toNat < b.toNat

/-- Insertion into a sorted list. gen-parser.go `parse`, `sort.Strings`. -/
def insertText (x : List Char) : List (List Char) → List (List Char)
  | [] => [x]
  | y :: ys => if leText x y then x :: y :: ys else y :: insertText x ys

/-- `sort.Strings` (gen-parser.go:3770). -/
def sortTexts : List (List Char) → List (List Char)
  | [] => []
  | x :: xs => insertText x (sortTexts xs)

/-- gen-parser.go:3761-3773: what was expected, from the keys of the map in the order of some traversal. -/
def expectedOf (keys : List (List Char)) : List (List Char) :=
  sortTexts (keys.filter (· ≠ ['!', '.'])) ++ if ['!', '.'] ∈ keys then ["EOF".toList] else []

/-- gen-parser.go:3782-3791 `listJoin`. -/
def listJoin (sep lastSep : List Char) : List (List Char) → List Char
  | [] => []
  | [x] => x
  | xs => join sep xs.dropLast ++ ' ' :: lastSep ++ ' ' :: xs.getLastD []

/-- The text of the error added by gen-parser.go:3774. The rules' stack is empty then. -/
def noMatchText (filename : List Char) (pos : Pos) (expected : List (List Char)) : List Char :=
  errPrefix filename none pos ++ ": ".toList ++
    ("no match found, expected: ".toList ++ listJoin ", ".toList "or".toList expected)

/-- gen-parser.go:3368-3395 `newParser` and 3751: the parser after the first `read`. -/
def startD (rs : List Rune) : DSt :=
  (⟨[], ⟨1, 0, 0⟩, [], [], ⟨1, 1, 0⟩, []⟩ : DSt).look none rs 0

/-- What the parser returns. gen-parser.go `parse`. -/
inductive Report where
  | ok (f : File)
  | err (text : List Char)
  | panic
deriving DecidableEq

/-- gen-parser.go:3716-3779 `parse` on the runes of the input, and the assertion of parse/parse.go:43-48. The keys of the
map of expected texts (3756-3759) are visited in the order they were first added; the order does not matter, as they are
sorted. `none`: not finished within `fuel` nested calls. -/
def report (fuel : Nat) (filename : List Char) (rs : List Rune) : Option Report :=
  match parseD rules fuel none false (.ref .File) [] (startD rs) with
  | .timeout => none
  | .panic => some .panic
  | .fail st =>
    if st.errs = [] then some (.err (errText [noMatchText filename st.maxPos (expectedOf (dedupe [] st.maxExp))]))
    else some (.err (errText (st.errs.map (·.text filename))))
  | .ok v _ st =>
    if st.errs = [] then
      match v with
      | .file f => some (.ok f)
      | _ => some .panic
    else some (.err (errText (st.errs.map (·.text filename))))

/-- parse/parse.go:33-41 `Reader`, `String`; gen-parser.go:3157-3170. -/
def reportBytes (fuel : Nat) (filename : List Char) (b : List UInt8) : Option Report := report fuel filename (decode b)

end Verif.Peg
