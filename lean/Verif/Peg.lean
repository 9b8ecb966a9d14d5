import Verif.Ast
import Verif.Base
/-!
# Model of the source parser

`parse/internal/parser/gen-parser.go` interprets a grammar given as data. Both are modelled: the
interpreter function by function, and the grammar table (generated from `parse/trunnel.pigeon`) rule by rule.

Left out: the text and positions of error messages (`failAt`, `addErrAt`, `maxFail…`, see `Verif/PegDiag.lean`), statistics, the
memo table, recovery and throw expressions, `&{…}`/`!{…}` code predicates and `ignoreCase`/`inverted`
matchers, none of which the grammar uses.
-/
namespace Verif.Peg
open Verif Verif.Ast

/-! ## Input -/

/-- What `read` sees at an offset (gen-parser.go:3602-3618): a code point, or a byte that is not valid
UTF-8, which acts as U+FFFD and is recorded as an error. -/
inductive Rune where
  | ok (c : Char)
  | bad (b : UInt8)
deriving Repr, DecidableEq

/-- gen-parser.go:3605 `p.pt.rn`. -/
def Rune.char : Rune → Char
  | .ok c => c
  | .bad _ => '�'

/-- The test of gen-parser.go:3613. -/
def Rune.isBad : Rune → Bool
  | .ok _ => false
  | .bad _ => true

/-- A UTF-8 continuation byte in the given range (standard library `unicode/utf8`). Called at gen-parser.go `read`. -/
def inRange (b lo hi : UInt8) : Bool := lo ≤ b && b ≤ hi

/-- Successive results of `utf8.DecodeRune` (gen-parser.go:3604), by the rules of the standard library:
shortest form only, no surrogates, at most U+10FFFF; otherwise one invalid byte. -/
def decode : List UInt8 → List Rune
  | [] => []
  | b0 :: t0 =>
    if b0 < 0x80 then .ok (Char.ofNat b0.toNat) :: decode t0
    else
      match t0 with
      | [] => [.bad b0]
      | b1 :: t1 =>
        if inRange b0 0xC2 0xDF && inRange b1 0x80 0xBF then
          .ok (Char.ofNat ((b0.toNat - 0xC0) * 64 + (b1.toNat - 0x80))) :: decode t1
        else
          match t1 with
          | [] => .bad b0 :: decode (b1 :: [])
          | b2 :: t2 =>
            if inRange b0 0xE0 0xEF && inRange b1 (if b0 = 0xE0 then 0xA0 else 0x80)
                (if b0 = 0xED then 0x9F else 0xBF) && inRange b2 0x80 0xBF then
              .ok (Char.ofNat ((b0.toNat - 0xE0) * 4096 + (b1.toNat - 0x80) * 64 + (b2.toNat - 0x80))) ::
                decode t2
            else
              match t2 with
              | [] => .bad b0 :: decode (b1 :: b2 :: [])
              | b3 :: t3 =>
                if inRange b0 0xF0 0xF4 && inRange b1 (if b0 = 0xF0 then 0x90 else 0x80)
                    (if b0 = 0xF4 then 0x8F else 0xBF) && inRange b2 0x80 0xBF && inRange b3 0x80 0xBF then
                  .ok (Char.ofNat ((b0.toNat - 0xF0) * 262144 + (b1.toNat - 0x80) * 4096 +
                    (b2.toNat - 0x80) * 64 + (b3.toNat - 0x80))) :: decode t3
                else .bad b0 :: decode (b1 :: b2 :: b3 :: t3)

/-! ## Values -/

/-- The values that occur as `interface{}` while parsing: `nil`, `[]byte` (gen-parser.go:3681-3683),
`[]interface{}`, and what the actions of `trunnel.pigeon` return. -/
inductive Val where
  | nil
  | bytes (t : List Rune)
  | list (vs : List Val)
  | str (s : String)
  | strs (l : List String)
  | int (v : Int)
  | constant (c : Constant)
  | context (c : Context)
  | struct (s : Struct)
  | pragma (p : Pragma)
  | field (f : Field)
  | eos
  | ignore
  | fail
  | union (u : UnionMember)
  | members (l : List Leaf)
  | case (c : UnionCase)
  | intType (t : IntType)
  | charType
  | structRef (n : String)
  | intList (l : IntegerList)
  | range (r : IntegerRange)
  | integer (i : Integer)
  | idRef (r : IDRef)
  | leftover (i : Integer)
  | file (f : File)

/-! Type assertions `x.(T)`; `none` is the panic. An assertion to an `interface{}` type of `ast/types.go`
(`Member`, `ArrayBase`, `Integer`, `LengthConstraint`) in Go only fails on `nil`; here it also fails on values
the model's closed types do not have, which is shown never to happen. -/

/-- `x.(string)`, e.g. trunnel.pigeon:63. -/
def Val.asStr : Val → Option String
  | .str s => some s
  | _ => none

/-- `x.([]string)`, e.g. trunnel.pigeon:115. -/
def Val.asStrs : Val → Option (List String)
  | .strs l => some l
  | _ => none

/-- `x.(int64)`, e.g. trunnel.pigeon:64. -/
def Val.asInt : Val → Option Int
  | .int v => some v
  | _ => none

/-- `x.([]interface{})`, e.g. trunnel.pigeon:75. -/
def Val.asList : Val → Option (List Val)
  | .list l => some l
  | _ => none

/-- `x.([]interface{})[k]`, e.g. trunnel.pigeon:115. -/
def Val.index (v : Val) (k : Nat) : Option Val := do
  let l ← v.asList
  l[k]?

/-- `x.(*ast.Field)`, e.g. trunnel.pigeon:76. -/
def Val.asField : Val → Option Field
  | .field f => some f
  | _ => none

/-- `x.(*ast.IntType)`, e.g. trunnel.pigeon:86. -/
def Val.asIntType : Val → Option IntType
  | .intType t => some t
  | _ => none

/-- `x.(ast.ArrayBase)`, e.g. trunnel.pigeon:188. -/
def Val.asBase : Val → Option Base
  | .intType t => some (.int t)
  | .charType => some .char
  | .structRef n => some (.struct n)
  | _ => none

/-- `x.(*ast.StructRef)`, trunnel.pigeon:274. -/
def Val.asStructRef : Val → Option String
  | .structRef n => some n
  | _ => none

/-- `x.(*ast.Struct)`, trunnel.pigeon:371. -/
def Val.asStruct : Val → Option Struct
  | .struct s => some s
  | _ => none

/-- `x.(ast.Member)` inside a union case, trunnel.pigeon:342. -/
def Val.asLeaf : Val → Option Leaf
  | .field f => some (.field f)
  | .eos => some .eos
  | .ignore => some .ignore
  | .fail => some .fail
  | _ => none

/-- `x.(ast.Member)` in a struct, trunnel.pigeon:103. -/
def Val.asMember : Val → Option Member
  | .union u => some (.union u)
  | v => v.asLeaf.map .leaf

/-- `x.([]ast.Member)`, trunnel.pigeon:305. -/
def Val.asMembers : Val → Option (List Leaf)
  | .members l => some l
  | _ => none

/-- `x.(*ast.UnionCase)`, trunnel.pigeon:283. -/
def Val.asCase : Val → Option UnionCase
  | .case c => some c
  | _ => none

/-- `x.(ast.Integer)`, e.g. trunnel.pigeon:189. -/
def Val.asInteger : Val → Option Integer
  | .integer i => some i
  | _ => none

/-- `x.(*ast.IntegerList)`, e.g. trunnel.pigeon:242. -/
def Val.asIntList : Val → Option IntegerList
  | .intList l => some l
  | _ => none

/-- `x.(*ast.IntegerRange)`, e.g. trunnel.pigeon:401. -/
def Val.asRange : Val → Option IntegerRange
  | .range r => some r
  | _ => none

/-- `x.(*ast.IDRef)`, trunnel.pigeon:287. -/
def Val.asIDRef : Val → Option IDRef
  | .idRef r => some r
  | _ => none

/-- `x.(ast.LengthConstraint)`, e.g. trunnel.pigeon:202. -/
def Val.asLength : Val → Option LengthConstraint
  | .leftover i => some (.leftover i)
  | .idRef r => some (.idRef r)
  | _ => none

/-- `x.([]byte)`, trunnel.pigeon:386. -/
def Val.asBytes : Val → Option (List Rune)
  | .bytes t => some t
  | _ => none

/-- `x != nil` before an assertion, e.g. trunnel.pigeon:105-107. -/
def Val.opt {α : Type} (f : Val → Option α) : Val → Option (Option α)
  | .nil => some none
  | v => (f v).map some

/-! ## Expressions -/

/-- Labelled values in scope: the top of `p.vstack` (gen-parser.go:3454), latest first. -/
abbrev Env := List (String × Val)

/-- `stack["l"]`, e.g. gen-parser.go:2340: `nil` when missing. -/
def Env.get (env : Env) (l : String) : Val := (env.lookup l).getD .nil

/-- The code of an action (gen-parser.go:3230 `run`): from the labels, the matched text and the lingering
declarations to a value and whether an error was returned; `none` is a panic. -/
abbrev Act := Env → List Rune → List Val → Option (Val × Bool)

/-- State-changing code (gen-parser.go:3272-3275), acting on the lingering declarations. -/
abbrev Code := Env → List Val → List Val

/-- Names of the rules of `trunnel.pigeon`; `gap` and `gap1` are `_` and `__`. In Go a name is a string
and a missing rule is an error (gen-parser.go:4184-4188). -/
inductive RuleName where
  | File | Declaration | ConstDeclaration | ContextDeclaration | ContextMember | StructDeclaration
  | StructDecl | StructIdentifier | ExternDeclaration | PragmaDeclaration | ContextRefs |
  StructMember | StructEnding | StructEOS | SMArray | SMFixedArray | SMVarArray |
  LengthConstraint | Leftover | SMRemainder | ArrayBase | SMInteger | SMPosition | SMString |
  SMStruct | SMUnion | UnionLength | UnionMember | UnionCase | UnionBody | UnionFields |
  UnionField | ExtentSpec | StructRef | CharType | IntType | IntConstraint | IntList |
  IntListMember | Integer | IntegerConstRef | IntegerLiteral | IDRef | IdentifierList |
  Identifier | ConstIdentifier | IntLiteral | DecimalLiteral | HexLiteral | OctalLiteral |
  SourceChar | Comment | MultiLineComment | SingleLineComment | gap1 | gap | Skip | Whitespace |
  EOL | EOF
deriving Repr, DecidableEq

/-- Expressions: gen-parser.go:3222-3304. -/
inductive Expr where
  | action (e : Expr) (run : Act)
  | seq (es : List Expr)
  | choice (es : List Expr)
  | ref (r : RuleName)
  | label (l : String) (e : Expr)
  | star (e : Expr)
  | plus (e : Expr)
  | opt (e : Expr)
  | not (e : Expr)
  | lit (s : String)
  | cls (chars : List Char) (ranges : List (Char × Char))
  | any
  | code (run : Code)

/-! ## The interpreter -/

/-- The state of the parser (gen-parser.go:3434-3475): the input from the current position, the value of
`c.state["lingering_declarations"]`, and whether `p.errs` is non-empty. The slice of lingering declarations is a
list: `append` may write into an array shared with a saved state, but only beyond the saved length, and
states are saved and restored in stack order. -/
structure St where
  rest : List Rune
  ling : List Val
  errs : Bool

/-- The result of `parseExpr`: matched (with the labels set), not matched, a panic, or not finished. Labels set by
a failed sequence are dropped: they are in a scope that ends with the failure. gen-parser.go `parseExpr`. -/
inductive R where
  | ok (v : Val) (env : Env) (st : St)
  | fail (st : St)
  | panic
  | timeout

/-- Whether the next rune is invalid. gen-parser.go `read`. -/
def headBad : List Rune → Bool
  | [] => false
  | r :: _ => r.isBad

/-- gen-parser.go:3602-3618 `read`: step over the current rune and look at the next one. -/
def St.read (st : St) : St :=
  let rest := st.rest.drop 1
  ⟨rest, st.ling, st.errs || headBad rest⟩

/-- gen-parser.go:3621-3629 `restore` and 3672-3678 `restoreState`: go back to `saved`; errors stay. -/
def St.back (st saved : St) : St := ⟨saved.rest, saved.ling, st.errs⟩

/-- gen-parser.go:3681-3683 `sliceFrom`: the text between `start` and the current position. -/
def St.slice (start st : St) : List Rune := start.rest.take (start.rest.length - st.rest.length)

/-- gen-parser.go:4091-4101 the loop of `parseLitMatcher`. -/
def litLoop : List Char → St → Bool × St
  | [], st => (true, st)
  | c :: cs, st =>
    match st.rest with
    | [] => (false, st)
    | r :: _ => if r.char = c then litLoop cs st.read else (false, st)

/-- gen-parser.go:3978-3998: membership in the listed characters and ranges. -/
def inClass (chars : List Char) (ranges : List (Char × Char)) (c : Char) : Bool :=
  chars.any (· = c) || ranges.any (fun r => r.1 ≤ c && c ≤ r.2)

/-- gen-parser.go:4192-4211 the loop of `parseSeqExpr`; `start` is the state to go back to. -/
def seqLoop (rec : Expr → Env → St → R) (start : St) : List Expr → List Val → Env → St → R
  | [], vals, env, st => .ok (.list vals) env st
  | e :: es, vals, env, st =>
    match rec e env st with
    | .ok v env st => seqLoop rec start es (vals ++ [v]) env st
    | .fail st => .fail (st.back start)
    | .panic => .panic
    | .timeout => .timeout

/-- gen-parser.go:4046-4063 the loop of `parseChoiceExpr`. Only the state is restored: a failed alternative
has already restored the position. -/
def choiceLoop (rec : Expr → Env → St → R) : List Expr → Env → St → R
  | [], _, st => .fail st
  | e :: es, env, st =>
    match rec e [] st with
    | .ok v _ st => .ok v env st
    | .fail st' => choiceLoop rec es env { st' with ling := st.ling }
    | .panic => .panic
    | .timeout => .timeout

/-- gen-parser.go:4248-4256 the loop of `parseZeroOrMoreExpr`, for at most `n` rounds. -/
def starLoop (rec : St → R) (env : Env) : Nat → List Val → St → R
  | 0, _, _ => .timeout
  | n + 1, vals, st =>
    match rec st with
    | .ok v _ st => starLoop rec env n (vals ++ [v]) st
    | .fail st => .ok (.list vals) env st
    | .panic => .panic
    | .timeout => .timeout

/-- gen-parser.go:3822-3885 `parseExpr`, with the given rules and at most `n` nested calls. -/
def parseExpr (rules : RuleName → Expr) : Nat → Expr → Env → St → R
  | 0, _, _, _ => .timeout
  | n + 1, e, env, st =>
    let rec' := parseExpr rules n
    match e with
    -- gen-parser.go:3887-3910 `parseActionExpr`; changes to the state by the action are undone
    | .action e run =>
      match rec' e env st with
      | .ok _ env st' =>
        match run env (St.slice st st') st'.ling with
        | some (v, err) => .ok v env { st' with errs := st'.errs || err }
        | none => .panic
      | r => r
    -- gen-parser.go:4192-4211 `parseSeqExpr`
    | .seq es => seqLoop rec' st es [] env st
    -- gen-parser.go:4041-4063 `parseChoiceExpr`
    | .choice es => choiceLoop rec' es env st
    -- gen-parser.go:4175-4190 `parseRuleRefExpr`, 3793-3820 `parseRule`
    | .ref r =>
      match rec' (rules r) [] st with
      | .ok v _ st => .ok v env st
      | r => r
    -- gen-parser.go:4065-4078 `parseLabeledExpr`
    | .label l e =>
      match rec' e [] st with
      | .ok v _ st => .ok v ((l, v) :: env) st
      | r => r
    -- gen-parser.go:4241-4257 `parseZeroOrMoreExpr`
    | .star e => starLoop (rec' e []) env n [] st
    -- gen-parser.go:4141-4161 `parseOneOrMoreExpr`
    | .plus e =>
      match rec' e [] st with
      | .ok v _ st => starLoop (rec' e []) env n [v] st
      | r => r
    -- gen-parser.go:4259-4269 `parseZeroOrOneExpr`
    | .opt e =>
      match rec' e [] st with
      | .ok v _ st => .ok v env st
      | .fail st => .ok .nil env st
      | r => r
    -- gen-parser.go:4123-4139 `parseNotExpr`
    | .not e =>
      match rec' e [] st with
      | .ok _ _ st' => .fail (st'.back st)
      | .fail st' => .ok .nil env (st'.back st)
      | r => r
    -- gen-parser.go:4080-4105 `parseLitMatcher`
    | .lit s =>
      match litLoop s.toList st with
      | (true, st') => .ok (.bytes (St.slice st st')) env st'
      | (false, st') => .fail (st'.back st)
    -- gen-parser.go:3960-4024 `parseCharClassMatcher`
    | .cls chars ranges =>
      match st.rest with
      | [] => .fail st
      | r :: _ => if inClass chars ranges r.char then .ok (.bytes [r]) env st.read else .fail st
    -- gen-parser.go:3944-3958 `parseAnyMatcher`
    | .any =>
      match st.rest with
      | [] => .fail st
      | r :: _ => .ok (.bytes [r]) env st.read
    -- gen-parser.go:4213-4223 `parseStateCodeExpr`
    | .code run => .ok .nil env { st with ling := run env st.ling }

/-! ## Actions of `trunnel.pigeon` -/

/-- `string(c.text)`. parse/trunnel.pigeon, actions. -/
def text (t : List Rune) : String := String.ofList (t.map Rune.char)

/-- An action without error. parse/trunnel.pigeon, actions returning `nil` as error. -/
def act (v : Option Val) : Option (Val × Bool) := v.map (·, false)

/-- trunnel.pigeon:33-47: distribute the declarations; `none` is "unknown declaration". -/
def distribute : List Val → File → Option File
  | [], f => some f
  | .constant c :: ds, f => distribute ds { f with constants := f.constants ++ [c] }
  | .context c :: ds, f => distribute ds { f with contexts := f.contexts ++ [c] }
  | .struct s :: ds, f => distribute ds { f with structs := f.structs ++ [s] }
  | .pragma p :: ds, f => distribute ds { f with pragmas := f.pragmas ++ [p] }
  | _ :: _, _ => none

/-- trunnel.pigeon:28-48. -/
def onFile1 : Act := fun env _ ling => do
  let ds ← (env.get "ds").asList
  match distribute (ds ++ ling) ⟨[], [], [], []⟩ with
  | some f => some (.file f, false)
  | none => some (.nil, true)

/-- trunnel.pigeon:55-57. -/
def onDeclaration1 : Act := fun env _ _ => some (env.get "d", false)

/-- trunnel.pigeon:61-66. -/
def onConstDeclaration1 : Act := fun env _ _ => act do
  let n ← (env.get "n").asStr
  let v ← (env.get "v").asInt
  pure (.constant ⟨n, v⟩)

/-- trunnel.pigeon:73-82. -/
def onContextDeclaration1 : Act := fun env _ _ => act do
  let fs ← (env.get "fs").asList
  let f ← fs.mapM Val.asField
  let n ← (env.get "n").asStr
  pure (.context ⟨n, f⟩)

/-- trunnel.pigeon:84-89. -/
def onContextMember1 : Act := fun env _ _ => act do
  let t ← (env.get "t").asIntType
  let n ← (env.get "n").asStr
  pure (.field ⟨n, .base (.int t)⟩)

/-- trunnel.pigeon:94-96. -/
def onStructDeclaration1 : Act := fun env _ _ => some (env.get "s", false)

/-- trunnel.pigeon:114-116, 129-131: `ctx.([]interface{})[1].([]string)` if there are contexts. -/
def contextsOf (v : Val) : Option (List String) := do
  let c ← v.opt (fun v => do (← v.index 1).asStrs)
  pure (c.getD [])

/-- trunnel.pigeon:100-119. -/
def onStructDecl1 : Act := fun env _ _ => act do
  let ms ← (env.get "ms").asList
  let m ← ms.mapM Val.asMember
  let e ← (env.get "e").opt Val.asMember
  let n ← (env.get "n").asStr
  let ctx ← contextsOf (env.get "ctx")
  pure (.struct ⟨n, ctx, some (m ++ e.toList)⟩)

/-- trunnel.pigeon:121-123. -/
def onStructIdentifier1 : Act := fun env _ _ => some (env.get "n", false)

/-- trunnel.pigeon:125-133. -/
def onExternDeclaration1 : Act := fun env _ _ => act do
  let n ← (env.get "n").asStr
  let ctx ← contextsOf (env.get "ctx")
  pure (.struct ⟨n, ctx, none⟩)

/-- trunnel.pigeon:135-140. -/
def onPragmaDeclaration1 : Act := fun env _ _ => act do
  let n ← (env.get "n").asStr
  let opts ← (env.get "opts").asStrs
  pure (.pragma ⟨n, opts⟩)

/-- trunnel.pigeon:145-147. -/
def onContextRefs1 : Act := fun env _ _ => some (env.get "ns", false)

/-- trunnel.pigeon:159-161. -/
def onStructMember1 : Act := fun env _ _ => some (env.get "m", false)

/-- trunnel.pigeon:167-169. -/
def onStructEnding1 : Act := fun env _ _ => some (env.get "e", false)

/-- trunnel.pigeon:171-173. -/
def onStructEOS1 : Act := fun _ _ _ => some (.eos, false)

/-- trunnel.pigeon:178-180. -/
def onSMArray1 : Act := fun env _ _ => some (env.get "a", false)

/-- trunnel.pigeon:184-192. -/
def onSMFixedArray1 : Act := fun env _ _ => act do
  let n ← (env.get "n").asStr
  let b ← (env.get "b").asBase
  let s ← (env.get "s").asInteger
  pure (.field ⟨n, .fixedArray b s⟩)

/-- trunnel.pigeon:197-205. -/
def onSMVarArray1 : Act := fun env _ _ => act do
  let n ← (env.get "n").asStr
  let b ← (env.get "b").asBase
  let l ← (env.get "l").asLength
  pure (.field ⟨n, .varArray b (some l)⟩)

/-- trunnel.pigeon:207-209. -/
def onLengthConstraint1 : Act := fun env _ _ => some (env.get "l", false)

/-- trunnel.pigeon:211-213. -/
def onLeftover1 : Act := fun env _ _ => act do
  let i ← (env.get "i").asInteger
  pure (.leftover i)

/-- trunnel.pigeon:217-225. -/
def onSMRemainder1 : Act := fun env _ _ => act do
  let n ← (env.get "n").asStr
  let b ← (env.get "b").asBase
  pure (.field ⟨n, .varArray b none⟩)

/-- trunnel.pigeon:232-234. -/
def onArrayBase1 : Act := fun env _ _ => some (env.get "t", false)

/-- trunnel.pigeon:239-248. -/
def onSMInteger1 : Act := fun env _ _ => act do
  let i ← (env.get "t").asIntType
  let c ← (env.get "cst").opt Val.asIntList
  let n ← (env.get "n").asStr
  pure (.field ⟨n, .base (.int ⟨i.size, c.or i.constraint⟩)⟩)

/-- trunnel.pigeon:252-257. -/
def onSMPosition1 : Act := fun env _ _ => act do
  let n ← (env.get "n").asStr
  pure (.field ⟨n, .ptr⟩)

/-- trunnel.pigeon:261-266. -/
def onSMString1 : Act := fun env _ _ => act do
  let n ← (env.get "n").asStr
  pure (.field ⟨n, .nulterm⟩)

/-- trunnel.pigeon:271-276. -/
def onSMStruct1 : Act := fun env _ _ => act do
  let n ← (env.get "n").asStr
  let s ← (env.get "s").asStructRef
  pure (.field ⟨n, .base (.struct s)⟩)

/-- trunnel.pigeon:280-294. -/
def onSMUnion1 : Act := fun env _ _ => act do
  let cs ← (env.get "cs").asList
  let cases ← cs.mapM Val.asCase
  let n ← (env.get "n").asStr
  let t ← (env.get "t").asIDRef
  let l ← (env.get "l").opt Val.asLength
  pure (.union ⟨n, t, l, cases⟩)

/-- trunnel.pigeon:296-298. -/
def onUnionLength1 : Act := fun env _ _ => some (env.get "l", false)

/-- trunnel.pigeon:302-311. `Members` stays `nil` or becomes a slice: a list either way. -/
def onUnionMember1 : Act := fun env _ _ => act do
  let fs ← (env.get "fs").opt Val.asMembers
  let c ← (env.get "cse").opt Val.asIntList
  pure (.case ⟨c, fs.getD []⟩)

/-- trunnel.pigeon:316-318. -/
def onUnionCase2 : Act := fun env _ _ => some (env.get "l", false)

/-- trunnel.pigeon:318-320. -/
def onUnionCase5 : Act := fun _ _ _ => some (.nil, false)

/-- trunnel.pigeon:329-331. -/
def onUnionBody2 : Act := fun _ _ _ => some (.nil, false)

/-- trunnel.pigeon:331-333. -/
def onUnionBody6 : Act := fun _ _ _ => some (.members [.fail], false)

/-- trunnel.pigeon:333-335. -/
def onUnionBody11 : Act := fun _ _ _ => some (.members [.ignore], false)

/-- trunnel.pigeon:335-337. -/
def onUnionBody16 : Act := fun env _ _ => some (env.get "fs", false)

/-- trunnel.pigeon:339-348. -/
def onUnionFields1 : Act := fun env _ _ => act do
  let ms ← (env.get "ms").asList
  let fs ← ms.mapM Val.asLeaf
  let e ← (env.get "e").opt Val.asLeaf
  pure (.members (fs ++ e.toList))

/-- trunnel.pigeon:356-358. -/
def onUnionField1 : Act := fun env _ _ => some (env.get "m", false)

/-- trunnel.pigeon:364-366. -/
def onExtentSpec2 : Act := fun _ _ _ => some (.ignore, false)

/-- trunnel.pigeon:366-368. -/
def onExtentSpec7 : Act := fun env _ _ => some (env.get "r", false)

/-- trunnel.pigeon:7-13, 370 `addLingeringDeclaration`. -/
def onStructRef6 : Code := fun env ling => ling ++ [env.get "s"]

/-- trunnel.pigeon:370-372. -/
def onStructRef2 : Act := fun env _ _ => act do
  let s ← (env.get "s").asStruct
  pure (.structRef s.name)

/-- trunnel.pigeon:372-374. -/
def onStructRef7 : Act := fun env _ _ => act do
  let n ← (env.get "n").asStr
  pure (.structRef n)

/-- trunnel.pigeon:376-378. -/
def onCharType1 : Act := fun _ _ _ => some (.charType, false)

/-- The value of a digit in `strconv.ParseUint`: 0-9, then letters of either case. Called for parse/trunnel.pigeon `IntLiteral`. -/
def digitVal (c : Char) : Nat :=
  if '0' ≤ c ∧ c ≤ '9' then c.toNat - '0'.toNat
  else if 'a' ≤ c ∧ c ≤ 'z' then c.toNat - 'a'.toNat + 10
  else if 'A' ≤ c ∧ c ≤ 'Z' then c.toNat - 'A'.toNat + 10
  else 36

/-- The value of a string of digits; `none` if one is not below the base. Called for parse/trunnel.pigeon `IntLiteral`. -/
def digits (base : Nat) : List Char → Nat → Option Nat
  | [], n => some n
  | c :: cs, n => if digitVal c < base then digits base cs (n * base + digitVal c) else none

/-- `strconv.ParseInt(s, 0, 64)` and whether it returns an error, for strings without sign or underscore:
the base is told from the prefix. parse/trunnel.pigeon `IntLiteral`. -/
def parseInt (cs : List Char) : Int × Bool :=
  let n :=
    match cs with
    | '0' :: 'x' :: c :: cs => digits 16 (c :: cs) 0
    | '0' :: cs => digits 8 cs 0
    | cs => digits 10 cs 0
  match n with
  | none => (0, true)
  | some n => if n < 2 ^ 63 then (n, false) else (2 ^ 63 - 1, true)

/-- trunnel.pigeon:385-388. `strconv.Atoi` is `ParseInt` in base 10. -/
def onIntType1 : Act := fun env _ _ => do
  let b ← (env.get "b").asBytes
  match digits 10 (b.map Rune.char) 0 with
  | some n => some (.intType ⟨n, none⟩, false)
  | none => some (.intType ⟨0, none⟩, true)

/-- trunnel.pigeon:393-395. -/
def onIntConstraint1 : Act := fun env _ _ => some (env.get "l", false)

/-- trunnel.pigeon:400-406. -/
def onIntList1 : Act := fun env _ _ => act do
  let m ← (env.get "m").asRange
  let ms ← (env.get "ms").asList
  let rs ← ms.mapM (fun i => do (← i.index 3).asRange)
  pure (.intList ⟨m :: rs⟩)

/-- trunnel.pigeon:411-419. -/
def onIntListMember1 : Act := fun env _ _ => act do
  let lo ← (env.get "lo").asInteger
  let hi ← (env.get "hi").opt (fun v => do (← v.index 3).asInteger)
  pure (.range ⟨lo, hi⟩)

/-- trunnel.pigeon:424-426. -/
def onInteger1 : Act := fun env _ _ => some (env.get "i", false)

/-- trunnel.pigeon:428-430. -/
def onIntegerConstRef1 : Act := fun env _ _ => act do
  let n ← (env.get "n").asStr
  pure (.integer (.constRef n))

/-- trunnel.pigeon:432-434. -/
def onIntegerLiteral1 : Act := fun env _ _ => act do
  let v ← (env.get "v").asInt
  pure (.integer (.literal v))

/-- trunnel.pigeon:441-449. -/
def onIDRef1 : Act := fun env _ _ => act do
  let n ← (env.get "n").asStr
  let s ← (env.get "s").opt (fun v => do (← v.index 0).asStr)
  pure (.idRef ⟨s.getD "", n⟩)

/-- trunnel.pigeon:451-457. -/
def onIdentifierList1 : Act := fun env _ _ => act do
  let n ← (env.get "n").asStr
  let ns ← (env.get "ns").asList
  let ids ← ns.mapM (fun i => do (← i.index 3).asStr)
  pure (.strs (n :: ids))

/-- trunnel.pigeon:459-461. -/
def onIdentifier1 : Act := fun _ t _ => some (.str (text t), false)

/-- trunnel.pigeon:463-465. -/
def onConstIdentifier1 : Act := fun _ t _ => some (.str (text t), false)

/-- trunnel.pigeon:469-471. -/
def onIntLiteral1 : Act := fun _ t _ =>
  let (n, err) := parseInt (t.map Rune.char)
  some (.int n, err)

/-! ## The grammar -/

/-- parse/trunnel.pigeon:28 `File`. -/
def rFile : Expr :=
  .action (.seq [.ref .gap, .label "ds" (.star (.ref .Declaration)), .ref .gap, .ref .EOF]) onFile1

/-- parse/trunnel.pigeon:55 `Declaration`. -/
def rDeclaration : Expr :=
  .action (.seq [.ref .gap, .label "d" (.choice [.ref .ConstDeclaration, .ref .ContextDeclaration, .ref
    .StructDeclaration, .ref .ExternDeclaration, .ref .PragmaDeclaration]), .ref .gap]) onDeclaration1

/-- parse/trunnel.pigeon:61 `ConstDeclaration`. -/
def rConstDeclaration : Expr :=
  .action (.seq [.lit "const", .ref .gap1, .label "n" (.ref .ConstIdentifier), .ref .gap, .lit "=", .ref
    .gap, .label "v" (.ref .IntLiteral), .ref .gap, .lit ";"]) onConstDeclaration1

/-- parse/trunnel.pigeon:73 `ContextDeclaration`. -/
def rContextDeclaration : Expr :=
  .action (.seq [.lit "context", .ref .gap1, .label "n" (.ref .Identifier), .ref .gap1, .lit "{", .ref
    .gap, .label "fs" (.star (.ref .ContextMember)), .ref .gap, .lit "}", .ref .gap, .opt (.lit ";")])
    onContextDeclaration1

/-- parse/trunnel.pigeon:84 `ContextMember`. -/
def rContextMember : Expr :=
  .action (.seq [.ref .gap, .label "t" (.ref .IntType), .ref .gap1, .label "n" (.ref .Identifier), .ref
    .gap, .lit ";", .ref .gap]) onContextMember1

/-- parse/trunnel.pigeon:94 `StructDeclaration`. -/
def rStructDeclaration : Expr :=
  .action (.seq [.label "s" (.ref .StructDecl), .ref .gap, .opt (.lit ";")]) onStructDeclaration1

/-- parse/trunnel.pigeon:100 `StructDecl`. -/
def rStructDecl : Expr :=
  .action (.seq [.label "n" (.ref .StructIdentifier), .label "ctx" (.opt (.seq [.ref .gap1, .ref
    .ContextRefs])), .ref .gap, .lit "{", .label "ms" (.star (.ref .StructMember)), .ref .gap, .label "e"
    (.opt (.ref .StructEnding)), .ref .gap, .lit "}"]) onStructDecl1

/-- parse/trunnel.pigeon:121 `StructIdentifier`. -/
def rStructIdentifier : Expr :=
  .action (.seq [.lit "struct", .ref .gap1, .label "n" (.ref .Identifier)]) onStructIdentifier1

/-- parse/trunnel.pigeon:125 `ExternDeclaration`. -/
def rExternDeclaration : Expr :=
  .action (.seq [.lit "extern", .ref .gap1, .label "n" (.ref .StructIdentifier), .label "ctx" (.opt (.seq
    [.ref .gap1, .ref .ContextRefs])), .ref .gap, .lit ";"]) onExternDeclaration1

/-- parse/trunnel.pigeon:135 `PragmaDeclaration`. -/
def rPragmaDeclaration : Expr :=
  .action (.seq [.lit "trunnel", .ref .gap1, .label "n" (.ref .Identifier), .ref .gap1, .label "opts"
    (.ref .IdentifierList), .ref .gap, .lit ";"]) onPragmaDeclaration1

/-- parse/trunnel.pigeon:145 `ContextRefs`. -/
def rContextRefs : Expr :=
  .action (.seq [.lit "with", .ref .gap1, .lit "context", .ref .gap1, .label "ns" (.ref
    .IdentifierList)]) onContextRefs1

/-- parse/trunnel.pigeon:159 `StructMember`. -/
def rStructMember : Expr :=
  .action (.seq [.ref .gap, .label "m" (.choice [.ref .SMArray, .ref .SMInteger, .ref .SMPosition, .ref
    .SMString, .ref .SMStruct, .ref .SMUnion]), .ref .gap, .lit ";"]) onStructMember1

/-- parse/trunnel.pigeon:167 `StructEnding`. -/
def rStructEnding : Expr :=
  .action (.seq [.ref .gap, .label "e" (.choice [.ref .SMRemainder, .ref .StructEOS]), .ref .gap, .lit
    ";"]) onStructEnding1

/-- parse/trunnel.pigeon:171 `StructEOS`. -/
def rStructEOS : Expr :=
  .action (.lit "eos") onStructEOS1

/-- parse/trunnel.pigeon:178 `SMArray`. -/
def rSMArray : Expr :=
  .action (.label "a" (.choice [.ref .SMFixedArray, .ref .SMVarArray])) onSMArray1

/-- parse/trunnel.pigeon:184 `SMFixedArray`. -/
def rSMFixedArray : Expr :=
  .action (.seq [.label "b" (.ref .ArrayBase), .ref .gap1, .label "n" (.ref .Identifier), .ref .gap, .lit
    "[", .label "s" (.ref .Integer), .lit "]"]) onSMFixedArray1

/-- parse/trunnel.pigeon:197 `SMVarArray`. -/
def rSMVarArray : Expr :=
  .action (.seq [.label "b" (.ref .ArrayBase), .ref .gap1, .label "n" (.ref .Identifier), .ref .gap, .lit
    "[", .label "l" (.ref .LengthConstraint), .lit "]"]) onSMVarArray1

/-- parse/trunnel.pigeon:207 `LengthConstraint`. -/
def rLengthConstraint : Expr :=
  .action (.label "l" (.choice [.ref .Leftover, .ref .IDRef])) onLengthConstraint1

/-- parse/trunnel.pigeon:211 `Leftover`. -/
def rLeftover : Expr :=
  .action (.seq [.lit "..-", .label "i" (.ref .Integer)]) onLeftover1

/-- parse/trunnel.pigeon:217 `SMRemainder`. -/
def rSMRemainder : Expr :=
  .action (.seq [.label "b" (.ref .ArrayBase), .ref .gap1, .label "n" (.ref .Identifier), .ref .gap, .lit
    "[", .ref .gap, .lit "]"]) onSMRemainder1

/-- parse/trunnel.pigeon:232 `ArrayBase`. -/
def rArrayBase : Expr :=
  .action (.label "t" (.choice [.ref .IntType, .ref .CharType, .ref .StructRef])) onArrayBase1

/-- parse/trunnel.pigeon:239 `SMInteger`. -/
def rSMInteger : Expr :=
  .action (.seq [.label "t" (.ref .IntType), .ref .gap, .label "n" (.ref .Identifier), .ref .gap, .label
    "cst" (.opt (.ref .IntConstraint))]) onSMInteger1

/-- parse/trunnel.pigeon:252 `SMPosition`. -/
def rSMPosition : Expr :=
  .action (.seq [.lit "@ptr", .ref .gap1, .label "n" (.ref .Identifier)]) onSMPosition1

/-- parse/trunnel.pigeon:261 `SMString`. -/
def rSMString : Expr :=
  .action (.seq [.lit "nulterm", .ref .gap1, .label "n" (.ref .Identifier)]) onSMString1

/-- parse/trunnel.pigeon:271 `SMStruct`. -/
def rSMStruct : Expr :=
  .action (.seq [.label "s" (.ref .StructRef), .ref .gap1, .label "n" (.ref .Identifier)]) onSMStruct1

/-- parse/trunnel.pigeon:280 `SMUnion`. -/
def rSMUnion : Expr :=
  .action (.seq [.lit "union", .ref .gap1, .label "n" (.ref .Identifier), .ref .gap, .lit "[", .label "t"
    (.ref .IDRef), .lit "]", .ref .gap, .label "l" (.opt (.ref .UnionLength)), .ref .gap, .lit "{", .ref
    .gap, .label "cs" (.star (.ref .UnionMember)), .ref .gap, .lit "}"]) onSMUnion1

/-- parse/trunnel.pigeon:296 `UnionLength`. -/
def rUnionLength : Expr :=
  .action (.seq [.lit "with", .ref .gap1, .lit "length", .ref .gap1, .label "l" (.ref
    .LengthConstraint)]) onUnionLength1

/-- parse/trunnel.pigeon:302 `UnionMember`. -/
def rUnionMember : Expr :=
  .action (.seq [.ref .gap, .label "cse" (.ref .UnionCase), .ref .gap, .lit ":", .ref .gap, .label "fs"
    (.ref .UnionBody), .ref .gap]) onUnionMember1

/-- parse/trunnel.pigeon:316 `UnionCase`. -/
def rUnionCase : Expr :=
  .choice [.action (.label "l" (.ref .IntList)) onUnionCase2, .action (.lit "default") onUnionCase5]

/-- parse/trunnel.pigeon:329 `UnionBody`. -/
def rUnionBody : Expr :=
  .choice [.action (.seq [.ref .gap, .lit ";"]) onUnionBody2, .action (.seq [.lit "fail", .ref .gap, .lit
    ";"]) onUnionBody6, .action (.seq [.lit "ignore", .ref .gap, .lit ";"]) onUnionBody11, .action
    (.label "fs" (.ref .UnionFields)) onUnionBody16]

/-- parse/trunnel.pigeon:339 `UnionFields`. -/
def rUnionFields : Expr :=
  .action (.seq [.label "ms" (.star (.ref .UnionField)), .ref .gap, .label "e" (.opt (.ref
    .ExtentSpec))]) onUnionFields1

/-- parse/trunnel.pigeon:356 `UnionField`. -/
def rUnionField : Expr :=
  .action (.seq [.ref .gap, .label "m" (.choice [.ref .SMArray, .ref .SMInteger, .ref .SMString, .ref
    .SMStruct]), .ref .gap, .lit ";"]) onUnionField1

/-- parse/trunnel.pigeon:364 `ExtentSpec`. -/
def rExtentSpec : Expr :=
  .choice [.action (.seq [.lit "...", .ref .gap, .lit ";"]) onExtentSpec2, .action (.seq [.label "r"
    (.ref .SMRemainder), .ref .gap, .lit ";"]) onExtentSpec7]

/-- parse/trunnel.pigeon:370 `StructRef`. -/
def rStructRef : Expr :=
  .choice [.action (.seq [.label "s" (.ref .StructDecl), .code onStructRef6]) onStructRef2, .action
    (.label "n" (.ref .StructIdentifier)) onStructRef7]

/-- parse/trunnel.pigeon:376 `CharType`. -/
def rCharType : Expr :=
  .action (.lit "char") onCharType1

/-- parse/trunnel.pigeon:385 `IntType`. -/
def rIntType : Expr :=
  .action (.seq [.lit "u", .label "b" (.choice [.lit "8", .lit "16", .lit "32", .lit "64"])]) onIntType1

/-- parse/trunnel.pigeon:393 `IntConstraint`. -/
def rIntConstraint : Expr :=
  .action (.seq [.lit "IN", .ref .gap1, .lit "[", .ref .gap, .label "l" (.ref .IntList), .ref .gap, .lit
    "]"]) onIntConstraint1

/-- parse/trunnel.pigeon:400 `IntList`. -/
def rIntList : Expr :=
  .action (.seq [.label "m" (.ref .IntListMember), .label "ms" (.star (.seq [.ref .gap, .lit ",", .ref
    .gap, .ref .IntListMember]))]) onIntList1

/-- parse/trunnel.pigeon:411 `IntListMember`. -/
def rIntListMember : Expr :=
  .action (.seq [.label "lo" (.ref .Integer), .label "hi" (.opt (.seq [.ref .gap, .lit "..", .ref .gap,
    .ref .Integer]))]) onIntListMember1

/-- parse/trunnel.pigeon:424 `Integer`. -/
def rInteger : Expr :=
  .action (.label "i" (.choice [.ref .IntegerConstRef, .ref .IntegerLiteral])) onInteger1

/-- parse/trunnel.pigeon:428 `IntegerConstRef`. -/
def rIntegerConstRef : Expr :=
  .action (.label "n" (.ref .ConstIdentifier)) onIntegerConstRef1

/-- parse/trunnel.pigeon:432 `IntegerLiteral`. -/
def rIntegerLiteral : Expr :=
  .action (.label "v" (.ref .IntLiteral)) onIntegerLiteral1

/-- parse/trunnel.pigeon:441 `IDRef`. -/
def rIDRef : Expr :=
  .action (.seq [.label "s" (.opt (.seq [.ref .Identifier, .lit "."])), .label "n" (.ref .Identifier)])
    onIDRef1

/-- parse/trunnel.pigeon:451 `IdentifierList`. -/
def rIdentifierList : Expr :=
  .action (.seq [.label "n" (.ref .Identifier), .label "ns" (.star (.seq [.ref .gap, .lit ",", .ref .gap,
    .ref .Identifier]))]) onIdentifierList1

/-- parse/trunnel.pigeon:459 `Identifier`. -/
def rIdentifier : Expr :=
  .action (.seq [.cls ['_'] [('a', 'z'), ('A', 'Z')], .star (.cls ['_'] [('a', 'z'), ('A', 'Z'), ('0',
    '9')])]) onIdentifier1

/-- parse/trunnel.pigeon:463 `ConstIdentifier`. -/
def rConstIdentifier : Expr :=
  .action (.seq [.cls ['_'] [('A', 'Z')], .star (.cls ['_'] [('A', 'Z'), ('0', '9')])])
    onConstIdentifier1

/-- parse/trunnel.pigeon:469 `IntLiteral`. -/
def rIntLiteral : Expr :=
  .action (.choice [.ref .HexLiteral, .ref .OctalLiteral, .ref .DecimalLiteral]) onIntLiteral1

/-- parse/trunnel.pigeon:473 `DecimalLiteral`. -/
def rDecimalLiteral : Expr :=
  .plus (.cls [] [('0', '9')])

/-- parse/trunnel.pigeon:475 `HexLiteral`. -/
def rHexLiteral : Expr :=
  .seq [.lit "0x", .plus (.cls [] [('0', '9'), ('a', 'f'), ('A', 'F')])]

/-- parse/trunnel.pigeon:477 `OctalLiteral`. -/
def rOctalLiteral : Expr :=
  .seq [.lit "0", .plus (.cls [] [('0', '7')])]

/-- parse/trunnel.pigeon:481 `SourceChar`. -/
def rSourceChar : Expr :=
  .any

/-- parse/trunnel.pigeon:482 `Comment`. -/
def rComment : Expr :=
  .choice [.ref .MultiLineComment, .ref .SingleLineComment]

/-- parse/trunnel.pigeon:483 `MultiLineComment`. -/
def rMultiLineComment : Expr :=
  .seq [.lit "/*", .star (.seq [.not (.lit "*/"), .ref .SourceChar]), .lit "*/"]

/-- parse/trunnel.pigeon:484 `SingleLineComment`. -/
def rSingleLineComment : Expr :=
  .seq [.lit "//", .star (.seq [.not (.ref .EOL), .ref .SourceChar])]

/-- parse/trunnel.pigeon:488 `__`. -/
def rgap1 : Expr :=
  .plus (.ref .Skip)

/-- parse/trunnel.pigeon:489 `_`. -/
def rgap : Expr :=
  .star (.ref .Skip)

/-- parse/trunnel.pigeon:491 `Skip`. -/
def rSkip : Expr :=
  .choice [.ref .Whitespace, .ref .EOL, .ref .Comment]

/-- parse/trunnel.pigeon:493 `Whitespace`. -/
def rWhitespace : Expr :=
  .cls [' ', '\t', '\r'] []

/-- parse/trunnel.pigeon:494 `EOL`. -/
def rEOL : Expr :=
  .lit "\n"

/-- parse/trunnel.pigeon:495 `EOF`. -/
def rEOF : Expr :=
  .not (.any)

/-- gen-parser.go:3709-3714 the table of rules. -/
def rules : RuleName → Expr
  | .File => rFile
  | .Declaration => rDeclaration
  | .ConstDeclaration => rConstDeclaration
  | .ContextDeclaration => rContextDeclaration
  | .ContextMember => rContextMember
  | .StructDeclaration => rStructDeclaration
  | .StructDecl => rStructDecl
  | .StructIdentifier => rStructIdentifier
  | .ExternDeclaration => rExternDeclaration
  | .PragmaDeclaration => rPragmaDeclaration
  | .ContextRefs => rContextRefs
  | .StructMember => rStructMember
  | .StructEnding => rStructEnding
  | .StructEOS => rStructEOS
  | .SMArray => rSMArray
  | .SMFixedArray => rSMFixedArray
  | .SMVarArray => rSMVarArray
  | .LengthConstraint => rLengthConstraint
  | .Leftover => rLeftover
  | .SMRemainder => rSMRemainder
  | .ArrayBase => rArrayBase
  | .SMInteger => rSMInteger
  | .SMPosition => rSMPosition
  | .SMString => rSMString
  | .SMStruct => rSMStruct
  | .SMUnion => rSMUnion
  | .UnionLength => rUnionLength
  | .UnionMember => rUnionMember
  | .UnionCase => rUnionCase
  | .UnionBody => rUnionBody
  | .UnionFields => rUnionFields
  | .UnionField => rUnionField
  | .ExtentSpec => rExtentSpec
  | .StructRef => rStructRef
  | .CharType => rCharType
  | .IntType => rIntType
  | .IntConstraint => rIntConstraint
  | .IntList => rIntList
  | .IntListMember => rIntListMember
  | .Integer => rInteger
  | .IntegerConstRef => rIntegerConstRef
  | .IntegerLiteral => rIntegerLiteral
  | .IDRef => rIDRef
  | .IdentifierList => rIdentifierList
  | .Identifier => rIdentifier
  | .ConstIdentifier => rConstIdentifier
  | .IntLiteral => rIntLiteral
  | .DecimalLiteral => rDecimalLiteral
  | .HexLiteral => rHexLiteral
  | .OctalLiteral => rOctalLiteral
  | .SourceChar => rSourceChar
  | .Comment => rComment
  | .MultiLineComment => rMultiLineComment
  | .SingleLineComment => rSingleLineComment
  | .gap1 => rgap1
  | .gap => rgap
  | .Skip => rSkip
  | .Whitespace => rWhitespace
  | .EOL => rEOL
  | .EOF => rEOF

/-! ## Entry points -/

/-- gen-parser.go:3716-3779 `parse` on the runes of the input, and the assertion of parse/parse.go:43-48.
A panic is caught and becomes an error (3727-3743); any recorded error makes the call fail. `none`: not
finished within `fuel` nested calls. -/
def parseRunes (fuel : Nat) (rs : List Rune) : Option (Res File) :=
  match parseExpr rules fuel (.ref .File) [] ⟨rs, [], headBad rs⟩ with
  | .timeout => none
  | .panic => some (.err "panic")
  | .fail _ => some (.err "no match")
  | .ok v _ st =>
    if st.errs then some (.err "errors")
    else
      match v with
      | .file f => some (.ok f)
      | _ => some (.panic "cast")

/-- parse/parse.go:33-41 `Reader`, `String`; gen-parser.go:3157-3170. -/
def parseBytes (fuel : Nat) (b : List UInt8) : Option (Res File) := parseRunes fuel (decode b)

end Verif.Peg
