import Verif.GoSem
/-!
# How many statements emitted code executes

Alongside `exec` of `Verif/GoSem`, whose states it follows.
-/
namespace Verif.Go
open Verif

/-- What executing code called by `Parse` costs. -/
abbrev CallCost := String → Val → Val → List Val → Nat

/-- What follows a statement is executed only when the statement does not return, panic or run out of fuel. Statements printed at
gen/decl.go:121-316. -/
def after : Ctl → (Env → Nat) → Nat
  | .norm env, k => k env
  | _, _ => 0

/-- Bytes `bytes.IndexByte(w, 0)` looks at (gen/decl.go:170): to the first zero, or all of them. -/
def scanned (w : List UInt8) : Nat := if indexByte0 w < 0 then w.length else (indexByte0 w).toNat + 1

/-- `for c { body }`: each test of the condition counts one. gen/decl.go:223,230,241. -/
def loopCost (cond : Env → Res Val) (body : Env → Ctl) (bodyCost : Env → Nat) : Nat → Env → Nat
  | 0, _ => 0
  | n + 1, env =>
    1 + match cond env with
      | .ok (.bool true) => bodyCost env + after (body env) (loopCost cond body bodyCost n)
      | _ => 0

mutual
/-- Statements executed by one statement, each condition tested and each `x++` counted as one more, and bytes looked at by
`bytes.IndexByte` (gen/decl.go:170). Simplified: `make` (gen/decl.go:229,240) and conversion to a string (172) count one, whatever their
size. Statements printed at gen/decl.go:121-316. -/
def cost (M : Mach) (call : Call) (L : Nat) (cc : CallCost) : Stmt → Env → Nat
  | .define _ (.indexByte0 e), env =>
    1 + match eval M env e with
      | .ok (.bytes w _) => scanned w
      | _ => 0
  | .callParse _ _ l data args, env =>
    1 + match eval M env l.expr, eval M env data, evalArgs env args with
      | .ok (.obj T o), .ok w, .ok as => cc T (.obj T o) w as
      | _, _, _ => 0
  | .callDefine _ l data args, env =>
    1 + match eval M env l.expr, eval M env data, evalArgs env args with
      | .ok (.obj T o), .ok w, .ok as => cc T (.obj T o) w as
      | _, _, _ => 0
  | .ifS c body, env =>
    1 + match eval M env c with
      | .ok (.bool true) => costs M call L cc body env
      | _ => 0
  | .block body, env => 1 + costs M call L cc body env
  | .forIdx x n body, env =>
    1 + loopCost (fun env => eval M env (.lt (.var x) n))
      (fun env => thenS (endBlock body (execs M call L body env)) (fun env => incr env x))
      (fun env => costs M call L cc body env + 1) L (env.push x (.num 0))
  | .forC c body, env =>
    1 + loopCost (fun env => eval M env c) (fun env => endBlock body (execs M call L body env))
      (fun env => costs M call L cc body env) L env
  | .switch cs, env => 1 + costClauses M call L cc cs (fun _ => 0) env
  | _, _ => 1
termination_by structural s => s

/-- A statement list. gen/decl.go:135-137. -/
def costs (M : Mach) (call : Call) (L : Nat) (cc : CallCost) : List Stmt → Env → Nat
  | [], _ => 0
  | s :: ss, env => cost M call L cc s env + after (exec M call L s env) (costs M call L cc ss)
termination_by structural ss => ss

/-- The clauses of a tagless switch, one for each condition tested. gen/decl.go:265-276. -/
def costClauses (M : Mach) (call : Call) (L : Nat) (cc : CallCost) :
    List (Option Expr × List Stmt) → (Env → Nat) → Env → Nat
  | [], dflt, env => dflt env
  | (none, body) :: cs, _, env => costClauses M call L cc cs (fun env => costs M call L cc body env) env
  | (some c, body) :: cs, dflt, env =>
    1 + match eval M env c with
      | .ok (.bool true) => costs M call L cc body env
      | .ok (.bool false) => costClauses M call L cc cs dflt env
      | _ => 0
termination_by structural cs => cs
end

/-- Statements executed by `T`'s `Parse` and the methods it calls; user code for extern structs counts one. Methods printed at
gen/decl.go:131-138. -/
def runCost (M : Mach) : Nat → CallCost
  | 0, _, _, _, _ => 0
  | fuel + 1, T, recv, data, args =>
    1 + match M.prog.methods.find? (·.type = T) with
      | some m =>
        match bindParams ((Env.empty.push m.recv recv).push "data" data) (m.params.map (·.1)) args with
        | none => 0
        | some env => costs M (runParse M fuel) fuel (runCost M fuel) m.body env
      | none => 0

mutual
/-- Statements and conditions in the text of a statement (gen/decl.go:121-316). -/
def textSize : Stmt → Nat
  | .ifS _ body => 1 + textSizes body
  | .block body => 1 + textSizes body
  | .forIdx _ _ body => 1 + textSizes body
  | .forC _ body => 1 + textSizes body
  | .switch cs => 1 + textClauses cs
  | _ => 1
termination_by structural s => s

/-- Statements in the text of a list (gen/decl.go:135-137). -/
def textSizes : List Stmt → Nat
  | [] => 0
  | s :: ss => textSize s + textSizes ss
termination_by structural ss => ss

/-- Statements in the text of the clauses of a switch (gen/decl.go:265-276). -/
def textClauses : List (Option Expr × List Stmt) → Nat
  | [] => 0
  | (_, body) :: cs => 1 + textSizes body + textClauses cs
termination_by structural cs => cs
end

end Verif.Go
