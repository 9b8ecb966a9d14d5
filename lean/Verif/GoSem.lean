import Verif.GoSyntax
/-!
# Meaning of the emitted Go

A definitional interpreter for `Verif/GoSyntax`, following the Go specification for a 64-bit
platform.  Outcomes are kept apart: normal end, return, run-time panic, `stuck` (the text would not
compile: unknown identifier, wrong type) and `timeout` (the given fuel was too small; a run that
times out for every fuel never ends).

Simplifications:
* Values form trees.  The emitted code never stores one pointer or slice in two live places, so no
  aliasing is lost (`new`, `make` and `append` results are stored once).
* A byte slice is its visible part and what lies behind it up to its capacity.  Emitted code never
  writes through a slice of its input, nor slices what it made; both are given a meaning here only
  so that every program that compiles has one (C77), which ignores that memory is shared.
* `make` and `append` fail (as a panic) only when the length is negative or above `maxAlloc`.
* Methods of structs declared `extern` and not defined in the files are user code.  They are an
  arbitrary function returning an object and a number of bytes consumed, or an error.
-/
namespace Verif.Go
open Verif

/-- Go values. `bytes` is a `[]byte` over the input: visible bytes, and the bytes between its length
and its capacity. `nil` is a nil pointer, slice or error. `struct` is a struct passed by value. Values of the types of gen/decl.go:339-358. -/
inductive Val where
  | nil
  | num (n : Int)
  | bool (b : Bool)
  | str (bs : List UInt8)
  | bytes (vis hid : List UInt8)
  | slice (vs : List Val)
  | array (vs : List Val)
  | obj (T : String) (fs : List (String × Val))
  | struct (fs : List (String × Val))
  | error (msg : String)
deriving Repr

/-- The field list of a struct value. Of types printed at gen/decl.go:63-117. -/
abbrev Fields := List (String × Val)

/-- Read a field. `x.F` as printed at gen/decl.go:146,303-308. -/
def getF (fs : Fields) (f : String) : Option Val := fs.lookup f

/-- Overwrite an existing field. Assignment to `x.F`, gen/decl.go:146,208-210. -/
def setF : Fields → String → Val → Fields
  | [], _, _ => []
  | (k, w) :: fs, f, v => if f = k then (k, v) :: fs else (k, w) :: setF fs f v

/-- Zero value of a type (Go spec "The zero value"). For `new` and `var`, gen/decl.go:122,185,242. -/
def zero : GTy → Val
  | .string => .str []
  | .uint _ => .num 0
  | .byte => .num 0
  | .int => .num 0
  | .ptr _ => .nil
  | .array n t => .array (List.replicate n.toNat (zero t))
  | .slice _ => .nil
  | .error => .nil

/-- Wrap to a 64-bit signed integer: conversion `int(x)`, and `int` arithmetic. gen/decl.go:228,285,288. -/
def wrap64 (x : Int) : Int := (x + 2 ^ 63) % 2 ^ 64 - 2 ^ 63

/-- Big-endian value (`binary.BigEndian.UintN`). gen/decl.go:210. -/
def beNat : List UInt8 → Nat
  | [] => 0
  | b :: bs => b.toNat * 256 ^ bs.length + beNat bs

/-- User code behind `extern` structs: type name, context arguments, visible bytes. Called at gen/decl.go:190. -/
abbrev Ext := String → List Val → List UInt8 → Except String (Val × Nat)

/-- What a program runs on. A program printed by gen/decl.go:30-83, the user's code, and the bound on `make` at gen/decl.go:229. -/
structure Mach where
  prog : Prog
  ext : Ext
  maxAlloc : Nat

/-- Variables in scope: for each name, the stack of its live declarations, innermost first. Variables of gen/decl.go:131-133,170,184,223,230,242,295. -/
abbrev Env := String → List Val

namespace Env

/-- Declare a variable in the current block. `:=` and `var`, gen/decl.go:133,170,184,242,295. -/
def push (env : Env) (x : String) (v : Val) : Env := fun y => if y = x then v :: env y else env y

/-- Leave the block declaring `x`. Blocks printed at gen/decl.go:143,164. -/
def pop (env : Env) (x : String) : Env := fun y => if y = x then (env y).tail else env y

/-- Assign the innermost `x`. gen/decl.go:172,181,190,217,296,299. -/
def set (env : Env) (x : String) (v : Val) : Env := fun y => if y = x then v :: (env y).tail else env y

/-- No variables. Before gen/decl.go:121. -/
def empty : Env := fun _ => []

end Env

/-- First zero byte, or -1 (`bytes.IndexByte(s, 0)`). gen/decl.go:170. -/
def indexByte0 : List UInt8 → Int
  | [] => -1
  | b :: bs => if b = 0 then 0 else
    let k := indexByte0 bs
    if k < 0 then -1 else k + 1

/-- The fields of a declared struct type at their zero values; none for a type not declared here. `new`, gen/decl.go:122,185. -/
def zeroFields (p : Prog) (T : String) : Fields :=
  match p.types.find? (·.name = T) with
  | some d => d.fields.map (fun (f, t) => (f, zero t))
  | none => []

/-- Integer operand. gen/decl.go:311-315,331-333. -/
def asNum : Val → Res Int
  | .num n => .ok n
  | _ => .err "not an integer"

/-- Boolean operand. Conditions, gen/decl.go:213,223,241,270. -/
def asBool : Val → Res Bool
  | .bool b => .ok b
  | _ => .err "not a boolean"

/-- The byte in an element of a `[]byte` made here. Emitted code slices only its input, gen/decl.go:121-316. -/
def byteOf : Val → UInt8
  | .num n => UInt8.ofNat n.toNat
  | _ => 0

/-- Byte slice operand. `cur`, gen/decl.go:170-172,208-217,295-296. Slices made here are taken to have no spare capacity. -/
def asBytes : Val → Res (List UInt8 × List UInt8)
  | .bytes v h => .ok (v, h)
  | .nil => .ok ([], [])
  | .slice vs => .ok (vs.map byteOf, [])
  | _ => .err "not a byte slice"

/-- Expression evaluation. `err` = does not compile, `panic` = run-time panic. Expressions printed at gen/decl.go:121-336. -/
def eval (M : Mach) (env : Env) : Expr → Res Val
  | .bad => .err "syntax error"
  | .var x => match env x with
    | [] => .err "undefined"
    | v :: _ => .ok v
  | .field e f => do
    match ← eval M env e with
    | .obj _ fs | .struct fs => match getF fs f with
      | some v => .ok v
      | none => .err "no such field"
    | .nil => .panic "nil pointer dereference"
    | _ => .err "not a struct"
  | .index e i => do
    let v ← eval M env e
    let k ← asNum (← eval M env i)
    match v with
    | .array vs | .slice vs =>
      if k < 0 then .panic "index out of range" else
      match vs[k.toNat]? with
      | some v => .ok v
      | none => .panic "index out of range"
    | .bytes vis _ =>
      if k < 0 then .panic "index out of range" else
      match vis[k.toNat]? with
      | some b => .ok (.num b.toNat)
      | none => .panic "index out of range"
    | .nil => .panic "index out of range"
    | _ => .err "not indexable"
  | .lit n => .ok (.num n)
  | .len e => do
    let (vis, _) ← asBytes (← eval M env e)
    .ok (.num vis.length)
  | .add a b => do
    let x ← asNum (← eval M env a)
    let y ← asNum (← eval M env b)
    .ok (.num (wrap64 (x + y)))
  | .sub a b => do
    let x ← asNum (← eval M env a)
    let y ← asNum (← eval M env b)
    .ok (.num (wrap64 (x - y)))
  | .lt a b => do
    let x ← asNum (← eval M env a)
    let y ← asNum (← eval M env b)
    .ok (.bool (x < y))
  | .le a b => do
    let x ← asNum (← eval M env a)
    let y ← asNum (← eval M env b)
    .ok (.bool (x ≤ y))
  | .gt a b => do
    let x ← asNum (← eval M env a)
    let y ← asNum (← eval M env b)
    .ok (.bool (x > y))
  | .eq a b => do
    let x ← asNum (← eval M env a)
    let y ← asNum (← eval M env b)
    .ok (.bool (x = y))
  | .and a b => do
    if ← asBool (← eval M env a) then do
      let y ← asBool (← eval M env b)
      .ok (.bool y)
    else .ok (.bool false)
  | .or a b => do
    if ← asBool (← eval M env a) then .ok (.bool true)
    else do
      let y ← asBool (← eval M env b)
      .ok (.bool y)
  | .not a => do
    let x ← asBool (← eval M env a)
    .ok (.bool (!x))
  | .toInt e => do
    let x ← asNum (← eval M env e)
    .ok (.num (wrap64 x))
  | .toStr e => do
    let (vis, _) ← asBytes (← eval M env e)
    .ok (.str vis)
  | .sliceFrom e i => do
    let (vis, hid) ← asBytes (← eval M env e)
    let k ← asNum (← eval M env i)
    if k < 0 ∨ (vis.length : Int) < k then .panic "slice bounds out of range"
    else .ok (.bytes (vis.drop k.toNat) hid)
  | .sliceTo e i => do
    let (vis, hid) ← asBytes (← eval M env e)
    let k ← asNum (← eval M env i)
    if k < 0 ∨ ((vis ++ hid).length : Int) < k then .panic "slice bounds out of range"
    else .ok (.bytes ((vis ++ hid).take k.toNat) ((vis ++ hid).drop k.toNat))
  | .indexByte0 e => do
    let (vis, _) ← asBytes (← eval M env e)
    .ok (.num (indexByte0 vis))
  | .beUint bits e => do
    let (vis, _) ← asBytes (← eval M env e)
    if vis.length < bits / 8 then .panic "index out of range"
    else .ok (.num (beNat (vis.take (bits / 8))))
  | .emptyBytes => .ok (.bytes [] [])
  | .make t n => do
    let k ← asNum (← eval M env n)
    if k < 0 ∨ (M.maxAlloc : Int) < k then .panic "makeslice: len out of range"
    else .ok (.slice (List.replicate k.toNat (zero t)))
  | .new T => .ok (.obj T (zeroFields M.prog T))
  | .append a b => do
    let v ← eval M env a
    let w ← eval M env b
    match v with
    | .slice vs => .ok (.slice (vs ++ [w]))
    | .nil => .ok (.slice [w])
    | .bytes vis _ => .ok (.slice (vis.map (fun b => .num b.toNat) ++ [w]))
    | _ => .err "not a slice"
  | .notNil e => do
    match ← eval M env e with
    | .error _ => .ok (.bool true)
    | .nil => .ok (.bool false)
    | _ => .err "not an error"

/-- Store into element `k` of an array or slice. gen/decl.go:224,231. -/
def storeAt (a : Val) (k : Int) (v : Val) : Res Val :=
  match a with
  | .array vs => if k < 0 ∨ (vs.length : Int) ≤ k then .panic "index out of range" else .ok (.array (vs.set k.toNat v))
  | .slice vs => if k < 0 ∨ (vs.length : Int) ≤ k then .panic "index out of range" else .ok (.slice (vs.set k.toNat v))
  | .bytes vis hid =>
    if k < 0 ∨ (vis.length : Int) ≤ k then .panic "index out of range" else .ok (.bytes (vis.set k.toNat (byteOf v)) hid)
  | .nil => .panic "index out of range"
  | _ => .err "not indexable"

/-- Store into a location. Left sides at gen/decl.go:146,172,181,185,208-210,224,229,244. -/
def store (env : Env) (l : LV) (v : Val) : Res Env :=
  match l with
  | .var x => match env x with
    | [] => .err "undefined"
    | _ :: _ => .ok (env.set x v)
  | .field x f => match env x with
    | .obj T fs :: _ => match getF fs f with
      | some _ => .ok (env.set x (.obj T (setF fs f v)))
      | none => .err "no such field"
    | .struct fs :: _ => match getF fs f with
      | some _ => .ok (env.set x (.struct (setF fs f v)))
      | none => .err "no such field"
    | .nil :: _ => .panic "nil pointer dereference"
    | _ => .err "not a struct"
  | .index x f i => match env x, env i with
    | .obj T fs :: _, .num k :: _ => match getF fs f with
      | some a => do
        let a ← storeAt a k v
        .ok (env.set x (.obj T (setF fs f a)))
      | none => .err "no such field"
    | .struct fs :: _, .num k :: _ => match getF fs f with
      | some a => do
        let a ← storeAt a k v
        .ok (env.set x (.struct (setF fs f a)))
      | none => .err "no such field"
    | .nil :: _, .num _ :: _ => .panic "nil pointer dereference"
    | _, _ => .err "not a struct"

/-- How a statement ends. gen/decl.go:143-165. -/
inductive Ctl where
  | norm (env : Env)
  | ret (env : Env) (v : Val) (err : Option String)
  | panic (msg : String)
  | stuck (msg : String)
  | timeout

/-- How a method call ends: the receiver object afterwards, and the two results. Of the methods at gen/decl.go:131-138. -/
inductive CallOut where
  | done (recv : Val) (v : Val) (err : Option String)
  | panic (msg : String)
  | stuck (msg : String)
  | timeout
deriving Repr

/-- An error value. `err`, gen/decl.go:123,184,190. -/
def errVal : Option String → Val
  | none => .nil
  | some m => .error m

/-- Continue after an expression. gen/decl.go:143-165. -/
def thenE {α : Type} (r : Res α) (k : α → Ctl) : Ctl :=
  match r with
  | .ok a => k a
  | .err m => .stuck m
  | .panic m => .panic m

/-- Continue after a statement. gen/decl.go:135-137. -/
def thenS (c : Ctl) (k : Env → Ctl) : Ctl :=
  match c with
  | .norm env => k env
  | c => c

/-- Variables declared directly in a block. Blocks printed at gen/decl.go:143-164. -/
def declsOf : List Stmt → List String
  | [] => []
  | .define x _ :: ss => x :: declsOf ss
  | .varDecl x _ :: ss => x :: declsOf ss
  | .callDefine x _ _ _ :: ss => x :: declsOf ss
  | _ :: ss => declsOf ss

/-- Leave a block declaring `xs`. gen/decl.go:164. -/
def popAll (env : Env) (xs : List String) : Env := xs.foldl Env.pop env

/-- `for c { body }`, at most `n` tests of the condition. gen/decl.go:223,230,241. -/
def loop (cond : Env → Res Val) (body : Env → Ctl) : Nat → Env → Ctl
  | 0, _ => .timeout
  | n + 1, env => thenE (cond env) fun
    | .bool true => thenS (body env) (loop cond body n)
    | .bool false => .norm env
    | _ => .stuck "not a boolean"

/-- `x++`. gen/decl.go:223,230. -/
def incr (env : Env) (x : String) : Ctl :=
  match env x with
  | .num k :: _ => .norm (env.set x (.num (wrap64 (k + 1))))
  | _ => .stuck "not an integer"

/-- Evaluate named arguments. `contextArgs`, gen/decl.go:368-374. -/
def evalArgs (env : Env) : List String → Res (List Val)
  | [] => .ok []
  | x :: xs => do
    let v ← match env x with
      | [] => .err "undefined"
      | v :: _ => .ok v
    let vs ← evalArgs env xs
    .ok (v :: vs)

/-- Type of method calls: Go type name, receiver object, data, arguments. gen/decl.go:131,190. -/
abbrev Call := String → Val → Val → List Val → CallOut

/-- Leave the block `ss`: its declarations end. gen/decl.go:164. -/
def endBlock (ss : List Stmt) (c : Ctl) : Ctl := thenS c fun env => .norm (popAll env (declsOf ss))

mutual
/-- One statement. `L` bounds the iterations of each loop. Statements printed at gen/decl.go:121-316. -/
def exec (M : Mach) (call : Call) (L : Nat) : Stmt → Env → Ctl
  | .define x e, env => thenE (eval M env e) fun v => .norm (env.push x v)
  | .varDecl x t, env => .norm (env.push x (zero t))
  | .assign l e, env => thenE (eval M env e) fun v => thenE (store env l v) .norm
  | .assign2 l m e f, env =>
    thenE (eval M env e) fun v => thenE (eval M env f) fun w =>
    thenE (store env l v) fun env => thenE (store env m w) .norm
  | .callParse d x l data args, env =>
    thenE (eval M env l.expr) fun o => thenE (eval M env data) fun w =>
    thenE (evalArgs env args) fun as =>
    match o with
    | .obj T _ =>
      match call T o w as with
      | .done o' r e =>
        thenE (store env l o') fun env => thenE (store env (.var d) r) fun env =>
        thenE (store env (.var x) (errVal e)) .norm
      | .panic m => .panic m
      | .stuck m => .stuck m
      | .timeout => .timeout
    | .nil => .panic "nil pointer dereference"
    | _ => .stuck "not a struct"
  | .callDefine x l data args, env =>
    thenE (eval M env l.expr) fun o => thenE (eval M env data) fun w =>
    thenE (evalArgs env args) fun as =>
    match o with
    | .obj T _ =>
      match call T o w as with
      | .done o' _ e => thenE (store env l o') fun env => .norm (env.push x (errVal e))
      | .panic m => .panic m
      | .stuck m => .stuck m
      | .timeout => .timeout
    | .nil => .panic "nil pointer dereference"
    | _ => .stuck "not a struct"
  | .ifS c body, env => thenE (eval M env c) fun
    | .bool true => endBlock body (execs M call L body env)
    | .bool false => .norm env
    | _ => .stuck "not a boolean"
  | .block body, env => endBlock body (execs M call L body env)
  | .forIdx x n body, env =>
    thenS (loop (fun env => eval M env (.lt (.var x) n))
      (fun env => thenS (endBlock body (execs M call L body env)) (fun env => incr env x)) L
      (env.push x (.num 0))) fun env => .norm (env.pop x)
  | .forC c body, env =>
    loop (fun env => eval M env c) (fun env => endBlock body (execs M call L body env)) L env
  | .switch cs, env => execClauses M call L cs .norm env
  | .retNew m, env => .ret env .nil (some m)
  | .retErr x, env => thenE (eval M env (.var x)) fun
    | .error m => .ret env .nil (some m)
    | .nil => .ret env .nil none
    | _ => .stuck "not an error"
  | .ret e, env => thenE (eval M env e) fun v => .ret env v none
termination_by structural s => s

/-- A statement list. gen/decl.go:135-137. -/
def execs (M : Mach) (call : Call) (L : Nat) : List Stmt → Env → Ctl
  | [], env => .norm env
  | s :: ss, env => thenS (exec M call L s env) (execs M call L ss)
termination_by structural ss => ss

/-- The clauses of a tagless switch: the first true one, else `dflt`, which a default clause
replaces wherever it stands. gen/decl.go:265-276. -/
def execClauses (M : Mach) (call : Call) (L : Nat) :
    List (Option Expr × List Stmt) → (Env → Ctl) → Env → Ctl
  | [], dflt, env => dflt env
  | (none, body) :: cs, _, env => execClauses M call L cs (fun env => endBlock body (execs M call L body env)) env
  | (some c, body) :: cs, dflt, env => thenE (eval M env c) fun
    | .bool true => endBlock body (execs M call L body env)
    | .bool false => execClauses M call L cs dflt env
    | _ => .stuck "not a boolean"
termination_by structural cs => cs
end

/-- A statement list as a block: its declarations end with it. gen/decl.go:143-164. -/
def execBlock (M : Mach) (call : Call) (L : Nat) (ss : List Stmt) (env : Env) : Ctl :=
  endBlock ss (execs M call L ss env)

/-- Bind parameters. `contextSignature`, gen/decl.go:131,360-366. -/
def bindParams : Env → List String → List Val → Option Env
  | env, [], [] => some env
  | env, x :: xs, v :: vs => bindParams (env.push x v) xs vs
  | _, _, _ => none

/-- Run `T`'s `Parse`. `fuel` bounds the call depth, and the iterations of each loop. Methods printed at gen/decl.go:131-138. -/
def runParse (M : Mach) : Nat → Call
  | 0, _, _, _, _ => .timeout
  | fuel + 1, T, recv, data, args =>
    match M.prog.methods.find? (·.type = T) with
    | some m =>
      match bindParams ((Env.empty.push m.recv recv).push "data" data) (m.params.map (·.1)) args with
      | none => .stuck "wrong number of arguments"
      | some env =>
        match execs M (runParse M fuel) fuel m.body env with
        | .ret env v e => .done ((env m.recv).getLastD .nil) v e
        | .norm _ => .stuck "missing return"
        | .panic m => .panic m
        | .stuck m => .stuck m
        | .timeout => .timeout
    | none =>
      match asBytes data with
      | .ok (vis, hid) =>
        match M.ext T args vis with
        | .ok (v, k) => .done v (.bytes (vis.drop k) hid) none
        | .error m => .done recv .nil (some m)
      | _ => .stuck "not a byte slice"

/-- Run `ParseT`. Functions printed at gen/decl.go:121-126. -/
def runCtor (M : Mach) (fuel : Nat) (T : String) (data : Val) (args : List Val) : CallOut :=
  match M.prog.ctors.find? (·.type = T) with
  | none => .stuck "undefined"
  | some c =>
    match bindParams (Env.empty.push "data" data) (c.params.map (·.1)) args with
    | none => .stuck "wrong number of arguments"
    | some env =>
      match execs M (runParse M fuel) fuel c.body env with
      | .ret _ v e => .done .nil v e
      | .norm _ => .stuck "missing return"
      | .panic m => .panic m
      | .stuck m => .stuck m
      | .timeout => .timeout

end Verif.Go
