import Verif.Wire
/-!
# Reference decoder

An executable reading of the format, structured like the emitted code but over source syntax and
plain byte lists.  It is an intermediate step: the emitted code computes it (`Verif/Refine`), and it
accepts exactly what `Verif/Wire` describes (`Verif/DecodeLemmas`).  It carries the same fuel as
`runParse`, so the two agree outcome for outcome.
-/
namespace Verif.Wire
open Verif.Ast Verif.Go Verif.Spec

/-- Outcome of decoding (the outcomes of a call of the code emitted by gen/decl.go:130-140). -/
inductive DOut (α : Type) where
  | ok (a : α)
  | err (m : String)
  | panic (m : String)
  | timeout
deriving Repr

namespace DOut

/-- Sequencing. Statements of an emitted method follow each other and return on error, gen/decl.go:135-138. -/
@[inline] def bind {α β : Type} : DOut α → (α → DOut β) → DOut β
  | .ok a, f => f a
  | .err m, _ => .err m
  | .panic m, _ => .panic m
  | .timeout, _ => .timeout

instance : Monad DOut where
  pure := .ok
  bind := bind

variable {α β : Type}
@[simp] theorem ok_bind (a : α) (f : α → DOut β) : (DOut.ok a >>= f) = f a := rfl
@[simp] theorem err_bind (m : String) (f : α → DOut β) : (DOut.err m >>= f) = .err m := rfl
@[simp] theorem panic_bind (m : String) (f : α → DOut β) : (DOut.panic m >>= f) = .panic m := rfl
@[simp] theorem timeout_bind (f : α → DOut β) : (DOut.timeout >>= f) = .timeout := rfl
@[simp] theorem pure_eq (a : α) : (pure a : DOut α) = .ok a := rfl

theorem bind_eq_ok {x : DOut α} {f : α → DOut β} {b : β} :
    (x >>= f) = .ok b ↔ ∃ a, x = .ok a ∧ f a = .ok b := by
  cases x <;> simp

end DOut

/-- Decoder for nested structs (gen/decl.go:183-191). -/
abbrev SDec := String → Bytes → DOut (Val × Bytes)

/-- gen/decl.go:204-218 reads an integer. -/
def decInt (Γ : Fmt) (t : IntType) (w : Bytes) : DOut (Val × Bytes) :=
  if w.length < t.size / 8 then .err "data too short"
  else
    match t.constraint with
    | none => .ok (.num (beNat (w.take (t.size / 8))), w.drop (t.size / 8))
    | some l =>
      if listHas Γ.K l (beNat (w.take (t.size / 8))) then
        .ok (.num (beNat (w.take (t.size / 8))), w.drop (t.size / 8))
      else .err "integer constraint violated"

/-- gen/decl.go:174-191 reads an array element or plain field. -/
def decBase (Γ : Fmt) (S : SDec) : Base → Bytes → DOut (Val × Bytes)
  | .int t, w => decInt Γ t w
  | .char, w => decInt Γ U8 w
  | .struct n, w => S n w

/-- gen/decl.go:223-225, 230-232 the counting loop. -/
def decCount (elem : Bytes → DOut (Val × Bytes)) (n : Int) :
    Nat → Int → List Val → Bytes → DOut (List Val × Bytes)
  | 0, _, _, _ => .timeout
  | k + 1, idx, acc, w =>
    if idx < n then do
      let (v, w) ← elem w
      decCount elem n k (idx + 1) (acc ++ [v]) w
    else .ok (acc, w)

/-- gen/decl.go:241-245 the loop to the end of the input. -/
def decRem (elem : Bytes → DOut (Val × Bytes)) :
    Nat → List Val → Bytes → DOut (List Val × Bytes)
  | 0, _, _ => .timeout
  | k + 1, acc, w =>
    if 0 < w.length then do
      let (v, w) ← elem w
      decRem elem k (acc ++ [v]) w
    else .ok (acc, w)

/-- gen/decl.go:295-299 runs `body` on the first `n` bytes. -/
def decWindow {α : Type} (n : Int) (w : Bytes) (body : Bytes → DOut (α × Bytes)) :
    DOut (α × Bytes) :=
  if n < 0 ∨ (w.length : Int) < n then .panic "slice bounds out of range"
  else do
    let (a, r) ← body (w.take n.toNat)
    if 0 < r.length then .err "trailing data disallowed" else .ok (a, w.drop n.toNat)

/-- gen/decl.go:279-300 `constrained`. -/
def decConstrained {α : Type} (Γ : Fmt) (ctx : Ctx) (o : Fields) (c : LengthConstraint) (w : Bytes)
    (body : Bytes → DOut (α × Bytes)) : DOut (α × Bytes) :=
  match c with
  | .leftover k =>
    match ival Γ.K k with
    | none => .panic "constant undefined"
    | some k =>
      if (w.length : Int) < k then .err "data too short" else decWindow (w.length - k) w body
  | .idRef r =>
    match refVal Γ ctx o r with
    | none => .panic "bad reference"
    | some x =>
      if (w.length : Int) < wrap64 x then .err "data too short" else decWindow (wrap64 x) w body

/-- gen/decl.go:239-245 an array to the end of the input. -/
def decRemArr (Γ : Fmt) (S : SDec) (L : Nat) (b : Base) (w : Bytes) : DOut (Val × Bytes) := do
  let (vs, w) ← decRem (decBase Γ S b) L [] w
  .ok (.slice vs, w)

/-- gen/decl.go:167-202 `parseType`. `A` is the largest length `make` accepts. -/
def decTy (Γ : Fmt) (A : Nat) (S : SDec) (L : Nat) (ctx : Ctx) (D : Nat) (o : Fields) (w : Bytes) :
    Ty → DOut (Val × Bytes)
  | .base b => decBase Γ S b w
  | .ptr => .ok (.num (D - w.length), w)
  | .nulterm =>
    if indexByte0 w < 0 then .err "could not parse nul-term string"
    else .ok (.str (w.take (indexByte0 w).toNat), w.drop ((indexByte0 w).toNat + 1))
  | .fixedArray b n =>
    match ival Γ.K n with
    | none => .panic "constant undefined"
    | some k => do
      let (vs, w) ← decCount (decBase Γ S b) k L 0 [] w
      .ok (.array vs, w)
  | .varArray b (some (.idRef r)) =>
    match refVal Γ ctx o r with
    | none => .panic "bad reference"
    | some x =>
      if wrap64 x < 0 ∨ (A : Int) < wrap64 x then .panic "makeslice: len out of range"
      else do
        let (vs, w) ← decCount (decBase Γ S b) (wrap64 x) L 0 [] w
        .ok (.slice vs, w)
  | .varArray b (some (.leftover k)) =>
    decConstrained Γ ctx o (.leftover k) w (decRemArr Γ S L b)
  | .varArray b none => decRemArr Γ S L b w

/-- gen/decl.go:142-165 `parseMember`; threads the object. -/
def decLeaf (Γ : Fmt) (A : Nat) (S : SDec) (L : Nat) (ctx : Ctx) (D : Nat) (o : Fields) (w : Bytes) :
    Leaf → DOut (Fields × Bytes)
  | .field f => do
    let (v, w) ← decTy Γ A S L ctx D o w f.type
    .ok (setF o (Γ.nm f.name) v, w)
  | .eos => if 0 < w.length then .err "trailing data disallowed" else .ok (o, w)
  | .ignore => .ok (o, [])
  | .fail => .err "disallowed case"

/-- gen/decl.go:272-274. -/
def decLeaves (Γ : Fmt) (A : Nat) (S : SDec) (L : Nat) (ctx : Ctx) (D : Nat) :
    List Leaf → Fields → Bytes → DOut (Fields × Bytes)
  | [], o, w => .ok (o, w)
  | l :: ls, o, w => do
    let (o, w) ← decLeaf Γ A S L ctx D o w l
    decLeaves Γ A S L ctx D ls o w

/-- gen/decl.go:264-276 the switch. -/
def decCases (Γ : Fmt) (A : Nat) (S : SDec) (L : Nat) (ctx : Ctx) (D : Nat) (u : UnionMember)
    (o : Fields) (w : Bytes) : DOut (Fields × Bytes) :=
  match refVal Γ ctx o u.tag with
  | none => .panic "bad reference"
  | some x =>
    match selectCase Γ.K u.cases x with
    | some c => decLeaves Γ A S L ctx D c.members o w
    | none => .ok (o, w)

/-- gen/decl.go:142-165, 252-277. -/
def decMember (Γ : Fmt) (A : Nat) (S : SDec) (L : Nat) (ctx : Ctx) (D : Nat) (o : Fields) (w : Bytes) :
    Member → DOut (Fields × Bytes)
  | .leaf l => decLeaf Γ A S L ctx D o w l
  | .union u =>
    match u.length with
    | none => decCases Γ A S L ctx D u o w
    | some c => decConstrained Γ ctx o c w (fun w => decCases Γ A S L ctx D u o w)

/-- gen/decl.go:135-137. -/
def decMembers (Γ : Fmt) (A : Nat) (S : SDec) (L : Nat) (ctx : Ctx) (D : Nat) :
    List Member → Fields → Bytes → DOut (Fields × Bytes)
  | [], o, w => .ok (o, w)
  | m :: ms, o, w => do
    let (o, w) ← decMember Γ A S L ctx D o w m
    decMembers Γ A S L ctx D ms o w

/-- `new(T)` (gen/decl.go:185): every field absent. -/
def zeroObj (Γ : Fmt) (s : Struct) : Fields :=
  (fieldsOf s.ms).map (fun f => (Γ.nm f.name, zeroTy Γ f.type))

/-- gen/decl.go:130-140, 183-191: a new object parsed by its method. -/
def decStruct (Γ : Fmt) (A : Nat) (ctx : Ctx) : Nat → SDec
  | 0, _, _ => .timeout
  | fuel + 1, n, w =>
    match Γ.structs n with
    | none => .panic "struct not found"
    | some s =>
      if s.extern then
        match Γ.ext (Γ.nm n) (s.contexts.map (fun c => .struct (ctx c))) w with
        | .ok (v, k) => .ok (v, w.drop k)
        | .error m => .err m
      else do
        let (o, w) ← decMembers Γ A (decStruct Γ A ctx fuel) fuel ctx w.length s.ms (zeroObj Γ s) w
        .ok (.obj (Γ.nm n) o, w)

end Verif.Wire
