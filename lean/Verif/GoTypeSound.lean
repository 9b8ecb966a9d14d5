import Mathlib.Data.List.Forall2
import Verif.GoSem
import Verif.GoType
/-!
# Programs that pass the checker do not get stuck

`Verif/GoType` says which programs obey the scope and type rules, `Verif/GoSem` how they run, independently. Every program that passes
runs without reaching an outcome `stuck`. This holds for all programs of the subset, emitted or not.
-/
set_option linter.unusedVariables false
set_option linter.unusedSimpArgs false
namespace Verif.Go.Sound
open Verif Verif.Go

/-! ## Specification: values of a type -/

/-- Whether a number is a value of the integer type. `int` is unbounded here (lengths of lists are). gen/decl.go:343-348. -/
def InRange (n : Int) : GTy → Prop
  | .byte => 0 ≤ n ∧ n < 2 ^ 8
  | .uint k => 0 ≤ n ∧ n < 2 ^ k
  | .int => True
  | _ => False

/-- Values of a type. A struct has, at each declared field, a value of the field's type. Types printed at gen/decl.go:63-117,339-358. -/
inductive HasTy (P : Sig) : Val → XT → Prop
  | const (n : Int) : HasTy P (.num n) (.const n)
  | bool (b : Bool) : HasTy P (.bool b) .bool
  | num {n : Int} {t : GTy} (h : InRange n t) : HasTy P (.num n) (.ty t)
  | str (bs : List UInt8) : HasTy P (.str bs) (.ty .string)
  | nilPtr (T : String) : HasTy P .nil (.ty (.ptr T))
  | nilSlice (t : GTy) : HasTy P .nil (.ty (.slice t))
  | nilErr : HasTy P .nil (.ty .error)
  | err (m : String) : HasTy P (.error m) (.ty .error)
  | bytes (v h : List UInt8) : HasTy P (.bytes v h) .bytes
  | slice {vs : List Val} {t : GTy} (h : ∀ v ∈ vs, HasTy P v (.ty t)) : HasTy P (.slice vs) (.ty (.slice t))
  | array {vs : List Val} {n : Int} {t : GTy} (hn : vs.length = n.toNat) (h : ∀ v ∈ vs, HasTy P v (.ty t)) :
      HasTy P (.array vs) (.ty (.array n t))
  | obj {T : String} {fs : Fields} (g : String → Val) (hg : ∀ f t, fieldTy P T f = some t → getF fs f = some (g f))
      (h : ∀ f t, fieldTy P T f = some t → HasTy P (g f) t) : HasTy P (.obj T fs) (.ty (.ptr T))
  | struct {T : String} {fs : Fields} (g : String → Val) (hg : ∀ f t, fieldTy P T f = some t → getF fs f = some (g f))
      (h : ∀ f t, fieldTy P T f = some t → HasTy P (g f) t) : HasTy P (.struct fs) (.named T)

/-! ## Values -/

variable {P : Sig} {v : Val} {t : GTy} {M : Mach}

/-- The fields of a struct type. -/
def FieldsTy (P : Sig) (T : String) (fs : Fields) : Prop := ∀ f t, fieldTy P T f = some t → ∃ v, getF fs f = some v ∧ HasTy P v t

theorem HasTy.of_obj {T : String} {fs : Fields} (h : FieldsTy P T fs) : HasTy P (.obj T fs) (.ty (.ptr T)) := by
  refine .obj (fun f => (getF fs f).getD .nil) (fun f t hf => ?_) (fun f t hf => ?_) <;> obtain ⟨v, hv, ht⟩ := h f t hf <;> simp only [hv]
  · rfl
  · exact ht

theorem HasTy.of_struct {T : String} {fs : Fields} (h : FieldsTy P T fs) : HasTy P (.struct fs) (.named T) := by
  refine .struct (fun f => (getF fs f).getD .nil) (fun f t hf => ?_) (fun f t hf => ?_) <;> obtain ⟨v, hv, ht⟩ := h f t hf <;> simp only [hv]
  · rfl
  · exact ht

theorem HasTy.fields {T : String} {fs : Fields} (h : HasTy P (.obj T fs) (.ty (.ptr T))) : FieldsTy P T fs := by
  cases h with
  | obj g hg h => exact fun f t hf => ⟨g f, hg f t hf, h f t hf⟩

theorem HasTy.structFields {T : String} {fs : Fields} (h : HasTy P (.struct fs) (.named T)) : FieldsTy P T fs := by
  cases h with
  | struct g hg h => exact fun f t hf => ⟨g f, hg f t hf, h f t hf⟩

theorem getF_setF (fs : Fields) (f k : String) (v : Val) :
    getF (setF fs f v) k = if k = f then (getF fs f).map (fun _ => v) else getF fs k := by
  induction fs with
  | nil => simp [setF, getF]
  | cons q fs ih =>
    obtain ⟨a, w⟩ := q
    simp only [getF] at ih
    simp only [setF, getF]
    by_cases hf : f = a
    · subst hf
      by_cases hk : k = f
      · simp [hk]
      · have : (k == f) = false := by simpa using hk
        simp [hk, List.lookup_cons, this]
    · simp only [hf, if_false, List.lookup_cons, ih]
      by_cases hk : k = f
      · subst hk
        have : (k == a) = false := by simpa using hf
        simp [this]
      · simp [hk]

theorem FieldsTy.set {T f : String} {fs : Fields} {t : XT} (h : FieldsTy P T fs) (hf : fieldTy P T f = some t) (hv : HasTy P v t) :
    FieldsTy P T (setF fs f v) := by
  intro k u hk
  rw [getF_setF]
  by_cases hkf : k = f
  · subst hkf
    rw [hf] at hk; cases hk
    obtain ⟨w, hw, _⟩ := h k t hf
    exact ⟨v, by simp [hw], hv⟩
  · simpa [hkf] using h k u hk

theorem fits_inRange {n : Int} (h : fits n t = true) : InRange n t := by
  cases t <;> simp_all [fits, InRange]

theorem HasTy.assign {a b : XT} (h : HasTy P v a) (hab : assignable a b = true) : HasTy P v b := by
  unfold assignable at hab
  split at hab
  · cases h; exact .num (fits_inRange hab)
  · rw [← beq_iff_eq.1 hab]; exact h

theorem HasTy.int (h : HasTy P v (.ty t)) (ht : isInt t = true) : ∃ n, v = .num n := by
  cases h <;> simp_all [isInt]

theorem HasTy.index {a : XT} (h : HasTy P v a) (ha : isIndex a = true) : ∃ n, v = .num n := by
  unfold isIndex at ha
  split at ha
  · exact h.int rfl
  · cases h; exact ⟨_, rfl⟩
  · cases ha

theorem zero_ty : ∀ t : GTy, HasTy P (zero t) (.ty (norm t)) := by
  intro t
  induction t with
  | string => exact .str []
  | uint k =>
    have : norm (.uint k) = .byte ∨ norm (.uint k) = .uint k := by
      unfold norm; split <;> simp_all
    rcases this with h | h <;> rw [h] <;> refine .num ?_ <;> simp [InRange, Int.pow_pos]
  | byte => exact .num (t := .byte) (by simp [InRange])
  | int => exact .num (t := .int) trivial
  | ptr T => exact .nilPtr T
  | array n t ih =>
    refine .array (by simp) fun v hv => ?_
    rw [List.eq_of_mem_replicate hv]; exact ih
  | slice t ih => exact .nilSlice _
  | error => exact .nilErr

theorem zeroFields_ty {exts : List (String × List String)} (T : String) :
    FieldsTy (M.prog.sig exts) T (zeroFields M.prog T) := by
  intro f t h
  unfold fieldTy at h
  have key : ∀ ds : List TypeDecl, (ds.map (fun d : TypeDecl => (d.name, d.fields)) ++ exts.map (fun e : String × List String => (e.1, ([] : List (String × GTy))))).lookup T =
      match ds.find? (·.name = T) with
      | some d => some d.fields
      | none => (exts.map (fun e => (e.1, ([] : List (String × GTy))))).lookup T := by
    intro ds
    induction ds with
    | nil => rfl
    | cons d ds ih =>
      simp only [List.map_cons, List.cons_append, List.lookup_cons, List.find?_cons]
      by_cases h : d.name = T
      · subst h; simp
      · have : (T == d.name) = false := by simpa using fun h' => h h'.symm
        simp [this, h, ih]
  have hz : ∀ fs : List (String × GTy), ∀ t, fs.lookup f = some t → (fs.map (fun (f, t) => (f, zero t))).lookup f = some (zero t) := by
    intro fs
    induction fs with
    | nil => intro t h; cases h
    | cons q fs ih =>
      obtain ⟨a, u⟩ := q
      intro t h
      simp only [List.map_cons, List.lookup_cons] at h ⊢
      split <;> simp_all
  have hnil : ∀ (es : List (String × List String)) ds, (es.map (fun e => (e.1, ([] : List (String × GTy))))).lookup T = some ds → ds = [] := by
    intro es
    induction es with
    | nil => intro ds h; cases h
    | cons e es ih =>
      intro ds h
      simp only [List.map_cons, List.lookup_cons] at h
      split at h
      · cases h; rfl
      · exact ih ds h
  simp only [Prog.sig] at h
  rw [key] at h
  unfold zeroFields
  cases hd : M.prog.types.find? (·.name = T) with
  | some d =>
    rw [hd] at h
    simp only at h ⊢
    split at h
    · cases h
    · obtain ⟨u, hu, rfl⟩ := Option.map_eq_some_iff.1 h
      exact ⟨zero u, hz _ _ hu, zero_ty u⟩
  | none =>
    rw [hd] at h
    simp only at h
    split at h
    · cases h
    · next ds hds =>
      rw [hnil _ ds hds] at h
      split at h <;> cases h

/-! ## Expressions -/

/-- A result that is no compile-time error, and satisfies `Q` if it is a value. -/
def ROk {α : Type} (r : Res α) (Q : α → Prop) : Prop :=
  match r with
  | .ok a => Q a
  | .err _ => False
  | .panic _ => True

theorem ROk.bind {α β : Type} {r : Res α} {f : α → Res β} {Q : α → Prop} {Q' : β → Prop} (h : ROk r Q) (hf : ∀ a, Q a → ROk (f a) Q') :
    ROk (r >>= f) Q' := by
  cases r with
  | ok a => exact hf a h
  | err m => exact h
  | panic m => trivial

theorem ROk.mono {α : Type} {r : Res α} {Q Q' : α → Prop} (h : ROk r Q) (hQ : ∀ a, Q a → Q' a) : ROk r Q' := by
  cases r with
  | ok a => exact hQ a h
  | err m => exact h
  | panic m => trivial

/-- Types of the live declarations of each name, innermost first. -/
abbrev Stack := String → List XT

/-- Types of the variables in scope. -/
def heads (S : Stack) : TEnv := fun x => (S x).head?

/-- Declare a variable. -/
def Stack.push (S : Stack) (x : String) (t : XT) : Stack := fun y => if y = x then t :: S y else S y

theorem heads_push {S : Stack} {x : String} {t : XT} (hx : x ≠ "_") : heads (S.push x t) = (heads S).bind x t := by
  funext y
  by_cases h : y = x
  · simp [heads, Stack.push, TEnv.bind, h, hx]
  · simp [heads, Stack.push, TEnv.bind, h]

/-- The variables have values of their types. -/
def EnvTy (P : Sig) (S : Stack) (env : Env) : Prop := ∀ x, List.Forall₂ (HasTy P) (env x) (S x)

variable {S S' : Stack} {env : Env}

theorem EnvTy.head (h : EnvTy P S env) {x : String} {t : XT} (hx : heads S x = some t) : ∃ v r, env x = v :: r ∧ HasTy P v t := by
  have := h x
  simp only [heads] at hx
  cases hS : S x with
  | nil => rw [hS] at hx; cases hx
  | cons u us =>
    rw [hS] at hx this
    cases hx
    cases he : env x with
    | nil => rw [he] at this; cases this
    | cons v r => rw [he] at this; cases this with | cons h _ => exact ⟨v, r, rfl, h⟩

theorem EnvTy.push (h : EnvTy P S env) {x : String} {t : XT} (hv : HasTy P v t) : EnvTy P (S.push x t) (env.push x v) := by
  intro y
  simp only [Stack.push, Env.push]
  split
  · exact .cons hv (h y)
  · exact h y

theorem EnvTy.set (h : EnvTy P S env) {x : String} {t : XT} (hx : heads S x = some t) (hv : HasTy P v t) : EnvTy P S (env.set x v) := by
  intro y
  simp only [Env.set]
  split
  · next hy =>
    subst hy
    have := h y
    simp only [heads] at hx
    cases hS : S y with
    | nil => rw [hS] at hx; cases hx
    | cons u us =>
      rw [hS] at hx this
      cases hx
      cases he : env y with
      | nil => rw [he] at this; cases this
      | cons w r => rw [he] at this; cases this with | cons _ h => exact .cons hv h
  · exact h y

theorem asNum_ok {n : Int} {Q : Int → Prop} (h : Q n) : ROk (asNum (.num n)) Q := h

theorem asBytes_ok (h : HasTy P v (.ty (.slice t))) : ROk (asBytes v) fun _ => True := by
  cases h <;> first | trivial | (rename_i h; cases h)

theorem guardT_some {α : Type} {c : Bool} {a : Option α} {x : α} (h : guardT c a = some x) : c = true ∧ a = some x := by
  unfold guardT at h
  split at h
  · exact ⟨by assumption, h⟩
  · cases h

theorem HasTy.boolean (h : HasTy P v .bool) : ∃ b, v = .bool b := by
  cases h; exact ⟨_, rfl⟩

theorem beNat_bound (bs : List UInt8) : beNat bs < 256 ^ bs.length := by
  induction bs with
  | nil => simp [beNat]
  | cons b bs ih =>
    simp only [beNat, List.length_cons, Nat.pow_succ]
    have := b.toNat_lt
    calc b.toNat * 256 ^ bs.length + beNat bs < b.toNat * 256 ^ bs.length + 256 ^ bs.length := by omega
      _ = (b.toNat + 1) * 256 ^ bs.length := by rw [Nat.add_mul, Nat.one_mul]
      _ ≤ 256 * 256 ^ bs.length := Nat.mul_le_mul_right _ (by omega)
      _ = 256 ^ bs.length * 256 := Nat.mul_comm _ _

theorem ROk.thenNum {β : Type} {r : Res Val} {k : Int → Res β} {Q : Val → Prop} {Q' : β → Prop} (h : ROk r Q) (hn : ∀ v, Q v → ∃ n, v = .num n)
    (hk : ∀ n, ROk (k n) Q') : ROk (r >>= fun v => asNum v >>= k) Q' :=
  h.bind fun v hv => by obtain ⟨n, rfl⟩ := hn v hv; exact hk n

theorem ROk.thenBool {β : Type} {r : Res Val} {k : Bool → Res β} {Q' : β → Prop} (h : ROk r fun v => HasTy P v .bool)
    (hk : ∀ b, ROk (k b) Q') : ROk (r >>= fun v => asBool v >>= k) Q' :=
  h.bind fun v hv => by obtain ⟨b, rfl⟩ := hv.boolean; exact hk b

theorem ROk.thenBytes {β : Type} {r : Res Val} {k : List UInt8 × List UInt8 → Res β} {Q' : β → Prop} (h : ROk r fun v => HasTy P v (.ty (.slice t)))
    (hk : ∀ b, ROk (k b) Q') : ROk (r >>= fun v => asBytes v >>= k) Q' :=
  h.bind fun v hv => (asBytes_ok hv).bind fun b _ => hk b

theorem boolTy_some {a b : Option XT} {t : XT} (h : typeOf.boolTy a b = some t) : a = some .bool ∧ b = some .bool ∧ t = .bool := by
  unfold typeOf.boolTy at h
  split at h
  · cases h; exact ⟨rfl, rfl, rfl⟩
  · cases h

theorem sliceTy_some {a b : Option XT} {t : XT} (h : typeOf.sliceTy a b = some t) :
    a = some .bytes ∧ (∃ i, b = some i ∧ isIndex i = true) ∧ t = .bytes := by
  unfold typeOf.sliceTy at h
  split at h
  · obtain ⟨h1, h2⟩ := guardT_some h
    cases h2; exact ⟨rfl, ⟨_, rfl, h1⟩, rfl⟩
  · cases h

theorem cmpTy_some {a b : Option XT} {t : XT} (h : typeOf.cmpTy a b = some t) :
    (∃ x y, a = some x ∧ b = some y ∧ comparable x y = true) ∧ t = .bool := by
  unfold typeOf.cmpTy at h
  split at h
  · obtain ⟨h1, h2⟩ := guardT_some h
    cases h2; exact ⟨⟨_, _, rfl, rfl, h1⟩, rfl⟩
  · cases h

theorem comparable_left {a b : XT} (h : comparable a b = true) (hv : HasTy P v a) : ∃ n, v = .num n := by
  have hfi : ∀ {n t}, fits n t = true → isInt t = true := by
    intro n t h; cases t <;> simp_all [fits, isInt]
  unfold comparable at h
  split at h
  · rw [Bool.and_eq_true] at h; exact hv.int h.1
  · cases hv; exact ⟨_, rfl⟩
  · exact hv.int (hfi h)
  · cases h

theorem comparable_right {a b : XT} (h : comparable a b = true) (hv : HasTy P v b) : ∃ n, v = .num n := by
  have hfi : ∀ {n t}, fits n t = true → isInt t = true := by
    intro n t h; cases t <;> simp_all [fits, isInt]
  unfold comparable at h
  split at h
  · rw [Bool.and_eq_true] at h
    rw [← beq_iff_eq.1 h.2] at hv; exact hv.int h.1
  · exact hv.int (hfi h)
  · cases hv; exact ⟨_, rfl⟩
  · cases h

theorem wrap_int (n : Int) : HasTy P (.num n) (.ty .int) := .num trivial

/-- **Expressions.** An expression with a type evaluates to a value of that type, or panics. -/
theorem eval_ok {exts : List (String × List String)} (hP : P = M.prog.sig exts) (hE : EnvTy P S env) :
    ∀ (e : Expr) {t : XT}, typeOf P (heads S) e = some t → ROk (eval M env e) fun v => HasTy P v t := by
  have hcmp : ∀ {a b : Expr} (f : Int → Int → Bool) {t : XT}, typeOf.cmpTy (typeOf P (heads S) a) (typeOf P (heads S) b) = some t →
      (∀ {t}, typeOf P (heads S) a = some t → ROk (eval M env a) fun v => HasTy P v t) →
      (∀ {t}, typeOf P (heads S) b = some t → ROk (eval M env b) fun v => HasTy P v t) →
      ROk (eval M env a >>= fun v => asNum v >>= fun x => eval M env b >>= fun w => asNum w >>= fun y => .ok (Val.bool (f x y)))
        fun v => HasTy P v t := by
    intro a b f t h ha hb
    obtain ⟨⟨x, y, hx, hy, hc⟩, rfl⟩ := cmpTy_some h
    exact (ha hx).thenNum (fun v => comparable_left hc) fun _ => (hb hy).thenNum (fun v => comparable_right hc) fun _ => HasTy.bool _
  intro e
  induction e with
  | bad => intro t h; cases h
  | var x =>
    intro t h
    obtain ⟨v, r, he, hv⟩ := hE.head h
    simp only [eval, he]; exact hv
  | field e f ih =>
    intro t h
    simp only [typeOf] at h
    simp only [eval]
    split at h
    · next T hT =>
      refine (ih hT).bind fun v hv => ?_
      cases hv with
      | struct g hg hh => simp only [hg f t h]; exact hh f t h
    · next T hT =>
      refine (ih hT).bind fun v hv => ?_
      cases hv with
      | obj g hg hh => simp only [hg f t h]; exact hh f t h
      | nilPtr => trivial
      | num h => cases h
    · cases h
  | index e i ihe ihi =>
    intro t h
    simp only [typeOf] at h
    simp only [eval]
    split at h
    · next u j hu hj =>
      obtain ⟨h1, h2⟩ := guardT_some h
      cases h2
      refine (ihe hu).bind fun v hv => (ihi hj).thenNum (fun w hw => hw.index h1) fun k => ?_
      cases hv with
      | nilSlice => trivial
      | num h => cases h
      | bytes vis hid =>
        simp only
        split
        · trivial
        · split
          · next b hb =>
            refine HasTy.num (t := .byte) ⟨by omega, ?_⟩
            have := b.toNat_lt
            omega
          · trivial
      | slice hvs =>
        simp only
        split
        · trivial
        · split
          · next b hb => exact hvs _ (List.mem_of_getElem? hb)
          · trivial
    · next n u hu hj =>
      cases h
      refine (ihe hu).bind fun v hv => (ihi hj).thenNum (fun w hw => hw.int rfl) fun k => ?_
      cases hv with
      | num h => cases h
      | array hn hvs =>
        simp only
        split
        · trivial
        · split
          · next b hb => exact hvs _ (List.mem_of_getElem? hb)
          · trivial
    · cases h
  | lit n => intro t h; cases h; exact .const n
  | len e ih =>
    intro t h
    simp only [typeOf] at h
    simp only [eval]
    split at h
    · next u hu =>
      obtain ⟨_, h2⟩ := guardT_some h
      cases h2
      exact (ih hu).thenBytes fun _ => wrap_int _
    · cases h
  | add a b iha ihb =>
    intro t h
    simp only [typeOf] at h
    simp only [eval]
    split at h
    · next u j hu hj =>
      obtain ⟨h1, h2⟩ := guardT_some h
      cases h2
      exact (iha hu).thenNum (fun w hw => hw.int rfl) fun _ => (ihb hj).thenNum (fun w hw => hw.index h1) fun _ => wrap_int _
    · cases h
  | sub a b iha ihb =>
    intro t h
    simp only [typeOf] at h
    simp only [eval]
    split at h
    · next u j hu hj =>
      obtain ⟨h1, h2⟩ := guardT_some h
      cases h2
      exact (iha hu).thenNum (fun w hw => hw.int rfl) fun _ => (ihb hj).thenNum (fun w hw => hw.index h1) fun _ => wrap_int _
    · cases h
  | lt a b iha ihb => intro t h; exact hcmp (fun x y => decide (x < y)) h iha ihb
  | le a b iha ihb => intro t h; exact hcmp (fun x y => decide (x ≤ y)) h iha ihb
  | gt a b iha ihb => intro t h; exact hcmp (fun x y => decide (x > y)) h iha ihb
  | eq a b iha ihb => intro t h; exact hcmp (fun x y => decide (x = y)) h iha ihb
  | and a b iha ihb =>
    intro t h
    obtain ⟨ha, hb, rfl⟩ := boolTy_some h
    simp only [eval]
    refine (iha ha).thenBool fun x => ?_
    cases x with
    | false => exact HasTy.bool _
    | true => exact (ihb hb).thenBool fun y => HasTy.bool _
  | or a b iha ihb =>
    intro t h
    obtain ⟨ha, hb, rfl⟩ := boolTy_some h
    simp only [eval]
    refine (iha ha).thenBool fun x => ?_
    cases x with
    | true => exact HasTy.bool _
    | false => exact (ihb hb).thenBool fun y => HasTy.bool _
  | not a iha =>
    intro t h
    obtain ⟨ha, _, rfl⟩ := boolTy_some h
    simp only [eval]
    exact (iha ha).thenBool fun x => HasTy.bool _
  | toInt e ih =>
    intro t h
    simp only [typeOf] at h
    simp only [eval]
    split at h
    · next u hu =>
      obtain ⟨h1, h2⟩ := guardT_some h
      rw [Bool.and_eq_true] at h1
      cases h2
      exact (ih hu).thenNum (fun w hw => hw.int h1.1) fun _ => wrap_int _
    · cases h
  | toStr e ih =>
    intro t h
    simp only [typeOf] at h
    simp only [eval]
    split at h
    · next hu =>
      obtain ⟨_, h2⟩ := guardT_some h
      cases h2
      exact (ih hu).thenBytes fun _ => .str _
    · cases h
  | sliceFrom e i ihe ihi =>
    intro t h
    obtain ⟨he, ⟨j, hj, hx⟩, rfl⟩ := sliceTy_some h
    simp only [eval]
    refine (ihe he).thenBytes fun b => (ihi hj).thenNum (fun w hw => hw.index hx) fun k => ?_
    split
    · trivial
    · exact HasTy.bytes _ _
  | sliceTo e i ihe ihi =>
    intro t h
    obtain ⟨he, ⟨j, hj, hx⟩, rfl⟩ := sliceTy_some h
    simp only [eval]
    refine (ihe he).thenBytes fun b => (ihi hj).thenNum (fun w hw => hw.index hx) fun k => ?_
    split
    · trivial
    · exact HasTy.bytes _ _
  | indexByte0 e ih =>
    intro t h
    simp only [typeOf] at h
    simp only [eval]
    split at h
    · next hu =>
      obtain ⟨_, h2⟩ := guardT_some h
      cases h2
      exact (ih hu).thenBytes fun _ => wrap_int _
    · cases h
  | beUint bits e ih =>
    intro t h
    simp only [typeOf] at h
    simp only [eval]
    split at h
    · next hu =>
      obtain ⟨h1, h2⟩ := guardT_some h
      cases h2
      refine (ih hu).thenBytes fun b => ?_
      split
      · trivial
      · next hlen =>
        simp only [Bool.and_eq_true, Bool.or_eq_true, beq_iff_eq] at h1
        have hb := beNat_bound (b.1.take (bits / 8))
        rw [List.length_take, Nat.min_eq_left (by omega)] at hb
        have : (256 : Nat) ^ (bits / 8) = 2 ^ bits := by
          rcases h1.2 with (h | h) | h <;> subst h <;> rfl
        rw [this] at hb
        refine HasTy.num ⟨by omega, ?_⟩
        exact_mod_cast hb
    · cases h
  | emptyBytes =>
    intro t h
    obtain ⟨_, h2⟩ := guardT_some h
    cases h2
    exact HasTy.bytes _ _
  | make u n ih =>
    intro t h
    simp only [typeOf] at h
    simp only [eval]
    split at h
    · next j hj =>
      obtain ⟨h1, h2⟩ := guardT_some h
      simp only [Bool.and_eq_true] at h1
      cases h2
      refine (ih hj).thenNum (fun w hw => hw.index h1.1.1) fun k => ?_
      split
      · trivial
      · refine .slice fun v hv => ?_
        rw [List.eq_of_mem_replicate hv]; exact zero_ty u
    · cases h
  | new T =>
    intro t h
    obtain ⟨_, h2⟩ := guardT_some h
    cases h2
    subst hP
    exact .of_obj (zeroFields_ty T)
  | append a b iha ihb =>
    intro t h
    simp only [typeOf] at h
    simp only [eval]
    split at h
    · next u w hu hw =>
      obtain ⟨h1, h2⟩ := guardT_some h
      rw [Bool.and_eq_true] at h1
      cases h2
      refine (iha hu).bind fun v hv => (ihb hw).bind fun y hy => ?_
      have hy := hy.assign h1.2
      cases hv with
      | nilSlice => exact .slice fun z hz => by rw [List.mem_singleton.1 hz]; exact hy
      | num h => cases h
      | bytes vis hid =>
        refine .slice fun z hz => ?_
        rcases List.mem_append.1 hz with hz | hz
        · obtain ⟨c, _, rfl⟩ := List.mem_map.1 hz
          refine HasTy.num (t := .byte) ⟨by omega, ?_⟩
          have := c.toNat_lt
          omega
        · rw [List.mem_singleton.1 hz]; exact hy
      | slice hvs =>
        refine .slice fun z hz => ?_
        rcases List.mem_append.1 hz with hz | hz
        · exact hvs z hz
        · rw [List.mem_singleton.1 hz]; exact hy
    · cases h
  | notNil e ih =>
    intro t h
    simp only [typeOf] at h
    simp only [eval]
    split at h
    · next hu =>
      obtain ⟨_, h2⟩ := guardT_some h
      cases h2
      refine (ih hu).bind fun v hv => ?_
      cases hv with
      | nilErr => exact HasTy.bool _
      | err m => exact HasTy.bool _
      | num h => cases h
    · cases h

/-! ## Locations -/

theorem storeAt_slice {a : Val} {k : Int} (ha : HasTy P a (.ty (.slice t))) (hv : HasTy P v (.ty t)) :
    ROk (storeAt a k v) fun b => HasTy P b (.ty (.slice t)) := by
  cases ha with
  | nilSlice => trivial
  | num h => cases h
  | bytes vis hid =>
    simp only [storeAt]
    split
    · trivial
    · exact HasTy.bytes _ _
  | slice hvs =>
    simp only [storeAt]
    split
    · trivial
    · refine HasTy.slice fun z hz => ?_
      rcases List.mem_or_eq_of_mem_set hz with hz | rfl
      · exact hvs z hz
      · exact hv

theorem storeAt_array {a : Val} {k n : Int} (ha : HasTy P a (.ty (.array n t))) (hv : HasTy P v (.ty t)) :
    ROk (storeAt a k v) fun b => HasTy P b (.ty (.array n t)) := by
  cases ha with
  | num h => cases h
  | array hn hvs =>
    simp only [storeAt]
    split
    · trivial
    · refine HasTy.array (by simpa using hn) fun z hz => ?_
      rcases List.mem_or_eq_of_mem_set hz with hz | rfl
      · exact hvs z hz
      · exact hv

theorem field_var {x f : String} {u : XT} (h : typeOf P (heads S) (.field (.var x) f) = some u) :
    ∃ T, (heads S x = some (.named T) ∨ heads S x = some (.ty (.ptr T))) ∧ fieldTy P T f = some u := by
  simp only [typeOf] at h
  split at h
  · next T hT => exact ⟨T, .inl hT, h⟩
  · next T hT => exact ⟨T, .inr hT, h⟩
  · cases h

/-- **Locations.** Storing a value of the type of a location keeps the types of variables. -/
theorem store_ok (hE : EnvTy P S env) {l : LV} {t : XT} (ht : typeOf P (heads S) l.expr = some t) (hv : HasTy P v t) :
    ROk (store env l v) (EnvTy P S) := by
  cases l with
  | var x =>
    obtain ⟨w, r, he, _⟩ := hE.head (x := x) ht
    simp only [store, he]
    exact hE.set ht hv
  | field x f =>
    obtain ⟨T, hT, hf⟩ := field_var ht
    rcases hT with hT | hT <;> obtain ⟨w, r, he, hw⟩ := hE.head hT <;> simp only [store, he]
    · cases hw with
      | struct g hg hh =>
        simp only [hg f t hf]
        exact hE.set hT (.of_struct ((HasTy.struct g hg hh).structFields.set hf hv))
    · cases hw with
      | nilPtr => trivial
      | num h => cases h
      | obj g hg hh =>
        simp only [hg f t hf]
        exact hE.set hT (.of_obj ((HasTy.obj g hg hh).fields.set hf hv))
  | index x f i =>
    have key : ∃ T a ti, (heads S x = some (.named T) ∨ heads S x = some (.ty (.ptr T))) ∧ fieldTy P T f = some a ∧
        heads S i = some ti ∧ (∀ w, HasTy P w ti → ∃ k, w = .num k) ∧
        ∀ w k, HasTy P w a → ROk (storeAt w k v) fun b => HasTy P b a := by
      simp only [LV.expr] at ht
      unfold typeOf at ht
      split at ht
      · next u j hu hj =>
        obtain ⟨h1, h2⟩ := guardT_some ht
        cases h2
        obtain ⟨T, hT, hf⟩ := field_var hu
        exact ⟨T, _, j, hT, hf, hj, fun w hw => hw.index h1, fun w k hw => storeAt_slice hw hv⟩
      · next n u hu hj =>
        cases ht
        obtain ⟨T, hT, hf⟩ := field_var hu
        exact ⟨T, _, _, hT, hf, hj, fun w hw => hw.int rfl, fun w k hw => storeAt_array hw hv⟩
      · cases ht
    obtain ⟨T, a, ti, hT, hf, hi, hnum, hst⟩ := key
    obtain ⟨wi, ri, hei, hwi⟩ := hE.head hi
    obtain ⟨k, rfl⟩ := hnum wi hwi
    rcases hT with hT | hT <;> obtain ⟨w, r, he, hw⟩ := hE.head hT <;> simp only [store, he, hei]
    · cases hw with
      | struct g hg hh =>
        simp only [hg f a hf]
        exact (hst _ k (hh f a hf)).bind fun b hb => hE.set hT (.of_struct ((HasTy.struct g hg hh).structFields.set hf hb))
    · cases hw with
      | nilPtr => trivial
      | num h => cases h
      | obj g hg hh =>
        simp only [hg f a hf]
        exact (hst _ k (hh f a hf)).bind fun b hb => hE.set hT (.of_obj ((HasTy.obj g hg hh).fields.set hf hb))

theorem assign_ok {l : LV} {e : Expr} (h : assignOK P (heads S) l e = true) :
    ∃ t u, typeOf P (heads S) l.expr = some t ∧ typeOf P (heads S) e = some u ∧ assignable u t = true := by
  unfold assignOK at h
  split at h
  · next t u ht hu => exact ⟨t, u, ht, hu, h⟩
  · cases h

/-! ## Blocks -/

/-- The stack has grown by declarations of `xs`. -/
def Pushed (xs : List String) (S S' : Stack) : Prop := ∀ x, ∃ l, S' x = l ++ S x ∧ l.length = xs.count x

theorem Pushed.nil : Pushed [] S S := fun x => ⟨[], rfl, rfl⟩

theorem Pushed.one {x : String} {t : XT} : Pushed [x] S (S.push x t) := by
  intro y
  by_cases h : y = x
  · exact ⟨[t], by simp [Stack.push, h], by simp [h]⟩
  · exact ⟨[], by simp [Stack.push, h], by simp [List.count_cons, Ne.symm h]⟩

theorem Pushed.trans {xs ys : List String} {S'' : Stack} (h : Pushed xs S S') (h' : Pushed ys S' S'') : Pushed (xs ++ ys) S S'' := by
  intro x
  obtain ⟨l, hl, hn⟩ := h x
  obtain ⟨k, hk, hm⟩ := h' x
  exact ⟨k ++ l, by rw [hk, hl, List.append_assoc], by simp [hn, hm, Nat.add_comm]⟩

theorem declsOf_cons (s : Stmt) (ss : List Stmt) : declsOf (s :: ss) = declsOf [s] ++ declsOf ss := by
  cases s <;> rfl

theorem popAll_eq (xs : List String) : ∀ (env : Env) (y : String), popAll env xs y = (env y).drop (xs.count y) := by
  induction xs with
  | nil => intro env y; rfl
  | cons x xs ih =>
    intro env y
    simp only [popAll, List.foldl_cons] at ih ⊢
    rw [ih]
    by_cases h : y = x
    · subst h
      simp [Env.pop, List.drop_tail]
    · simp [Env.pop, h, List.count_cons, Ne.symm h]

theorem EnvTy.popAll {xs : List String} (h : EnvTy P S' env) (hp : Pushed xs S S') : EnvTy P S (popAll env xs) := by
  intro x
  obtain ⟨l, hl, hn⟩ := hp x
  rw [popAll_eq]
  have := List.forall₂_drop (xs.count x) (h x)
  rwa [hl, List.drop_left' hn] at this

/-! ## Statements -/

/-- A statement does not get stuck; if it ends normally the variables have the types of `S'`; if it returns, those of a stack grown
from `S`, and the value has type `R`. -/
def SOk (P : Sig) (R : XT) (S S' : Stack) : Ctl → Prop
  | .norm env => EnvTy P S' env
  | .ret env v _ => (∃ S'' xs, Pushed xs S S'' ∧ EnvTy P S'' env) ∧ HasTy P v R
  | .stuck _ => False
  | _ => True

variable {R : XT}

theorem SOk.weaken {S1 : Stack} {xs : List String} {c : Ctl} (hp : Pushed xs S S1) (h : SOk P R S1 S' c) : SOk P R S S' c := by
  cases c with
  | ret env v e =>
    obtain ⟨⟨S'', ys, h1, h2⟩, h3⟩ := h
    exact ⟨⟨S'', _, hp.trans h1, h2⟩, h3⟩
  | _ => exact h

theorem SOk.thenE {α : Type} {r : Res α} {k : α → Ctl} {Q : α → Prop} (h : ROk r Q) (hk : ∀ a, Q a → SOk P R S S' (k a)) :
    SOk P R S S' (thenE r k) := by
  cases r with
  | ok a => exact hk a h
  | err m => exact h
  | panic m => trivial

theorem SOk.thenS {S1 : Stack} {xs : List String} {c : Ctl} {k : Env → Ctl} (hp : Pushed xs S S1) (h : SOk P R S S1 c)
    (hk : ∀ env, EnvTy P S1 env → SOk P R S1 S' (k env)) : SOk P R S S' (thenS c k) := by
  cases c with
  | norm env => exact (hk env h).weaken hp
  | ret env v e => exact h
  | panic m => exact h
  | stuck m => exact h
  | timeout => exact h

theorem SOk.endBlock {ss : List Stmt} {c : Ctl} (hp : Pushed (declsOf ss) S S') (h : SOk P R S S' c) : SOk P R S S (endBlock ss c) := by
  cases c with
  | norm env => exact EnvTy.popAll h hp
  | ret env v e => exact h
  | panic m => exact h
  | stuck m => exact h
  | timeout => exact h

theorem loop_ok {cond : Env → Res Val} {body : Env → Ctl} (hc : ∀ env, EnvTy P S env → ROk (cond env) fun v => HasTy P v .bool)
    (hb : ∀ env, EnvTy P S env → SOk P R S S (body env)) : ∀ (n : Nat) (env : Env), EnvTy P S env → SOk P R S S (loop cond body n env) := by
  intro n
  induction n with
  | zero => intro env _; trivial
  | succ n ih =>
    intro env h
    simp only [loop]
    refine SOk.thenE (hc env h) fun v hv => ?_
    obtain ⟨b, rfl⟩ := hv.boolean
    cases b with
    | true => exact SOk.thenS .nil (hb env h) ih
    | false => exact h

/-- What is known of calls. -/
def CallTy (P : Sig) (call : Call) : Prop := ∀ T ps o w as, P.parse.lookup T = some ps → HasTy P o (.ty (.ptr T)) → HasTy P w .bytes →
  List.Forall₂ (HasTy P) as (ps.map XT.named) →
  match call T o w as with
  | .done o' r e => HasTy P o' (.ty (.ptr T)) ∧ HasTy P r .bytes
  | .stuck _ => False
  | _ => True

theorem evalArgs_ok (hE : EnvTy P S env) : ∀ {args ps : List String}, args.map (heads S) = ps.map (fun p => some (.named p)) →
    ROk (evalArgs env args) fun as => List.Forall₂ (HasTy P) as (ps.map XT.named) := by
  intro args
  induction args with
  | nil =>
    intro ps h
    cases ps with
    | nil => exact .nil
    | cons _ _ => cases h
  | cons x xs ih =>
    intro ps h
    cases ps with
    | nil => cases h
    | cons p ps =>
      simp only [List.map_cons, List.cons.injEq] at h
      obtain ⟨v, r, he, hv⟩ := hE.head h.1
      simp only [evalArgs, he]
      refine ROk.bind (Q := fun a => a = v) rfl fun a ha => ?_
      subst ha
      exact (ih h.2).bind fun as has => .cons hv has

theorem errVal_ty (e : Option String) : HasTy P (errVal e) (.ty .error) := by
  cases e with
  | none => exact .nilErr
  | some m => exact .err m

theorem callOK_some {E : TEnv} {l : LV} {data : Expr} {args : List String} (h : callOK P E l data args = true) :
    ∃ T ps, typeOf P E l.expr = some (.ty (.ptr T)) ∧ P.parse.lookup T = some ps ∧ typeOf P E data = some .bytes ∧
      args.map E = ps.map (fun p => some (.named p)) := by
  unfold callOK at h
  split at h
  · next T hT =>
    split at h
    · next ps hps =>
      rw [Bool.and_eq_true] at h
      exact ⟨T, ps, hT, hps, beq_iff_eq.1 h.1, beq_iff_eq.1 h.2⟩
    · cases h
  · cases h

theorem declarable_ne {blk : List String} {x : String} (h : declarable blk x = true) : x ≠ "_" := by
  simp only [declarable, Bool.and_eq_true, bne_iff_ne] at h
  exact h.2

theorem incr_ok {x : String} (hE : EnvTy P S env) (hx : heads S x = some (.ty .int)) : SOk P R S S (incr env x) := by
  obtain ⟨v, r, he, hv⟩ := hE.head hx
  obtain ⟨k, rfl⟩ := hv.int rfl
  simp only [incr, he]
  exact hE.set hx (wrap_int _)

theorem defTy_ty {a b : XT} (h : defTy a = some b) (hv : HasTy P v a) : HasTy P v b := by
  unfold defTy at h
  split at h
  · obtain ⟨h1, h2⟩ := guardT_some h
    cases h2
    cases hv; exact .num (fits_inRange h1)
  · cases h; exact hv

section
variable {exts : List (String × List String)} {call : Call} {L : Nat}

mutual
/-- **Statements.** -/
theorem exec_ok (hP : P = M.prog.sig exts) (hc : CallTy P call) (hR : HasTy P .nil R) :
    ∀ (s : Stmt) {S : Stack} {blk : List String} {sc : Scope}, chk P R s (heads S, blk) = some sc →
      ∃ S', sc.1 = heads S' ∧ Pushed (declsOf [s]) S S' ∧ ∀ env, EnvTy P S env → SOk P R S S' (exec M call L s env)
  | .define x e, S, blk, sc, h => by
    simp only [chk] at h
    split at h
    · next t ht =>
      obtain ⟨u, hu, h⟩ := Option.bind_eq_some_iff.1 h
      obtain ⟨h1, h2⟩ := guardT_some h
      cases h2
      refine ⟨S.push x u, (heads_push (declarable_ne h1)).symm, Pushed.one, fun env hE => ?_⟩
      simp only [exec]
      exact SOk.thenE (eval_ok hP hE e ht) fun v hv => hE.push (defTy_ty hu hv)
    · cases h
  | .varDecl x t, S, blk, sc, h => by
    simp only [chk] at h
    obtain ⟨h1, h2⟩ := guardT_some h
    rw [Bool.and_eq_true] at h1
    cases h2
    refine ⟨S.push x (.ty (norm t)), (heads_push (declarable_ne h1.1)).symm, Pushed.one, fun env hE => ?_⟩
    simp only [exec]
    exact hE.push (zero_ty t)
  | .assign l e, S, blk, sc, h => by
    simp only [chk] at h
    obtain ⟨h1, h2⟩ := guardT_some h
    cases h2
    obtain ⟨t, u, ht, hu, ha⟩ := assign_ok h1
    refine ⟨S, rfl, Pushed.nil, fun env hE => ?_⟩
    simp only [exec]
    exact SOk.thenE (eval_ok hP hE e hu) fun v hv => SOk.thenE (store_ok hE ht (hv.assign ha)) fun env h => h
  | .assign2 l m e f, S, blk, sc, h => by
    simp only [chk] at h
    obtain ⟨h1, h2⟩ := guardT_some h
    rw [Bool.and_eq_true] at h1
    cases h2
    obtain ⟨t, u, ht, hu, ha⟩ := assign_ok h1.1
    obtain ⟨t', u', ht', hu', ha'⟩ := assign_ok h1.2
    refine ⟨S, rfl, Pushed.nil, fun env hE => ?_⟩
    simp only [exec]
    exact SOk.thenE (eval_ok hP hE e hu) fun v hv => SOk.thenE (eval_ok hP hE f hu') fun w hw =>
      SOk.thenE (store_ok hE ht (hv.assign ha)) fun env hE => SOk.thenE (store_ok hE ht' (hw.assign ha')) fun env h => h
  | .callParse d x l data args, S, blk, sc, h => by
    simp only [chk] at h
    obtain ⟨h1, h2⟩ := guardT_some h
    simp only [Bool.and_eq_true] at h1
    cases h2
    obtain ⟨T, ps, hT, hps, hd, has⟩ := callOK_some h1.1.1
    refine ⟨S, rfl, Pushed.nil, fun env hE => ?_⟩
    simp only [exec]
    refine SOk.thenE (eval_ok hP hE _ hT) fun o ho => SOk.thenE (eval_ok hP hE _ hd) fun w hw =>
      SOk.thenE (evalArgs_ok hE has) fun as has' => ?_
    cases ho with
    | nilPtr => trivial
    | num h => cases h
    | @obj _ fs g hg hh =>
      have := hc T ps (.obj T fs) w as hps (.obj g hg hh) hw has'
      simp only
      cases hcall : call T (.obj T fs) w as with
      | done o' r e =>
        rw [hcall] at this
        exact SOk.thenE (store_ok hE hT this.1) fun env hE =>
          SOk.thenE (store_ok (l := .var d) hE (beq_iff_eq.1 h1.1.2) this.2) fun env hE =>
          SOk.thenE (store_ok (l := .var x) hE (beq_iff_eq.1 h1.2) (errVal_ty e)) fun env h => h
      | panic m => trivial
      | stuck m => rw [hcall] at this; exact this
      | timeout => trivial
  | .callDefine x l data args, S, blk, sc, h => by
    simp only [chk] at h
    obtain ⟨h1, h2⟩ := guardT_some h
    simp only [Bool.and_eq_true] at h1
    cases h2
    obtain ⟨T, ps, hT, hps, hd, has⟩ := callOK_some h1.1
    refine ⟨S.push x (.ty .error), (heads_push (declarable_ne h1.2)).symm, Pushed.one, fun env hE => ?_⟩
    simp only [exec]
    refine SOk.thenE (eval_ok hP hE _ hT) fun o ho => SOk.thenE (eval_ok hP hE _ hd) fun w hw =>
      SOk.thenE (evalArgs_ok hE has) fun as has' => ?_
    cases ho with
    | nilPtr => trivial
    | num h => cases h
    | @obj _ fs g hg hh =>
      have := hc T ps (.obj T fs) w as hps (.obj g hg hh) hw has'
      simp only
      cases hcall : call T (.obj T fs) w as with
      | done o' r e =>
        rw [hcall] at this
        exact SOk.thenE (store_ok hE hT this.1) fun env hE => hE.push (errVal_ty e)
      | panic m => trivial
      | stuck m => rw [hcall] at this; exact this
      | timeout => trivial
  | .ifS c body, S, blk, sc, h => by
    simp only [chk] at h
    obtain ⟨h1, h2⟩ := guardT_some h
    obtain ⟨sc', h3, h4⟩ := Option.map_eq_some_iff.1 h2
    cases h4
    obtain ⟨S', _, hp, hb⟩ := execs_ok hP hc hR body h3
    refine ⟨S, rfl, Pushed.nil, fun env hE => ?_⟩
    simp only [exec]
    refine SOk.thenE (eval_ok hP hE c (beq_iff_eq.1 h1)) fun v hv => ?_
    obtain ⟨b, rfl⟩ := hv.boolean
    cases b with
    | true => exact SOk.endBlock hp (hb env hE)
    | false => exact hE
  | .block body, S, blk, sc, h => by
    simp only [chk] at h
    obtain ⟨sc', h3, h4⟩ := Option.map_eq_some_iff.1 h
    cases h4
    obtain ⟨S', _, hp, hb⟩ := execs_ok hP hc hR body h3
    refine ⟨S, rfl, Pushed.nil, fun env hE => ?_⟩
    simp only [exec]
    exact SOk.endBlock hp (hb env hE)
  | .forIdx x n body, S, blk, sc, h => by
    simp only [chk] at h
    obtain ⟨h1, h2⟩ := guardT_some h
    rw [Bool.and_eq_true] at h1
    obtain ⟨sc', h3, h4⟩ := Option.map_eq_some_iff.1 h2
    cases h4
    have hx := declarable_ne h1.1
    rw [← heads_push hx] at h3 h1
    obtain ⟨S', _, hp, hb⟩ := execs_ok hP hc hR body h3
    refine ⟨S, rfl, Pushed.nil, fun env hE => ?_⟩
    simp only [exec]
    have hx1 : heads (S.push x (.ty .int)) x = some (.ty .int) := by simp [heads, Stack.push]
    refine SOk.thenS (Pushed.one (x := x)) ((loop_ok (S := S.push x (.ty .int)) (fun env hE => eval_ok hP hE _ (beq_iff_eq.1 h1.2)) (fun env hE => ?_) L _
      (hE.push (wrap_int 0))).weaken (Pushed.one (x := x))) fun env hE => ?_
    · exact SOk.thenS .nil (SOk.endBlock hp (hb env hE)) fun env hE => incr_ok hE hx1
    · have := EnvTy.popAll (xs := [x]) hE (Pushed.one (S := S) (t := .ty .int))
      exact this
  | .forC c body, S, blk, sc, h => by
    simp only [chk] at h
    obtain ⟨h1, h2⟩ := guardT_some h
    obtain ⟨sc', h3, h4⟩ := Option.map_eq_some_iff.1 h2
    cases h4
    obtain ⟨S', _, hp, hb⟩ := execs_ok hP hc hR body h3
    refine ⟨S, rfl, Pushed.nil, fun env hE => ?_⟩
    simp only [exec]
    exact loop_ok (fun env hE => eval_ok hP hE c (beq_iff_eq.1 h1)) (fun env hE => SOk.endBlock hp (hb env hE)) L env hE
  | .switch cs, S, blk, sc, h => by
    simp only [chk] at h
    obtain ⟨_, h2⟩ := guardT_some h
    obtain ⟨_, h3, h4⟩ := Option.map_eq_some_iff.1 h2
    cases h4
    refine ⟨S, rfl, Pushed.nil, fun env hE => ?_⟩
    simp only [exec]
    exact clauses_ok hP hc hR cs h3 (dflt := .norm) (fun env h => h) env hE
  | .retNew m, S, blk, sc, h => by
    simp only [chk] at h
    obtain ⟨_, h2⟩ := guardT_some h
    cases h2
    refine ⟨S, rfl, Pushed.nil, fun env hE => ?_⟩
    simp only [exec]
    exact ⟨⟨S, [], Pushed.nil, hE⟩, hR⟩
  | .retErr x, S, blk, sc, h => by
    simp only [chk] at h
    obtain ⟨h1, h2⟩ := guardT_some h
    rw [Bool.and_eq_true] at h1
    cases h2
    refine ⟨S, rfl, Pushed.nil, fun env hE => ?_⟩
    simp only [exec]
    refine SOk.thenE (eval_ok hP hE (.var x) (beq_iff_eq.1 h1.2)) fun v hv => ?_
    cases hv with
    | nilErr => exact ⟨⟨S, [], Pushed.nil, hE⟩, hR⟩
    | err m => exact ⟨⟨S, [], Pushed.nil, hE⟩, hR⟩
    | num h => cases h
  | .ret e, S, blk, sc, h => by
    simp only [chk] at h
    obtain ⟨h1, h2⟩ := guardT_some h
    rw [Bool.and_eq_true] at h1
    cases h2
    refine ⟨S, rfl, Pushed.nil, fun env hE => ?_⟩
    simp only [exec]
    exact SOk.thenE (eval_ok hP hE e (beq_iff_eq.1 h1.2)) fun v hv => ⟨⟨S, [], Pushed.nil, hE⟩, hv⟩
termination_by structural s => s

theorem execs_ok (hP : P = M.prog.sig exts) (hc : CallTy P call) (hR : HasTy P .nil R) :
    ∀ (ss : List Stmt) {S : Stack} {blk : List String} {sc : Scope}, chks P R ss (heads S, blk) = some sc →
      ∃ S', sc.1 = heads S' ∧ Pushed (declsOf ss) S S' ∧ ∀ env, EnvTy P S env → SOk P R S S' (execs M call L ss env)
  | [], S, blk, sc, h => by
    simp only [chks, Option.some.injEq] at h
    subst h
    exact ⟨S, rfl, Pushed.nil, fun env hE => hE⟩
  | s :: ss, S, blk, sc, h => by
    simp only [chks] at h
    obtain ⟨⟨E1, blk1⟩, h1, h2⟩ := Option.bind_eq_some_iff.1 h
    obtain ⟨S1, he, hp, hs⟩ := exec_ok hP hc hR s h1
    simp only at he
    subst he
    obtain ⟨S2, he2, hp2, hs2⟩ := execs_ok hP hc hR ss h2
    refine ⟨S2, he2, by rw [declsOf_cons]; exact hp.trans hp2, fun env hE => ?_⟩
    simp only [execs]
    exact SOk.thenS hp (hs env hE) hs2
termination_by structural ss => ss

theorem clauses_ok (hP : P = M.prog.sig exts) (hc : CallTy P call) (hR : HasTy P .nil R) :
    ∀ (cs : List (Option Expr × List Stmt)) {S : Stack} {u : Unit}, chkClauses P R cs (heads S) = some u → ∀ {dflt : Env → Ctl},
      (∀ env, EnvTy P S env → SOk P R S S (dflt env)) → ∀ env, EnvTy P S env → SOk P R S S (execClauses M call L cs dflt env)
  | [], S, u, h, dflt, hd, env, hE => by
    simp only [execClauses]; exact hd env hE
  | (none, body) :: cs, S, u, h, dflt, hd, env, hE => by
    simp only [chkClauses] at h
    obtain ⟨_, h⟩ := guardT_some h
    obtain ⟨sc, h1, h2⟩ := Option.bind_eq_some_iff.1 h
    obtain ⟨S', _, hp, hb⟩ := execs_ok hP hc hR body h1
    simp only [execClauses]
    exact clauses_ok hP hc hR cs h2 (fun env hE => SOk.endBlock hp (hb env hE)) env hE
  | (some c, body) :: cs, S, u, h, dflt, hd, env, hE => by
    simp only [chkClauses] at h
    obtain ⟨h0, h⟩ := guardT_some h
    obtain ⟨sc, h1, h2⟩ := Option.bind_eq_some_iff.1 h
    obtain ⟨S', _, hp, hb⟩ := execs_ok hP hc hR body h1
    simp only [execClauses]
    refine SOk.thenE (eval_ok hP hE c (beq_iff_eq.1 h0)) fun v hv => ?_
    obtain ⟨b, rfl⟩ := hv.boolean
    cases b with
    | true => exact SOk.endBlock hp (hb env hE)
    | false => exact clauses_ok hP hc hR cs h2 hd env hE
termination_by structural cs => cs
end

/-- A body that ends in a return statement does not run off its end. -/
theorem terminates_ok : ∀ {ss : List Stmt}, terminates ss = true → ∀ env env', execs M call L ss env ≠ .norm env' := by
  have hS : ∀ {c : Ctl} {k : Env → Ctl}, (∀ e e', k e ≠ .norm e') → ∀ e', thenS c k ≠ .norm e' := by
    intro c k h e'
    cases c with
    | norm e => exact h e e'
    | _ => intro h'; cases h'
  have key : ∀ (ss : List Stmt), terminates ss = true → ∀ env env', execs M call L ss env ≠ .norm env' := by
    intro ss
    induction ss with
    | nil => intro h; cases h
    | cons s ss ih =>
      intro h env env'
      simp only [execs]
      cases ss with
      | cons s' ss =>
        refine hS (ih ?_) env'
        cases s <;> exact h
      | nil =>
        cases s with
        | ret e =>
          simp only [exec]
          cases eval M env e <;> intro h' <;> cases h'
        | _ => cases h
  exact fun {ss} => key ss

end

/-! ## Programs -/

theorem bind_ok : ∀ {qs : List (String × XT)} {S : Stack} {env : Env} {blk : List String} {sc : Scope} {as : List Val},
    bindT qs (heads S, blk) = some sc → List.Forall₂ (HasTy P) as (qs.map (·.2)) → EnvTy P S env →
    ∃ env' S', bindParams env (qs.map (·.1)) as = some env' ∧ sc.1 = heads S' ∧ EnvTy P S' env' ∧ Pushed (qs.map (·.1)) S S' ∧
      ∀ q qs', qs = q :: qs' → ∃ ys, Pushed ys (S.push q.1 q.2) S' := by
  intro qs
  induction qs with
  | nil =>
    intro S env blk sc as h ha hE
    cases ha
    simp only [bindT, Option.some.injEq] at h
    subst h
    exact ⟨env, S, rfl, rfl, hE, Pushed.nil, fun q qs' h => by cases h⟩
  | cons q qs ih =>
    obtain ⟨x, t⟩ := q
    intro S env blk sc as h ha hE
    cases ha with
    | @cons v _ vs _ hv ha =>
      simp only [bindT] at h
      obtain ⟨h1, h2⟩ := guardT_some h
      rw [← heads_push (declarable_ne h1)] at h2
      obtain ⟨env', S', e1, e2, e3, e4, _⟩ := ih h2 ha (hE.push hv)
      exact ⟨env', S', e1, e2, e3, (Pushed.one (x := x)).trans e4, fun q qs' h => by cases h; exact ⟨_, e4⟩⟩

theorem getLast_ok {α β : Type} {R : α → β → Prop} {d : α} {t : β} : ∀ {l : List β} {as : List α}, List.Forall₂ R as (l ++ [t]) → R (as.getLastD d) t := by
  intro l
  induction l with
  | nil =>
    intro as h
    cases h with
    | cons h h' => cases h'; exact h
  | cons b l ih =>
    intro as h
    cases h with
    | @cons a _ as _ h h' =>
      have := ih h'
      cases as with
      | nil => cases l <;> cases h'
      | cons a' as => exact this

variable {exts : List (String × List String)}

/-- No variables. -/
def Stack.empty : Stack := fun _ => []

theorem func_ok (hP : P = M.prog.sig exts) {call : Call} {L : Nat} (hc : CallTy P call) (hR : HasTy P .nil R) {qs : List (String × XT)}
    {body : List Stmt} {as : List Val} (h : chkFunc P qs R body = true) (ha : List.Forall₂ (HasTy P) as (qs.map (·.2))) :
    ∃ env, bindParams Env.empty (qs.map (·.1)) as = some env ∧
      match execs M call L body env with
      | .ret env v _ => (∃ S, (∀ q qs', qs = q :: qs' → ∃ ys, Pushed ys (Stack.empty.push q.1 q.2) S) ∧ EnvTy P S env) ∧ HasTy P v R
      | .norm _ => False
      | .stuck _ => False
      | _ => True := by
  unfold chkFunc at h
  split at h
  · cases h
  · next sc hsc =>
    simp only [Bool.and_eq_true] at h
    obtain ⟨sc', hsc'⟩ := Option.isSome_iff_exists.1 h.1.1
    obtain ⟨env, S, e1, e2, e3, _, e4⟩ := bind_ok (S := Stack.empty) (env := Env.empty) hsc ha (fun x => .nil)
    obtain ⟨E, blk⟩ := sc
    simp only at e2
    subst e2
    obtain ⟨S', _, _, hs⟩ := execs_ok (M := M) (L := L) hP hc hR body hsc'
    refine ⟨env, e1, ?_⟩
    have := hs env e3
    have ht := terminates_ok (M := M) (call := call) (L := L) h.1.2 env
    cases hx : execs M call L body env with
    | norm e => exact absurd hx (ht e)
    | ret e v x =>
      rw [hx] at this
      obtain ⟨⟨S'', xs, h1, h2⟩, h3⟩ := this
      refine ⟨⟨S'', fun q qs' hq => ?_, h2⟩, h3⟩
      obtain ⟨ys, hy⟩ := e4 q qs' hq
      exact ⟨_, hy.trans h1⟩
    | stuck m => rw [hx] at this; exact this
    | panic m => trivial
    | timeout => trivial

theorem parse_lookup (p : Prog) (exts : List (String × List String)) (T : String) : (p.sig exts).parse.lookup T =
    match p.methods.find? (·.type = T) with
    | some m => some (m.params.map (·.2))
    | none => exts.lookup T := by
  simp only [Prog.sig]
  induction p.methods with
  | nil => rfl
  | cons m ms ih =>
    simp only [List.map_cons, List.cons_append, List.lookup_cons, List.find?_cons]
    by_cases h : m.type = T
    · subst h; simp
    · have : (T == m.type) = false := by simpa using fun h' => h h'.symm
      simp [this, h, ih]

/-- The user's `Parse` methods change their receiver into an object of the same type. gen/decl.go:190. -/
def ExtObj (ext : Ext) (exts : List (String × List String)) : Prop :=
  ∀ T ps, exts.lookup T = some ps → ∀ as w v k, ext T as w = .ok (v, k) → ∃ fs, v = .obj T fs

theorem ext_obj (h : compiles M.prog exts = true) {T : String} {ps : List String} (hT : exts.lookup T = some ps) (fs : Fields) :
    HasTy (M.prog.sig exts) (.obj T fs) (.ty (.ptr T)) := by
  simp only [compiles, Bool.and_eq_true, decide_eq_true_eq] at h
  have hn := h.1.1.1.1.1.1
  refine .of_obj fun f t hf => ?_
  obtain ⟨v, hv, ht⟩ := zeroFields_ty (M := M) (exts := exts) T f t hf
  unfold zeroFields at hv
  split at hv
  · next d hd =>
    have hd' := List.find?_some hd
    simp only [decide_eq_true_eq] at hd'
    have h1 : T ∈ M.prog.names := by
      rw [← hd']
      exact List.mem_append_left _ (List.mem_map_of_mem (f := fun d : TypeDecl => d.name) (List.mem_of_find?_eq_some hd))
    have h2 : T ∈ exts.map (·.1) := by
      clear hv hf hn h ht
      induction exts with
      | nil => cases hT
      | cons e es ih =>
        obtain ⟨a, b⟩ := e
        rw [List.lookup_cons] at hT
        split at hT
        · next hb => rw [beq_iff_eq] at hb; simp [hb]
        · exact List.mem_cons_of_mem _ (ih hT)
    exact absurd rfl ((List.nodup_append.1 hn).2.2 T h1 T h2)
  · cases hv

/-- **Calls.** -/
theorem runParse_ok (h : compiles M.prog exts = true) (hx : ExtObj M.ext exts) : ∀ fuel, CallTy (M.prog.sig exts) (runParse M fuel) := by
  intro fuel
  induction fuel with
  | zero => intro T ps o w as _ _ _ _; trivial
  | succ fuel ih =>
    intro T ps o w as hps ho hw has
    rw [parse_lookup] at hps
    cases hm : M.prog.methods.find? (·.type = T) with
    | some m =>
      rw [hm] at hps
      simp only [Option.some.injEq] at hps
      subst hps
      have hmT : m.type = T := by simpa using List.find?_some hm
      have hchk : chkMethod (M.prog.sig exts) m = true := by
        simp only [compiles, Bool.and_eq_true, List.all_eq_true] at h
        exact h.1.2 m (List.mem_of_find?_eq_some hm)
      simp only [chkMethod, Bool.and_eq_true] at hchk
      have := func_ok (L := fuel) rfl ih (.nilSlice _) hchk.2 (as := o :: w :: as)
        (by
          refine .cons (by rw [hmT]; exact ho) (.cons hw ?_)
          simpa [Function.comp_def] using has)
      obtain ⟨env, e1, e2⟩ := this
      simp only [List.map_cons, bindParams, List.map_map, Function.comp_def] at e1
      simp only [runParse, hm, e1]
      cases hr : execs M (runParse M fuel) fuel m.body env with
      | norm e => rw [hr] at e2; exact e2
      | ret e v x =>
        rw [hr] at e2
        obtain ⟨⟨S, hp, hE⟩, hv⟩ := e2
        refine ⟨?_, hv⟩
        obtain ⟨ys, hy⟩ := hp _ _ rfl
        obtain ⟨l, hl, _⟩ := hy m.recv
        have := hE m.recv
        rw [hl] at this
        rw [← hmT]
        simp only [Stack.push, Stack.empty, if_true] at this
        exact getLast_ok this
      | stuck m => rw [hr] at e2; exact e2
      | panic m => trivial
      | timeout => trivial
    | none =>
      rw [hm] at hps
      simp only at hps
      simp only [runParse, hm]
      have hb := asBytes_ok hw
      cases hb' : asBytes w with
      | ok b =>
        obtain ⟨vis, hid⟩ := b
        simp only
        cases he : M.ext T as vis with
        | ok r =>
          obtain ⟨v, k⟩ := r
          obtain ⟨fs, rfl⟩ := hx T ps hps as vis v k he
          exact ⟨ext_obj h hps fs, .bytes _ _⟩
        | error m => exact ⟨ho, .nilSlice _⟩
      | err m => rw [hb'] at hb; exact hb
      | panic m => simp only; cases w <;> cases hb'

/-- **Constructors.** -/
theorem runCtor_ok (h : compiles M.prog exts = true) (hx : ExtObj M.ext exts) (fuel : Nat) {T : String} {c : Ctor}
    (hc : M.prog.ctors.find? (·.type = T) = some c) {w : Val} {as : List Val} (hw : HasTy (M.prog.sig exts) w .bytes)
    (has : List.Forall₂ (HasTy (M.prog.sig exts)) as (c.params.map fun q => .named q.2)) :
    match runCtor M fuel T w as with
    | .done _ v _ => HasTy (M.prog.sig exts) v (.ty (.ptr T))
    | .stuck _ => False
    | _ => True := by
  have hcT : c.type = T := by simpa using List.find?_some hc
  have hchk : chkCtor (M.prog.sig exts) c = true := by
    simp only [compiles, Bool.and_eq_true, List.all_eq_true] at h
    exact h.2 c (List.mem_of_find?_eq_some hc)
  simp only [chkCtor, Bool.and_eq_true] at hchk
  obtain ⟨env, e1, e2⟩ := func_ok (L := fuel) rfl (runParse_ok h hx fuel) (.nilPtr _) hchk.2 (as := w :: as)
    (by
      refine .cons hw ?_
      simpa [Function.comp_def] using has)
  simp only [List.map_cons, bindParams, List.map_map, Function.comp_def] at e1
  simp only [runCtor, hc, e1]
  cases hr : execs M (runParse M fuel) fuel c.body env with
  | norm e => rw [hr] at e2; exact e2
  | ret e v x => rw [hr] at e2; rw [← hcT]; exact e2.2
  | stuck m => rw [hr] at e2; exact e2
  | panic m => trivial
  | timeout => trivial

end Verif.Go.Sound
