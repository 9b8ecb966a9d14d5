import Verif.DecodeLemmas
import Verif.Static
import Verif.Gen
/-!
# The emitted code computes the reference decoder
-/
set_option linter.unusedSimpArgs false
namespace Verif.Refine
open Verif Verif.Ast Verif.Go Verif.Gen Verif.Wire Verif.Spec Verif.Inspect

/-! ## Environments -/

@[simp] theorem push_same (env : Env) (x : String) (v : Val) : env.push x v x = v :: env x := by
  simp [Env.push]
theorem push_ne (env : Env) {x y : String} (v : Val) (h : y ≠ x) : env.push x v y = env y := by
  simp [Env.push, h]
@[simp] theorem set_same (env : Env) (x : String) (v : Val) : env.set x v x = v :: (env x).tail := by
  simp [Env.set]
theorem set_ne (env : Env) {x y : String} (v : Val) (h : y ≠ x) : env.set x v y = env y := by
  simp [Env.set, h]
@[simp] theorem pop_push (env : Env) (x : String) (v : Val) : (env.push x v).pop x = env := by
  funext y; by_cases h : y = x <;> simp [Env.pop, Env.push, h]
theorem pop_push_ne (env : Env) {x y : String} (v : Val) (h : y ≠ x) :
    (env.push y v).pop x = (env.pop x).push y v := by
  funext z; by_cases h1 : z = x <;> by_cases h2 : z = y <;> simp_all [Env.pop, Env.push]
@[simp] theorem set_push (env : Env) (x : String) (v w : Val) : (env.push x v).set x w = env.push x w := by
  funext y; by_cases h : y = x <;> simp [Env.set, Env.push, h]
theorem set_push_ne (env : Env) {x y : String} (v w : Val) (h : y ≠ x) :
    (env.push y v).set x w = (env.set x w).push y v := by
  funext z; by_cases h1 : z = x <;> by_cases h2 : z = y <;> simp_all [Env.set, Env.push]
theorem push_comm (env : Env) {x y : String} (v w : Val) (h : y ≠ x) :
    (env.push y v).push x w = (env.push x w).push y v := by
  funext z; by_cases h1 : z = x <;> by_cases h2 : z = y <;> simp_all [Env.push]

/-- Variables an expression mentions. -/
def evars : Expr → List String
  | .var x => [x]
  | .bad | .lit _ | .emptyBytes | .new _ => []
  | .field e _ | .len e | .not e | .toInt e | .toStr e | .indexByte0 e | .beUint _ e | .make _ e
  | .notNil e => evars e
  | .index a b | .add a b | .sub a b | .lt a b | .le a b | .gt a b | .eq a b | .and a b | .or a b
  | .sliceFrom a b | .sliceTo a b | .append a b => evars a ++ evars b

theorem eval_congr (M : Mach) {env env' : Env} (e : Expr)
    (h : ∀ x ∈ evars e, (env x).head? = (env' x).head?) : eval M env e = eval M env' e := by
  induction e with
  | var x =>
    have := h x (by simp [evars])
    simp only [eval]
    cases h1 : env x <;> cases h2 : env' x <;> simp_all
  | bad | lit | emptyBytes | new => rfl
  | field e _ ih | len e ih | not e ih | toInt e ih | toStr e ih | indexByte0 e ih | beUint _ e ih
  | make _ e ih | notNil e ih =>
    simp only [eval]; rw [ih h]
  | index a b iha ihb | add a b iha ihb | sub a b iha ihb | lt a b iha ihb | le a b iha ihb
  | gt a b iha ihb | eq a b iha ihb | and a b iha ihb | or a b iha ihb | sliceFrom a b iha ihb
  | sliceTo a b iha ihb | append a b iha ihb =>
    simp only [eval]
    rw [iha (fun x hx => h x (by simp [evars, hx])), ihb (fun x hx => h x (by simp [evars, hx]))]

theorem eval_push (M : Mach) (env : Env) {x : String} (v : Val) (e : Expr) (h : x ∉ evars e) :
    eval M (env.push x v) e = eval M env e := by
  apply eval_congr
  intro y hy
  rw [push_ne]
  rintro rfl; exact h hy

theorem store_push (env : Env) {x : String} (v w : Val) (l : LV) (h : x ∉ evars l.expr) :
    store (env.push x v) l w = (store env l w).bind (fun e => .ok (e.push x v)) := by
  cases l with
  | var y =>
    have hy : y ≠ x := by rintro rfl; simp [LV.expr, evars] at h
    simp only [store, push_ne _ _ hy]
    cases env y with
    | nil => rfl
    | cons a t => simp [Res.bind, set_push_ne _ _ _ (Ne.symm hy)]
  | field y f =>
    have hy : y ≠ x := by rintro rfl; simp [LV.expr, evars] at h
    simp only [store, push_ne _ _ hy]
    split
    · split
      · simp [Res.bind, set_push_ne _ _ _ (Ne.symm hy)]
      · rfl
    · split
      · simp [Res.bind, set_push_ne _ _ _ (Ne.symm hy)]
      · rfl
    · rfl
    · rfl
  | index y f i =>
    have hy : y ≠ x := by rintro rfl; simp [LV.expr, evars] at h
    have hi : i ≠ x := by rintro rfl; simp [LV.expr, evars] at h
    simp only [store, push_ne _ _ hy, push_ne _ _ hi]
    split
    · split
      · generalize storeAt _ _ w = r
        cases r <;> simp [bind, Res.bind, set_push_ne _ _ _ (Ne.symm hy)]
      · rfl
    · split
      · generalize storeAt _ _ w = r
        cases r <;> simp [bind, Res.bind, set_push_ne _ _ _ (Ne.symm hy)]
      · rfl
    · rfl
    · rfl

@[simp] theorem thenS_norm (env : Env) (k : Env → Ctl) : thenS (.norm env) k = k env := rfl
@[simp] theorem thenS_ret (env : Env) (v : Val) (e : Option String) (k : Env → Ctl) :
    thenS (.ret env v e) k = .ret env v e := rfl
@[simp] theorem thenS_panic (m : String) (k : Env → Ctl) : thenS (.panic m) k = .panic m := rfl
@[simp] theorem thenS_stuck (m : String) (k : Env → Ctl) : thenS (.stuck m) k = .stuck m := rfl
@[simp] theorem thenS_timeout (k : Env → Ctl) : thenS .timeout k = .timeout := rfl
@[simp] theorem thenE_ok {α : Type} (a : α) (k : α → Ctl) : thenE (.ok a) k = k a := rfl
@[simp] theorem thenE_panic {α : Type} (m : String) (k : α → Ctl) : thenE (.panic m) k = .panic m := rfl

theorem execs_nil (M : Mach) (call : Call) (L : Nat) (env : Env) : execs M call L [] env = .norm env := by
  simp [execs]
theorem execs_cons (M : Mach) (call : Call) (L : Nat) (s : Stmt) (ss : List Stmt) (env : Env) :
    execs M call L (s :: ss) env = thenS (exec M call L s env) (execs M call L ss) := by
  simp [execs]

/-- Step past finished statements. -/
macro "go_step" : tactic => `(tactic| simp only [thenS_norm, thenS_ret, thenS_panic, thenS_stuck,
  thenS_timeout, thenE_ok, thenE_panic, execs_nil, execs_cons])

/-! ## Agreement of outcomes -/

/-- The outcome `c` of running code agrees with the outcome `d` of decoding; on success the variables
are `E a r h` for the decoded value `a`, remaining bytes `r` and some hidden bytes `h`. -/
def Agree {α : Type} (E : α → Bytes → Bytes → Env) (d : DOut (α × Bytes)) (c : Ctl) : Prop :=
  match d with
  | .ok (a, r) => ∃ h, c = .norm (E a r h)
  | .err m => ∃ env, c = .ret env .nil (some m)
  | .panic _ => ∃ m, c = .panic m
  | .timeout => c = .timeout

theorem Agree.bind {α β : Type} {E : α → Bytes → Bytes → Env} {E' : β → Bytes → Bytes → Env}
    {d : DOut (α × Bytes)} {c : Ctl} {f : α × Bytes → DOut (β × Bytes)} {k : Env → Ctl}
    (h : Agree E d c) (hk : ∀ a r h, d = .ok (a, r) → Agree E' (f (a, r)) (k (E a r h))) :
    Agree E' (d >>= f) (thenS c k) := by
  cases d with
  | ok p =>
    obtain ⟨a, r⟩ := p
    obtain ⟨h', rfl⟩ := h
    exact hk a r h' rfl
  | err m => obtain ⟨env, rfl⟩ := h; exact ⟨env, rfl⟩
  | panic m => obtain ⟨m', rfl⟩ := h; exact ⟨m', rfl⟩
  | timeout => simp only [Agree] at h; subst h; rfl

theorem Agree.map {α : Type} {E E' : α → Bytes → Bytes → Env}
    {d : DOut (α × Bytes)} {c : Ctl} {k : Env → Ctl}
    (h : Agree E d c) (hk : ∀ a r h, k (E a r h) = .norm (E' a r h)) :
    Agree E' d (thenS c k) := by
  have := Agree.bind (f := fun p => .ok p) (E' := E') (k := k) h (fun a r h _ => ⟨h, hk a r h⟩)
  have e : (d >>= fun p => DOut.ok p) = d := by cases d <;> rfl
  rwa [e] at this

theorem thenS_assoc (c : Ctl) (k k' : Env → Ctl) :
    thenS (thenS c k) k' = thenS c (fun e => thenS (k e) k') := by
  cases c <;> rfl

theorem execs_append (M : Mach) (call : Call) (L : Nat) (a b : List Stmt) (env : Env) :
    execs M call L (a ++ b) env = thenS (execs M call L a env) (execs M call L b) := by
  induction a generalizing env with
  | nil => simp [execs, thenS_norm, thenS_ret, thenS_panic, thenS_timeout]
  | cons s ss ih =>
    simp only [List.cons_append, execs, thenS_assoc]
    congr 1
    funext e
    exact ih e

theorem declsOf_append (a b : List Stmt) : declsOf (a ++ b) = declsOf a ++ declsOf b := by
  induction a with
  | nil => rfl
  | cons s ss ih => cases s <;> simp [declsOf, ih]

/-! ## Conditions -/

variable {g : Cfg} {Γ : Fmt} {M : Mach} {call : Call} {L : Nat}

theorem integer_ok (hK : Γ.K = g.res.constant) {i : Integer} {v : Int} (h : integer g i = .ok v) :
    ival Γ.K i = some v := by
  unfold integer Resolver.integer at h
  cases i with
  | literal x => simp at h; simp [ival, h]
  | constRef n =>
    simp only [ival, hK]
    cases hc : g.res.constant n <;> simp_all

theorem clause_eval (hK : Γ.K = g.res.constant) {env : Env} {v : Expr} {x : Int}
    (hv : eval M env v = .ok (.num x)) {r : IntegerRange} {c : Expr} (h : clause g v r = .ok c) :
    eval M env c = .ok (.bool (rangeHas Γ.K x r)) := by
  unfold clause at h
  cases hh : r.high with
  | none =>
    simp only [hh] at h
    obtain ⟨lo, h1, h2⟩ := Res.bind_eq_ok.1 h
    cases h2
    simp only [eval, hv, Res.ok_bind, asNum, rangeHas, bounds, integer_ok hK h1, hh]
    congr 2
    rw [Bool.eq_iff_iff]
    simp only [decide_eq_true_eq, Bool.and_eq_true]
    omega
  | some hi =>
    simp only [hh] at h
    obtain ⟨lo, h1, h2⟩ := Res.bind_eq_ok.1 h
    obtain ⟨hi', h3, h4⟩ := Res.bind_eq_ok.1 h2
    cases h4
    simp only [eval, hv, Res.ok_bind, asNum, asBool, rangeHas, bounds, integer_ok hK h1, hh,
      integer_ok hK h3, Option.map_some]
    by_cases hlo : lo ≤ x <;> simp [hlo]

theorem clauses_eval (hK : Γ.K = g.res.constant) {env : Env} {v : Expr} {x : Int}
    (hv : eval M env v = .ok (.num x)) : ∀ {rs : List IntegerRange} {cs : List Expr},
    clauses g v rs = .ok cs → ∀ c0 b0, eval M env c0 = .ok (.bool b0) →
    eval M env (cs.foldl .or c0) = .ok (.bool (b0 || rs.any (rangeHas Γ.K x))) := by
  intro rs
  induction rs with
  | nil => intro cs h c0 b0 h0; cases h; simpa using h0
  | cons r rs ih =>
    intro cs h c0 b0 h0
    obtain ⟨c, h1, h2⟩ := Res.bind_eq_ok.1 h
    obtain ⟨cs', h3, h4⟩ := Res.bind_eq_ok.1 h2
    cases h4
    simp only [List.foldl_cons]
    rw [ih h3 (.or c0 c) (b0 || rangeHas Γ.K x r)]
    · simp [Bool.or_assoc]
    · simp only [eval, h0, clause_eval hK hv h1, Res.ok_bind, asBool]
      cases b0 <;> simp

theorem conditional_eval (hK : Γ.K = g.res.constant) {env : Env} {v : Expr} {x : Int}
    (hv : eval M env v = .ok (.num x)) {l : IntegerList} (hne : l.ranges ≠ []) {c : Expr}
    (h : conditional g v l = .ok c) : eval M env c = .ok (.bool (listHas Γ.K l x)) := by
  obtain ⟨cs, h1, h2⟩ := Res.bind_eq_ok.1 h
  cases h2
  cases hr : l.ranges with
  | nil => exact absurd hr hne
  | cons r rs =>
    rw [hr] at h1
    obtain ⟨c0, h3, h4⟩ := Res.bind_eq_ok.1 h1
    obtain ⟨cs', h5, h6⟩ := Res.bind_eq_ok.1 h4
    cases h6
    simp only [joinOr, listHas, hr, List.any_cons]
    exact clauses_eval hK hv h5 c0 _ (clause_eval hK hv h3)


/-! ## Reading one value into a location -/

/-- `E v w h` is an environment in which location `lhs` holds `v` and `cur` holds the bytes `w`. -/
structure Focus (M : Mach) (lhs : LV) (E : Val → Bytes → Bytes → Env) : Prop where
  cur : ∀ v w h, ∃ t, E v w h "cur" = .bytes w h :: t
  setCur : ∀ v w h w' h', (E v w h).set "cur" (.bytes w' h') = E v w' h'
  get : ∀ v w h, eval M (E v w h) lhs.expr = .ok v
  put : ∀ v w h v', store (E v w h) lhs v' = .ok (E v' w h)

theorem Focus.push {lhs : LV} {E : Val → Bytes → Bytes → Env} (F : Focus M lhs E) {x : String}
    (hx : x ≠ "cur") (hl : x ∉ evars lhs.expr) (u : Val) :
    Focus M lhs (fun v w h => (E v w h).push x u) where
  cur := fun v w h => by rw [push_ne _ _ (Ne.symm hx)]; exact F.cur v w h
  setCur := fun v w h w' h' => by rw [set_push_ne _ _ _ hx, F.setCur]
  get := fun v w h => by rw [eval_push _ _ _ _ hl, F.get]
  put := fun v w h v' => by rw [store_push _ _ _ _ hl, F.put]; rfl

theorem eval_cur {env : Env} {w h : Bytes} {t : List Val} (hc : env "cur" = .bytes w h :: t) :
    eval M env Gen.cur = .ok (.bytes w h) := by
  simp [Gen.cur, eval, hc]

theorem store_cur {env : Env} {w h : Bytes} {t : List Val} (hc : env "cur" = .bytes w h :: t) (v : Val) :
    store env (.var "cur") v = .ok (env.set "cur" v) := by
  simp [store, hc]

theorem exec_lengthCheck {env : Env} {w h : Bytes} {t : List Val} (hc : env "cur" = .bytes w h :: t)
    {e : Expr} {n : Int} (he : eval M env e = .ok (.num n)) :
    exec M call L (lengthCheck e) env =
      if (w.length : Int) < n then .ret env .nil (some "data too short") else .norm env := by
  simp only [lengthCheck, exec, eval, eval_cur hc, he, Res.ok_bind, asBytes, asNum, thenE_ok, thenE_panic]
  by_cases hlt : (w.length : Int) < n <;>
    simp [hlt, execBlock, endBlock, execs, exec, thenS_norm, thenS_ret, thenS_panic, thenS_timeout]

theorem exec_assertEnd {env : Env} {w h : Bytes} {t : List Val} (hc : env "cur" = .bytes w h :: t) :
    exec M call L assertEnd env =
      if 0 < w.length then .ret env .nil (some "trailing data disallowed") else .norm env := by
  simp only [assertEnd, exec, eval, eval_cur hc, Res.ok_bind, asBytes, asNum, thenE_ok, thenE_panic]
  by_cases hlt : 0 < w.length <;>
    simp [hlt, execBlock, endBlock, execs, exec, thenS_norm, thenS_ret, thenS_panic, thenS_timeout]

theorem exec_check {env : Env} {c : Expr} {b : Bool} {m : String} (hc : eval M env c = .ok (.bool b)) :
    exec M call L (.ifS (.not c) [.retNew m]) env = if b then .norm env else .ret env .nil (some m) := by
  simp only [exec, eval, hc, Res.ok_bind, asBool, thenE_ok, thenE_panic]
  cases b <;> simp [execBlock, endBlock, execs, exec, thenS_norm, thenS_ret, thenS_panic, thenS_timeout]

theorem exec_advance {env : Env} {w h : Bytes} {t : List Val} (hc : env "cur" = .bytes w h :: t)
    {n : Nat} (hn : n ≤ w.length) :
    exec M call L (.assign (.var "cur") (.sliceFrom Gen.cur (.lit n))) env =
      .norm (env.set "cur" (.bytes (w.drop n) h)) := by
  have : ¬ ((n : Int) < 0 ∨ (w.length : Int) < n) := by omega
  simp only [exec, eval, eval_cur hc, Res.ok_bind, asBytes, asNum, thenE_ok, thenE_panic, if_neg this, store_cur hc]
  simp

theorem beNat_take_one {w : Bytes} {b : UInt8} {t : Bytes} (h : w = b :: t) : beNat (w.take 1) = b.toNat := by
  subst h; simp [beNat]

theorem parseIntType_exec (hK : Γ.K = g.res.constant) {lhs : LV} {E : Val → Bytes → Bytes → Env}
    (F : Focus M lhs E) {t : IntType} (hs : SizeOK t) (hc : ConstraintOK t) {ss : List Stmt}
    (hg : parseIntType g lhs t = .ok ss) (v0 : Val) (w h : Bytes) :
    Agree E (decInt Γ t w) (execs M call L ss (E v0 w h)) := by
  unfold parseIntType at hg
  obtain ⟨chk, hchk, hg⟩ := Res.bind_eq_ok.1 hg
  simp only [Res.ok.injEq] at hg
  subst hg
  obtain ⟨tl, hcur⟩ := F.cur v0 w h
  simp only [List.cons_append, List.nil_append, execs]
  rw [exec_lengthCheck hcur (n := ((t.size / 8 : Nat) : Int)) (by simp [eval])]
  unfold decInt
  by_cases hlen : w.length < t.size / 8
  · have : (w.length : Int) < ((t.size / 8 : Nat) : Int) := by omega
    rw [if_pos hlen, if_pos this]
    exact ⟨_, rfl⟩
  · have : ¬ (w.length : Int) < ((t.size / 8 : Nat) : Int) := by omega
    rw [if_neg hlen, if_neg this]
    simp only [thenS_norm, thenS_ret, thenS_panic, thenS_timeout]
    -- the read
    have hread : exec M call L (intRead lhs t) (E v0 w h) =
        .norm (E (.num (beNat (w.take (t.size / 8)))) w h) := by
      unfold intRead
      by_cases h1 : t.size / 8 = 1
      · rw [if_pos h1]
        cases hw : w with
        | nil => simp [hw] at hlen; omega
        | cons b bs =>
          rw [h1]
          have := beNat_take_one (w := b :: bs) rfl
          rw [this]
          rw [hw] at hcur
          simp [exec, eval, eval_cur hcur, asNum, thenE_ok, thenE_panic, F.put]
      · rw [if_neg h1]
        simp only [exec, eval, eval_cur hcur, Res.ok_bind, asBytes, if_neg hlen, thenE_ok, thenE_panic, F.put]
    rw [hread]
    simp only [thenS_norm, thenS_ret, thenS_panic, thenS_timeout, execs_append]
    obtain ⟨tl', hcur'⟩ := F.cur (.num (beNat (w.take (t.size / 8)))) w h
    cases hct : t.constraint with
    | none =>
      simp only [intCheck, hct] at hchk; cases hchk
      simp only [execs, thenS_norm, thenS_ret, thenS_panic, thenS_timeout]
      rw [exec_advance hcur' (by omega), F.setCur]
      exact ⟨h, by go_step⟩
    | some l =>
      simp only [intCheck, hct] at hchk
      obtain ⟨c, hcnd, he⟩ := Res.bind_eq_ok.1 hchk
      simp only [Res.ok.injEq] at he
      subst he
      have hev := conditional_eval (M := M) hK (F.get (.num (beNat (w.take (t.size / 8)))) w h)
        (hc l hct) hcnd
      simp only [execs]
      rw [exec_check hev]
      cases hb : listHas Γ.K l (beNat (w.take (t.size / 8))) with
      | true =>
        simp only [if_true]
        go_step
        rw [exec_advance hcur' (by omega), F.setCur]
        exact ⟨h, by go_step⟩
      | false =>
        simp only [thenS_norm, thenS_ret, thenS_panic, thenS_timeout, Bool.false_eq_true, if_false]
        exact ⟨_, rfl⟩

/-- Running a nested struct's method agrees with decoding it; `args` are the context arguments. -/
def CallAgree (M : Mach) (Γ : Fmt) (ctx : Ctx) (call : Call) (S : SDec) (n : String) (s : Struct) : Prop :=
  ∀ w h, w.length < 2 ^ 63 → match S n w with
    | .ok (v, r) => ∃ h', call (Γ.nm n) (.obj (Γ.nm n) (zeroFields M.prog (Γ.nm n))) (.bytes w h)
        (s.contexts.map (fun c => .struct (ctx c))) = .done v (.bytes r h') none
    | .err m => ∃ o v, call (Γ.nm n) (.obj (Γ.nm n) (zeroFields M.prog (Γ.nm n))) (.bytes w h)
        (s.contexts.map (fun c => .struct (ctx c))) = .done o v (some m)
    | .panic _ => ∃ m, call (Γ.nm n) (.obj (Γ.nm n) (zeroFields M.prog (Γ.nm n))) (.bytes w h)
        (s.contexts.map (fun c => .struct (ctx c))) = .panic m
    | .timeout => call (Γ.nm n) (.obj (Γ.nm n) (zeroFields M.prog (Γ.nm n))) (.bytes w h)
        (s.contexts.map (fun c => .struct (ctx c))) = .timeout

/-- The declarations a value read leaves in its block. -/
def pushErr : Base → Env → Env
  | .struct _, env => env.push "err" .nil
  | _, env => env

/-- The names `pushErr` declares. -/
def errDecl : Base → List String
  | .struct _ => ["err"]
  | _ => []

theorem popAll_pushErr (b : Base) (env : Env) : popAll (pushErr b env) (errDecl b) = env := by
  cases b <;> simp [popAll, pushErr, errDecl]

theorem parseBase_decls {lhs : LV} {b : Base} {ss : List Stmt} (h : parseBase g lhs b = .ok ss) :
    declsOf ss = errDecl b := by
  have hint : ∀ t ss, parseIntType g lhs t = .ok ss → declsOf ss = [] := by
    intro t ss h
    unfold parseIntType at h
    obtain ⟨chk, hchk, h⟩ := Res.bind_eq_ok.1 h
    simp only [Res.ok.injEq] at h
    subst h
    have hd : declsOf chk = [] := by
      cases hct : t.constraint with
      | none => simp only [intCheck, hct] at hchk; cases hchk; rfl
      | some l =>
        simp only [intCheck, hct] at hchk
        obtain ⟨c, _, he⟩ := Res.bind_eq_ok.1 hchk
        cases he; rfl
    simp only [List.cons_append, List.nil_append, declsOf, declsOf_append, hd, lengthCheck]
    unfold intRead
    by_cases h1 : t.size / 8 = 1 <;> simp [h1, declsOf, hd, declsOf_append]
  cases b with
  | int t => exact hint t ss h
  | char => exact hint U8 ss h
  | struct n =>
    simp only [parseBase] at h
    split at h
    · cases h
    · cases h; rfl

theorem evalArgs_ok {env : Env} {ctx : Ctx} : ∀ {cs : List String},
    (∀ c ∈ cs, ∃ t, env c = .struct (ctx c) :: t) →
    evalArgs env cs = .ok (cs.map (fun c => .struct (ctx c))) := by
  intro cs
  induction cs with
  | nil => intro _; rfl
  | cons c cs ih =>
    intro h
    obtain ⟨t, ht⟩ := h c List.mem_cons_self
    simp [evalArgs, ht, ih (fun c' hc' => h c' (List.mem_cons_of_mem _ hc'))]

/-- What is needed of a base type: integer sizes and constraints are printable; a nested struct's
contexts are among `ctxs`, and its call agrees. -/
def BaseGood (M : Mach) (Γ : Fmt) (ctx : Ctx) (ctxs : List String) (call : Call) (S : SDec) : Base → Prop
  | .int t => SizeOK t ∧ ConstraintOK t
  | .char => True
  | .struct n => ∀ s, Γ.structs n = some s → CallAgree M Γ ctx call S n s ∧ ∀ c ∈ s.contexts, c ∈ ctxs

theorem parseBase_exec (hK : Γ.K = g.res.constant) (hN : Γ.nm = g.nm) (hS : Γ.structs = g.res.struct)
    {ctx : Ctx} {ctxs : List String} {S : SDec}
    {lhs : LV} {E : Val → Bytes → Bytes → Env}
    (F : Focus M lhs E) (hl : "err" ∉ evars lhs.expr)
    (hctx : ∀ v w h, ∀ c ∈ ctxs, ∃ t, E v w h c = .struct (ctx c) :: t)
    (herr : "err" ∉ ctxs)
    {b : Base} (hb : BaseGood M Γ ctx ctxs call S b) {ss : List Stmt}
    (hg : parseBase g lhs b = .ok ss) (v0 : Val) (w h : Bytes) (hw : w.length < 2 ^ 63) :
    Agree (fun v w h => pushErr b (E v w h)) (decBase Γ S b w) (execs M call L ss (E v0 w h)) := by
  cases b with
  | int t => exact parseIntType_exec hK F hb.1 hb.2 hg v0 w h
  | char =>
    exact parseIntType_exec hK F (t := U8) (Or.inl rfl) (by intro l hl; cases hl) hg v0 w h
  | struct n =>
    simp only [parseBase] at hg
    cases hs : g.res.struct n with
    | none => rw [hs] at hg; cases hg
    | some s =>
      rw [hs] at hg
      simp only [Res.ok.injEq] at hg
      subst hg
      obtain ⟨hcall, hsub⟩ := hb s (by rw [hS]; exact hs)
      have F' := F.push (x := "err") (by decide) hl .nil
      obtain ⟨tl, hcur⟩ := F'.cur (.obj (Γ.nm n) (zeroFields M.prog (Γ.nm n))) w h
      have hargs := evalArgs_ok (ctx := ctx) (cs := s.contexts)
        (env := (E (.obj (Γ.nm n) (zeroFields M.prog (Γ.nm n))) w h).push "err" .nil) (by
          intro c hc
          have hc' := hsub c hc
          rw [push_ne _ _ (by rintro rfl; exact herr hc')]
          exact hctx _ _ _ c hc')
      have e1 : exec M call L (.varDecl "err" .error) (E v0 w h) = .norm ((E v0 w h).push "err" .nil) := by
        simp [exec, zero]
      have e2 : exec M call L (.assign lhs (.new (g.nm n))) ((E v0 w h).push "err" .nil) =
          .norm ((E (.obj (Γ.nm n) (zeroFields M.prog (Γ.nm n))) w h).push "err" .nil) := by
        simp only [exec, eval, thenE_ok, ← hN]
        rw [F'.put]; rfl
      go_step
      rw [e1]
      go_step
      rw [e2]
      go_step
      have e3 : exec M call L (.callParse "cur" "err" lhs Gen.cur s.contexts)
          ((E (.obj (Γ.nm n) (zeroFields M.prog (Γ.nm n))) w h).push "err" .nil) =
          match call (Γ.nm n) (.obj (Γ.nm n) (zeroFields M.prog (Γ.nm n))) (.bytes w h)
            (s.contexts.map (fun c => .struct (ctx c))) with
          | .done o' r e =>
            thenE (store ((E (.obj (Γ.nm n) (zeroFields M.prog (Γ.nm n))) w h).push "err" .nil) lhs o')
              fun env => thenE (store env (.var "cur") r) fun env =>
              thenE (store env (.var "err") (errVal e)) .norm
          | .panic m => .panic m
          | .stuck m => .stuck m
          | .timeout => .timeout := by
        simp only [exec]
        rw [F'.get, eval_cur hcur, hargs]
        rfl
      rw [e3]
      have := hcall w h hw
      simp only [decBase]
      cases hd : S n w with
      | ok p =>
        obtain ⟨v, r⟩ := p
        rw [hd] at this
        obtain ⟨h', hc⟩ := this
        rw [hc]
        simp only
        rw [F'.put]
        go_step
        obtain ⟨tl2, hcur2⟩ := F'.cur v w h
        rw [store_cur hcur2]
        go_step
        rw [F'.setCur]
        refine ⟨h', ?_⟩
        simp only [store, errVal, push_same, set_push, pushErr]
        go_step
        simp [exec, eval, execs_nil]
      | err m =>
        rw [hd] at this
        obtain ⟨o, v, hc⟩ := this
        rw [hc]
        simp only
        rw [F'.put]
        go_step
        obtain ⟨tl2, hcur2⟩ := F'.cur o w h
        rw [store_cur hcur2]
        go_step
        rw [set_push_ne _ _ _ (by decide)]
        refine ⟨((E o w h).set "cur" v).push "err" (.error m), ?_⟩
        simp [store, errVal, exec, eval, execBlock, endBlock, execs_cons]
      | panic m =>
        rw [hd] at this
        obtain ⟨m', hc⟩ := this
        rw [hc]
        exact ⟨m', rfl⟩
      | timeout =>
        rw [hd] at this
        simp only at this
        rw [this]
        rfl

end Verif.Refine
