import Verif.GoCost
import Verif.RefineProg
import Verif.TermBound
/-!
# Emitted parsers execute a number of statements linear in the length of the input
-/
set_option linter.unusedSimpArgs false
set_option linter.unusedVariables false
namespace Verif.Cost
open Verif Verif.Ast Verif.Go Verif.Gen Verif.Wire Verif.Spec Verif.Inspect Verif.Refine

/-! ## Constants -/

/-- Factor and summand of the bound for structs nested `k` deep, when methods have at most `Z` statements and arrays of a fixed length at
most `c` elements. -/
def lin (Z c : Nat) : Nat → Nat × Nat
  | 0 => (0, 1)
  | k + 1 => ((lin Z c k).1 + ((lin Z c k).2 + Z + 2), 1 + Z * ((c + 1) * ((lin Z c k).2 + Z + 2) + 1))

/-! ## Costs of sequences -/

variable {g : Cfg} {Γ : Fmt} {M : Mach} {call : Call} {L : Nat} {cc : CallCost}

theorem after_le {c : Ctl} {k : Env → Nat} {n : Nat} (h : ∀ e, k e ≤ n) : after c k ≤ n := by
  cases c <;> simp [after, h]

theorem after_thenS (c : Ctl) (k : Env → Ctl) (k' : Env → Nat) : after (thenS c k) k' = after c (fun e => after (k e) k') := by
  cases c <;> rfl

theorem after_add (c : Ctl) (k k' : Env → Nat) : after c (fun e => k e + k' e) = after c k + after c k' := by
  cases c <;> simp [after]

@[simp] theorem after_norm (e : Env) (k : Env → Nat) : after (.norm e) k = k e := rfl
@[simp] theorem after_ret (e : Env) (v : Val) (x : Option String) (k : Env → Nat) : after (.ret e v x) k = 0 := rfl
@[simp] theorem after_panic (m : String) (k : Env → Nat) : after (.panic m) k = 0 := rfl
@[simp] theorem after_timeout (k : Env → Nat) : after .timeout k = 0 := rfl

@[simp] theorem costs_nil (env : Env) : costs M call L cc [] env = 0 := by simp [costs]
theorem costs_cons (s : Stmt) (ss : List Stmt) (env : Env) :
    costs M call L cc (s :: ss) env = cost M call L cc s env + after (exec M call L s env) (costs M call L cc ss) := by
  simp [costs]

theorem costs_append (a b : List Stmt) (env : Env) :
    costs M call L cc (a ++ b) env = costs M call L cc a env + after (execs M call L a env) (costs M call L cc b) := by
  induction a generalizing env with
  | nil => simp [execs_nil]
  | cons s a ih =>
    rw [List.cons_append, costs_cons, costs_cons, execs_cons, after_thenS, Nat.add_assoc, ← after_add]
    congr 2
    funext e
    exact ih e

theorem textSizes_append (a b : List Stmt) : textSizes (a ++ b) = textSizes a + textSizes b := by
  induction a with
  | nil => simp [textSizes]
  | cons s a ih => simp [textSizes, ih, Nat.add_assoc]

mutual
/-- No loops, calls, switches or searches. -/
def simple : Stmt → Bool
  | .define _ (.indexByte0 _) => false
  | .ifS _ b => simples b
  | .block b => simples b
  | .callParse .. | .callDefine .. | .forIdx .. | .forC .. | .switch .. => false
  | _ => true
termination_by structural s => s
/-- `simple` for lists. -/
def simples : List Stmt → Bool
  | [] => true
  | s :: ss => simple s && simples ss
termination_by structural ss => ss
end

theorem textSize_pos (s : Stmt) : 1 ≤ textSize s := by cases s <;> simp [textSize] <;> omega

mutual
theorem cost_le : ∀ (s : Stmt) (env : Env), simple s = true → cost M call L cc s env ≤ textSize s
  | .define x e, env, h => by
    cases e <;> first | (simp [cost, textSize]; done) | simp [simple] at h
  | .varDecl .., env, h => by simp [cost, textSize]
  | .assign .., env, h => by simp [cost, textSize]
  | .assign2 .., env, h => by simp [cost, textSize]
  | .callParse .., env, h => by simp [simple] at h
  | .callDefine .., env, h => by simp [simple] at h
  | .ifS c b, env, h => by
    simp only [cost, textSize]
    have := costs_le b env (by simpa [simple] using h)
    split <;> omega
  | .block b, env, h => by
    simp only [cost, textSize]
    have := costs_le b env (by simpa [simple] using h)
    omega
  | .forIdx .., env, h => by simp [simple] at h
  | .forC .., env, h => by simp [simple] at h
  | .switch .., env, h => by simp [simple] at h
  | .retNew .., env, h => by simp [cost, textSize]
  | .retErr .., env, h => by simp [cost, textSize]
  | .ret .., env, h => by simp [cost, textSize]
theorem costs_le : ∀ (ss : List Stmt) (env : Env), simples ss = true → costs M call L cc ss env ≤ textSizes ss
  | [], env, h => by simp [textSizes]
  | s :: ss, env, h => by
    simp only [simples, Bool.and_eq_true] at h
    rw [costs_cons]
    have h1 := cost_le s env h.1
    have h2 : after (exec M call L s env) (costs M call L cc ss) ≤ textSizes ss := after_le fun e => costs_le ss e h.2
    simp only [textSizes]
    omega
end

/-! ## Bounds -/

/-- Bytes an outcome leaves. -/
def left {α : Type} : DOut (α × Bytes) → Nat
  | .ok (_, r) => r.length
  | _ => 0

/-- A cost of at most `K` for each byte consumed from `w`, and `C`. -/
def Paid {α : Type} (K C : Nat) (w : Bytes) (d : DOut (α × Bytes)) (x : Nat) : Prop :=
  ∃ u, x ≤ K * u + C ∧ u + left d ≤ w.length

theorem Paid.const {α : Type} {K C : Nat} {w : Bytes} {d : DOut (α × Bytes)} {x : Nat} (h : x ≤ C) (hl : left d ≤ w.length) :
    Paid K C w d x := ⟨0, by omega, by omega⟩

theorem Paid.mono {α : Type} {K C K' C' : Nat} {w : Bytes} {d : DOut (α × Bytes)} {x x' : Nat} (h : Paid K C w d x) (hK : K ≤ K') (hC : C ≤ C')
    (hx : x' ≤ x) : Paid K' C' w d x' := by
  obtain ⟨u, h1, h2⟩ := h
  exact ⟨u, by have := Nat.mul_le_mul_right u hK; omega, h2⟩

theorem Paid.seq {α β : Type} {E : α → Bytes → Bytes → Env} {K C1 C2 : Nat} {w : Bytes} {d : DOut (α × Bytes)} {c : Ctl} {x : Nat}
    {f : α × Bytes → DOut (β × Bytes)} {k : Env → Nat} (hA : Agree E d c) (hp : Paid K C1 w d x)
    (hk : ∀ a r h, d = .ok (a, r) → Paid K C2 r (f (a, r)) (k (E a r h))) : Paid K (C1 + C2) w (d >>= f) (x + after c k) := by
  obtain ⟨u, h1, h2⟩ := hp
  cases d with
  | ok p =>
    obtain ⟨a, r⟩ := p
    obtain ⟨h', rfl⟩ := hA
    obtain ⟨u2, h3, h4⟩ := hk a r h' rfl
    simp only [left] at h2
    refine ⟨u + u2, ?_, ?_⟩
    · rw [Nat.mul_add, after_norm]; omega
    · simp only [DOut.ok_bind]; omega
  | err m => obtain ⟨env, rfl⟩ := hA; exact ⟨u, by simp; omega, h2⟩
  | panic m => obtain ⟨m', rfl⟩ := hA; exact ⟨u, by simp; omega, h2⟩
  | timeout => simp only [Agree] at hA; subst hA; exact ⟨u, by simp; omega, h2⟩

theorem Paid.map {α β : Type} {K C : Nat} {w : Bytes} {d : DOut (α × Bytes)} {x : Nat} {f : α → β} (h : Paid K C w d x) :
    Paid K C w (d >>= fun p => .ok (f p.1, p.2)) x := by
  obtain ⟨u, h1, h2⟩ := h
  refine ⟨u, h1, ?_⟩
  cases d <;> exact h2

theorem left_le {α : Type} {d : DOut (α × Bytes)} {w : Bytes} (h : ∀ a r, d = .ok (a, r) → r <:+ w) : left d ≤ w.length := by
  cases d with
  | ok p => exact (h p.1 p.2 rfl).length_le
  | _ => simp [left]

/-! ## Values -/

/-- The bound for calls of the methods of nested structs. -/
def BasePaid (M : Mach) (Γ : Fmt) (ctx : Ctx) (cc : CallCost) (S : SDec) (K C : Nat) : Base → Prop
  | .struct n => ∀ s, Γ.structs n = some s → ∀ w h, w.length < 2 ^ 63 →
    Paid K C w (S n w) (cc (Γ.nm n) (.obj (Γ.nm n) (zeroFields M.prog (Γ.nm n))) (.bytes w h)
      (s.contexts.map (fun c => .struct (ctx c))))
  | _ => True

theorem parseIntType_simple {lhs : LV} {t : IntType} {ss : List Stmt} (h : parseIntType g lhs t = .ok ss) : simples ss = true := by
  unfold parseIntType at h
  obtain ⟨chk, hchk, h⟩ := Res.bind_eq_ok.1 h
  simp only [Res.ok.injEq] at h
  subst h
  have happ : ∀ a b, simples (a ++ b) = (simples a && simples b) := by
    intro a b
    induction a with
    | nil => simp [simples]
    | cons s a ih => simp [simples, ih, Bool.and_assoc]
  have hd : simples chk = true := by
    cases hct : t.constraint with
    | none => simp only [intCheck, hct] at hchk; cases hchk; rfl
    | some l =>
      simp only [intCheck, hct] at hchk
      obtain ⟨c, _, he⟩ := Res.bind_eq_ok.1 hchk
      cases he; rfl
  have hr : simple (intRead lhs t) = true := by unfold intRead; split <;> rfl
  simp [happ, hd, simples, hr, lengthCheck, simple]

variable {ctx : Ctx} {S : SDec} {K C : Nat}

theorem parseBase_paid (hK : Γ.K = g.res.constant) (hN : Γ.nm = g.nm) (hS : Γ.structs = g.res.struct)
    {ctxs : List String} (hsuf : S.Suffix) {lhs : LV} {E : Val → Bytes → Bytes → Env}
    (F : Focus M lhs E) (hl : "err" ∉ evars lhs.expr)
    (hctx : ∀ v w h, ∀ c ∈ ctxs, ∃ t, E v w h c = .struct (ctx c) :: t)
    (herr : "err" ∉ ctxs)
    {b : Base} (hb : BaseGood M Γ ctx ctxs call S b) (hp : BasePaid M Γ ctx cc S K C b) {ss : List Stmt}
    (hg : parseBase g lhs b = .ok ss) (v0 : Val) (w h : Bytes) (hw : w.length < 2 ^ 63) :
    Paid K (textSizes ss + C) w (decBase Γ S b w) (costs M call L cc ss (E v0 w h)) := by
  have hlen : left (decBase Γ S b w) ≤ w.length := left_le fun a r h => decBase_suffix hsuf h
  cases b with
  | int t => exact Paid.const (by have := costs_le (M := M) (call := call) (L := L) (cc := cc) ss (E v0 w h) (parseIntType_simple hg); omega) hlen
  | char => exact Paid.const (by have := costs_le (M := M) (call := call) (L := L) (cc := cc) ss (E v0 w h) (parseIntType_simple hg); omega) hlen
  | struct n =>
    simp only [parseBase] at hg
    cases hs : g.res.struct n with
    | none => rw [hs] at hg; cases hg
    | some s =>
      rw [hs] at hg
      simp only [Res.ok.injEq] at hg
      subst hg
      obtain ⟨hcall, hsub⟩ := hb s (by rw [hS]; exact hs)
      have F' := F.push (x := "err") (by decide) hl .nil
      obtain ⟨tl, hcur⟩ := F'.cur (.obj (Γ.nm n) (zeroFields M.prog (Γ.nm n))) w h
      have hargs := evalArgs_ok (ctx := ctx) (cs := s.contexts)
        (env := (E (.obj (Γ.nm n) (zeroFields M.prog (Γ.nm n))) w h).push "err" .nil) (by
          intro c hc
          have hc' := hsub c hc
          rw [push_ne _ _ (by rintro rfl; exact herr hc')]
          exact hctx _ _ _ c hc')
      have e1 : exec M call L (.varDecl "err" .error) (E v0 w h) = .norm ((E v0 w h).push "err" .nil) := by
        simp [exec, zero]
      have e2 : exec M call L (.assign lhs (.new (g.nm n))) ((E v0 w h).push "err" .nil) =
          .norm ((E (.obj (Γ.nm n) (zeroFields M.prog (Γ.nm n))) w h).push "err" .nil) := by
        simp only [exec, eval, thenE_ok, ← hN]
        rw [F'.put]; rfl
      have e3 : cost M call L cc (.callParse "cur" "err" lhs Gen.cur s.contexts)
          ((E (.obj (Γ.nm n) (zeroFields M.prog (Γ.nm n))) w h).push "err" .nil) =
          1 + cc (Γ.nm n) (.obj (Γ.nm n) (zeroFields M.prog (Γ.nm n))) (.bytes w h) (s.contexts.map (fun c => .struct (ctx c))) := by
        simp only [cost]
        rw [F'.get, eval_cur hcur, hargs]
      have hif : ∀ e, costs M call L cc [.ifS (.notNil (.var "err")) [.retErr "err"]] e ≤ 2 :=
        fun e => costs_le _ e (by simp [simples, simple])
      rw [costs_cons, e1, after_norm, costs_cons, e2, after_norm, costs_cons, e3]
      refine (hp s (by rw [hS]; exact hs) w h hw).imp fun u hu => ⟨?_, hu.2⟩
      have h4 := after_le (c := exec M call L (.callParse "cur" "err" lhs Gen.cur s.contexts)
          ((E (.obj (Γ.nm n) (zeroFields M.prog (Γ.nm n))) w h).push "err" .nil)) hif
      simp only [cost, textSizes, textSize]
      omega

/-! ## Loops -/

/-- The bound for a loop that runs at most `i` times to its end; `eats` says each time consumes something. -/
def LoopPaid {α : Type} (K P i : Nat) (eats : Prop) (w : Bytes) (d : DOut (α × Bytes)) (x : Nat) : Prop :=
  ∃ u j, x ≤ K * u + (j + 1) * P ∧ u + left d ≤ w.length ∧ j ≤ i ∧ (eats → j + left d ≤ w.length)

theorem LoopPaid.eats {α : Type} {K P i : Nat} {p : Prop} {w : Bytes} {d : DOut (α × Bytes)} {x : Nat}
    (h : LoopPaid K P i p w d x) (hp : p) : Paid (K + P) P w d x := by
  obtain ⟨u, j, h1, h2, h3, h4⟩ := h
  have h4 := h4 hp
  refine ⟨max u j, ?_, by omega⟩
  have a1 := Nat.mul_le_mul_left K (Nat.le_max_left u j)
  have a2 := Nat.mul_le_mul_left P (Nat.le_max_right u j)
  rw [Nat.add_mul, Nat.one_mul, Nat.mul_comm j P] at h1
  rw [Nat.add_mul]
  omega

theorem LoopPaid.count {α : Type} {K P i c : Nat} {p : Prop} {w : Bytes} {d : DOut (α × Bytes)} {x : Nat}
    (h : LoopPaid K P i p w d x) (hi : i ≤ c) : Paid K ((c + 1) * P) w d x := by
  obtain ⟨u, j, h1, h2, h3, _⟩ := h
  exact ⟨u, by have := Nat.mul_le_mul_right P (show j + 1 ≤ c + 1 by omega); omega, h2⟩

theorem loopCost_true {cond : Env → Res Val} {body : Env → Ctl} {bc : Env → Nat} {n : Nat} {env : Env}
    (h : cond env = .ok (.bool true)) :
    loopCost cond body bc (n + 1) env = 1 + (bc env + after (body env) (loopCost cond body bc n)) := by
  rw [loopCost, h]

theorem loopCost_false {cond : Env → Res Val} {body : Env → Ctl} {bc : Env → Nat} {n : Nat} {env : Env}
    (h : cond env = .ok (.bool false)) : loopCost cond body bc (n + 1) env = 1 := by
  simp only [loopCost, h]

variable {recv T : String} {ctxs : List String} {D : Nat} {E : Fields → Bytes → Bytes → Env}

theorem count_paid (hK : Γ.K = g.res.constant) (hN : Γ.nm = g.nm) (hS : Γ.structs = g.res.struct)
    (hsuf : S.Suffix) (Fr : Frame recv T ctx ctxs D E)
    (hr1 : recv ≠ "idx") (hr2 : recv ≠ "err") (hc1 : "idx" ∉ ctxs) (hc2 : "err" ∉ ctxs)
    {b : Base} (hb : BaseGood M Γ ctx ctxs call S b) (hp : BasePaid M Γ ctx cc S K C b) {o : Fields} {f : String} {v0 : Val}
    (hf : getF o f = some v0) {body : List Stmt}
    (hg : parseBase g (.index recv f "idx") b = .ok body) {a : Bool} {N : Nat} (hN63 : N < 2 ^ 63)
    {bound : Expr} (hbound : ∀ vs w h k, eval M ((E (setF o f (seqVal a vs)) w h).push "idx" k) bound =
      .ok (.num N)) {P : Nat} (hP : textSizes body + C + 2 ≤ P) :
    ∀ (fuel : Nat) (acc rest : List Val) (w h : Bytes), acc.length + rest.length = N →
      w.length < 2 ^ 63 →
      LoopPaid K P rest.length (Eats Γ S b) w (decCount (decBase Γ S b) N fuel acc.length acc w)
        (loopCost (fun env => eval M env (.lt (.var "idx") bound))
          (fun env => thenS (execBlock M call L body env) (fun env => incr env "idx"))
          (fun env => costs M call L cc body env + 1) fuel
          ((E (setF o f (seqVal a (acc ++ rest))) w h).push "idx" (.num acc.length))) := by
  intro fuel
  induction fuel with
  | zero => intro acc rest w h _ _; exact ⟨0, 0, by simp [loopCost], by simp [decCount, left], by omega, by simp [decCount, left]⟩
  | succ fuel ih =>
    intro acc rest w h hlen hw
    simp only [decCount]
    have hcond := eval_lt_idx (push_same ((E (setF o f (seqVal a (acc ++ rest))) w h)) "idx" (.num acc.length)) (hbound (acc ++ rest) w h (.num acc.length))
    cases rest with
    | nil =>
      have hlen' : acc.length = N := by simpa using hlen
      have : ¬ ((acc.length : Int) < N) := by omega
      simp only [this, if_false, decide_false] at hcond ⊢
      rw [loopCost_false hcond]
      exact ⟨0, 0, by omega, by simp [left], by omega, by simp [left]⟩
    | cons x rest =>
      simp only [List.length_cons] at hlen
      have : ((acc.length : Int) < N) := by omega
      simp only [this, if_true, decide_true] at hcond ⊢
      rw [loopCost_true hcond]
      have Fr' := Fr.push (x := "idx") (by decide) (Ne.symm hr1) (by decide) hc1 (.num acc.length)
      have Fo := Fr'.elem (M := M) hf (a := a) (vs := acc ++ x :: rest) (k := acc.length) (by simp)
        (fun o w h => ⟨_, push_same _ _ _⟩)
      have hx : (acc ++ x :: rest).set acc.length x = acc ++ x :: rest := by simp
      have hev : "err" ∉ evars (LV.index recv f "idx").expr := by
        simp only [LV.expr, evars, List.append_nil, List.mem_append, List.mem_cons, List.not_mem_nil, or_false]
        rintro (h | h)
        · exact hr2 h.symm
        · exact absurd h (by decide)
      have hb1 := parseBase_exec (L := L) hK hN hS Fo hev (fun v w h c hc => Fr'.ctxs _ _ _ c hc) hc2 hb hg x w h hw
      have hb2 := parseBase_paid (L := L) (cc := cc) hK hN hS hsuf Fo hev (fun v w h c hc => Fr'.ctxs _ _ _ c hc) hc2 hb hp hg x w h hw
      simp only [hx] at hb1 hb2
      rw [execBlock_eq, thenS_assoc, after_thenS]
      obtain ⟨u, hu1, hu2⟩ := hb2
      cases hd : decBase Γ S b w with
      | ok q =>
        obtain ⟨v, r⟩ := q
        rw [hd] at hb1 hu2
        obtain ⟨h', hb1⟩ := hb1
        simp only [left] at hu2
        rw [hb1, after_norm, parseBase_decls hg, thenS_norm, popAll_pushErr]
        have hset : (acc ++ x :: rest).set acc.length v = (acc ++ [v]) ++ rest := by simp
        rw [hset]
        have hincr : ∀ env : Env, incr (env.push "idx" (.num acc.length)) "idx" =
            .norm (env.push "idx" (.num (wrap64 ((acc.length : Int) + 1)))) := by
          intro env; simp [incr]
        rw [hincr, after_norm]
        have hwrap : wrap64 ((acc.length : Int) + 1) = ((acc ++ [v]).length : Nat) := by
          rw [wrap64_id (by omega) (by omega)]; simp
        rw [hwrap]
        obtain ⟨u2, j, a1, a2, a3, a4⟩ := ih (acc ++ [v]) rest r h' (by simp; omega)
          (Nat.lt_of_le_of_lt (decBase_suffix hsuf hd).length_le hw)
        have hcnt : ((acc.length : Int) + 1) = ((acc ++ [v]).length : Nat) := by simp
        rw [DOut.ok_bind]
        simp only [hcnt]
        refine ⟨u + u2, j + 1, ?_, by omega, by simp only [List.length_cons]; omega, fun he => ?_⟩
        · rw [Nat.mul_add, Nat.add_mul (j + 1) 1 P]; omega
        · have := a4 he
          have := he w v r hd
          omega
      | err m =>
        rw [hd] at hb1; obtain ⟨env, hb1⟩ := hb1
        exact ⟨u, 0, by rw [hb1]; simp only [thenS_ret, thenS_panic, after_ret, after_panic]; omega, by rw [hd] at hu2; exact hu2, by omega, fun _ => by simp [left]⟩
      | panic m =>
        rw [hd] at hb1; obtain ⟨env, hb1⟩ := hb1
        exact ⟨u, 0, by rw [hb1]; simp only [thenS_ret, thenS_panic, after_ret, after_panic]; omega, by rw [hd] at hu2; exact hu2, by omega, fun _ => by simp [left]⟩
      | timeout =>
        rw [hd] at hb1; simp only [Agree] at hb1
        exact ⟨u, 0, by rw [hb1]; simp only [thenS_timeout, after_timeout]; omega, by rw [hd] at hu2; exact hu2, by omega, fun _ => by simp [left]⟩

theorem rem_paid (hK : Γ.K = g.res.constant) (hN : Γ.nm = g.nm) (hS : Γ.structs = g.res.struct)
    (hsuf : S.Suffix) (Fr : Frame recv T ctx ctxs D E)
    (hr1 : recv ≠ "tmp") (hr2 : recv ≠ "err") (hc1 : "tmp" ∉ ctxs) (hc2 : "err" ∉ ctxs)
    {b : Base} (hb : BaseGood M Γ ctx ctxs call S b) (hp : BasePaid M Γ ctx cc S K C b) (heat : Eats Γ S b) {o : Fields} {f : String} {v0 : Val}
    (hf : getF o f = some v0) {body : List Stmt}
    (hg : parseBase g (.var "tmp") b = .ok body) {P : Nat} (hP : textSizes body + C + 3 ≤ P) :
    ∀ (fuel : Nat) (acc : List Val) (w h : Bytes), w.length < 2 ^ 63 →
      LoopPaid K P w.length True w (decRem (decBase Γ S b) fuel acc w)
        (loopCost (fun env => eval M env (.gt (.len Gen.cur) (.lit 0)))
          (fun env => execBlock M call L ([.varDecl "tmp" (tipeBase g b)] ++ body ++
            [.assign (.field recv f) (.append (LV.field recv f).expr (.var "tmp"))]) env)
          (fun env => costs M call L cc ([.varDecl "tmp" (tipeBase g b)] ++ body ++
            [.assign (.field recv f) (.append (LV.field recv f).expr (.var "tmp"))]) env) fuel
          (E (setF o f (.slice acc)) w h)) := by
  intro fuel
  induction fuel with
  | zero => intro acc w h _; exact ⟨0, 0, by simp [loopCost], by simp [decRem, left], by omega, by simp [decRem, left]⟩
  | succ fuel ih =>
    intro acc w h hw
    simp only [decRem]
    obtain ⟨tl, hcur⟩ := Fr.cur (setF o f (.slice acc)) w h
    have hcond : eval M (E (setF o f (.slice acc)) w h) (.gt (.len Gen.cur) (.lit 0)) =
        .ok (.bool (decide (0 < w.length))) := by
      simp [eval, eval_cur hcur, asBytes, asNum]
    by_cases hpos : 0 < w.length
    · simp only [hpos, if_true, decide_true] at hcond ⊢
      rw [loopCost_true hcond]
      have Fo := Fr.tmp (M := M) (setF o f (.slice acc))
      have Fr' := fun u => Fr.push (x := "tmp") (by decide) (Ne.symm hr1) (by decide) hc1 u
      have hb1 := parseBase_exec (L := L) hK hN hS Fo (by simp [LV.expr, evars])
        (fun v w h c hc => (Fr' v).ctxs _ _ _ c hc) hc2 hb hg (zero (tipeBase g b)) w h hw
      have hb2 := parseBase_paid (L := L) (cc := cc) hK hN hS hsuf Fo (by simp [LV.expr, evars])
        (fun v w h c hc => (Fr' v).ctxs _ _ _ c hc) hc2 hb hp hg (zero (tipeBase g b)) w h hw
      rw [execBlock_eq, after_thenS]
      simp only [List.cons_append, List.nil_append, execs_cons]
      have e1 : exec M call L (.varDecl "tmp" (tipeBase g b)) (E (setF o f (.slice acc)) w h) =
          .norm ((E (setF o f (.slice acc)) w h).push "tmp" (zero (tipeBase g b))) := by simp [exec]
      rw [e1, thenS_norm, execs_append, costs_cons, e1, after_norm, costs_append]
      have hdecl : declsOf (Stmt.varDecl "tmp" (tipeBase g b) :: (body ++
          [Stmt.assign (LV.field recv f) (Expr.append (LV.field recv f).expr (Expr.var "tmp"))])) =
          "tmp" :: errDecl b := by
        simp [declsOf, declsOf_append, parseBase_decls hg]
      rw [hdecl]
      have hlast : ∀ e, costs M call L cc [.assign (.field recv f) (.append (LV.field recv f).expr (.var "tmp"))] e ≤ 1 :=
        fun e => costs_le _ e (by simp [simples, simple])
      have hone : cost M call L cc (.varDecl "tmp" (tipeBase g b)) (E (setF o f (.slice acc)) w h) = 1 := by simp [cost]
      rw [hone]
      obtain ⟨u, hu1, hu2⟩ := hb2
      cases hd : decBase Γ S b w with
      | ok q =>
        obtain ⟨v, r⟩ := q
        rw [hd] at hb1 hu2
        obtain ⟨h', hb1⟩ := hb1
        simp only [left] at hu2
        have hErr : ∃ (E' : Fields → Bytes → Bytes → Env), (∀ o w h, E' o w h =
            pushErr b ((E o w h).push "tmp" v)) ∧ Frame recv T ctx ctxs D E' ∧
            (∀ o w h, ∃ t, E' o w h "tmp" = v :: t) ∧
            (∀ o w h, popAll (E' o w h) ("tmp" :: errDecl b) = E o w h) := by
          cases b with
          | int t => exact ⟨_, fun _ _ _ => rfl, Fr' v, fun o w h => ⟨_, push_same _ _ _⟩, fun o w h => by simp [popAll, errDecl, pushErr]⟩
          | char => exact ⟨_, fun _ _ _ => rfl, Fr' v, fun o w h => ⟨_, push_same _ _ _⟩, fun o w h => by simp [popAll, errDecl, pushErr]⟩
          | struct n =>
            refine ⟨_, fun _ _ _ => rfl, (Fr' v).push (by decide) (Ne.symm hr2) (by decide) hc2 .nil,
              fun o w h => ⟨E o w h "tmp", ?_⟩, fun o w h => ?_⟩
            · simp only [pushErr]; rw [push_ne _ _ (by decide), push_same]
            · simp only [pushErr, errDecl, popAll, List.foldl_cons, List.foldl_nil]
              rw [pop_push_ne _ _ (by decide), pop_push, pop_push]
        obtain ⟨E', hE', FrE, htmp, hpop⟩ := hErr
        rw [hb1, thenS_norm, after_norm]
        simp only [← hE']
        have Ff := FrE.field (M := M) hf
        obtain ⟨tt, htt⟩ := htmp (setF o f (.slice acc)) r h'
        have hasg : exec M call L (.assign (.field recv f) (.append (LV.field recv f).expr (.var "tmp")))
            (E' (setF o f (.slice acc)) r h') = .norm (E' (setF o f (.slice (acc ++ [v]))) r h') := by
          simp only [exec, eval]
          have := Ff.get (.slice acc) r h'
          rw [this]
          simp only [Res.ok_bind, htt, thenE_ok]
          rw [Ff.put]
          rfl
        rw [execs_cons, hasg, thenS_norm, execs_nil, after_norm, hpop, after_norm]
        obtain ⟨u2, j, a1, a2, a3, a4⟩ := ih (acc ++ [v]) r h' (Nat.lt_of_le_of_lt (decBase_suffix hsuf hd).length_le hw)
        have hlt := heat w v r hd
        have hl1 := hlast (E' (setF o f (.slice acc)) r h')
        rw [DOut.ok_bind]
        simp only [List.cons_append, List.nil_append] at a1 ⊢
        refine ⟨u + u2, j + 1, ?_, by omega, by have := a4 trivial; omega, fun _ => by have := a4 trivial; omega⟩
        rw [Nat.mul_add, Nat.add_mul (j + 1) 1 P]; omega
      | err m =>
        rw [hd] at hb1; obtain ⟨env, hb1⟩ := hb1
        exact ⟨u, 0, by rw [hb1]; simp only [thenS_ret, thenS_panic, after_ret, after_panic]; omega, by rw [hd] at hu2; exact hu2, by omega, fun _ => by simp [left]⟩
      | panic m =>
        rw [hd] at hb1; obtain ⟨env, hb1⟩ := hb1
        exact ⟨u, 0, by rw [hb1]; simp only [thenS_ret, thenS_panic, after_ret, after_panic]; omega, by rw [hd] at hu2; exact hu2, by omega, fun _ => by simp [left]⟩
      | timeout =>
        rw [hd] at hb1; simp only [Agree] at hb1
        exact ⟨u, 0, by rw [hb1]; simp only [thenS_timeout, after_timeout]; omega, by rw [hd] at hu2; exact hu2, by omega, fun _ => by simp [left]⟩
    · simp only [hpos, if_false, decide_false] at hcond ⊢
      rw [loopCost_false hcond]
      exact ⟨0, 0, by omega, by simp [left], by omega, by simp [left]⟩

/-! ## Length constraints -/

theorem mul_pos_le {a Q : Nat} (h : 1 ≤ Q) : a ≤ a * Q := Nat.le_mul_of_pos_right a (by omega)

theorem extent_simple {c : LengthConstraint} {e : Stmt × Expr} (h : extent g recv c = .ok e) : simple e.1 = true := by
  cases c with
  | leftover k =>
    simp only [extent] at h
    obtain ⟨x, _, h⟩ := Res.bind_eq_ok.1 h
    cases h; rfl
  | idRef r => cases h; rfl

theorem constrained_paid (hK : Γ.K = g.res.constant) (hN : Γ.nm = g.nm)
    (Fr : Frame recv T ctx ctxs D E) (hn : NamesOK recv ctxs)
    {o : Fields} {c : LengthConstraint} (hc : LenGood Γ ctx ctxs o c) {body : Res (List Stmt)}
    {ss : List Stmt} (hg : constrained g recv c body = .ok ss) {α : Type} {d : Bytes → DOut (α × Bytes)} {Q : Nat} (hQ : 1 ≤ Q)
    (w h : Bytes) (hw : w.length < 2 ^ 63)
    (hbody : ∀ b, body = .ok b → textSizes b ≤ textSizes ss → ∀ u w' h', w'.length ≤ w.length →
      Paid K (textSizes b * Q) w' (d w') (costs M call L cc b ((E o w' h').push "restore" u))) :
    Paid K (textSizes ss * Q) w (decConstrained Γ ctx o c w d) (costs M call L cc ss (E o w h)) := by
  obtain ⟨e, he, hg⟩ := Res.bind_eq_ok.1 hg
  obtain ⟨b, hb, hg⟩ := Res.bind_eq_ok.1 hg
  simp only [Res.ok.injEq] at hg
  subst hg
  have hsz : textSizes ([e.1, .define "restore" (.sliceFrom Gen.cur e.2), .assign (.var "cur") (.sliceTo Gen.cur e.2)] ++ b ++
      [assertEnd, .assign (.var "cur") (.var "restore")]) = textSize e.1 + textSizes b + 5 := by
    simp only [textSizes_append, textSizes, textSize, assertEnd]; omega
  rw [hsz] at hbody ⊢
  have hbody := hbody b hb (by omega)
  obtain ⟨hev, hvars, hchk, hdecl⟩ := extent_exec (M := M) (call := call) (L := L) hK hN Fr hc he w h hw
  obtain ⟨short, hx1, hx2⟩ := hchk d
  have hc1 := cost_le (M := M) (call := call) (L := L) (cc := cc) e.1 (E o w h) (extent_simple he)
  have hmul : textSize e.1 + 5 + textSizes b * Q ≤ (textSize e.1 + textSizes b + 5) * Q := by
    rw [show textSize e.1 + textSizes b + 5 = (textSize e.1 + 5) + textSizes b by omega, Nat.add_mul]
    have := mul_pos_le (a := textSize e.1 + 5) hQ
    omega
  rw [hx2]
  simp only [List.cons_append, List.nil_append]
  rw [costs_cons, hx1]
  cases short with
  | true => simp only [if_true, after_ret]; exact Paid.const (by omega) (by simp [left])
  | false =>
    simp only [Bool.false_eq_true, if_false, after_norm]
    obtain ⟨tl, hcur⟩ := Fr.cur o w h
    unfold decWindow
    generalize hnn : winLen Γ ctx o w c = n at *
    have hrestore : "restore" ∉ ctxs := fun hmem => by
      have := hn.ctxs _ hmem; simp at this
    have hrecv : ("restore" : String) ≠ recv := fun h => by
      have := hn.recv; rw [← h] at this; simp at this
    have hdef : exec M call L (.define "restore" (.sliceFrom Gen.cur e.2)) (E o w h) =
        if n < 0 ∨ (w.length : Int) < n then .panic "slice bounds out of range"
        else .norm ((E o w h).push "restore" (.bytes (w.drop n.toNat) h)) := by
      simp only [exec, eval, eval_cur hcur, hev, Res.ok_bind, asBytes, asNum]
      by_cases hlt : n < 0 ∨ (w.length : Int) < n <;> simp [hlt]
    have hcd : ∀ env, cost M call L cc (.define "restore" (.sliceFrom Gen.cur e.2)) env = 1 := fun env => by simp [cost]
    have hca : ∀ env, cost M call L cc (.assign (.var "cur") (.sliceTo Gen.cur e.2)) env = 1 := fun env => by simp [cost]
    rw [costs_cons, hdef, hcd]
    by_cases hlt : n < 0 ∨ (w.length : Int) < n
    · simp only [hlt, if_true, after_panic]; exact Paid.const (by omega) (by simp [left])
    · simp only [hlt, if_false, after_norm]
      have Fr' := Fr.push (x := "restore") (by decide) hrecv (by decide) hrestore (.bytes (w.drop n.toNat) h)
      obtain ⟨tl', hcur'⟩ := Fr'.cur o w h
      have hev' : eval M ((E o w h).push "restore" (.bytes (w.drop n.toNat) h)) e.2 = .ok (.num n) := by
        rw [eval_push _ _ _ _ (hvars _ hrestore hrecv (by decide)), hev]
      have hcut : exec M call L (.assign (.var "cur") (.sliceTo Gen.cur e.2))
          ((E o w h).push "restore" (.bytes (w.drop n.toNat) h)) =
          .norm ((E o (w.take n.toNat) ((w ++ h).drop n.toNat)).push "restore" (.bytes (w.drop n.toNat) h)) := by
        have hlt' : ¬ (n < 0 ∨ ((w ++ h).length : Int) < n) := by
          simp only [List.length_append]; omega
        simp only [exec, eval, eval_cur hcur', hev', Res.ok_bind, asBytes, asNum, hlt', if_false, thenE_ok,
          store_cur hcur', Fr'.setCur]
        rw [List.take_append_of_le_length (by omega)]
      rw [costs_cons, hcut, hca, after_norm, costs_append]
      have htl : (w.take n.toNat).length = n.toNat := by rw [List.length_take]; omega
      obtain ⟨u, hu1, hu2⟩ := hbody (.bytes (w.drop n.toNat) h) (w.take n.toNat) ((w ++ h).drop n.toNat) (by omega)
      have hend := after_le (c := execs M call L b
        ((E o (w.take n.toNat) ((w ++ h).drop n.toNat)).push "restore" (.bytes (w.drop n.toNat) h)))
        (fun env => costs_le (M := M) (call := call) (L := L) (cc := cc) [assertEnd, .assign (.var "cur") (.var "restore")] env
          (by simp [simples, simple, assertEnd]))
      have h3 : textSizes [assertEnd, .assign (.var "cur") (.var "restore")] = 3 := by simp [textSizes, textSize, assertEnd]
      rw [h3] at hend
      refine ⟨u, by omega, ?_⟩
      rw [htl] at hu2
      have hdl : (w.drop n.toNat).length = w.length - n.toNat := List.length_drop
      cases hd : d (w.take n.toNat) with
      | ok q =>
        obtain ⟨a, r⟩ := q
        rw [hd] at hu2
        rw [DOut.ok_bind]
        simp only
        split
        · simp only [left]; omega
        · simp only [left] at hu2 ⊢; omega
      | err m => show u + 0 ≤ _; omega
      | panic m => show u + 0 ≤ _; omega
      | timeout => show u + 0 ≤ _; omega

/-! ## Field types -/

/-- What is known of the fields in a list. -/
structure CostFields (M : Mach) (Γ : Fmt) (ctx : Ctx) (cc : CallCost) (S : SDec) (K C c : Nat) (fs : List Field) : Prop where
  paid : ∀ f ∈ fs, ∀ b ∈ tyBases f.type, BasePaid M Γ ctx cc S K C b
  eats : ∀ f ∈ fs, ∀ b ∈ tyBases f.type, TyConsumes Γ (.base b) → Eats Γ S b
  loops : ∀ f ∈ fs, LoopsIn Γ c f.type

theorem CostFields.sub {c : Nat} {fs fs' : List Field} (h : CostFields M Γ ctx cc S K C c fs) (hs : ∀ f ∈ fs', f ∈ fs) :
    CostFields M Γ ctx cc S K C c fs' :=
  ⟨fun f hf => h.paid f (hs f hf), fun f hf => h.eats f (hs f hf), fun f hf => h.loops f (hs f hf)⟩

/-- Cost of one time round a loop, in methods of at most `Z` statements. -/
def per (C Z : Nat) : Nat := C + Z + 2
/-- Cost of one statement of the text, apart from bytes consumed. -/
def unit (C Z c : Nat) : Nat := (c + 1) * per C Z + 1

theorem unit_pos (C Z c : Nat) : 1 ≤ unit C Z c := by unfold unit; omega
theorem unit_ge (C Z c : Nat) : per C Z + 1 ≤ unit C Z c := by
  unfold unit
  have := Nat.le_mul_of_pos_left (per C Z) (show 0 < c + 1 by omega)
  omega

theorem parseRem_paid (hK : Γ.K = g.res.constant) (hN : Γ.nm = g.nm) (hS : Γ.structs = g.res.struct)
    (hsuf : S.Suffix) (Fr : Frame recv T ctx ctxs D E) (hn : NamesOK recv ctxs)
    {b : Base} (hb : BaseGood M Γ ctx ctxs call S b) (hp : BasePaid M Γ ctx cc S K C b) (heat : Eats Γ S b)
    {o : Fields} {f : String} {v0 : Val} (hf : getF o f = some v0) {ss : List Stmt}
    (hg : parseRem g (.field recv f) b = .ok ss) {Z c : Nat} (hZ : textSizes ss ≤ Z) (w h : Bytes) (hw : w.length < 2 ^ 63) :
    Paid (K + per C Z) (textSizes ss * unit C Z c) w (decRemArr Γ S L b w) (costs M call L cc ss (E o w h)) := by
  obtain ⟨body, hbody, hg⟩ := Res.bind_eq_ok.1 hg
  simp only [Res.ok.injEq] at hg
  subst hg
  have hr := hn.recv
  simp only [List.mem_cons, List.not_mem_nil, or_false, not_or] at hr
  have hmk : exec M call L (.assign (.field recv f) (.make (tipeBase g b) (.lit 0))) (E o w h) =
      .norm (E (setF o f (.slice [])) w h) := by
    have Fo := Fr.field (M := M) hf
    have := Fo.put v0 w h (.slice [])
    rw [setF_self hf] at this
    simp only [exec, eval, Res.ok_bind, asNum]
    have : ¬ ((0 : Int) < 0 ∨ (M.maxAlloc : Int) < 0) := by omega
    simp only [this, if_false, thenE_ok, Int.toNat_zero, List.replicate_zero]
    rw [‹store _ _ _ = _›]
    rfl
  have hsz : textSizes [.assign (.field recv f) (.make (tipeBase g b) (.lit 0)), .forC (.gt (.len Gen.cur) (.lit 0))
      ([.varDecl "tmp" (tipeBase g b)] ++ body ++ [.assign (.field recv f) (.append (LV.field recv f).expr (.var "tmp"))])] =
      textSizes body + 4 := by
    simp only [textSizes, textSizes_append, textSize]; omega
  have hc1 : cost M call L cc (.assign (.field recv f) (.make (tipeBase g b) (.lit 0))) (E o w h) = 1 := by simp [cost]
  rw [hsz] at hZ ⊢
  rw [costs_cons, hmk, hc1, after_norm, costs_cons]
  have hl := (rem_paid (L := L) (P := per C Z) hK hN hS hsuf Fr hr.2.2.2.2.1 hr.2.2.2.2.2
    (fun hm => by have := hn.ctxs _ hm; simp at this)
    (fun hm => by have := hn.ctxs _ hm; simp at this) hb hp heat hf hbody (by unfold per; omega) L [] w h hw).eats trivial
  have hl : Paid (K + per C Z) (textSizes body * unit C Z c + 4 * unit C Z c) w (decRem (decBase Γ S b) L [] w)
      (1 + (cost M call L cc (.forC (.gt (.len Gen.cur) (.lit 0))
      ([.varDecl "tmp" (tipeBase g b)] ++ body ++ [.assign (.field recv f) (.append (LV.field recv f).expr (.var "tmp"))])) (E (setF o f (.slice [])) w h) + 0)) := by
    obtain ⟨u, h1, h2⟩ := hl
    refine ⟨u, ?_, h2⟩
    have := unit_ge C Z c
    simp only [cost]
    simp only [execBlock] at h1
    omega
  rw [← Nat.add_mul] at hl
  have h0 : ∀ x : Ctl, after x (costs M call L cc []) = 0 := fun x => by
    have := after_le (c := x) (k := costs M call L cc []) (n := 0) (fun e => by simp)
    omega
  rw [h0]
  exact hl.map (f := Val.slice)

theorem parseType_paid (hK : Γ.K = g.res.constant) (hN : Γ.nm = g.nm) (hS : Γ.structs = g.res.struct)
    (hsuf : S.Suffix) (Fr : Frame recv T ctx ctxs D E) (hn : NamesOK recv ctxs) (hD : D < 2 ^ 63)
    {o : Fields} {f : String} {fd : Field} {v0 : Val} {Z c : Nat}
    (hf : getF o f = some v0) (ht : TyGood M Γ recv ctx ctxs call S o f fd.type)
    (hcf : CostFields M Γ ctx cc S K C c [fd]) {ss : List Stmt}
    (hg : parseType g recv (.field recv f) fd.type = .ok ss) (hZ : textSizes ss ≤ Z) (w h : Bytes) (hw : w.length < 2 ^ 63) :
    Paid (K + per C Z) (textSizes ss * unit C Z c) w (decTy Γ M.maxAlloc S L ctx D o w fd.type)
      (costs M call L cc ss (E o w h)) := by
  have hr := hn.recv
  simp only [List.mem_cons, List.not_mem_nil, or_false, not_or] at hr
  obtain ⟨hrc, hrd, hrr, hri, hrt, hre⟩ := hr
  have hcx : ∀ x ∈ ["cur", "data", "restore", "idx", "tmp", "err"], x ∉ ctxs :=
    fun x hx hm => hn.ctxs _ hm hx
  have Fo := Fr.field (M := M) hf
  have hself := setF_self hf
  obtain ⟨fn, t⟩ := fd
  have hpaid := hcf.paid _ (List.mem_singleton.2 rfl)
  have heats := hcf.eats _ (List.mem_singleton.2 rfl)
  have hloops := hcf.loops _ (List.mem_singleton.2 rfl)
  simp only at ht hg hpaid heats hloops ⊢
  have hU := unit_ge C Z c
  have hlen : left (decTy Γ M.maxAlloc S L ctx D o w t) ≤ w.length := left_le fun a r h => decTy_suffix hsuf h
  have h0 : ∀ x : Ctl, after x (costs M call L cc []) = 0 := fun x => by
    have := after_le (c := x) (k := costs M call L cc []) (n := 0) (fun e => by simp)
    omega
  cases t with
  | base b =>
    simp only [parseType] at hg
    have := parseBase_paid (L := L) hK hN hS hsuf Fo (by simp [LV.expr, evars, Ne.symm hre])
      (fun v w h c hc => Fr.ctxs _ _ _ c hc) (hcx _ (by simp)) ht (hpaid b (by simp [tyBases])) hg v0 w h hw
    simp only [hself] at this
    have hpos : 1 ≤ textSizes ss := by
      cases b with
      | int t =>
        simp only [parseBase, parseIntType] at hg
        obtain ⟨x, _, hg⟩ := Res.bind_eq_ok.1 hg
        cases hg
        simp only [List.cons_append, textSizes, textSize, lengthCheck]; omega
      | char =>
        simp only [parseBase, parseIntType] at hg
        obtain ⟨x, _, hg⟩ := Res.bind_eq_ok.1 hg
        cases hg
        simp only [List.cons_append, textSizes, textSize, lengthCheck]; omega
      | struct n =>
        simp only [parseBase] at hg
        split at hg
        · cases hg
        · cases hg; simp only [textSizes, textSize]; omega
    refine this.mono (by omega) ?_ (Nat.le_refl _)
    obtain ⟨m, hm⟩ : ∃ m, textSizes ss = m + 1 := ⟨textSizes ss - 1, by omega⟩
    rw [hm, Nat.add_mul, Nat.one_mul]
    have := mul_pos_le (a := m) (unit_pos C Z c)
    unfold per at hU
    omega
  | ptr =>
    simp only [parseType, Res.ok.injEq] at hg
    subst hg
    refine Paid.const (Nat.le_trans (costs_le _ _ (by simp [simples, simple])) (mul_pos_le (unit_pos C Z c))) hlen
  | nulterm =>
    simp only [parseType, Res.ok.injEq] at hg
    subst hg
    obtain ⟨tl, hcur⟩ := Fr.cur o w h
    have e1 : cost M call L cc (.define "i" (.indexByte0 Gen.cur)) (E o w h) = 1 + scanned w := by
      simp [cost, eval_cur hcur]
    rw [costs_cons, e1]
    have h3 := after_le (c := exec M call L (.define "i" (.indexByte0 Gen.cur)) (E o w h)) (fun env =>
      costs_le (M := M) (call := call) (L := L) (cc := cc) [.ifS (.lt (.var "i") (.lit 0)) [.retNew "could not parse nul-term string"],
      .assign2 (.field recv f) (.var "cur") (.toStr (.sliceTo Gen.cur (.var "i")))
        (.sliceFrom Gen.cur (.add (.var "i") (.lit 1)))] env (by simp [simples, simple]))
    have hsz : textSizes [.ifS (.lt (.var "i") (.lit 0)) [.retNew "could not parse nul-term string"],
      .assign2 (.field recv f) (.var "cur") (.toStr (.sliceTo Gen.cur (.var "i")))
        (.sliceFrom Gen.cur (.add (.var "i") (.lit 1)))] = 3 := by simp [textSizes, textSize]
    rw [hsz] at h3
    have hsz' : textSizes [.define "i" (.indexByte0 Gen.cur), .ifS (.lt (.var "i") (.lit 0)) [.retNew "could not parse nul-term string"],
      .assign2 (.field recv f) (.var "cur") (.toStr (.sliceTo Gen.cur (.var "i")))
        (.sliceFrom Gen.cur (.add (.var "i") (.lit 1)))] = 4 := by simp [textSizes, textSize]
    rw [hsz']
    refine ⟨scanned w, ?_, ?_⟩
    · have := Nat.le_mul_of_pos_left (scanned w) (show 0 < K + per C Z by unfold per; omega)
      omega
    · have hb := indexByte0_bounds w
      simp only [decTy, scanned]
      by_cases hlt : indexByte0 w < 0
      · simp [hlt, left]
      · simp only [hlt, if_false, left, List.length_drop]; omega
  | fixedArray b n =>
    simp only [parseType, parseFixed] at hg
    obtain ⟨k, hk, hg⟩ := Res.bind_eq_ok.1 hg
    obtain ⟨body, hbody, hg⟩ := Res.bind_eq_ok.1 hg
    simp only [Res.ok.injEq] at hg
    subst hg
    obtain ⟨hb, vs, hvs, hival, hl63⟩ := ht
    have hk' := integer_ok hK hk
    rw [hival] at hk'
    cases hk'
    have hinit : setF o f (seqVal true ([] ++ vs)) = o := by
      simp only [seqVal, List.nil_append]; exact setF_self hvs
    have hsz : textSizes [.forIdx "idx" (.lit vs.length) body] = textSizes body + 1 := by simp [textSizes, textSize]; omega
    rw [hsz] at hZ ⊢
    have hl := count_paid (L := L) (P := per C Z) hK hN hS hsuf Fr hri hre (hcx _ (by simp)) (hcx _ (by simp)) hb
      (hpaid b (by simp [tyBases])) hvs hbody (a := true) (N := vs.length) hl63 (bound := .lit vs.length)
      (fun _ _ _ _ => by simp [eval]) (by unfold per; omega) L [] vs w h (by simp) hw
    rw [hinit] at hl
    have hl' : Paid (K + per C Z) ((c + 1) * per C Z) w (decCount (decBase Γ S b) vs.length L 0 [] w)
        (loopCost (fun env => eval M env (.lt (.var "idx") (.lit vs.length)))
          (fun env => thenS (execBlock M call L body env) (fun env => incr env "idx"))
          (fun env => costs M call L cc body env + 1) L ((E o w h).push "idx" (.num 0))) := by
      rcases hloops with hc | ⟨x, hx, hxc⟩
      · exact (hl.eats (heats b (by simp [tyBases]) hc)).mono (Nat.le_refl _)
          (Nat.le_mul_of_pos_left (per C Z) (show 0 < c + 1 by omega)) (Nat.le_refl _)
      · rw [hival] at hx
        cases hx
        exact (hl.count (by omega)).mono (by omega) (Nat.le_refl _) (Nat.le_refl _)
    rw [costs_cons, h0]
    simp only [decTy, hival]
    refine Paid.map (f := Val.array) ?_
    obtain ⟨u, h1, h2⟩ := hl'
    refine ⟨u, ?_, h2⟩
    simp only [cost]
    simp only [execBlock] at h1
    have e2 : (textSizes body + 1) * unit C Z c = textSizes body * unit C Z c + 1 * unit C Z c := Nat.add_mul _ _ _
    have e3 : unit C Z c = (c + 1) * per C Z + 1 := rfl
    rw [e2]
    omega
  | varArray b cst =>
    have heat := heats b (by simp [tyBases]) hloops
    have hbp := hpaid b (by simp [tyBases])
    cases cst with
    | none =>
      simp only [parseType, parseVar] at hg
      exact parseRem_paid (L := L) hK hN hS hsuf Fr hn ht hbp heat hf hg hZ w h hw
    | some cst =>
      cases cst with
      | leftover k =>
        obtain ⟨hb, hk⟩ := ht
        simp only [parseType, parseVar] at hg
        refine constrained_paid hK hN Fr hn hk hg (unit_pos C Z c) w h hw ?_
        intro bd hbd hsz u w' h' hw'
        have FrR := fun u => Fr.push (x := "restore") (by decide) (Ne.symm hrr) (by decide) (hcx _ (by simp)) u
        exact parseRem_paid (L := L) hK hN hS hsuf (FrR u) hn hb hbp heat hf hbd (by omega) w' h' (by omega)
      | idRef r =>
        obtain ⟨hb, ⟨⟨x, hx⟩, hs⟩, hne⟩ := ht
        simp only [parseType, parseVar] at hg
        obtain ⟨body, hbody, hg⟩ := Res.bind_eq_ok.1 hg
        simp only [Res.ok.injEq] at hg
        subst hg
        have hsz : textSizes [.assign (.field recv f) (.make (tipeBase g b) (.toInt (ref g recv r))),
            .forIdx "idx" (.toInt (ref g recv r)) body] = textSizes body + 2 := by simp [textSizes, textSize]; omega
        rw [hsz] at hZ ⊢
        have hc1 : ∀ e, cost M call L cc (.assign (.field recv f) (.make (tipeBase g b) (.toInt (ref g recv r)))) e = 1 :=
          fun e => by simp [cost]
        rw [costs_cons, hc1]
        simp only [decTy, hx]
        have hev := ref_eval (M := M) (g := g) hN Fr hx hs w h
        have hge : 1 ≤ (textSizes body + 2) * unit C Z c := by
          have := mul_pos_le (a := textSizes body + 2) (unit_pos C Z c); omega
        by_cases hbad : wrap64 x < 0 ∨ (M.maxAlloc : Int) < wrap64 x
        · rw [if_pos hbad]
          have : exec M call L (.assign (.field recv f) (.make (tipeBase g b) (.toInt (ref g recv r))))
              (E o w h) = .panic "makeslice: len out of range" := by
            simp [exec, eval, hev, asNum, hbad]
          rw [this, after_panic]
          exact Paid.const hge (by simp [left])
        · rw [if_neg hbad]
          have hmk : exec M call L (.assign (.field recv f) (.make (tipeBase g b) (.toInt (ref g recv r))))
              (E o w h) = .norm (E (setF o f (seqVal false ([] ++
                List.replicate (wrap64 x).toNat (zero (tipeBase g b))))) w h) := by
            have hput := Fo.put v0 w h (.slice (List.replicate (wrap64 x).toNat (zero (tipeBase g b))))
            rw [hself] at hput
            simp only [exec, eval, hev, Res.ok_bind, asNum, hbad, if_false, thenE_ok, hput, seqVal, List.nil_append]
          rw [hmk, after_norm, costs_cons, h0]
          have hwx := wrap64_lt x
          have hNx : wrap64 x = ((wrap64 x).toNat : Int) := by omega
          have hl := (count_paid (L := L) (P := per C Z) hK hN hS hsuf Fr hri hre (hcx _ (by simp)) (hcx _ (by simp)) hb hbp hf hbody
            (a := false) (N := (wrap64 x).toNat) (by omega) (bound := .toInt (ref g recv r))
            (fun vs w h k => by
              have FrI := Fr.push (x := "idx") (by decide) (Ne.symm hri) (by decide) (hcx _ (by simp)) k
              have := ref_eval (M := M) (g := g) hN FrI (o := setF o f (seqVal false vs)) (r := r)
                (by rw [refVal_setF hne]; exact hx) hs w h
              simp only [eval, this, Res.ok_bind, asNum]
              rw [← hNx]) (by unfold per; omega) L [] (List.replicate (wrap64 x).toNat (zero (tipeBase g b))) w h (by simp) hw).eats heat
          rw [← hNx] at hl
          refine Paid.map (f := Val.slice) ?_
          obtain ⟨u, h1, h2⟩ := hl
          refine ⟨u, ?_, h2⟩
          simp only [cost]
          simp only [execBlock, List.length_nil] at h1
          have e2 : (textSizes body + 2) * unit C Z c = textSizes body * unit C Z c + 2 * unit C Z c := Nat.add_mul _ _ _
          rw [e2]
          simp only [Int.natCast_zero] at h1
          omega

/-! ## Members -/

variable {s : Struct} {Z c : Nat}

theorem costs_one (st : Stmt) (env : Env) : costs M call L cc [st] env = cost M call L cc st env := by
  rw [costs_cons]
  have := after_le (c := exec M call L st env) (k := costs M call L cc []) (n := 0) (fun e => by simp)
  omega

theorem parseLeaf_paid (X : Setting g Γ M call ctx S s D) (Fr : Frame (firstLetter s) T ctx s.contexts D E)
    {o : Fields} (ho : Typed Γ s o) {l : Leaf} (hl : LeafOK Γ s l)
    (hf : ∀ f ∈ leafFields [l], f ∈ fieldsOf s.ms) (hcf : CostFields M Γ ctx cc S K C c (leafFields [l])) {st : Stmt}
    (hg : parseLeaf g (firstLetter s) l = .ok st) (hZ : textSize st ≤ Z) (w h : Bytes) (hw : w.length ≤ D) :
    Paid (K + per C Z) (textSize st * unit C Z c) w (decLeaf Γ M.maxAlloc S L ctx D o w l) (cost M call L cc st (E o w h)) := by
  have hD := X.hD
  have hlen : left (decLeaf Γ M.maxAlloc S L ctx D o w l) ≤ w.length := left_le fun a r h => decLeaf_suffix X.suf h
  have hU := unit_pos C Z c
  cases l with
  | field f =>
    obtain ⟨ss, hss, hg⟩ := Res.bind_eq_ok.1 hg
    cases hg
    have hfm := hf f (by simp [leafFields])
    obtain ⟨v0, hv0, _⟩ := ho f hfm
    rw [← X.hN] at hss
    simp only [textSize] at hZ ⊢
    have := parseType_paid (L := L) (cc := cc) (fd := f) (Z := Z) X.hK X.hN X.hS X.suf Fr (StructOK.namesOK X.ok) X.hD hv0
      (TyOK.good X.ok X.ctxOK X.calls ho hfm hl) (hcf.sub (by simp [leafFields])) hss (by omega) w h (by omega)
    simp only [cost, decLeaf]
    refine Paid.map (f := fun v => setF o (Γ.nm f.name) v) ?_
    obtain ⟨u, h1, h2⟩ := this
    refine ⟨u, ?_, h2⟩
    rw [Nat.add_mul 1 (textSizes ss)]
    omega
  | eos => cases hg; exact Paid.const (Nat.le_trans (cost_le _ _ (by simp [simples, simple, assertEnd])) (mul_pos_le hU)) hlen
  | ignore => cases hg; exact Paid.const (Nat.le_trans (cost_le _ _ (by simp [simples, simple])) (mul_pos_le hU)) hlen
  | fail => cases hg; exact Paid.const (Nat.le_trans (cost_le _ _ (by simp [simples, simple])) (mul_pos_le hU)) hlen

theorem parseLeaves_paid (X : Setting g Γ M call ctx S s D) (Fr : Frame (firstLetter s) T ctx s.contexts D E) :
    ∀ {ls : List Leaf} {ss : List Stmt} {o : Fields} {w h : Bytes}, Typed Γ s o →
    (∀ l ∈ ls, LeafOK Γ s l) → (∀ f ∈ leafFields ls, f ∈ fieldsOf s.ms) → CostFields M Γ ctx cc S K C c (leafFields ls) →
    parseLeaves g (firstLetter s) ls = .ok ss → textSizes ss ≤ Z → w.length ≤ D →
    Paid (K + per C Z) (textSizes ss * unit C Z c) w (decLeaves Γ M.maxAlloc S L ctx D ls o w) (costs M call L cc ss (E o w h)) := by
  intro ls
  induction ls with
  | nil => intro ss o w h _ _ _ _ hg _ _; cases hg; exact Paid.const (by simp) (by simp [decLeaves, left])
  | cons l ls ih =>
    intro ss o w h ho hl hf hcf hg hZ hw
    obtain ⟨st, hst, hg⟩ := Res.bind_eq_ok.1 hg
    obtain ⟨ss', hss, hg⟩ := Res.bind_eq_ok.1 hg
    cases hg
    have hs1 : ∀ f ∈ leafFields [l], f ∈ leafFields (l :: ls) := fun f h => mem_leafFields_cons.2 (Or.inl h)
    have hs2 : ∀ f ∈ leafFields ls, f ∈ leafFields (l :: ls) := fun f h => mem_leafFields_cons.2 (Or.inr h)
    have hl2 := fun l' h' => hl l' (List.mem_cons_of_mem _ h')
    have hf1 := fun f h => hf f (hs1 f h)
    simp only [textSizes] at hZ ⊢
    rw [costs_cons, Nat.add_mul]
    refine Paid.seq (parseLeaf_exec X Fr ho (hl l List.mem_cons_self) hf1 hst w h hw)
      (parseLeaf_paid X Fr ho (hl l List.mem_cons_self) hf1 (hcf.sub hs1) hst (by omega) w h hw) ?_
    intro o' r h' hd
    exact ih (decLeaf_typed X.ok (hl l List.mem_cons_self) hf1 X.hD hw ho hd) hl2 (fun f h => hf f (hs2 f h)) (hcf.sub hs2) hss (by omega)
      (Nat.le_trans (decLeaf_suffix X.suf hd).length_le hw)

theorem parseCases_paid (X : Setting g Γ M call ctx S s D) (Fr : Frame (firstLetter s) T ctx s.contexts D E)
    {o : Fields} (ho : Typed Γ s o) {w h : Bytes} (hw : w.length ≤ D) {tag : Expr} {x : Int}
    (htag : eval M (E o w h) tag = .ok (.num x)) :
    ∀ {cs : List UnionCase} {cls : List (Option Expr × List Stmt)},
    (∀ c' ∈ cs, (∀ l, c'.case = some l → l.ranges ≠ []) ∧ (∀ l ∈ c'.members, LeafOK Γ s l) ∧
      (∀ f ∈ leafFields c'.members, f ∈ fieldsOf s.ms) ∧ CostFields M Γ ctx cc S K C c (leafFields c'.members)) →
    parseCases g (firstLetter s) tag cs = .ok cls → textClauses cls ≤ Z →
    ∀ (dflt : Env → Nat) (dd : DOut (Fields × Bytes)) (Cd : Nat), Paid (K + per C Z) Cd w dd (dflt (E o w h)) →
    Paid (K + per C Z) (textClauses cls * unit C Z c + Cd) w (match cs.find? (caseHas Γ.K x) with
      | some c => decLeaves Γ M.maxAlloc S L ctx D c.members o w
      | none => match cs.reverse.find? (fun c => c.case.isNone) with
        | some c => decLeaves Γ M.maxAlloc S L ctx D c.members o w
        | none => dd) (costClauses M call L cc cls dflt (E o w h)) := by
  intro cs
  induction cs with
  | nil => intro cls _ hg _ dflt dd Cd hd; cases hg; simpa [costClauses, textClauses] using hd
  | cons c' cs ih =>
    intro cls hcs hg hZ dflt dd Cd hd
    obtain ⟨hd1, hh, hg⟩ := Res.bind_eq_ok.1 hg
    obtain ⟨body, hbody, hg⟩ := Res.bind_eq_ok.1 hg
    obtain ⟨rest, hrest, hg⟩ := Res.bind_eq_ok.1 hg
    cases hg
    obtain ⟨hne, hlok, hlf, hcf⟩ := hcs c' List.mem_cons_self
    have hcs' := fun c'' h' => hcs c'' (List.mem_cons_of_mem _ h')
    simp only [textClauses] at hZ ⊢
    have hrun : Paid (K + per C Z) (textSizes body * unit C Z c) w (decLeaves Γ M.maxAlloc S L ctx D c'.members o w)
        (costs M call L cc body (E o w h)) :=
      parseLeaves_paid (L := L) X Fr ho hlok hlf hcf hbody (by omega) hw
    have hU := unit_pos C Z c
    have e1 : (1 + textSizes body + textClauses rest) * unit C Z c =
        unit C Z c + textSizes body * unit C Z c + textClauses rest * unit C Z c := by
      rw [Nat.add_mul, Nat.add_mul, Nat.one_mul]
    rw [e1]
    unfold caseHead at hh
    cases hcase : c'.case with
    | none =>
      rw [hcase] at hh
      cases hh
      have hcf : caseHas Γ.K x c' = false := by simp [caseHas, hcase]
      simp only [costClauses, List.find?_cons, hcf, List.reverse_cons, List.find?_append, hcase,
        Option.isNone_none, List.find?_nil]
      have := (ih hcs' hrest (by omega) (fun env => costs M call L cc body env) _ _ hrun).mono (Nat.le_refl _)
        (C' := unit C Z c + textSizes body * unit C Z c + textClauses rest * unit C Z c + Cd) (by omega) (Nat.le_refl _)
      cases hf1 : cs.find? (caseHas Γ.K x) with
      | some c' => rw [hf1] at this; exact this
      | none =>
        rw [hf1] at this
        cases hf2 : cs.reverse.find? (fun c => c.case.isNone) with
        | some c' => rw [hf2] at this; simpa using this
        | none => rw [hf2] at this; simpa using this
    | some l =>
      rw [hcase] at hh
      obtain ⟨e, he, hh⟩ := Res.bind_eq_ok.1 hh
      cases hh
      have hcond := conditional_eval (M := M) X.hK htag (hne l hcase) he
      have hch : caseHas Γ.K x c' = listHas Γ.K l x := by simp [caseHas, hcase]
      simp only [costClauses, hcond, List.find?_cons, hch, List.reverse_cons,
        List.find?_append, hcase, Option.isNone_some, List.find?_nil, Option.or_none]
      cases hb : listHas Γ.K l x with
      | true =>
        obtain ⟨u, h1, h2⟩ := hrun
        exact ⟨u, by simp only; omega, h2⟩
      | false =>
        obtain ⟨u, h1, h2⟩ := ih hcs' hrest (by omega) dflt dd Cd hd
        exact ⟨u, by simp only; omega, h2⟩

theorem parseSwitch_paid (X : Setting g Γ M call ctx S s D) (Fr : Frame (firstLetter s) T ctx s.contexts D E)
    {o : Fields} (ho : Typed Γ s o) {u : UnionMember} (hu : MemberOK Γ s (.union u))
    (hf : ∀ f ∈ memberFields (.union u), f ∈ fieldsOf s.ms) (hcf : CostFields M Γ ctx cc S K C c (memberFields (.union u))) {ss : List Stmt}
    (hg : parseSwitch g (firstLetter s) u = .ok ss) (hZ : textSizes ss ≤ Z) (w h : Bytes) (hw : w.length ≤ D) :
    Paid (K + per C Z) (textSizes ss * unit C Z c) w (decCases Γ M.maxAlloc S L ctx D u o w) (costs M call L cc ss (E o w h)) := by
  obtain ⟨cls, hcls, hg⟩ := Res.bind_eq_ok.1 hg
  cases hg
  obtain ⟨⟨x, hx⟩, hs⟩ := RefOK.good X.ctxOK ho hu.1
  have htag := ref_eval (M := M) (g := g) X.hN Fr hx hs w h
  have hsz : textSizes [.switch cls] = 1 + textClauses cls := by simp [textSizes, textSize]
  rw [hsz] at hZ ⊢
  have := parseCases_paid (L := L) (cc := cc) (K := K) (C := C) (c := c) (Z := Z) X Fr ho hw htag
    (fun c' hc => ⟨(hu.2.2 c' hc).1, (hu.2.2 c' hc).2, caseFields_sub hf hc, hcf.sub fun f h => by
      simp only [memberFields, List.mem_flatMap]; exact ⟨c', hc, h⟩⟩) hcls (by omega) (fun _ => 0) (.ok (o, w)) 0
      (Paid.const (by omega) (by simp [left]))
  have hU := unit_pos C Z c
  have hfin : Paid (K + per C Z) ((1 + textClauses cls) * unit C Z c) w (match u.cases.find? (caseHas Γ.K x) with
      | some c => decLeaves Γ M.maxAlloc S L ctx D c.members o w
      | none => match u.cases.reverse.find? (fun c => c.case.isNone) with
        | some c => decLeaves Γ M.maxAlloc S L ctx D c.members o w
        | none => .ok (o, w)) (costs M call L cc [.switch cls] (E o w h)) := by
    obtain ⟨v, h1, h2⟩ := this
    refine ⟨v, ?_, h2⟩
    rw [costs_one, Nat.add_mul 1 (textClauses cls)]
    simp only [cost]
    omega
  simp only [decCases, hx, selectCase]
  cases h1 : u.cases.find? (caseHas Γ.K x) with
  | some c => rw [h1] at hfin; exact hfin
  | none =>
    rw [h1] at hfin
    simp only [Option.none_or]
    cases h2 : u.cases.reverse.find? (fun c => c.case.isNone) with
    | some c => rw [h2] at hfin; exact hfin
    | none => rw [h2] at hfin; exact hfin

theorem parseMember_paid (X : Setting g Γ M call ctx S s D) (Fr : Frame (firstLetter s) T ctx s.contexts D E)
    {o : Fields} (ho : Typed Γ s o) {m : Member} (hm : m ∈ s.ms) (hcf : CostFields M Γ ctx cc S K C c (memberFields m)) {st : Stmt}
    (hg : parseMember g (firstLetter s) m = .ok st) (hZ : textSize st ≤ Z) (w h : Bytes) (hw : w.length ≤ D) :
    Paid (K + per C Z) (textSize st * unit C Z c) w (decMember Γ M.maxAlloc S L ctx D o w m) (cost M call L cc st (E o w h)) := by
  have hmo := X.ok.members m hm
  have hmf := fieldsOf_sub hm
  have hD := X.hD
  cases m with
  | leaf l => exact parseLeaf_paid X Fr ho hmo hmf hcf hg hZ w h hw
  | union u =>
    obtain ⟨ss, hss, hg⟩ := Res.bind_eq_ok.1 hg
    cases hg
    simp only [textSize] at hZ ⊢
    suffices Paid (K + per C Z) (textSizes ss * unit C Z c) w (decMember Γ M.maxAlloc S L ctx D o w (.union u)) (costs M call L cc ss (E o w h)) by
      obtain ⟨v, h1, h2⟩ := this
      refine ⟨v, ?_, h2⟩
      have hU := unit_pos C Z c
      rw [Nat.add_mul 1 (textSizes ss)]
      simp only [cost]
      omega
    simp only [parseUnion] at hss
    simp only [decMember]
    cases hlen : u.length with
    | none =>
      rw [hlen] at hss
      exact parseSwitch_paid (L := L) X Fr ho hmo hmf hcf hss (by omega) w h hw
    | some cst =>
      rw [hlen] at hss
      simp only at hss
      have hn := StructOK.namesOK X.ok
      have hr := hn.recv
      simp only [List.mem_cons, List.not_mem_nil, or_false, not_or] at hr
      have FrR := fun u => Fr.push (x := "restore") (by decide) (Ne.symm hr.2.2.1) (by decide)
        (fun hmem => hn.ctxs _ hmem (by simp)) u
      refine constrained_paid (D := D) X.hK X.hN Fr hn (LenOK.good X.ctxOK ho (hmo.2.1 cst hlen)) hss (unit_pos C Z c) w h (by omega) ?_
      intro bd hbd hsz u' w' h' hw'
      exact parseSwitch_paid (L := L) X (FrR u') ho hmo hmf hcf hbd (by omega) w' h' (by omega)

theorem parseMembers_paid (X : Setting g Γ M call ctx S s D) (Fr : Frame (firstLetter s) T ctx s.contexts D E) :
    ∀ {ms : List Member} {ss : List Stmt} {o : Fields} {w h : Bytes}, Typed Γ s o →
    (∀ m ∈ ms, m ∈ s.ms) → CostFields M Γ ctx cc S K C c (fieldsOf ms) → parseMembers g (firstLetter s) ms = .ok ss →
    textSizes ss ≤ Z → w.length ≤ D →
    Paid (K + per C Z) (textSizes ss * unit C Z c) w (decMembers Γ M.maxAlloc S L ctx D ms o w) (costs M call L cc ss (E o w h)) := by
  intro ms
  induction ms with
  | nil => intro ss o w h _ _ _ hg _ _; cases hg; exact Paid.const (by simp) (by simp [decMembers, left])
  | cons m ms ih =>
    intro ss o w h ho hm hcf hg hZ hw
    obtain ⟨st, hst, hg⟩ := Res.bind_eq_ok.1 hg
    obtain ⟨ss', hss, hg⟩ := Res.bind_eq_ok.1 hg
    cases hg
    have hmm := hm m List.mem_cons_self
    rw [fieldsOf_cons] at hcf
    simp only [textSizes] at hZ ⊢
    rw [costs_cons, Nat.add_mul]
    refine Paid.seq (parseMember_exec X Fr ho hmm hst w h hw)
      (parseMember_paid X Fr ho hmm (hcf.sub fun f h => List.mem_append_left _ h) hst (by omega) w h hw) ?_
    intro o' r h' hd
    exact ih (decMember_typed X.ok X.suf X.hD (X.ok.members m hmm) (fieldsOf_sub hmm) hw ho hd)
      (fun m' h' => hm m' (List.mem_cons_of_mem _ h')) (hcf.sub fun f h => List.mem_append_right _ h) hss (by omega)
      (Nat.le_trans (decMember_suffix X.suf hd).length_le hw)

/-! ## Methods -/

theorem method_paid (X : ∀ D, D < 2 ^ 63 → Setting g Γ M call ctx S s D) {m : Method}
    (hg : parse g (firstLetter s) s = .ok m) (hcf : CostFields M Γ ctx cc S K C c (fieldsOf s.ms)) (hZ : textSizes m.body ≤ Z)
    {o : Fields} (ho : Typed Γ s o) (w h : Bytes) (hw : w.length < 2 ^ 63) :
    Paid (K + per C Z) (textSizes m.body * unit C Z c) w (decMembers Γ M.maxAlloc S L ctx w.length s.ms o w)
      (match bindParams ((Env.empty.push m.recv (.obj T o)).push "data" (.bytes w h)) (m.params.map (·.1))
          (s.contexts.map (fun c => .struct (ctx c))) with
      | none => 0
      | some env => costs M call L cc m.body env) := by
  have X := X w.length hw
  obtain ⟨body, hbody, hg⟩ := Res.bind_eq_ok.1 hg
  cases hg
  have hps : (contextSignature g s.contexts).map (·.1) = s.contexts := by
    simp [contextSignature, List.map_map, Function.comp_def]
  simp only [hps, bindParams_eq]
  simp only at hZ
  have hn := StructOK.namesOK X.ok
  have hrc : firstLetter s ∉ s.contexts := fun hm => (X.ok.ctxs _ hm).2 rfl
  have hr := hn.recv
  simp only [List.mem_cons, List.not_mem_nil, or_false, not_or] at hr
  have Fr := methodFrame (T := T) (ctx := ctx) hn hrc w h
  have hsz : textSizes ([.define "cur" (.var "data")] ++ body ++ [.ret Gen.cur]) = textSizes body + 2 := by
    simp only [textSizes_append, textSizes, textSize]; omega
  rw [hsz] at hZ ⊢
  rw [List.append_assoc, List.cons_append, List.nil_append, costs_cons]
  have hdef : exec M call L (.define "cur" (.var "data"))
      (bindCtx ctx s.contexts ((Env.empty.push (firstLetter s) (.obj T o)).push "data" (.bytes w h))) =
      .norm (methodEnv (firstLetter s) T ctx s.contexts w h o w h) := by
    have : bindCtx ctx s.contexts ((Env.empty.push (firstLetter s) (.obj T o)).push "data" (.bytes w h)) "data" =
        [.bytes w h] := by
      rw [bindCtx_notMem _ (fun hm => hn.ctxs _ hm (by simp)), push_same, push_ne _ _ (Ne.symm hr.2.1)]
      rfl
    simp [exec, eval, this, methodEnv]
  rw [hdef, after_norm, costs_append]
  obtain ⟨u, h1, h2⟩ := parseMembers_paid (L := L) (cc := cc) (Z := Z) (h := h) X Fr (ss := body) (ms := s.ms) ho (fun _ h => h) hcf hbody
    (by omega) (Nat.le_refl w.length)
  refine ⟨u, ?_, h2⟩
  have hU := unit_pos C Z c
  have h3 := after_le (c := execs M call L body (methodEnv (firstLetter s) T ctx s.contexts w h o w h)) (fun env =>
    costs_le (M := M) (call := call) (L := L) (cc := cc) [.ret Gen.cur] env (by simp [simples, simple]))
  have h4 : textSizes [.ret Gen.cur] = 1 := by simp [textSizes, textSize]
  have h5 : ∀ env, cost M call L cc (.define "cur" (.var "data")) env = 1 := fun env => by simp [cost]
  rw [h5, Nat.add_mul (textSizes body) 2]
  omega

variable {p : Prog} {A : Nat}

theorem calls_paid (P : ProgOK g Γ p) (hΓ : FmtOK Γ) (hctx : CtxOK Γ ctx) {rank : String → Nat} (hr : Ranked Γ rank)
    (hl : ∀ n s, Γ.structs n = some s → s.extern = false → ∀ f ∈ fieldsOf s.ms, LoopsIn Γ c f.type)
    (hZ : ∀ m ∈ p.methods, textSizes m.body ≤ Z) :
    ∀ k fuel n s, rank n < k → Γ.structs n = some s → ∀ w hid, w.length < 2 ^ 63 → ∀ o, (s.extern = false → Typed Γ s o) →
    Paid (lin Z c k).1 (lin Z c k).2 w
      (if s.extern = true then decStruct Γ A ctx fuel n w
        else if fuel = 0 then .timeout else decMembers Γ A (decStruct Γ A ctx (fuel - 1)) (fuel - 1) ctx w.length s.ms o w >>= fun q => .ok (Val.obj (Γ.nm n) q.1, q.2))
      (runCost ⟨p, Γ.ext, A⟩ fuel (Γ.nm n) (.obj (Γ.nm n) o) (.bytes w hid) (s.contexts.map (fun c => .struct (ctx c)))) := by
  intro k
  induction k with
  | zero => intro fuel n s h; omega
  | succ k ih =>
    intro fuel n s hk hs w hid hw o ho
    have hc1 : 1 ≤ (lin Z c (k + 1)).2 := by simp only [lin]; omega
    cases he : s.extern with
    | true =>
      simp only [if_true]
      have hlen : left (decStruct Γ A ctx fuel n w) ≤ w.length := left_le fun a r h => decStruct_suffix fuel n w a r h
      have h1 : p.methods.find? (·.type = Γ.nm n) = none := find_none_of_notMem (P.externM n s hs he)
      refine Paid.const ?_ hlen
      cases fuel with
      | zero => simp [runCost]
      | succ fuel => simp only [runCost, h1]; omega
    | false =>
      simp only [Bool.false_eq_true, if_false]
      cases fuel with
      | zero => simp only [if_true]; exact Paid.const (by simp [runCost]) (by simp [left])
      | succ fuel =>
        simp only [Nat.succ_ne_zero, if_false, Nat.add_sub_cancel]
        refine Paid.map (f := Val.obj (Γ.nm n)) ?_
        obtain ⟨m, hm, hfind⟩ := P.method hs he
        simp only [runCost, hfind]
        have hmem := List.mem_of_find?_eq_some hfind
        have hcf : CostFields ⟨p, Γ.ext, A⟩ Γ ctx (runCost ⟨p, Γ.ext, A⟩ fuel) (decStruct Γ A ctx fuel) (lin Z c k).1 (lin Z c k).2 c (fieldsOf s.ms) := by
          refine ⟨?_, ?_, hl n s hs he⟩
          · intro f hf b hb
            cases b with
            | int t => trivial
            | char => trivial
            | struct n' =>
              intro s' hs' w' h' hw'
              have hrk := hr n s hs he n' ⟨f, hf, hb⟩
              have := ih fuel n' s' (by omega) hs' w' h' hw' (zeroFields p (Γ.nm n')) (fun he' => by
                rw [P.zeroFields hs' he']; exact zeroObj_typed (P.ok n' s' hs' he'))
              cases he' : s'.extern with
              | true => rw [he'] at this; simpa using this
              | false =>
                rw [he'] at this
                cases fuel with
                | zero => simpa [decStruct] using this
                | succ fuel =>
                  simp only [Bool.false_eq_true, if_false, Nat.succ_ne_zero, Nat.add_sub_cancel] at this
                  simp only [decStruct, hs', he', Bool.false_eq_true, if_false]
                  rw [P.zeroFields hs' he'] at this
                  simpa only [P.zeroFields hs' he'] using this
          · intro f hf b hb hc w' v r h
            exact decBase_consumes (decStruct_consumes hΓ _) (tyOK_base (field_tyOK (hΓ.structs n s hs he) hf) hb) hc h
        have := method_paid (T := Γ.nm n) (M := ⟨p, Γ.ext, A⟩) (call := runParse ⟨p, Γ.ext, A⟩ fuel) (L := fuel)
          (S := decStruct Γ A ctx fuel) (cc := runCost ⟨p, Γ.ext, A⟩ fuel) (Z := Z)
          (fun D hD => ⟨P.hK, P.hN, P.hS, decStruct_suffix fuel, P.ok n s hs he, hctx, calls_agree P hctx fuel, hD⟩) hm hcf
          (hZ m hmem) (ho he) w hid hw
        obtain ⟨u, h1, h2⟩ := this
        refine ⟨u, ?_, h2⟩
        have h3 := Nat.mul_le_mul_right (unit (lin Z c k).2 Z c) (hZ m hmem)
        have e1 : (lin Z c (k + 1)).1 = (lin Z c k).1 + per (lin Z c k).2 Z := rfl
        have e2 : (lin Z c (k + 1)).2 = 1 + Z * unit (lin Z c k).2 Z c := rfl
        rw [e1, e2]
        refine Nat.le_trans (Nat.add_le_add_left h1 1) ?_
        omega

/-- The number of statements a `Parse` method executes is linear in the length of the input. -/
theorem runCost_le (P : ProgOK g Γ p) (hΓ : FmtOK Γ) (hctx : CtxOK Γ ctx) {rank : String → Nat} (hr : Ranked Γ rank)
    (hl : ∀ n s, Γ.structs n = some s → s.extern = false → ∀ f ∈ fieldsOf s.ms, LoopsIn Γ c f.type)
    (hZ : ∀ m ∈ p.methods, textSizes m.body ≤ Z) {n : String} {s : Struct} (hs : Γ.structs n = some s) {w : Bytes} (hid : Bytes)
    (hw : w.length < 2 ^ 63) {o : Fields} (ho : s.extern = false → Typed Γ s o) (fuel : Nat) :
    runCost ⟨p, Γ.ext, A⟩ fuel (Γ.nm n) (.obj (Γ.nm n) o) (.bytes w hid) (s.contexts.map (fun c => .struct (ctx c))) ≤
      (lin Z c (rank n + 1)).1 * w.length + (lin Z c (rank n + 1)).2 := by
  obtain ⟨u, h1, h2⟩ := calls_paid (A := A) P hΓ hctx hr hl hZ (rank n + 1) fuel n s (by omega) hs w hid hw o ho
  have := Nat.mul_le_mul_left (lin Z c (rank n + 1)).1 (show u ≤ w.length by omega)
  omega

end Verif.Cost
