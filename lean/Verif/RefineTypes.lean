import Verif.Refine
import Verif.TypedLemmas
/-!
# The emitted code computes the reference decoder: field types
-/
set_option linter.unusedSimpArgs false
set_option linter.unusedVariables false
namespace Verif.Refine
open Verif Verif.Ast Verif.Go Verif.Gen Verif.Wire Verif.Spec Verif.Inspect

variable {g : Cfg} {Γ : Fmt} {M : Mach} {call : Call} {L : Nat}

/-! ## Frames -/

/-- `E o w h` is an environment inside a `Parse` method: the receiver points to an object with fields
`o`, `cur` is `w` (followed by `h`), `data` has length `D`, and the context parameters are bound. -/
structure Frame (recv T : String) (ctx : Ctx) (ctxs : List String) (D : Nat)
    (E : Fields → Bytes → Bytes → Env) : Prop where
  cur : ∀ o w h, ∃ t, E o w h "cur" = .bytes w h :: t
  setCur : ∀ o w h w' h', (E o w h).set "cur" (.bytes w' h') = E o w' h'
  rcv : ∀ o w h, ∃ t, E o w h recv = .obj T o :: t
  setRcv : ∀ o w h o', (E o w h).set recv (.obj T o') = E o' w h
  data : ∀ o w h, ∃ d dh t, E o w h "data" = .bytes d dh :: t ∧ d.length = D
  ctxs : ∀ o w h, ∀ c ∈ ctxs, ∃ t, E o w h c = .struct (ctx c) :: t

variable {recv T : String} {ctx : Ctx} {ctxs : List String} {D : Nat} {E : Fields → Bytes → Bytes → Env}

theorem Frame.push (Fr : Frame recv T ctx ctxs D E) {x : String} (h1 : x ≠ "cur") (h2 : x ≠ recv)
    (h3 : x ≠ "data") (h4 : x ∉ ctxs) (u : Val) :
    Frame recv T ctx ctxs D (fun o w h => (E o w h).push x u) where
  cur := fun o w h => by rw [push_ne _ _ (Ne.symm h1)]; exact Fr.cur o w h
  setCur := fun o w h w' h' => by rw [set_push_ne _ _ _ h1, Fr.setCur]
  rcv := fun o w h => by rw [push_ne _ _ (Ne.symm h2)]; exact Fr.rcv o w h
  setRcv := fun o w h o' => by rw [set_push_ne _ _ _ h2, Fr.setRcv]
  data := fun o w h => by rw [push_ne _ _ (Ne.symm h3)]; exact Fr.data o w h
  ctxs := fun o w h c hc => by
    rw [push_ne _ _ (by rintro rfl; exact h4 hc)]; exact Fr.ctxs o w h c hc

/-- A field of the receiver as a location. -/
theorem Frame.field (Fr : Frame recv T ctx ctxs D E) {o : Fields} {f : String} {v0 : Val}
    (hf : getF o f = some v0) : Focus M (.field recv f) (fun v w h => E (setF o f v) w h) where
  cur := fun v w h => Fr.cur _ w h
  setCur := fun v w h w' h' => Fr.setCur _ w h w' h'
  get := fun v w h => by
    obtain ⟨t, ht⟩ := Fr.rcv (setF o f v) w h
    simp [LV.expr, eval, ht, getF_setF_same hf]
  put := fun v w h v' => by
    obtain ⟨t, ht⟩ := Fr.rcv (setF o f v) w h
    simp [store, ht, getF_setF_same hf, Fr.setRcv, setF_setF]

/-- The variable `tmp` as a location. -/
theorem Frame.tmp (Fr : Frame recv T ctx ctxs D E) (o : Fields) :
    Focus M (.var "tmp") (fun v w h => (E o w h).push "tmp" v) where
  cur := fun v w h => by rw [push_ne _ _ (by decide)]; exact Fr.cur o w h
  setCur := fun v w h w' h' => by rw [set_push_ne _ _ _ (by decide), Fr.setCur]
  get := fun v w h => by simp [LV.expr, eval]
  put := fun v w h v' => by simp [store]

/-- An array or a slice. -/
def seqVal : Bool → List Val → Val
  | true, vs => .array vs
  | false, vs => .slice vs

/-- An element of a field of the receiver as a location. -/
theorem Frame.elem (Fr : Frame recv T ctx ctxs D E) {o : Fields} {f : String} {v0 : Val}
    (hf : getF o f = some v0) {a : Bool} {vs : List Val} {k : Nat} (hk : k < vs.length)
    (hidx : ∀ o w h, ∃ t, E o w h "idx" = .num k :: t) :
    Focus M (.index recv f "idx") (fun v w h => E (setF o f (seqVal a (vs.set k v))) w h) where
  cur := fun v w h => Fr.cur _ w h
  setCur := fun v w h w' h' => Fr.setCur _ w h w' h'
  get := fun v w h => by
    obtain ⟨t, ht⟩ := Fr.rcv (setF o f (seqVal a (vs.set k v))) w h
    obtain ⟨t', ht'⟩ := hidx (setF o f (seqVal a (vs.set k v))) w h
    cases a <;> simp only [seqVal] at ht ht' ⊢ <;> simp [LV.expr, eval, ht, ht', getF_setF_same hf, asNum, hk]
  put := fun v w h v' => by
    obtain ⟨t, ht⟩ := Fr.rcv (setF o f (seqVal a (vs.set k v))) w h
    obtain ⟨t', ht'⟩ := hidx (setF o f (seqVal a (vs.set k v))) w h
    have h1 : ¬ ((k : Int) < 0) := by omega
    have h2 : ¬ ((vs.length : Int) ≤ k) := by omega
    cases a <;> simp only [seqVal] at ht ht' ⊢ <;>
      simp [store, storeAt, bind, Res.bind, ht, ht', getF_setF_same hf, seqVal, h2, Fr.setRcv, setF_setF] <;> rw [if_neg h1]

/-! ## Integer arithmetic -/

theorem wrap64_id {x : Int} (h1 : -(2 ^ 63) ≤ x) (h2 : x < 2 ^ 63) : wrap64 x = x := by
  unfold wrap64; omega

theorem wrap64_lt (x : Int) : wrap64 x < 2 ^ 63 := by unfold wrap64; omega
theorem wrap64_ge (x : Int) : -(2 ^ 63) ≤ wrap64 x := by unfold wrap64; omega

/-! ## Loops -/

theorem execBlock_eq (ss : List Stmt) (env : Env) : execBlock M call L ss env =
    thenS (execs M call L ss env) fun env => .norm (popAll env (declsOf ss)) := rfl

theorem eval_lt_idx {env : Env} {e : Expr} {k N : Int} {t : List Val}
    (hi : env "idx" = .num k :: t) (he : eval M env e = .ok (.num N)) :
    eval M env (.lt (.var "idx") e) = .ok (.bool (decide (k < N))) := by
  simp [eval, hi, he, asNum]

/-- The counting loop fills the elements from `acc.length` on. -/
theorem count_loop (hK : Γ.K = g.res.constant) (hN : Γ.nm = g.nm) (hS : Γ.structs = g.res.struct)
    {S : SDec} (hsuf : S.Suffix) (Fr : Frame recv T ctx ctxs D E)
    (hr1 : recv ≠ "idx") (hr2 : recv ≠ "err") (hc1 : "idx" ∉ ctxs) (hc2 : "err" ∉ ctxs)
    {b : Base} (hb : BaseGood M Γ ctx ctxs call S b) {o : Fields} {f : String} {v0 : Val}
    (hf : getF o f = some v0) {body : List Stmt}
    (hg : parseBase g (.index recv f "idx") b = .ok body) {a : Bool} {N : Nat} (hN63 : N < 2 ^ 63)
    {bound : Expr} (hbound : ∀ vs w h k, eval M ((E (setF o f (seqVal a vs)) w h).push "idx" k) bound =
      .ok (.num N)) :
    ∀ (fuel : Nat) (acc rest : List Val) (w h : Bytes), acc.length + rest.length = N →
      w.length < 2 ^ 63 →
      Agree (fun vs w h => (E (setF o f (seqVal a vs)) w h).push "idx" (.num N))
        (decCount (decBase Γ S b) N fuel acc.length acc w)
        (loop (fun env => eval M env (.lt (.var "idx") bound))
          (fun env => thenS (execBlock M call L body env) (fun env => incr env "idx")) fuel
          ((E (setF o f (seqVal a (acc ++ rest))) w h).push "idx" (.num acc.length))) := by
  intro fuel
  induction fuel with
  | zero => intro acc rest w h _ _; rfl
  | succ fuel ih =>
    intro acc rest w h hlen hw
    simp only [loop, decCount]
    rw [eval_lt_idx (push_same _ _ _) (hbound _ _ _ _)]
    go_step
    cases rest with
    | nil =>
      have hlen' : acc.length = N := by simpa using hlen
      have : ¬ ((acc.length : Int) < N) := by omega
      simp only [this, if_false, decide_false]
      exact ⟨h, by rw [List.append_nil, hlen']⟩
    | cons x rest =>
      simp only [List.length_cons] at hlen
      have : ((acc.length : Int) < N) := by omega
      simp only [this, if_true, decide_true]
      have Fr' := Fr.push (x := "idx") (by decide) (Ne.symm hr1) (by decide) hc1 (.num acc.length)
      have Fo := Fr'.elem (M := M) hf (a := a) (vs := acc ++ x :: rest) (k := acc.length) (by simp)
        (fun o w h => ⟨_, push_same _ _ _⟩)
      have hx : (acc ++ x :: rest).set acc.length x = acc ++ x :: rest := by simp
      have hb1 := parseBase_exec (L := L) hK hN hS Fo
        (by
          simp only [LV.expr, evars, List.append_nil, List.mem_append, List.mem_cons, List.not_mem_nil, or_false]
          rintro (h | h)
          · exact hr2 h.symm
          · exact absurd h (by decide))
        (fun v w h c hc => Fr'.ctxs _ _ _ c hc) hc2 hb hg x w h hw
      simp only [hx] at hb1
      rw [execBlock_eq, thenS_assoc, thenS_assoc]
      refine Agree.bind hb1 ?_
      intro v r h' hd
      rw [parseBase_decls hg, thenS_norm, popAll_pushErr]
      have hset : (acc ++ x :: rest).set acc.length v = (acc ++ [v]) ++ rest := by simp
      rw [hset]
      have hincr : ∀ env : Env, incr (env.push "idx" (.num acc.length)) "idx" =
          .norm (env.push "idx" (.num (wrap64 ((acc.length : Int) + 1)))) := by
        intro env; simp [incr]
      rw [hincr, thenS_norm]
      have hwrap : wrap64 ((acc.length : Int) + 1) = ((acc ++ [v]).length : Nat) := by
        rw [wrap64_id (by omega) (by omega)]; simp
      rw [hwrap]
      have := ih (acc ++ [v]) rest r h' (by simp; omega)
        (Nat.lt_of_le_of_lt (decBase_suffix hsuf hd).length_le hw)
      simpa using this

/-- The loop to the end of the input appends elements. -/
theorem rem_loop (hK : Γ.K = g.res.constant) (hN : Γ.nm = g.nm) (hS : Γ.structs = g.res.struct)
    {S : SDec} (hsuf : S.Suffix) (Fr : Frame recv T ctx ctxs D E)
    (hr1 : recv ≠ "tmp") (hr2 : recv ≠ "err") (hc1 : "tmp" ∉ ctxs) (hc2 : "err" ∉ ctxs)
    {b : Base} (hb : BaseGood M Γ ctx ctxs call S b) {o : Fields} {f : String} {v0 : Val}
    (hf : getF o f = some v0) {body : List Stmt}
    (hg : parseBase g (.var "tmp") b = .ok body) :
    ∀ (fuel : Nat) (acc : List Val) (w h : Bytes), w.length < 2 ^ 63 →
      Agree (fun vs w h => E (setF o f (.slice vs)) w h)
        (decRem (decBase Γ S b) fuel acc w)
        (loop (fun env => eval M env (.gt (.len Gen.cur) (.lit 0)))
          (fun env => execBlock M call L ([.varDecl "tmp" (tipeBase g b)] ++ body ++
            [.assign (.field recv f) (.append (LV.field recv f).expr (.var "tmp"))]) env) fuel
          (E (setF o f (.slice acc)) w h)) := by
  intro fuel
  induction fuel with
  | zero => intro acc w h _; rfl
  | succ fuel ih =>
    intro acc w h hw
    simp only [loop, decRem]
    obtain ⟨tl, hcur⟩ := Fr.cur (setF o f (.slice acc)) w h
    have hcond : eval M (E (setF o f (.slice acc)) w h) (.gt (.len Gen.cur) (.lit 0)) =
        .ok (.bool (decide (0 < w.length))) := by
      simp [eval, eval_cur hcur, asBytes, asNum]
    rw [hcond]
    go_step
    by_cases hpos : 0 < w.length
    · simp only [hpos, if_true, decide_true]
      have Fo := Fr.tmp (M := M) (setF o f (.slice acc))
      have Fr' := fun u => Fr.push (x := "tmp") (by decide) (Ne.symm hr1) (by decide) hc1 u
      have hb1 := parseBase_exec (L := L) hK hN hS Fo (by simp [LV.expr, evars])
        (fun v w h c hc => (Fr' v).ctxs _ _ _ c hc) hc2 hb hg (zero (tipeBase g b)) w h hw
      rw [execBlock_eq, thenS_assoc]
      simp only [List.cons_append, List.nil_append, execs_cons]
      have e1 : exec M call L (.varDecl "tmp" (tipeBase g b)) (E (setF o f (.slice acc)) w h) =
          .norm ((E (setF o f (.slice acc)) w h).push "tmp" (zero (tipeBase g b))) := by simp [exec]
      rw [e1, thenS_norm, execs_append, thenS_assoc]
      refine Agree.bind hb1 ?_
      intro v r h' hd
      have hdecl : declsOf (Stmt.varDecl "tmp" (tipeBase g b) :: (body ++
          [Stmt.assign (LV.field recv f) (Expr.append (LV.field recv f).expr (Expr.var "tmp"))])) =
          "tmp" :: errDecl b := by
        simp [declsOf, declsOf_append, parseBase_decls hg]
      rw [hdecl]
      -- the frame with tmp (and err) declared
      have hErr : ∃ (E' : Fields → Bytes → Bytes → Env), (∀ o w h, E' o w h =
          pushErr b ((E o w h).push "tmp" v)) ∧ Frame recv T ctx ctxs D E' ∧
          (∀ o w h, ∃ t, E' o w h "tmp" = v :: t) ∧
          (∀ o w h, popAll (E' o w h) ("tmp" :: errDecl b) = E o w h) := by
        cases b with
        | int t => exact ⟨_, fun _ _ _ => rfl, Fr' v, fun o w h => ⟨_, push_same _ _ _⟩, fun o w h => by simp [popAll, errDecl, pushErr]⟩
        | char => exact ⟨_, fun _ _ _ => rfl, Fr' v, fun o w h => ⟨_, push_same _ _ _⟩, fun o w h => by simp [popAll, errDecl, pushErr]⟩
        | struct n =>
          refine ⟨_, fun _ _ _ => rfl, (Fr' v).push (by decide) (Ne.symm hr2) (by decide) hc2 .nil,
            fun o w h => ⟨E o w h "tmp", ?_⟩, fun o w h => ?_⟩
          · simp only [pushErr]; rw [push_ne _ _ (by decide), push_same]
          · simp only [pushErr, errDecl, popAll, List.foldl_cons, List.foldl_nil]
            rw [pop_push_ne _ _ (by decide), pop_push, pop_push]
      obtain ⟨E', hE', FrE, htmp, hpop⟩ := hErr
      rw [← hE']
      have Ff := FrE.field (M := M) hf
      obtain ⟨tt, htt⟩ := htmp (setF o f (.slice acc)) r h'
      have hasg : exec M call L (.assign (.field recv f) (.append (LV.field recv f).expr (.var "tmp")))
          (E' (setF o f (.slice acc)) r h') = .norm (E' (setF o f (.slice (acc ++ [v]))) r h') := by
        simp only [exec, eval]
        have := Ff.get (.slice acc) r h'
        rw [this]
        simp only [Res.ok_bind, htt, thenE_ok]
        rw [Ff.put]
        rfl
      rw [execs_cons, hasg, thenS_norm, execs_nil, thenS_norm, hpop, thenS_norm]
      exact ih (acc ++ [v]) r h' (Nat.lt_of_le_of_lt (decBase_suffix hsuf hd).length_le hw)
    · simp only [hpos, if_false, decide_false]
      exact ⟨h, rfl⟩

/-! ## References and length constraints -/

/-- Names that do not clash with the variables emitted code declares. -/
structure NamesOK (recv : String) (ctxs : List String) : Prop where
  recv : recv ∉ ["cur", "data", "restore", "idx", "tmp", "err"]
  ctxs : ∀ c ∈ ctxs, c ∉ ["cur", "data", "restore", "idx", "tmp", "err"]

/-- A reference that denotes a number and, if scoped, names a context parameter. -/
def RefGood (Γ : Fmt) (ctx : Ctx) (ctxs : List String) (o : Fields) (r : IDRef) : Prop :=
  (∃ x, refVal Γ ctx o r = some x) ∧ (r.scope ≠ "" → r.scope ∈ ctxs)

theorem ref_eval (hN : Γ.nm = g.nm) (Fr : Frame recv T ctx ctxs D E) {o : Fields} {r : IDRef}
    {x : Int} (hr : refVal Γ ctx o r = some x) (hs : r.scope ≠ "" → r.scope ∈ ctxs) (w h : Bytes) :
    eval M (E o w h) (ref g recv r) = .ok (.num x) := by
  have hget : getF (if r.scope = "" then o else ctx r.scope) (Γ.nm r.name) = some (.num x) := by
    unfold refVal at hr
    split at hr
    · rename_i y heq
      cases hr
      exact heq
    · cases hr
  unfold ref
  by_cases h0 : r.scope = ""
  · rw [if_pos h0] at hget ⊢
    obtain ⟨t, ht⟩ := Fr.rcv o w h
    simp [eval, ht, ← hN, hget]
  · rw [if_neg h0] at hget ⊢
    obtain ⟨t, ht⟩ := Fr.ctxs o w h _ (hs h0)
    simp [eval, ht, ← hN, hget]

theorem ref_evars {r : IDRef} (hs : r.scope ≠ "" → r.scope ∈ ctxs) {x : String} (h1 : x ≠ recv)
    (h2 : x ∉ ctxs) : x ∉ evars (ref g recv r) := by
  unfold ref
  by_cases h0 : r.scope = ""
  · simp [h0, evars, h1]
  · simp only [if_neg h0, evars, List.mem_singleton]
    rintro rfl
    exact h2 (hs h0)

/-- What is needed of a length constraint. -/
def LenGood (Γ : Fmt) (ctx : Ctx) (ctxs : List String) (o : Fields) : LengthConstraint → Prop
  | .leftover k => ∃ x, ival Γ.K k = some x ∧ 0 ≤ x ∧ x < 2 ^ 63
  | .idRef r => RefGood Γ ctx ctxs o r

/-- Number of bytes a length constraint leaves in its window. -/
def winLen (Γ : Fmt) (ctx : Ctx) (o : Fields) (w : Bytes) : LengthConstraint → Int
  | .leftover k => w.length - (ival Γ.K k).getD 0
  | .idRef r => wrap64 ((refVal Γ ctx o r).getD 0)

theorem extent_exec (hK : Γ.K = g.res.constant) (hN : Γ.nm = g.nm) (Fr : Frame recv T ctx ctxs D E)
    {o : Fields} {c : LengthConstraint} (hc : LenGood Γ ctx ctxs o c) {e : Stmt × Expr}
    (hg : extent g recv c = .ok e) (w h : Bytes) (hw : w.length < 2 ^ 63) :
    eval M (E o w h) e.2 = .ok (.num (winLen Γ ctx o w c)) ∧
    (∀ x, x ∉ ctxs → x ≠ recv → x ≠ "cur" → x ∉ evars e.2) ∧
    (∀ {α : Type} (f : Bytes → DOut (α × Bytes)),
      ∃ tooShort : Bool,
      exec M call L e.1 (E o w h) =
        (if tooShort then .ret (E o w h) .nil (some "data too short") else .norm (E o w h)) ∧
      decConstrained Γ ctx o c w f =
        (if tooShort then .err "data too short" else decWindow (winLen Γ ctx o w c) w f)) ∧
    declsOf [e.1] = [] := by
  obtain ⟨tl, hcur⟩ := Fr.cur o w h
  cases c with
  | leftover k =>
    obtain ⟨x, hx, hx0, hx1⟩ := hc
    simp only [extent] at hg
    obtain ⟨x', h1, h2⟩ := Res.bind_eq_ok.1 hg
    have := integer_ok hK h1
    rw [hx] at this
    cases this
    simp only [Res.ok.injEq] at h2
    subst h2
    refine ⟨?_, ?_, ?_, rfl⟩
    · simp only [eval, eval_cur hcur, Res.ok_bind, asBytes, asNum, winLen, hx, Option.getD_some]
      rw [wrap64_id (by omega) (by omega)]
    · intro y _ _ hy
      simp [evars, Gen.cur, hy]
    · intro α f
      refine ⟨decide ((w.length : Int) < x), ?_, ?_⟩
      · rw [exec_lengthCheck hcur (n := x) (by simp [eval])]
        by_cases hlt : (w.length : Int) < x <;> simp [hlt]
      · simp only [decConstrained, hx, winLen, Option.getD_some]
        by_cases hlt : (w.length : Int) < x <;> simp [hlt]
  | idRef r =>
    obtain ⟨⟨x, hx⟩, hs⟩ := hc
    simp only [extent, Res.ok.injEq] at hg
    subst hg
    have hev := ref_eval (M := M) hN Fr hx hs w h
    refine ⟨?_, ?_, ?_, rfl⟩
    · simp [eval, hev, asNum, winLen, hx]
    · intro y h1 h2 _
      exact ref_evars (g := g) (recv := recv) hs h2 h1
    · intro α f
      refine ⟨decide ((w.length : Int) < wrap64 x), ?_, ?_⟩
      · rw [exec_lengthCheck hcur (n := wrap64 x) (by simp [eval, hev, asNum])]
        by_cases hlt : (w.length : Int) < wrap64 x <;> simp [hlt]
      · simp only [decConstrained, hx, winLen, Option.getD_some]
        by_cases hlt : (w.length : Int) < wrap64 x <;> simp [hlt]

theorem constrained_exec (hK : Γ.K = g.res.constant) (hN : Γ.nm = g.nm)
    (Fr : Frame recv T ctx ctxs D E) (hn : NamesOK recv ctxs)
    {o : Fields} {c : LengthConstraint} (hc : LenGood Γ ctx ctxs o c) {body : Res (List Stmt)}
    {ss : List Stmt} (hg : constrained g recv c body = .ok ss) {α : Type}
    {Eo : α → Bytes → Bytes → Env} {d : Bytes → DOut (α × Bytes)}
    (hcurO : ∀ a w h, ∃ t, Eo a w h "cur" = .bytes w h :: t)
    (hsetO : ∀ a w h w' h', (Eo a w h).set "cur" (.bytes w' h') = Eo a w' h')
    (w h : Bytes) (hw : w.length < 2 ^ 63)
    (hbody : ∀ b, body = .ok b → declsOf b = [] ∧ ∀ u w' h', w'.length ≤ w.length →
      Agree (fun a w h => (Eo a w h).push "restore" u) (d w')
        (execs M call L b ((E o w' h').push "restore" u))) :
    Agree Eo (decConstrained Γ ctx o c w d) (execBlock M call L ss (E o w h)) := by
  obtain ⟨e, he, hg⟩ := Res.bind_eq_ok.1 hg
  obtain ⟨b, hb, hg⟩ := Res.bind_eq_ok.1 hg
  simp only [Res.ok.injEq] at hg
  subst hg
  obtain ⟨hdb, hbody⟩ := hbody b hb
  obtain ⟨hev, hvars, hchk, hdecl⟩ := extent_exec (M := M) (call := call) (L := L) hK hN Fr hc he w h hw
  obtain ⟨short, hx1, hx2⟩ := hchk d
  rw [hx2, execBlock_eq]
  simp only [List.cons_append, List.nil_append, execs_cons]
  rw [hx1]
  cases short with
  | true => simp only [if_true]; exact ⟨_, rfl⟩
  | false =>
    simp only [Bool.false_eq_true, if_false]
    go_step
    obtain ⟨tl, hcur⟩ := Fr.cur o w h
    unfold decWindow
    generalize hnn : winLen Γ ctx o w c = n at *
    have hrestore : "restore" ∉ ctxs := fun hmem => by
      have := hn.ctxs _ hmem; simp at this
    have hrecv : ("restore" : String) ≠ recv := fun h => by
      have := hn.recv; rw [← h] at this; simp at this
    have hdef : exec M call L (.define "restore" (.sliceFrom Gen.cur e.2)) (E o w h) =
        if n < 0 ∨ (w.length : Int) < n then .panic "slice bounds out of range"
        else .norm ((E o w h).push "restore" (.bytes (w.drop n.toNat) h)) := by
      simp only [exec, eval, eval_cur hcur, hev, Res.ok_bind, asBytes, asNum]
      by_cases hlt : n < 0 ∨ (w.length : Int) < n <;> simp [hlt]
    rw [hdef]
    by_cases hlt : n < 0 ∨ (w.length : Int) < n
    · simp only [hlt, if_true]; exact ⟨_, rfl⟩
    · simp only [hlt, if_false]
      go_step
      have Fr' := Fr.push (x := "restore") (by decide) hrecv (by decide) hrestore (.bytes (w.drop n.toNat) h)
      obtain ⟨tl', hcur'⟩ := Fr'.cur o w h
      have hev' : eval M ((E o w h).push "restore" (.bytes (w.drop n.toNat) h)) e.2 = .ok (.num n) := by
        rw [eval_push _ _ _ _ (hvars _ hrestore hrecv (by decide)), hev]
      have hcut : exec M call L (.assign (.var "cur") (.sliceTo Gen.cur e.2))
          ((E o w h).push "restore" (.bytes (w.drop n.toNat) h)) =
          .norm ((E o (w.take n.toNat) ((w ++ h).drop n.toNat)).push "restore" (.bytes (w.drop n.toNat) h)) := by
        have hlt' : ¬ (n < 0 ∨ ((w ++ h).length : Int) < n) := by
          simp only [List.length_append]; omega
        simp only [exec, eval, eval_cur hcur', hev', Res.ok_bind, asBytes, asNum, hlt', if_false, thenE_ok,
          store_cur hcur', Fr'.setCur]
        rw [List.take_append_of_le_length (by omega)]
      rw [hcut]
      go_step
      rw [execs_append, thenS_assoc]
      refine Agree.bind (hbody _ _ _ (by simp only [List.length_take]; omega)) ?_
      intro a r h' hd
      obtain ⟨t2, hc2⟩ := hcurO a r h'
      have hc2' : ((Eo a r h').push "restore" (.bytes (w.drop n.toNat) h)) "cur" = .bytes r h' :: t2 := by
        rw [push_ne _ _ (by decide)]; exact hc2
      rw [execs_cons, exec_assertEnd hc2']
      by_cases hr : 0 < r.length
      · simp only [hr, if_true]; exact ⟨_, rfl⟩
      · simp only [hr, if_false]
        have hres : exec M call L (.assign (.var "cur") (.var "restore"))
            ((Eo a r h').push "restore" (.bytes (w.drop n.toNat) h)) =
            .norm ((Eo a (w.drop n.toNat) h).push "restore" (.bytes (w.drop n.toNat) h)) := by
          simp only [exec, eval, push_same, thenE_ok, store_cur hc2']
          rw [set_push_ne _ _ _ (by decide), hsetO]
        go_step
        rw [hres]
        go_step
        refine ⟨h, ?_⟩
        have hds : declsOf (e.1 :: Stmt.define "restore" (Expr.sliceFrom Gen.cur e.2) ::
            Stmt.assign (LV.var "cur") (Expr.sliceTo Gen.cur e.2) ::
            (b ++ [assertEnd, Stmt.assign (LV.var "cur") (Expr.var "restore")])) = ["restore"] := by
          have : ∀ (s : Stmt) (l : List Stmt), declsOf (s :: l) = declsOf [s] ++ declsOf l :=
            fun s l => declsOf_append [s] l
          rw [this, hdecl]
          simp [declsOf, declsOf_append, hdb, assertEnd]
        rw [hds]
        simp [popAll]

/-! ## Field types -/

/-- What is needed of a field type, at an object `o` whose field `f` it is. -/
def TyGood (M : Mach) (Γ : Fmt) (recv : String) (ctx : Ctx) (ctxs : List String) (call : Call) (S : SDec)
    (o : Fields) (f : String) : Ty → Prop
  | .base b => BaseGood M Γ ctx ctxs call S b
  | .ptr => True
  | .nulterm => recv ≠ "i"
  | .fixedArray b n => BaseGood M Γ ctx ctxs call S b ∧
      ∃ vs : List Val, getF o f = some (.array vs) ∧ ival Γ.K n = some (vs.length : Int) ∧ vs.length < 2 ^ 63
  | .varArray b (some (.idRef r)) => BaseGood M Γ ctx ctxs call S b ∧ RefGood Γ ctx ctxs o r ∧
      (r.scope = "" → Γ.nm r.name ≠ f)
  | .varArray b (some (.leftover k)) => BaseGood M Γ ctx ctxs call S b ∧
      LenGood Γ ctx ctxs o (.leftover k)
  | .varArray b none => BaseGood M Γ ctx ctxs call S b

theorem indexByte0_bounds (w : Bytes) : -1 ≤ indexByte0 w ∧ indexByte0 w < w.length := by
  induction w with
  | nil => simp [indexByte0]
  | cons b bs ih =>
    simp only [indexByte0, List.length_cons]
    split
    · omega
    · split <;> omega

theorem refVal_setF {o : Fields} {r : IDRef} {f : String} (h : r.scope = "" → Γ.nm r.name ≠ f) (v : Val) :
    refVal Γ ctx (setF o f v) r = refVal Γ ctx o r := by
  unfold refVal
  by_cases h0 : r.scope = ""
  · simp only [if_pos h0, getF_setF_ne (h h0)]
  · simp only [if_neg h0]

theorem parseRem_exec (hK : Γ.K = g.res.constant) (hN : Γ.nm = g.nm) (hS : Γ.structs = g.res.struct)
    {S : SDec} (hsuf : S.Suffix) (Fr : Frame recv T ctx ctxs D E) (hn : NamesOK recv ctxs)
    {b : Base} (hb : BaseGood M Γ ctx ctxs call S b) {o : Fields} {f : String} {v0 : Val}
    (hf : getF o f = some v0) {ss : List Stmt}
    (hg : parseRem g (.field recv f) b = .ok ss) :
    declsOf ss = [] ∧ ∀ (w h : Bytes), w.length < 2 ^ 63 →
      Agree (fun v w h => E (setF o f v) w h) (decRemArr Γ S L b w) (execs M call L ss (E o w h)) := by
  obtain ⟨body, hbody, hg⟩ := Res.bind_eq_ok.1 hg
  simp only [Res.ok.injEq] at hg
  subst hg
  refine ⟨rfl, fun w h hw => ?_⟩
  have hr := hn.recv
  simp only [List.mem_cons, List.not_mem_nil, or_false, not_or] at hr
  have hmk : exec M call L (.assign (.field recv f) (.make (tipeBase g b) (.lit 0))) (E o w h) =
      .norm (E (setF o f (.slice [])) w h) := by
    have Fo := Fr.field (M := M) hf
    have := Fo.put v0 w h (.slice [])
    rw [setF_self hf] at this
    simp only [exec, eval, Res.ok_bind, asNum]
    have : ¬ ((0 : Int) < 0 ∨ (M.maxAlloc : Int) < 0) := by omega
    simp only [this, if_false, thenE_ok, Int.toNat_zero, List.replicate_zero]
    rw [‹store _ _ _ = _›]
    rfl
  rw [execs_cons, hmk, thenS_norm, execs_cons]
  have hex : exec M call L (.forC (.gt (.len Gen.cur) (.lit 0))
      ([.varDecl "tmp" (tipeBase g b)] ++ body ++
        [.assign (.field recv f) (.append (LV.field recv f).expr (.var "tmp"))]))
      (E (setF o f (.slice [])) w h) =
      loop (fun env => eval M env (.gt (.len Gen.cur) (.lit 0)))
          (fun env => execBlock M call L ([.varDecl "tmp" (tipeBase g b)] ++ body ++
            [.assign (.field recv f) (.append (LV.field recv f).expr (.var "tmp"))]) env) L
          (E (setF o f (.slice [])) w h) := by
    simp only [exec, execBlock]
  rw [hex]
  refine Agree.bind (rem_loop hK hN hS hsuf Fr hr.2.2.2.2.1 hr.2.2.2.2.2
    (fun hm => by have := hn.ctxs _ hm; simp at this)
    (fun hm => by have := hn.ctxs _ hm; simp at this) hb hf hbody L [] w h hw) ?_
  intro vs r h' _
  exact ⟨h', by rw [execs_nil]⟩

theorem forIdx_eq (x : String) (n : Expr) (body : List Stmt) (env : Env) :
    exec M call L (.forIdx x n body) env =
    thenS (loop (fun env => eval M env (.lt (.var x) n))
      (fun env => thenS (execBlock M call L body env) (fun env => incr env x)) L
      (env.push x (.num 0))) fun env => .norm (env.pop x) := by
  simp only [exec, execBlock]

theorem parseType_exec (hK : Γ.K = g.res.constant) (hN : Γ.nm = g.nm) (hS : Γ.structs = g.res.struct)
    {S : SDec} (hsuf : S.Suffix) (Fr : Frame recv T ctx ctxs D E) (hn : NamesOK recv ctxs) (hD : D < 2 ^ 63)
    {o : Fields} {f : String} {t : Ty} {v0 : Val}
    (hf : getF o f = some v0) (ht : TyGood M Γ recv ctx ctxs call S o f t) {ss : List Stmt}
    (hg : parseType g recv (.field recv f) t = .ok ss) (w h : Bytes) (hw : w.length < 2 ^ 63) :
    Agree (fun v w h => E (setF o f v) w h) (decTy Γ M.maxAlloc S L ctx D o w t)
      (execBlock M call L ss (E o w h)) := by
  have hr := hn.recv
  simp only [List.mem_cons, List.not_mem_nil, or_false, not_or] at hr
  obtain ⟨hrc, hrd, hrr, hri, hrt, hre⟩ := hr
  have hcx : ∀ x ∈ ["cur", "data", "restore", "idx", "tmp", "err"], x ∉ ctxs :=
    fun x hx hm => hn.ctxs _ hm hx
  have Fo := Fr.field (M := M) hf
  have hself := setF_self hf
  cases t with
  | base b =>
    simp only [parseType] at hg
    have := parseBase_exec (L := L) hK hN hS Fo (by simp [LV.expr, evars, Ne.symm hre])
      (fun v w h c hc => Fr.ctxs _ _ _ c hc) (hcx _ (by simp)) ht hg v0 w h hw
    simp only [hself] at this
    rw [execBlock_eq]
    refine Agree.map this ?_
    intro v r h'
    rw [parseBase_decls hg, popAll_pushErr]
  | ptr =>
    simp only [parseType, Res.ok.injEq] at hg
    subst hg
    obtain ⟨tl, hcur⟩ := Fr.cur o w h
    obtain ⟨d, dh, t, hd, hdl⟩ := Fr.data o w h
    have hput := Fo.put v0 w h (.num ((D : Int) - w.length))
    rw [hself] at hput
    rw [execBlock_eq, execs_cons]
    have : exec M call L (.assign (.field recv f) (.sub (.len (.var "data")) (.len Gen.cur))) (E o w h) =
        .norm (E (setF o f (.num ((D : Int) - w.length))) w h) := by
      simp only [exec, eval, hd, eval_cur hcur, Res.ok_bind, asBytes, asNum, thenE_ok, hdl]
      rw [wrap64_id (by omega) (by omega), hput]
      rfl
    rw [this]
    go_step
    exact ⟨h, rfl⟩
  | nulterm =>
    simp only [parseType, Res.ok.injEq] at hg
    subst hg
    have hri' : ("i" : String) ≠ recv := Ne.symm ht
    have Fi := Fo.push (x := "i") (by decide) (by simp [LV.expr, evars, hri']) (.num (indexByte0 w))
    obtain ⟨tl, hcur⟩ := Fr.cur o w h
    have hcur' : ((E o w h).push "i" (.num (indexByte0 w))) "cur" = .bytes w h :: tl := by
      rw [push_ne _ _ (by decide), hcur]
    rw [execBlock_eq, execs_cons]
    have e1 : exec M call L (.define "i" (.indexByte0 Gen.cur)) (E o w h) =
        .norm ((E o w h).push "i" (.num (indexByte0 w))) := by
      simp [exec, eval, eval_cur hcur, asBytes]
    rw [e1, thenS_norm, execs_cons]
    have e2 : exec M call L (.ifS (.lt (.var "i") (.lit 0)) [.retNew "could not parse nul-term string"])
        ((E o w h).push "i" (.num (indexByte0 w))) =
        if indexByte0 w < 0 then .ret ((E o w h).push "i" (.num (indexByte0 w))) .nil
          (some "could not parse nul-term string") else .norm ((E o w h).push "i" (.num (indexByte0 w))) := by
      simp only [exec, eval, push_same, Res.ok_bind, asNum, thenE_ok]
      by_cases hlt : indexByte0 w < 0 <;> simp [hlt, execBlock, endBlock, execs_cons, exec]
    rw [e2]
    simp only [decTy]
    by_cases hlt : indexByte0 w < 0
    · simp only [hlt, if_true]; exact ⟨_, rfl⟩
    · simp only [hlt, if_false]
      have hb := indexByte0_bounds w
      go_step
      have e3 : exec M call L (.assign2 (.field recv f) (.var "cur") (.toStr (.sliceTo Gen.cur (.var "i")))
          (.sliceFrom Gen.cur (.add (.var "i") (.lit 1)))) ((E o w h).push "i" (.num (indexByte0 w))) =
          .norm ((E (setF o f (.str (w.take (indexByte0 w).toNat))) (w.drop ((indexByte0 w).toNat + 1)) h).push
            "i" (.num (indexByte0 w))) := by
        have h1 : ¬ (indexByte0 w < 0 ∨ ((w ++ h).length : Int) < indexByte0 w) := by
          simp only [List.length_append]; omega
        have h2 : ¬ (indexByte0 w + 1 < 0 ∨ (w.length : Int) < indexByte0 w + 1) := by omega
        have h3 : wrap64 (indexByte0 w + 1) = indexByte0 w + 1 := wrap64_id (by omega) (by omega)
        have hput := Fi.put v0 w h (.str (w.take (indexByte0 w).toNat))
        simp only [hself] at hput
        simp only [exec, eval, eval_cur hcur', push_same, Res.ok_bind, asBytes, asNum, h1, if_false, h3, h2,
          thenE_ok]
        rw [List.take_append_of_le_length (by omega), hput, thenE_ok]
        obtain ⟨t4, hc4⟩ := Fi.cur (.str (w.take (indexByte0 w).toNat)) w h
        rw [store_cur hc4, thenE_ok, Fi.setCur]
        have : (indexByte0 w + 1).toNat = (indexByte0 w).toNat + 1 := by omega
        rw [this]
      rw [e3]
      go_step
      exact ⟨h, by simp [declsOf, popAll]⟩
  | fixedArray b n =>
    simp only [parseType, parseFixed] at hg
    obtain ⟨k, hk, hg⟩ := Res.bind_eq_ok.1 hg
    obtain ⟨body, hbody, hg⟩ := Res.bind_eq_ok.1 hg
    simp only [Res.ok.injEq] at hg
    subst hg
    obtain ⟨hb, vs, hvs, hival, hlen⟩ := ht
    have hk' := integer_ok hK hk
    rw [hival] at hk'
    cases hk'
    rw [execBlock_eq, execs_cons, forIdx_eq]
    simp only [decTy, hival]
    rw [thenS_assoc, thenS_assoc]
    have hinit : setF o f (seqVal true ([] ++ vs)) = o := by
      simp only [seqVal, List.nil_append]; exact setF_self hvs
    have hl := count_loop (L := L) hK hN hS hsuf Fr hri hre (hcx _ (by simp)) (hcx _ (by simp)) hb hvs hbody
      (a := true) (N := vs.length) hlen (bound := .lit vs.length) (fun _ _ _ _ => by simp [eval]) L [] vs w h
      (by simp) hw
    rw [hinit] at hl
    refine Agree.bind hl ?_
    intro ws r h' _
    go_step
    exact ⟨h', by simp [declsOf, popAll, seqVal]⟩
  | varArray b c =>
    cases c with
    | none =>
      simp only [parseType, parseVar] at hg
      obtain ⟨hd, hx⟩ := parseRem_exec (L := L) hK hN hS hsuf Fr hn ht hf hg
      rw [execBlock_eq]
      refine Agree.map (hx w h hw) ?_
      intro v r h'
      rw [hd]; rfl
    | some c =>
      cases c with
      | leftover k =>
        obtain ⟨hb, hk⟩ := ht
        simp only [parseType, parseVar] at hg
        refine constrained_exec (Eo := fun v w h => E (setF o f v) w h) hK hN Fr hn hk hg
          (fun _ _ _ => Fr.cur _ _ _) (fun _ _ _ _ _ => Fr.setCur _ _ _ _ _) w h hw ?_
        intro bd hbd
        have FrR := fun u => Fr.push (x := "restore") (by decide) (Ne.symm hrr) (by decide) (hcx _ (by simp)) u
        exact ⟨(parseRem_exec (L := L) hK hN hS hsuf Fr hn hb hf hbd).1,
          fun u w' h' hw' => (parseRem_exec (L := L) hK hN hS hsuf (FrR u) hn hb hf hbd).2 w' h' (by omega)⟩
      | idRef r =>
        obtain ⟨hb, ⟨⟨x, hx⟩, hs⟩, hne⟩ := ht
        simp only [parseType, parseVar] at hg
        obtain ⟨body, hbody, hg⟩ := Res.bind_eq_ok.1 hg
        simp only [Res.ok.injEq] at hg
        subst hg
        rw [execBlock_eq, execs_cons]
        simp only [decTy, hx]
        have hev := ref_eval (M := M) (g := g) hN Fr hx hs w h
        by_cases hbad : wrap64 x < 0 ∨ (M.maxAlloc : Int) < wrap64 x
        · rw [if_pos hbad]
          have : exec M call L (.assign (.field recv f) (.make (tipeBase g b) (.toInt (ref g recv r))))
              (E o w h) = .panic "makeslice: len out of range" := by
            simp [exec, eval, hev, asNum, hbad]
          rw [this]
          exact ⟨_, rfl⟩
        · rw [if_neg hbad]
          have hmk : exec M call L (.assign (.field recv f) (.make (tipeBase g b) (.toInt (ref g recv r))))
              (E o w h) = .norm (E (setF o f (seqVal false ([] ++
                List.replicate (wrap64 x).toNat (zero (tipeBase g b))))) w h) := by
            have hput := Fo.put v0 w h (.slice (List.replicate (wrap64 x).toNat (zero (tipeBase g b))))
            rw [hself] at hput
            simp only [exec, eval, hev, Res.ok_bind, asNum, hbad, if_false, thenE_ok, hput, seqVal, List.nil_append]
          rw [hmk, thenS_norm, execs_cons, forIdx_eq]
          have hwx := wrap64_lt x
          have hNx : wrap64 x = ((wrap64 x).toNat : Int) := by omega
          have hl := count_loop (L := L) hK hN hS hsuf Fr hri hre (hcx _ (by simp)) (hcx _ (by simp)) hb hf hbody
            (a := false) (N := (wrap64 x).toNat) (by omega) (bound := .toInt (ref g recv r))
            (fun vs w h k => by
              have FrI := Fr.push (x := "idx") (by decide) (Ne.symm hri) (by decide) (hcx _ (by simp)) k
              have := ref_eval (M := M) (g := g) hN FrI (o := setF o f (seqVal false vs)) (r := r)
                (by rw [refVal_setF hne]; exact hx) hs w h
              simp only [eval, this, Res.ok_bind, asNum]
              rw [← hNx]) L [] (List.replicate (wrap64 x).toNat (zero (tipeBase g b))) w h (by simp) hw
          rw [← hNx] at hl
          rw [thenS_assoc, thenS_assoc]
          refine Agree.bind hl ?_
          intro ws r h' _
          go_step
          exact ⟨h', by simp [declsOf, popAll, seqVal]⟩

end Verif.Refine
