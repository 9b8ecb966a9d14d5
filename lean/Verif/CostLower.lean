import Verif.CostBound
/-!
# A run that exhausts its fuel costs at least that much
-/
set_option linter.unusedSimpArgs false
set_option linter.unusedVariables false
namespace Verif.Cost
open Verif Verif.Go Verif.Refine

variable {M : Mach} {call : Call} {L N : Nat} {cc : CallCost}

theorem thenE_timeout {α : Type} {r : Res α} {k : α → Ctl} (h : thenE r k = .timeout) : ∃ a, r = .ok a ∧ k a = .timeout := by
  cases r with
  | ok a => exact ⟨a, rfl, h⟩
  | err m => cases h
  | panic m => cases h

theorem thenS_timeout' {c : Ctl} {k : Env → Ctl} (h : thenS c k = .timeout) : c = .timeout ∨ ∃ e, c = .norm e ∧ k e = .timeout := by
  cases c with
  | norm e => exact Or.inr ⟨e, rfl, h⟩
  | timeout => exact Or.inl rfl
  | ret e v x => cases h
  | panic m => cases h
  | stuck m => cases h

theorem endBlock_timeout {ss : List Stmt} {c : Ctl} (h : endBlock ss c = .timeout) : c = .timeout := by
  rcases thenS_timeout' h with h | ⟨e, _, h⟩
  · exact h
  · cases h

/-- A loop that is cut off has tested its condition `n` times, or its body is cut off. -/
theorem loopCost_ge {cond : Env → Res Val} {body : Env → Ctl} {bc : Env → Nat} (hb : ∀ env, body env = .timeout → N ≤ bc env) :
    ∀ (n : Nat) (env : Env), loop cond body n env = .timeout → n ≤ loopCost cond body bc n env ∨ N ≤ loopCost cond body bc n env := by
  intro n
  induction n with
  | zero => intro env _; exact Or.inl (Nat.zero_le _)
  | succ n ih =>
    intro env h
    simp only [loop] at h
    obtain ⟨v, hv, h⟩ := thenE_timeout h
    cases v with
    | bool b =>
      cases b with
      | false => cases h
      | true =>
        rw [loopCost_true hv]
        rcases thenS_timeout' h with h | ⟨e, he, h⟩
        · right; have := hb env h; omega
        · rw [he, after_norm]
          rcases ih e h with h | h
          · left; omega
          · right; omega
    | _ => cases h

mutual
theorem cost_ge (hc : ∀ T o w as, call T o w as = .timeout → N ≤ cc T o w as) (hN : N ≤ L) :
    ∀ (s : Stmt) (env : Env), exec M call L s env = .timeout → N ≤ cost M call L cc s env
  | .define x e, env, h => by
    simp only [exec] at h
    obtain ⟨_, _, h⟩ := thenE_timeout h; cases h
  | .varDecl .., env, h => by simp [exec] at h
  | .assign .., env, h => by
    simp only [exec] at h
    obtain ⟨_, _, h⟩ := thenE_timeout h
    obtain ⟨_, _, h⟩ := thenE_timeout h; cases h
  | .assign2 .., env, h => by
    simp only [exec] at h
    obtain ⟨_, _, h⟩ := thenE_timeout h
    obtain ⟨_, _, h⟩ := thenE_timeout h
    obtain ⟨_, _, h⟩ := thenE_timeout h
    obtain ⟨_, _, h⟩ := thenE_timeout h; cases h
  | .callParse d x l data args, env, h => by
    simp only [exec] at h
    obtain ⟨o, h1, h⟩ := thenE_timeout h
    obtain ⟨w, h2, h⟩ := thenE_timeout h
    obtain ⟨as, h3, h⟩ := thenE_timeout h
    cases o with
    | obj T fs =>
      simp only at h
      cases hk : call T (.obj T fs) w as with
      | done o' r e =>
        rw [hk] at h
        obtain ⟨_, _, h⟩ := thenE_timeout h
        obtain ⟨_, _, h⟩ := thenE_timeout h
        obtain ⟨_, _, h⟩ := thenE_timeout h; cases h
      | panic m => rw [hk] at h; cases h
      | stuck m => rw [hk] at h; cases h
      | timeout =>
        have := hc _ _ _ _ hk
        simp only [cost, h1, h2, h3]
        omega
    | _ => cases h
  | .callDefine x l data args, env, h => by
    simp only [exec] at h
    obtain ⟨o, h1, h⟩ := thenE_timeout h
    obtain ⟨w, h2, h⟩ := thenE_timeout h
    obtain ⟨as, h3, h⟩ := thenE_timeout h
    cases o with
    | obj T fs =>
      simp only at h
      cases hk : call T (.obj T fs) w as with
      | done o' r e =>
        rw [hk] at h
        obtain ⟨_, _, h⟩ := thenE_timeout h; cases h
      | panic m => rw [hk] at h; cases h
      | stuck m => rw [hk] at h; cases h
      | timeout =>
        have := hc _ _ _ _ hk
        simp only [cost, h1, h2, h3]
        omega
    | _ => cases h
  | .ifS c b, env, h => by
    simp only [exec] at h
    obtain ⟨v, hv, h⟩ := thenE_timeout h
    cases v with
    | bool x =>
      cases x with
      | false => cases h
      | true =>
        have := costs_ge hc hN b env (endBlock_timeout h)
        simp only [cost, hv]
        omega
    | _ => cases h
  | .block b, env, h => by
    simp only [exec] at h
    have := costs_ge hc hN b env (endBlock_timeout h)
    simp only [cost]
    omega
  | .forIdx x n b, env, h => by
    simp only [exec] at h
    rcases thenS_timeout' h with h | ⟨_, _, h⟩
    · have := loopCost_ge (N := N) (bc := fun env => costs M call L cc b env + 1) (fun env h => by
        rcases thenS_timeout' h with h | ⟨e, _, h⟩
        · have := costs_ge hc hN b env (endBlock_timeout h); omega
        · unfold incr at h; split at h <;> cases h) _ _ h
      simp only [cost]
      omega
    · cases h
  | .forC c b, env, h => by
    simp only [exec] at h
    have := loopCost_ge (N := N) (bc := fun env => costs M call L cc b env) (fun env h => costs_ge hc hN b env (endBlock_timeout h)) _ _ h
    simp only [cost]
    omega
  | .switch cs, env, h => by
    simp only [exec] at h
    have := clauses_ge hc hN cs .norm (fun _ => 0) env (fun h => by cases h) h
    simp only [cost]
    omega
  | .retNew .., env, h => by simp [exec] at h
  | .retErr x, env, h => by
    simp only [exec] at h
    obtain ⟨v, _, h⟩ := thenE_timeout h
    cases v <;> cases h
  | .ret e, env, h => by
    simp only [exec] at h
    obtain ⟨v, _, h⟩ := thenE_timeout h
    cases h
theorem costs_ge (hc : ∀ T o w as, call T o w as = .timeout → N ≤ cc T o w as) (hN : N ≤ L) :
    ∀ (ss : List Stmt) (env : Env), execs M call L ss env = .timeout → N ≤ costs M call L cc ss env
  | [], env, h => by simp [execs] at h
  | s :: ss, env, h => by
    rw [execs_cons] at h
    rw [costs_cons]
    rcases thenS_timeout' h with h | ⟨e, he, h⟩
    · have := cost_ge hc hN s env h; omega
    · rw [he, after_norm]
      have := costs_ge hc hN ss e h
      omega
theorem clauses_ge (hc : ∀ T o w as, call T o w as = .timeout → N ≤ cc T o w as) (hN : N ≤ L) :
    ∀ (cs : List (Option Expr × List Stmt)) (dflt : Env → Ctl) (dc : Env → Nat) (env : Env), (dflt env = .timeout → N ≤ dc env) →
    execClauses M call L cs dflt env = .timeout → N ≤ costClauses M call L cc cs dc env
  | [], dflt, dc, env, hd, h => by
    simp only [execClauses] at h
    simp only [costClauses]
    exact hd h
  | (none, b) :: cs, dflt, dc, env, hd, h => by
    simp only [execClauses] at h
    simp only [costClauses]
    exact clauses_ge hc hN cs _ _ env (fun h => costs_ge hc hN b env (endBlock_timeout h)) h
  | (some c, b) :: cs, dflt, dc, env, hd, h => by
    simp only [execClauses] at h
    simp only [costClauses]
    obtain ⟨v, hv, h⟩ := thenE_timeout h
    rw [hv]
    cases v with
    | bool x =>
      cases x with
      | true =>
        have := costs_ge hc hN b env (endBlock_timeout h)
        simp only
        omega
      | false =>
        have := clauses_ge hc hN cs dflt dc env hd h
        simp only
        omega
    | _ => cases h
end

/-- Whatever the program: a call cut off by its fuel has cost at least the fuel. -/
theorem runCost_ge : ∀ (fuel : Nat) (T : String) (o w : Val) (as : List Val), runParse M fuel T o w as = .timeout →
    fuel ≤ runCost M fuel T o w as := by
  intro fuel
  induction fuel with
  | zero => intro T o w as _; exact Nat.zero_le _
  | succ fuel ih =>
    intro T o w as h
    simp only [runParse] at h
    simp only [runCost]
    cases hm : M.prog.methods.find? (·.type = T) with
    | none =>
      rw [hm] at h
      simp only at h
      split at h
      · split at h <;> cases h
      · cases h
    | some m =>
      rw [hm] at h
      simp only at h ⊢
      cases hb : bindParams ((Env.empty.push m.recv o).push "data" w) (m.params.map (·.1)) as with
      | none => rw [hb] at h; cases h
      | some env =>
        rw [hb] at h
        simp only at h ⊢
        have := costs_ge (N := fuel) (cc := runCost M fuel) (fun T o w as h => ih T o w as h) (Nat.le_refl fuel) m.body env
          (by split at h <;> first | cases h; done | assumption)
        omega

end Verif.Cost
