import Verif.GoSem
/-!
# More fuel does not change the outcome of a run

Facts about the interpreter of `Verif/GoSem`, for any program.
-/
namespace Verif.Go
open Verif

/-- `c'` is what `c` becomes with more fuel. -/
def CLe (c c' : Ctl) : Prop := c = .timeout ∨ c = c'

/-- `c'` is what `c` becomes with more fuel. -/
def OLe (c c' : CallOut) : Prop := c = .timeout ∨ c = c'

theorem CLe.refl (c : Ctl) : CLe c c := Or.inr rfl

theorem thenE_mono {α : Type} {r : Res α} {k k' : α → Ctl} (h : ∀ a, CLe (k a) (k' a)) :
    CLe (thenE r k) (thenE r k') := by
  cases r with
  | ok a => exact h a
  | err m => exact CLe.refl _
  | panic m => exact CLe.refl _

theorem thenS_mono {c c' : Ctl} {k k' : Env → Ctl} (hc : CLe c c') (h : ∀ a, CLe (k a) (k' a)) :
    CLe (thenS c k) (thenS c' k') := by
  rcases hc with rfl | rfl
  · exact Or.inl rfl
  · cases c with
    | norm env => exact h env
    | _ => exact CLe.refl _

theorem endBlock_mono {ss : List Stmt} {c c' : Ctl} (hc : CLe c c') : CLe (endBlock ss c) (endBlock ss c') :=
  thenS_mono hc (fun _ => CLe.refl _)

theorem loop_mono {cond : Env → Res Val} {body body' : Env → Ctl} (h : ∀ env, CLe (body env) (body' env)) :
    ∀ {n n' : Nat}, n ≤ n' → ∀ env, CLe (loop cond body n env) (loop cond body' n' env) := by
  intro n
  induction n with
  | zero => intro n' _ env; exact Or.inl rfl
  | succ n ih =>
    intro n' hn env
    obtain ⟨n', rfl⟩ : ∃ j, n' = j + 1 := ⟨n' - 1, by omega⟩
    refine thenE_mono (fun v => ?_)
    split
    · exact thenS_mono (h _) (ih (by omega))
    · exact CLe.refl _
    · exact CLe.refl _

variable {M : Mach} {call call' : Call} {L L' : Nat}

mutual
theorem exec_mono (hc : ∀ T o w as, OLe (call T o w as) (call' T o w as)) (hL : L ≤ L') :
    ∀ (s : Stmt) env, CLe (exec M call L s env) (exec M call' L' s env)
  | .define x e, env => by simp only [exec]; exact CLe.refl _
  | .varDecl x t, env => by simp only [exec]; exact CLe.refl _
  | .assign l e, env => by simp only [exec]; exact CLe.refl _
  | .assign2 l m e f, env => by simp only [exec]; exact CLe.refl _
  | .callParse d x l data args, env => by
    simp only [exec]
    refine thenE_mono fun o => thenE_mono fun w => thenE_mono fun as => ?_
    cases o with
    | obj T fs =>
      simp only
      rcases hc T (.obj T fs) w as with h | h
      · rw [h]; exact Or.inl rfl
      · rw [h]; exact CLe.refl _
    | _ => exact CLe.refl _
  | .callDefine x l data args, env => by
    simp only [exec]
    refine thenE_mono fun o => thenE_mono fun w => thenE_mono fun as => ?_
    cases o with
    | obj T fs =>
      simp only
      rcases hc T (.obj T fs) w as with h | h
      · rw [h]; exact Or.inl rfl
      · rw [h]; exact CLe.refl _
    | _ => exact CLe.refl _
  | .ifS c body, env => by
    simp only [exec]
    refine thenE_mono fun v => ?_
    split
    · exact endBlock_mono (execs_mono hc hL body env)
    · exact CLe.refl _
    · exact CLe.refl _
  | .block body, env => by simp only [exec]; exact endBlock_mono (execs_mono hc hL body env)
  | .forIdx x n body, env => by
    simp only [exec]
    refine thenS_mono (loop_mono (fun env => ?_) hL _) (fun _ => CLe.refl _)
    exact thenS_mono (endBlock_mono (execs_mono hc hL body env)) (fun _ => CLe.refl _)
  | .forC c body, env => by
    simp only [exec]
    exact loop_mono (fun env => endBlock_mono (execs_mono hc hL body env)) hL _
  | .switch cs, env => by
    simp only [exec]; exact execClauses_mono hc hL cs (fun _ => CLe.refl _) env
  | .retNew m, env => by simp only [exec]; exact CLe.refl _
  | .retErr x, env => by simp only [exec]; exact CLe.refl _
  | .ret e, env => by simp only [exec]; exact CLe.refl _

theorem execs_mono (hc : ∀ T o w as, OLe (call T o w as) (call' T o w as)) (hL : L ≤ L') :
    ∀ (ss : List Stmt) env, CLe (execs M call L ss env) (execs M call' L' ss env)
  | [], env => CLe.refl _
  | s :: ss, env => by
    simp only [execs]
    exact thenS_mono (exec_mono hc hL s env) (execs_mono hc hL ss)

theorem execClauses_mono (hc : ∀ T o w as, OLe (call T o w as) (call' T o w as)) (hL : L ≤ L') :
    ∀ (cs : List (Option Expr × List Stmt)) {d d' : Env → Ctl}, (∀ env, CLe (d env) (d' env)) → ∀ env,
    CLe (execClauses M call L cs d env) (execClauses M call' L' cs d' env)
  | [], d, d', hd, env => by simp only [execClauses]; exact hd env
  | (none, body) :: cs, d, d', hd, env => by
    simp only [execClauses]
    exact execClauses_mono hc hL cs (fun env => endBlock_mono (execs_mono hc hL body env)) env
  | (some c, body) :: cs, d, d', hd, env => by
    simp only [execClauses]
    refine thenE_mono fun v => ?_
    split
    · exact endBlock_mono (execs_mono hc hL body env)
    · exact execClauses_mono hc hL cs hd env
    · exact CLe.refl _
end

/-- More fuel does not change the outcome of a call. -/
theorem runParse_mono : ∀ {k k' : Nat}, k ≤ k' → ∀ T o w as, OLe (runParse M k T o w as) (runParse M k' T o w as) := by
  intro k
  induction k with
  | zero => intro k' _ T o w as; exact Or.inl rfl
  | succ k ih =>
    intro k' hk T o w as
    obtain ⟨k', rfl⟩ : ∃ j, k' = j + 1 := ⟨k' - 1, by omega⟩
    simp only [runParse]
    split
    · split
      · exact Or.inr rfl
      · rename_i m _ _ env _
        rcases execs_mono (M := M) (ih (k' := k') (by omega)) (show k ≤ k' by omega) m.body env with h | h
        · rw [h]; exact Or.inl rfl
        · rw [h]; exact Or.inr rfl
    · exact Or.inr rfl

theorem runCtor_mono {k k' : Nat} (hk : k ≤ k') (T : String) (w : Val) (as : List Val) :
    OLe (runCtor M k T w as) (runCtor M k' T w as) := by
  simp only [runCtor]
  split
  · exact Or.inr rfl
  · split
    · exact Or.inr rfl
    · rename_i c _ _ env _
      rcases execs_mono (M := M) (runParse_mono hk) hk c.body env with h | h
      · rw [h]; exact Or.inl rfl
      · rw [h]; exact Or.inr rfl

end Verif.Go
