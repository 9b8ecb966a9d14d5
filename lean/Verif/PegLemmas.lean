import Verif.Peg
import Mathlib.Tactic.ByContra
/-!
# The interpreter without a bound on nested calls

`ev` is the limit of `parseExpr`; it satisfies the equations of the interpreter without fuel.
-/
namespace Verif.Peg
open Verif Verif.Ast

/-! ## More fuel -/

/-- `f` agrees with `f'` wherever it finishes. -/
def Le (f f' : Expr → Env → St → R) : Prop := ∀ e env st, f e env st ≠ .timeout → f' e env st = f e env st

theorem seqLoop_mono {f f' : Expr → Env → St → R} (h : Le f f') (start : St) (es : List Expr) :
    ∀ vals env st, seqLoop f start es vals env st ≠ .timeout →
      seqLoop f' start es vals env st = seqLoop f start es vals env st := by
  induction es with
  | nil => intros; rfl
  | cons e es ih =>
    intro vals env st hn
    simp only [seqLoop] at hn ⊢
    have he : f e env st ≠ .timeout := by intro hc; rw [hc] at hn; exact hn rfl
    rw [h e env st he]
    cases hf : f e env st with
    | ok v env st => rw [hf] at hn; exact ih _ _ _ hn
    | _ => rfl

theorem choiceLoop_mono {f f' : Expr → Env → St → R} (h : Le f f') (es : List Expr) :
    ∀ env st, choiceLoop f es env st ≠ .timeout → choiceLoop f' es env st = choiceLoop f es env st := by
  induction es with
  | nil => intros; rfl
  | cons e es ih =>
    intro env st hn
    simp only [choiceLoop] at hn ⊢
    have he : f e [] st ≠ .timeout := by intro hc; rw [hc] at hn; exact hn rfl
    rw [h e [] st he]
    cases hf : f e [] st with
    | fail st' => rw [hf] at hn; exact ih _ _ hn
    | _ => rfl

theorem starLoop_mono {f f' : St → R} (h : ∀ st, f st ≠ .timeout → f' st = f st) (env : Env) :
    ∀ n m vals st, n ≤ m → starLoop f env n vals st ≠ .timeout →
      starLoop f' env m vals st = starLoop f env n vals st := by
  intro n
  induction n with
  | zero => intro m vals st _ hn; exact absurd rfl hn
  | succ n ih =>
    intro m vals st hm hn
    cases m with
    | zero => omega
    | succ m =>
      simp only [starLoop] at hn ⊢
      have he : f st ≠ .timeout := by intro hc; rw [hc] at hn; exact hn rfl
      rw [h st he]
      cases hf : f st with
      | ok v env st => rw [hf] at hn; exact ih _ _ _ (by omega) hn
      | _ => rfl

theorem parseExpr_mono (g : RuleName → Expr) : ∀ n m, n ≤ m → Le (parseExpr g n) (parseExpr g m) := by
  intro n
  induction n with
  | zero => intro m _ e env st h; exact absurd rfl h
  | succ n ih =>
    intro m hm e env st hn
    cases m with
    | zero => omega
    | succ m =>
      have ihm := ih m (by omega)
      have sub : ∀ e env st, parseExpr g n e env st ≠ .timeout → parseExpr g m e env st = parseExpr g n e env st := ihm
      cases e with
      | seq es => exact seqLoop_mono ihm st es _ _ _ hn
      | choice es => exact choiceLoop_mono ihm es _ _ hn
      | star e => exact starLoop_mono (fun st => sub e [] st) env n m _ _ (by omega) hn
      | plus e =>
        simp only [parseExpr] at hn ⊢
        have he : parseExpr g n e [] st ≠ .timeout := by intro hc; rw [hc] at hn; exact hn rfl
        rw [sub e [] st he]
        cases hf : parseExpr g n e [] st with
        | ok v env st => rw [hf] at hn; exact starLoop_mono (fun st => sub e [] st) _ n m _ _ (by omega) hn
        | _ => rfl
      | action e run =>
        simp only [parseExpr] at hn ⊢
        have he : parseExpr g n e env st ≠ .timeout := by intro hc; rw [hc] at hn; exact hn rfl
        rw [sub e env st he]
      | ref r =>
        simp only [parseExpr] at hn ⊢
        have he : parseExpr g n (g r) [] st ≠ .timeout := by intro hc; rw [hc] at hn; exact hn rfl
        rw [sub _ [] st he]
      | label l e =>
        simp only [parseExpr] at hn ⊢
        have he : parseExpr g n e [] st ≠ .timeout := by intro hc; rw [hc] at hn; exact hn rfl
        rw [sub _ [] st he]
      | opt e =>
        simp only [parseExpr] at hn ⊢
        have he : parseExpr g n e [] st ≠ .timeout := by intro hc; rw [hc] at hn; exact hn rfl
        rw [sub _ [] st he]
      | not e =>
        simp only [parseExpr] at hn ⊢
        have he : parseExpr g n e [] st ≠ .timeout := by intro hc; rw [hc] at hn; exact hn rfl
        rw [sub _ [] st he]
      | lit s => rfl
      | cls a b => rfl
      | any => rfl
      | code run => rfl

/-! ## The limit -/

/-- The eventual value of a sequence of results, `timeout` if there is none. -/
noncomputable def lim (f : Nat → R) : R :=
  open Classical in if h : ∃ n, f n ≠ .timeout then f (Classical.choose h) else .timeout

/-- A sequence of results that does not change once finished. -/
def Stable (f : Nat → R) : Prop := ∀ n m, n ≤ m → f n ≠ .timeout → f m = f n

theorem lim_eventually {f : Nat → R} (hf : Stable f) : ∃ N, ∀ n, N ≤ n → f n = lim f := by
  unfold lim
  by_cases h : ∃ n, f n ≠ .timeout
  · refine ⟨Classical.choose h, fun n hn => ?_⟩
    rw [dif_pos h]
    exact hf _ _ hn (Classical.choose_spec h)
  · refine ⟨0, fun n _ => ?_⟩
    rw [dif_neg h]
    by_contra hc
    exact h ⟨n, hc⟩

theorem lim_unique {f : Nat → R} (hf : Stable f) {r : R} {N : Nat} (h : ∀ n, N ≤ n → f n = r) : lim f = r := by
  obtain ⟨M, hM⟩ := lim_eventually hf
  rw [← hM (max N M) (by omega), h (max N M) (by omega)]

/-- The interpreter of gen-parser.go:3822-3885 without a bound on nested calls; `timeout` if it does not
finish. -/
noncomputable def ev (g : RuleName → Expr) (e : Expr) (env : Env) (st : St) : R :=
  lim (fun n => parseExpr g n e env st)

variable {g : RuleName → Expr}

theorem parseExpr_stable (e : Expr) (env : Env) (st : St) : Stable (fun n => parseExpr g n e env st) :=
  fun n m hnm h => parseExpr_mono g n m hnm e env st h

theorem ev_eventually (g : RuleName → Expr) (e : Expr) (env : Env) (st : St) :
    ∃ N, ∀ n, N ≤ n → parseExpr g n e env st = ev g e env st := lim_eventually (parseExpr_stable e env st)

theorem ev_eq {e : Expr} {env : Env} {st : St} {r : R} {N : Nat}
    (h : ∀ n, N ≤ n → parseExpr g (n + 1) e env st = r) : ev g e env st = r :=
  lim_unique (parseExpr_stable e env st) (N := N + 1) (fun n hn => by
    obtain ⟨m, rfl⟩ : ∃ m, n = m + 1 := ⟨n - 1, by omega⟩
    exact h m (by omega))

/-- Repetition without a bound. -/
noncomputable def evStar (g : RuleName → Expr) (e : Expr) (env : Env) (vals : List Val) (st : St) : R :=
  lim (fun n => starLoop (parseExpr g n e []) env n vals st)

theorem starLoop_stable (e : Expr) (env : Env) (vals : List Val) (st : St) :
    Stable (fun n => starLoop (parseExpr g n e []) env n vals st) :=
  fun n m hnm h => starLoop_mono (fun st hs => parseExpr_mono g n m hnm e [] st hs) env n m vals st hnm h

theorem seq_eventually (start : St) (es : List Expr) : ∀ vals env st, ∃ N, ∀ n, N ≤ n →
    seqLoop (parseExpr g n) start es vals env st = seqLoop (ev g) start es vals env st := by
  induction es with
  | nil => intros; exact ⟨0, fun _ _ => rfl⟩
  | cons e es ih =>
    intro vals env st
    obtain ⟨N, hN⟩ := ev_eventually g e env st
    cases he : ev g e env st with
    | ok v env' st' =>
      obtain ⟨M, hM⟩ := ih (vals ++ [v]) env' st'
      refine ⟨max N M, fun n hn => ?_⟩
      simp only [seqLoop, hN n (by omega), he]
      exact hM n (by omega)
    | _ => exact ⟨N, fun n hn => by simp only [seqLoop, hN n (by omega), he]⟩

theorem choice_eventually (es : List Expr) : ∀ env st, ∃ N, ∀ n, N ≤ n →
    choiceLoop (parseExpr g n) es env st = choiceLoop (ev g) es env st := by
  induction es with
  | nil => intros; exact ⟨0, fun _ _ => rfl⟩
  | cons e es ih =>
    intro env st
    obtain ⟨N, hN⟩ := ev_eventually g e [] st
    cases he : ev g e [] st with
    | fail st' =>
      obtain ⟨M, hM⟩ := ih env { st' with ling := st.ling }
      refine ⟨max N M, fun n hn => ?_⟩
      simp only [choiceLoop, hN n (by omega), he]
      exact hM n (by omega)
    | _ => exact ⟨N, fun n hn => by simp only [choiceLoop, hN n (by omega), he]⟩

theorem ev_seq (es : List Expr) (env : Env) (st : St) :
    ev g (.seq es) env st = seqLoop (ev g) st es [] env st := by
  obtain ⟨N, hN⟩ := seq_eventually (g := g) st es [] env st
  exact ev_eq (N := N) (fun n hn => hN n hn)

theorem ev_choice (es : List Expr) (env : Env) (st : St) :
    ev g (.choice es) env st = choiceLoop (ev g) es env st := by
  obtain ⟨N, hN⟩ := choice_eventually (g := g) es env st
  exact ev_eq (N := N) (fun n hn => hN n hn)

/-- What an action makes of the result of its expression. -/
def actRes (run : Act) (st : St) : R → R
  | .ok _ env st' =>
    match run env (St.slice st st') st'.ling with
    | some (v, err) => .ok v env { st' with errs := st'.errs || err }
    | none => .panic
  | r => r

theorem ev_action (e : Expr) (run : Act) (env : Env) (st : St) :
    ev g (.action e run) env st = actRes run st (ev g e env st) := by
  obtain ⟨N, hN⟩ := ev_eventually g e env st
  refine ev_eq (N := N) (fun n hn => ?_)
  simp only [parseExpr, hN n hn]
  cases ev g e env st <;> rfl

/-- Leaving the scope of labels of a sub-expression. -/
def R.scope (env : Env) : R → R
  | .ok v _ st => .ok v env st
  | r => r

theorem ev_ref (r : RuleName) (env : Env) (st : St) :
    ev g (.ref r) env st = (ev g (g r) [] st).scope env := by
  obtain ⟨N, hN⟩ := ev_eventually g (g r) [] st
  refine ev_eq (N := N) (fun n hn => ?_)
  simp only [parseExpr, hN n hn]
  cases ev g (g r) [] st <;> rfl

/-- Recording a labelled value. -/
def R.labelled (l : String) (env : Env) : R → R
  | .ok v _ st => .ok v ((l, v) :: env) st
  | r => r

theorem ev_label (l : String) (e : Expr) (env : Env) (st : St) :
    ev g (.label l e) env st = (ev g e [] st).labelled l env := by
  obtain ⟨N, hN⟩ := ev_eventually g e [] st
  refine ev_eq (N := N) (fun n hn => ?_)
  simp only [parseExpr, hN n hn]
  cases ev g e [] st <;> rfl

/-- An optional expression. -/
def R.option (env : Env) : R → R
  | .ok v _ st => .ok v env st
  | .fail st => .ok .nil env st
  | r => r

theorem ev_opt (e : Expr) (env : Env) (st : St) : ev g (.opt e) env st = (ev g e [] st).option env := by
  obtain ⟨N, hN⟩ := ev_eventually g e [] st
  refine ev_eq (N := N) (fun n hn => ?_)
  simp only [parseExpr, hN n hn]
  cases ev g e [] st <;> rfl

/-- A negated expression. -/
def R.negate (env : Env) (st : St) : R → R
  | .ok _ _ st' => .fail (st'.back st)
  | .fail st' => .ok .nil env (st'.back st)
  | r => r

theorem ev_not (e : Expr) (env : Env) (st : St) : ev g (.not e) env st = (ev g e [] st).negate env st := by
  obtain ⟨N, hN⟩ := ev_eventually g e [] st
  refine ev_eq (N := N) (fun n hn => ?_)
  simp only [parseExpr, hN n hn]
  cases ev g e [] st <;> rfl

theorem evStar_eq (e : Expr) (env : Env) (vals : List Val) (st : St) :
    evStar g e env vals st =
      match ev g e [] st with
      | .ok v _ st => evStar g e env (vals ++ [v]) st
      | .fail st => .ok (.list vals) env st
      | .panic => .panic
      | .timeout => .timeout := by
  obtain ⟨N, hN⟩ := ev_eventually g e [] st
  cases he : ev g e [] st with
  | ok v env' st' =>
    obtain ⟨M, hM⟩ := lim_eventually (starLoop_stable (g := g) e env (vals ++ [v]) st')
    refine lim_unique (starLoop_stable e env vals st) (N := max N M + 1) (fun n hn => ?_)
    obtain ⟨m, rfl⟩ : ∃ m, n = m + 1 := ⟨n - 1, by omega⟩
    simp only [starLoop, hN (m + 1) (by omega), he]
    by_cases hc : starLoop (parseExpr g m e []) env m (vals ++ [v]) st' = .timeout
    · -- the limit is a timeout as well
      have hl : evStar g e env (vals ++ [v]) st' = .timeout := (hM m (by omega)).symm.trans hc
      have h2 := hM (m + 1) (by omega)
      rw [show lim (fun n => starLoop (parseExpr g n e []) env n (vals ++ [v]) st') =
        evStar g e env (vals ++ [v]) st' from rfl, hl] at h2
      rw [hl]
      by_contra hne
      have := starLoop_mono (f := parseExpr g (m + 1) e []) (fun _ _ => rfl) env m (m + 1) (vals ++ [v]) st'
        (by omega) hne
      rw [← this] at hne
      exact hne h2
    · show _ = evStar g e env (vals ++ [v]) st'
      rw [show evStar g e env (vals ++ [v]) st' = _ from (hM m (by omega)).symm]
      exact starLoop_mono (fun st h => parseExpr_mono g m (m + 1) (by omega) e [] st h) env m m _ _ (Nat.le_refl _) hc
  | _ =>
    refine lim_unique (starLoop_stable e env vals st) (N := N + 1) (fun n hn => ?_)
    obtain ⟨m, rfl⟩ : ∃ m, n = m + 1 := ⟨n - 1, by omega⟩
    simp only [starLoop, hN (m + 1) (by omega), he]

theorem ev_star (e : Expr) (env : Env) (st : St) : ev g (.star e) env st = evStar g e env [] st := by
  obtain ⟨N, hN⟩ := lim_eventually (starLoop_stable (g := g) e env [] st)
  exact ev_eq (N := N) (fun n hn => hN n hn)

theorem ev_plus (e : Expr) (env : Env) (st : St) :
    ev g (.plus e) env st =
      match ev g e [] st with
      | .ok v _ st => evStar g e env [v] st
      | r => r := by
  obtain ⟨N, hN⟩ := ev_eventually g e [] st
  cases he : ev g e [] st with
  | ok v env' st' =>
    obtain ⟨M, hM⟩ := lim_eventually (starLoop_stable (g := g) e env [v] st')
    refine ev_eq (N := max N M) (fun n hn => ?_)
    simp only [parseExpr, hN n (by omega), he]
    exact hM n (by omega)
  | _ =>
    refine ev_eq (N := N) (fun n hn => ?_)
    simp only [parseExpr, hN n (by omega), he]

theorem ev_lit (s : String) (env : Env) (st : St) :
    ev g (.lit s) env st =
      match litLoop s.toList st with
      | (true, st') => .ok (.bytes (St.slice st st')) env st'
      | (false, st') => .fail (st'.back st) := ev_eq (N := 0) (fun _ _ => rfl)

theorem ev_cls (a : List Char) (b : List (Char × Char)) (env : Env) (st : St) :
    ev g (.cls a b) env st =
      match st.rest with
      | [] => .fail st
      | r :: _ => if inClass a b r.char then .ok (.bytes [r]) env st.read else .fail st :=
  ev_eq (N := 0) (fun _ _ => rfl)

theorem ev_any (env : Env) (st : St) :
    ev g .any env st =
      match st.rest with
      | [] => .fail st
      | r :: _ => .ok (.bytes [r]) env st.read :=
  ev_eq (N := 0) (fun _ _ => rfl)

theorem ev_code (run : Code) (env : Env) (st : St) :
    ev g (.code run) env st = .ok .nil env { st with ling := run env st.ling } :=
  ev_eq (N := 0) (fun _ _ => rfl)

end Verif.Peg
