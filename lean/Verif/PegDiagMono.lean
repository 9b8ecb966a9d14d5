import Verif.PegDiag
/-!
# More fuel does not change what the parser says
-/
namespace Verif.Peg
open Verif Verif.Ast

/-- `f` agrees with `f'` wherever it finishes. -/
def DLe (f f' : Expr → Env → DSt → DR) : Prop := ∀ e env st, f e env st ≠ .timeout → f' e env st = f e env st

theorem dSeqLoop_mono {f f' : Expr → Env → DSt → DR} (h : DLe f f') (start : DSt) (es : List Expr) :
    ∀ vals env st, dSeqLoop f start es vals env st ≠ .timeout →
      dSeqLoop f' start es vals env st = dSeqLoop f start es vals env st := by
  induction es with
  | nil => intros; rfl
  | cons e es ih =>
    intro vals env st hn
    simp only [dSeqLoop] at hn ⊢
    have he : f e env st ≠ .timeout := by intro hc; rw [hc] at hn; exact hn rfl
    rw [h e env st he]
    cases hf : f e env st with
    | ok v env st => rw [hf] at hn; exact ih _ _ _ hn
    | _ => rfl

theorem dChoiceLoop_mono {f f' : Expr → Env → DSt → DR} (h : DLe f f') (es : List Expr) :
    ∀ env st, dChoiceLoop f es env st ≠ .timeout → dChoiceLoop f' es env st = dChoiceLoop f es env st := by
  induction es with
  | nil => intros; rfl
  | cons e es ih =>
    intro env st hn
    simp only [dChoiceLoop] at hn ⊢
    have he : f e [] st ≠ .timeout := by intro hc; rw [hc] at hn; exact hn rfl
    rw [h e [] st he]
    cases hf : f e [] st with
    | fail st' => rw [hf] at hn; exact ih _ _ hn
    | _ => rfl

theorem dStarLoop_mono {f f' : DSt → DR} (h : ∀ st, f st ≠ .timeout → f' st = f st) (env : Env) :
    ∀ n m vals st, n ≤ m → dStarLoop f env n vals st ≠ .timeout →
      dStarLoop f' env m vals st = dStarLoop f env n vals st := by
  intro n
  induction n with
  | zero => intro m vals st _ hn; exact absurd rfl hn
  | succ n ih =>
    intro m vals st hm hn
    cases m with
    | zero => omega
    | succ m =>
      simp only [dStarLoop] at hn ⊢
      have he : f st ≠ .timeout := by intro hc; rw [hc] at hn; exact hn rfl
      rw [h st he]
      cases hf : f st with
      | ok v env st => rw [hf] at hn; exact ih _ _ _ (by omega) hn
      | _ => rfl

theorem parseD_mono (g : RuleName → Expr) : ∀ n m rule inv, n ≤ m → DLe (parseD g n rule inv) (parseD g m rule inv) := by
  intro n
  induction n with
  | zero => intro m _ _ _ e env st h; exact absurd rfl h
  | succ n ih =>
    intro m rule inv hm e env st hn
    cases m with
    | zero => omega
    | succ m =>
      have ihm := ih m rule inv (by omega)
      have sub : ∀ e env st, parseD g n rule inv e env st ≠ .timeout → parseD g m rule inv e env st = parseD g n rule inv e env st := ihm
      cases e with
      | seq es => exact dSeqLoop_mono ihm st es _ _ _ hn
      | choice es => exact dChoiceLoop_mono ihm es _ _ hn
      | star e => exact dStarLoop_mono (fun st => sub e [] st) env n m _ _ (by omega) hn
      | plus e =>
        simp only [parseD] at hn ⊢
        have he : parseD g n rule inv e [] st ≠ .timeout := by intro hc; rw [hc] at hn; exact hn rfl
        rw [sub e [] st he]
        cases hf : parseD g n rule inv e [] st with
        | ok v env st => rw [hf] at hn; exact dStarLoop_mono (fun st => sub e [] st) _ n m _ _ (by omega) hn
        | _ => rfl
      | action e run =>
        simp only [parseD] at hn ⊢
        have he : parseD g n rule inv e env st ≠ .timeout := by intro hc; rw [hc] at hn; exact hn rfl
        rw [sub e env st he]
      | ref r =>
        simp only [parseD] at hn ⊢
        have he : parseD g n (some r) inv (g r) [] st ≠ .timeout := by intro hc; rw [hc] at hn; exact hn rfl
        rw [ih m (some r) inv (by omega) _ [] st he]
      | label l e =>
        simp only [parseD] at hn ⊢
        have he : parseD g n rule inv e [] st ≠ .timeout := by intro hc; rw [hc] at hn; exact hn rfl
        rw [sub _ [] st he]
      | opt e =>
        simp only [parseD] at hn ⊢
        have he : parseD g n rule inv e [] st ≠ .timeout := by intro hc; rw [hc] at hn; exact hn rfl
        rw [sub _ [] st he]
      | not e =>
        simp only [parseD] at hn ⊢
        have he : parseD g n rule (!inv) e [] st ≠ .timeout := by intro hc; rw [hc] at hn; exact hn rfl
        rw [ih m rule (!inv) (by omega) _ [] st he]
      | lit s => rfl
      | cls a b => rfl
      | any => rfl
      | code run => rfl

theorem report_mono {n m : Nat} (h : n ≤ m) {fn : List Char} {rs : List Rune} {r : Report} (hr : report n fn rs = some r) :
    report m fn rs = some r := by
  have hn : parseD rules n none false (.ref .File) [] (startD rs) ≠ .timeout := by
    intro hc; unfold report at hr; rw [hc] at hr; cases hr
  unfold report at hr ⊢
  rw [parseD_mono rules n m none false h _ _ _ hn]
  exact hr

end Verif.Peg
