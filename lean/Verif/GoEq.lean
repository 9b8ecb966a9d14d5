import Verif.GoSyntax
/-!
# Comparing programs

Equality of emitted programs as a Boolean, so that it can be computed in examples. Not part of the model.
-/
namespace Verif.Go

mutual
/-- Equality of statements. -/
def eqStmt : Stmt → Stmt → Bool
  | .define x e, .define x' e' => x = x' && e = e'
  | .varDecl x t, .varDecl x' t' => x = x' && t = t'
  | .assign l e, .assign l' e' => l = l' && e = e'
  | .assign2 l m e f, .assign2 l' m' e' f' => l = l' && m = m' && e = e' && f = f'
  | .callParse d e l a s, .callParse d' e' l' a' s' => d = d' && e = e' && l = l' && a = a' && s = s'
  | .callDefine e l a s, .callDefine e' l' a' s' => e = e' && l = l' && a = a' && s = s'
  | .ifS c b, .ifS c' b' => c = c' && eqStmts b b'
  | .block b, .block b' => eqStmts b b'
  | .forIdx x n b, .forIdx x' n' b' => x = x' && n = n' && eqStmts b b'
  | .forC c b, .forC c' b' => c = c' && eqStmts b b'
  | .switch cs, .switch cs' => eqClauses cs cs'
  | .retNew m, .retNew m' => m = m'
  | .retErr x, .retErr x' => x = x'
  | .ret e, .ret e' => e = e'
  | _, _ => false

/-- Equality of blocks. -/
def eqStmts : List Stmt → List Stmt → Bool
  | [], [] => true
  | s :: ss, s' :: ss' => eqStmt s s' && eqStmts ss ss'
  | _, _ => false

/-- Equality of clauses. -/
def eqClauses : List (Option Expr × List Stmt) → List (Option Expr × List Stmt) → Bool
  | [], [] => true
  | (e, b) :: cs, (e', b') :: cs' => e = e' && eqStmts b b' && eqClauses cs cs'
  | _, _ => false
end

mutual
theorem eqStmt_eq : (s t : Stmt) → eqStmt s t = true → s = t
  | .define .., t, h | .varDecl .., t, h | .assign .., t, h | .assign2 .., t, h | .callParse .., t, h | .callDefine .., t, h
  | .retNew .., t, h | .retErr .., t, h | .ret .., t, h => by
    cases t <;> simp_all [eqStmt]
  | .ifS c b, t, h => by
    cases t <;> simp only [eqStmt, Bool.and_eq_true, decide_eq_true_eq, Bool.false_eq_true] at h
    rw [h.1, eqStmts_eq b _ h.2]
  | .block b, t, h => by
    cases t <;> simp only [eqStmt, Bool.false_eq_true] at h
    rw [eqStmts_eq b _ h]
  | .forIdx x n b, t, h => by
    cases t <;> simp only [eqStmt, Bool.and_eq_true, decide_eq_true_eq, Bool.false_eq_true] at h
    rw [h.1.1, h.1.2, eqStmts_eq b _ h.2]
  | .forC c b, t, h => by
    cases t <;> simp only [eqStmt, Bool.and_eq_true, decide_eq_true_eq, Bool.false_eq_true] at h
    rw [h.1, eqStmts_eq b _ h.2]
  | .switch cs, t, h => by
    cases t <;> simp only [eqStmt, Bool.false_eq_true] at h
    rw [eqClauses_eq cs _ h]
theorem eqStmts_eq : (s t : List Stmt) → eqStmts s t = true → s = t
  | [], t, h => by cases t <;> simp_all [eqStmts]
  | s :: ss, t, h => by
    cases t <;> simp only [eqStmts, Bool.and_eq_true, Bool.false_eq_true] at h
    rw [eqStmt_eq s _ h.1, eqStmts_eq ss _ h.2]
theorem eqClauses_eq : (s t : List (Option Expr × List Stmt)) → eqClauses s t = true → s = t
  | [], t, h => by cases t <;> simp_all [eqClauses]
  | (e, b) :: cs, [], h => by simp [eqClauses] at h
  | (e, b) :: cs, (e', b') :: cs', h => by
    simp only [eqClauses, Bool.and_eq_true, decide_eq_true_eq] at h
    rw [h.1.1, eqStmts_eq b _ h.1.2, eqClauses_eq cs _ h.2]
end

/-- Equality of lists. -/
def eqList {α : Type} (eq : α → α → Bool) : List α → List α → Bool
  | [], [] => true
  | a :: l, b :: m => eq a b && eqList eq l m
  | _, _ => false

theorem eqList_eq {α : Type} {eq : α → α → Bool} (h : ∀ a b, eq a b = true → a = b) : ∀ l m, eqList eq l m = true → l = m
  | [], [], _ => rfl
  | [], _ :: _, he | _ :: _, [], he => by simp [eqList] at he
  | a :: l, b :: m, he => by
    simp only [eqList, Bool.and_eq_true] at he
    rw [h a b he.1, eqList_eq h l m he.2]

/-- Equality of programs. -/
def eqProg (p q : Prog) : Bool :=
  p.types = q.types &&
  eqList (fun a b => a.type = b.type && a.recv = b.recv && a.params = b.params && eqStmts a.body b.body) p.methods q.methods &&
  eqList (fun a b => a.type = b.type && a.params = b.params && eqStmts a.body b.body) p.ctors q.ctors

theorem eqProg_eq {p q : Prog} (h : eqProg p q = true) : p = q := by
  obtain ⟨pt, pm, pc⟩ := p
  obtain ⟨qt, qm, qc⟩ := q
  simp only [eqProg, Bool.and_eq_true, decide_eq_true_eq] at h
  obtain ⟨⟨h1, h2⟩, h3⟩ := h
  rw [h1]
  rw [eqList_eq ?_ _ _ h2, eqList_eq ?_ _ _ h3]
  · rintro ⟨a, b, c⟩ ⟨a', b', c'⟩ h
    simp only [Bool.and_eq_true, decide_eq_true_eq] at h
    obtain ⟨⟨rfl, rfl⟩, h⟩ := h
    rw [eqStmts_eq _ _ h]
  · rintro ⟨a, b, c, d⟩ ⟨a', b', c', d'⟩ h
    simp only [Bool.and_eq_true, decide_eq_true_eq] at h
    obtain ⟨⟨⟨rfl, rfl⟩, rfl⟩, h⟩ := h
    rw [eqStmts_eq _ _ h]

end Verif.Go
