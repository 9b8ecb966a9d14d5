import Verif.GoSem
import Verif.GoType
/-!
# Meaning and typing of programs depend on lookups only

For C80: a program with its declarations in another order means the same, and compiles alike.
-/
namespace Verif.Go
open Verif

theorem find_perm {α : Type} (key : α → String) {l l' : List α} (h : l.Perm l') (hn : (l.map key).Nodup) (n : String) :
    l.find? (fun a => key a = n) = l'.find? (fun a => key a = n) := by
  induction h with
  | nil => rfl
  | cons a _ ih =>
    simp only [List.map_cons, List.nodup_cons] at hn
    simp only [List.find?_cons, ih hn.2]
  | swap a b l =>
    simp only [List.map_cons, List.nodup_cons, List.mem_cons, not_or] at hn
    simp only [List.find?_cons]
    by_cases ha : key a = n <;> by_cases hb : key b = n <;> simp [ha, hb]
    exact absurd (hb.trans ha.symm) hn.1.1
  | trans h1 _ ih ih' =>
    rw [ih hn, ih' ((h1.map key).nodup_iff.1 hn)]

theorem lookup_perm {α : Type} {l l' : List (String × α)} (h : l.Perm l') (hn : (l.map (·.1)).Nodup) (n : String) :
    l.lookup n = l'.lookup n := by
  induction h with
  | nil => rfl
  | cons a _ ih =>
    simp only [List.map_cons, List.nodup_cons] at hn
    obtain ⟨x, y⟩ := a
    simp only [List.lookup, ih hn.2]
  | swap a b l =>
    simp only [List.map_cons, List.nodup_cons, List.mem_cons, not_or] at hn
    obtain ⟨x, y⟩ := a
    obtain ⟨z, w⟩ := b
    have hn := hn.1.1
    simp only [List.lookup]
    by_cases ha : n = x <;> by_cases hb : n = z
    · exact absurd (hb.symm.trans ha) hn
    · have h2 : (n == z) = false := by simpa using hb
      simp [ha]
      rw [ha] at h2
      simp [h2]
    · have h2 : (n == x) = false := by simpa using ha
      simp [hb]
      rw [hb] at h2
      simp [h2]
    · have h1 : (n == z) = false := by simpa using hb
      have h2 : (n == x) = false := by simpa using ha
      simp [h1, h2]
  | trans h1 _ ih ih' =>
    rw [ih hn, ih' ((h1.map (·.1)).nodup_iff.1 hn)]

/-! ## Meaning -/

section run
variable {p p' : Prog} {ext : Ext} {A : Nat}

theorem eval_order (hz : ∀ T, zeroFields p T = zeroFields p' T) (env : Env) :
    ∀ e : Expr, eval ⟨p, ext, A⟩ env e = eval ⟨p', ext, A⟩ env e
  | .bad | .var _ | .lit _ | .emptyBytes => rfl
  | .new T => by simp only [eval, hz]
  | .field e _ | .len e | .not e | .toInt e | .toStr e | .indexByte0 e | .beUint _ e | .make _ e | .notNil e => by
    simp only [eval, eval_order hz env e]
  | .index a b | .add a b | .sub a b | .lt a b | .le a b | .gt a b | .eq a b | .and a b | .or a b | .sliceFrom a b
  | .sliceTo a b | .append a b => by
    simp only [eval, eval_order hz env a, eval_order hz env b]

variable {call : Call} {L : Nat}

mutual
theorem exec_order (hz : ∀ T, zeroFields p T = zeroFields p' T) :
    ∀ (s : Stmt) (env : Env), exec ⟨p, ext, A⟩ call L s env = exec ⟨p', ext, A⟩ call L s env
  | .define x e, env => by simp only [exec, eval_order hz]
  | .varDecl x t, env => by simp only [exec]
  | .assign l e, env => by simp only [exec, eval_order hz]
  | .assign2 l m e f, env => by simp only [exec, eval_order hz]
  | .callParse d x l data args, env => by simp only [exec, eval_order hz]
  | .callDefine x l data args, env => by simp only [exec, eval_order hz]
  | .ifS c body, env => by simp only [exec, eval_order hz, execs_order hz body]
  | .block body, env => by simp only [exec, execs_order hz body]
  | .forIdx x n body, env => by simp only [exec, eval_order hz, execs_order hz body]
  | .forC c body, env => by simp only [exec, eval_order hz, execs_order hz body]
  | .switch cs, env => by simp only [exec, execClauses_order hz cs]
  | .retNew m, env => by simp only [exec]
  | .retErr x, env => by simp only [exec, eval_order hz]
  | .ret e, env => by simp only [exec, eval_order hz]

theorem execs_order (hz : ∀ T, zeroFields p T = zeroFields p' T) :
    ∀ (ss : List Stmt) (env : Env), execs ⟨p, ext, A⟩ call L ss env = execs ⟨p', ext, A⟩ call L ss env
  | [], env => by simp only [execs]
  | s :: ss, env => by
    have e : execs ⟨p, ext, A⟩ call L ss = execs ⟨p', ext, A⟩ call L ss := funext (execs_order hz ss)
    simp only [execs, exec_order hz s, e]

theorem execClauses_order (hz : ∀ T, zeroFields p T = zeroFields p' T) :
    ∀ (cs : List (Option Expr × List Stmt)) (d : Env → Ctl) (env : Env),
    execClauses ⟨p, ext, A⟩ call L cs d env = execClauses ⟨p', ext, A⟩ call L cs d env
  | [], d, env => by simp only [execClauses]
  | (none, body) :: cs, d, env => by
    simp only [execClauses, execs_order hz body, execClauses_order hz cs]
  | (some c, body) :: cs, d, env => by
    simp only [execClauses, eval_order hz, execs_order hz body, execClauses_order hz cs]
end

theorem runParse_order (hz : ∀ T, zeroFields p T = zeroFields p' T)
    (hm : ∀ T, p.methods.find? (fun m => m.type = T) = p'.methods.find? (fun m => m.type = T)) (fuel : Nat) :
    runParse ⟨p, ext, A⟩ fuel = runParse ⟨p', ext, A⟩ fuel := by
  induction fuel with
  | zero => rfl
  | succ n ih =>
    funext T recv data args
    simp only [runParse, hm, ih, execs_order hz]

theorem runCtor_order (hz : ∀ T, zeroFields p T = zeroFields p' T)
    (hm : ∀ T, p.methods.find? (fun m => m.type = T) = p'.methods.find? (fun m => m.type = T))
    (hc : ∀ T, p.ctors.find? (fun m => m.type = T) = p'.ctors.find? (fun m => m.type = T)) (fuel : Nat) :
    runCtor ⟨p, ext, A⟩ fuel = runCtor ⟨p', ext, A⟩ fuel := by
  funext T data args
  simp only [runCtor, hc, runParse_order hz hm, execs_order hz]

end run

/-! ## Typing -/

section typing
variable {P P' : Sig} (ht : ∀ T, P.types.lookup T = P'.types.lookup T) (hp : ∀ T, P.parse.lookup T = P'.parse.lookup T)

theorem validTy_order (ht : ∀ T, P.types.lookup T = P'.types.lookup T) (E : TEnv) : ∀ t : GTy, validTy P E t = validTy P' E t := by
  intro t
  fun_induction validTy P E t <;> simp_all [validTy]

theorem fieldTy_order (ht : ∀ T, P.types.lookup T = P'.types.lookup T) (T f : String) : fieldTy P T f = fieldTy P' T f := by
  simp only [fieldTy, ht]

theorem typeOf_order (ht : ∀ T, P.types.lookup T = P'.types.lookup T) (E : TEnv) : ∀ e : Expr, typeOf P E e = typeOf P' E e
  | .bad | .var _ | .lit _ | .emptyBytes => rfl
  | .new T => by simp only [typeOf, validTy_order ht]
  | .field e _ | .len e | .not e | .toInt e | .toStr e | .indexByte0 e | .beUint _ e | .make _ e | .notNil e => by
    simp only [typeOf, typeOf_order ht E e, fieldTy_order ht, validTy_order ht]
  | .index a b | .add a b | .sub a b | .lt a b | .le a b | .gt a b | .eq a b | .and a b | .or a b | .sliceFrom a b
  | .sliceTo a b | .append a b => by
    simp only [typeOf, typeOf_order ht E a, typeOf_order ht E b]

theorem assignOK_order (ht : ∀ T, P.types.lookup T = P'.types.lookup T) (E : TEnv) (l : LV) (e : Expr) :
    assignOK P E l e = assignOK P' E l e := by
  simp only [assignOK, typeOf_order ht]

include hp in
theorem callOK_order (ht : ∀ T, P.types.lookup T = P'.types.lookup T) (E : TEnv) (l : LV) (data : Expr) (args : List String) :
    callOK P E l data args = callOK P' E l data args := by
  simp only [callOK, typeOf_order ht, hp]

mutual
theorem chk_order (ht : ∀ T, P.types.lookup T = P'.types.lookup T) (hp : ∀ T, P.parse.lookup T = P'.parse.lookup T) (R : XT) :
    ∀ (s : Stmt) (E : Scope), chk P R s E = chk P' R s E
  | .define x e, (E, blk) => by simp only [chk, typeOf_order ht]
  | .varDecl x t, (E, blk) => by simp only [chk, validTy_order ht]
  | .assign l e, (E, blk) => by simp only [chk, assignOK_order ht]
  | .assign2 l m e f, (E, blk) => by simp only [chk, assignOK_order ht]
  | .callParse d x l data args, (E, blk) => by simp only [chk, callOK_order hp ht]
  | .callDefine x l data args, (E, blk) => by simp only [chk, callOK_order hp ht]
  | .ifS c body, (E, blk) => by simp only [chk, typeOf_order ht, chks_order ht hp R body]
  | .block body, (E, blk) => by simp only [chk, chks_order ht hp R body]
  | .forIdx x n body, (E, blk) => by simp only [chk, typeOf_order ht, chks_order ht hp R body]
  | .forC c body, (E, blk) => by simp only [chk, typeOf_order ht, chks_order ht hp R body]
  | .switch cs, (E, blk) => by simp only [chk, chkClauses_order ht hp R cs]
  | .retNew _, (E, blk) => by simp only [chk]
  | .retErr x, (E, blk) => by simp only [chk]
  | .ret e, (E, blk) => by simp only [chk, typeOf_order ht]

theorem chks_order (ht : ∀ T, P.types.lookup T = P'.types.lookup T) (hp : ∀ T, P.parse.lookup T = P'.parse.lookup T) (R : XT) :
    ∀ (ss : List Stmt) (E : Scope), chks P R ss E = chks P' R ss E
  | [], E => by simp only [chks]
  | s :: ss, E => by
    have e : chks P R ss = chks P' R ss := funext (chks_order ht hp R ss)
    simp only [chks, chk_order ht hp R s, e]

theorem chkClauses_order (ht : ∀ T, P.types.lookup T = P'.types.lookup T) (hp : ∀ T, P.parse.lookup T = P'.parse.lookup T) (R : XT) :
    ∀ (cs : List (Option Expr × List Stmt)) (E : TEnv), chkClauses P R cs E = chkClauses P' R cs E
  | [], E => by simp only [chkClauses]
  | (c, body) :: cs, E => by
    simp only [chkClauses, typeOf_order ht, chks_order ht hp R body, chkClauses_order ht hp R cs]
end

include ht hp

theorem chkFunc_order (ps : List (String × XT)) (R : XT) (body : List Stmt) : chkFunc P ps R body = chkFunc P' ps R body := by
  simp only [chkFunc, chks_order ht hp]

theorem chkMethod_order (m : Method) : chkMethod P m = chkMethod P' m := by
  simp only [chkMethod, ht, chkFunc_order ht hp]

theorem chkCtor_order (c : Ctor) : chkCtor P c = chkCtor P' c := by
  simp only [chkCtor, ht, chkFunc_order ht hp]

omit hp in
theorem chkType_order (d : TypeDecl) : chkType P d = chkType P' d := by
  simp only [chkType, validTy_order ht]

end typing

end Verif.Go
