import Verif.PegTerm
/-!
# Every text is decided: no endless recursion, no failed type assertion
-/
namespace Verif.Peg
open Verif Verif.Ast

/-- Rules that may match the empty text. -/
def nullRule : RuleName → Bool
  | .File | .EOF | .gap | .UnionBody | .UnionFields => true
  | _ => false

/-- Depth of calls made before consuming input. -/
def ruleRank : RuleName → Nat
  | .SourceChar | .EOL | .EOF | .Whitespace | .Identifier | .ConstIdentifier | .DecimalLiteral | .HexLiteral
  | .OctalLiteral | .CharType | .IntType | .StructIdentifier | .SMPosition | .SMString | .SMUnion
  | .ConstDeclaration | .ContextDeclaration | .ExternDeclaration | .PragmaDeclaration | .ContextRefs
  | .StructEOS | .Leftover | .UnionLength | .IntConstraint => 0
  | .MultiLineComment | .SingleLineComment | .IntLiteral | .IDRef | .StructDecl | .SMInteger
  | .IntegerConstRef => 1
  | .Comment | .IntegerLiteral | .LengthConstraint | .StructRef | .StructDeclaration => 2
  | .Skip | .Integer | .ArrayBase | .SMStruct => 3
  | .gap | .gap1 | .SMFixedArray | .SMVarArray | .SMRemainder => 4
  | .IntListMember | .SMArray | .ExtentSpec | .IdentifierList | .ContextMember | .Declaration => 5
  | .IntList | .StructMember | .StructEnding | .UnionField | .File => 6
  | .UnionCase | .UnionFields => 7
  | .UnionMember | .UnionBody => 8

theorem rules_wellFormed : WellFormed nullRule ruleRank 10 rules where
  null r := by cases r <;> decide
  ranks r := by cases r <;> decide
  guard r := by cases r <;> decide

theorem ev_ref_finishes (r : RuleName) (env : Env) (st : St) : ev rules (.ref r) env st ≠ .timeout :=
  ev_terminates rules_wellFormed st.rest.length 10 (Nat.le_refl _) 1 (.ref r)
    (by cases r <;> decide) (Nat.le_refl _) env st rfl

/-! ## Shapes of values -/

section
variable (P : RuleName → Val → Prop)

mutual
/-- A condition under which no action of an expression panics and its values and labels satisfy `K`, given
what is known of the values of rules; positions are ignored. -/
def Wp : Expr → Env → (Val → Env → Prop) → Prop
  | .action e run, env, K => Wp e env (fun _ env' => ∀ t l, ∃ v err, run env' t l = some (v, err) ∧ K v env')
  | .seq es, env, K => WpSeq es env [] K
  | .choice es, env, K => WpAll es (fun v => K v env)
  | .ref r, env, K => ∀ v, P r v → K v env
  | .label l e, env, K => Wp e [] (fun v _ => K v ((l, v) :: env))
  | .star e, env, K => Wp e [] (fun _ _ => True) ∧
      ∀ vs, (∀ x ∈ vs, ∀ Q : Val → Prop, Wp e [] (fun v _ => Q v) → Q x) → K (.list vs) env
  | .plus e, env, K => Wp e [] (fun _ _ => True) ∧
      ∀ vs, (∀ x ∈ vs, ∀ Q : Val → Prop, Wp e [] (fun v _ => Q v) → Q x) → K (.list vs) env
  | .opt e, env, K => K .nil env ∧ Wp e [] (fun v _ => K v env)
  | .not e, env, K => Wp e [] (fun _ _ => True) ∧ K .nil env
  | .lit _, env, K => ∀ t, K (.bytes t) env
  | .cls _ _, env, K => ∀ t, K (.bytes t) env
  | .any, env, K => ∀ t, K (.bytes t) env
  | .code _, env, K => K .nil env
def WpSeq : List Expr → Env → List Val → (Val → Env → Prop) → Prop
  | [], env, vs, K => K (.list vs) env
  | e :: es, env, vs, K => Wp e env (fun v env1 => WpSeq es env1 (vs ++ [v]) K)
def WpAll : List Expr → (Val → Prop) → Prop
  | [], _ => True
  | e :: es, K => Wp e [] (fun v _ => K v) ∧ WpAll es K
end

end

/-- A result that is no panic and satisfies the condition. -/
def Fits (K : Val → Env → Prop) : R → Prop
  | .ok v env _ => K v env
  | .panic => False
  | _ => True

theorem Fits.mono {K K' : Val → Env → Prop} {r : R} (h : ∀ v env, K v env → K' v env) (hr : Fits K r) :
    Fits K' r := by
  cases r <;> first | exact h _ _ hr | exact hr

section
variable {P : RuleName → Val → Prop} {g : RuleName → Expr}

theorem seqLoop_fits {f : Expr → Env → St → R}
    (hf : ∀ e env st K, Wp P e env K → Fits K (f e env st)) (start : St) (es : List Expr) :
    ∀ vals env st K, WpSeq P es env vals K → Fits K (seqLoop f start es vals env st) := by
  induction es with
  | nil => intro vals env st K h; exact h
  | cons e es ih =>
    intro vals env st K h
    simp only [WpSeq] at h
    simp only [seqLoop]
    have := hf e env st _ h
    cases hr : f e env st with
    | ok v env' st' => rw [hr] at this; exact ih _ _ _ _ this
    | panic => rw [hr] at this; exact this
    | _ => trivial

theorem choiceLoop_fits {f : Expr → Env → St → R}
    (hf : ∀ e env st K, Wp P e env K → Fits K (f e env st)) (es : List Expr) :
    ∀ env st (K : Val → Env → Prop), WpAll P es (fun v => K v env) → Fits K (choiceLoop f es env st) := by
  induction es with
  | nil => intro env st _ _; trivial
  | cons e es ih =>
    intro env st K h
    simp only [WpAll] at h
    simp only [choiceLoop]
    have := hf e [] st _ h.1
    cases hr : f e [] st with
    | ok v env' st' => rw [hr] at this; exact this
    | fail st' => exact ih _ _ _ h.2
    | panic => rw [hr] at this; exact this
    | timeout => trivial

theorem starLoop_fits {f : St → R} {Q : Val → Prop} (hp : ∀ st, f st ≠ .panic)
    (hf : ∀ st v env' st', f st = .ok v env' st' → Q v) (env : Env) :
    ∀ n vals st, (∀ x ∈ vals, Q x) →
      Fits (fun v env' => env' = env ∧ ∃ vs, v = .list vs ∧ ∀ x ∈ vs, Q x) (starLoop f env n vals st) := by
  intro n
  induction n with
  | zero => intros; trivial
  | succ n ih =>
    intro vals st h
    simp only [starLoop]
    have := hf st
    cases hr : f st with
    | ok v env' st' =>
      refine ih _ _ ?_
      intro x hx
      simp only [List.mem_append, List.mem_singleton] at hx
      rcases hx with hx | rfl
      · exact h x hx
      · exact this _ _ _ hr
    | fail st' => exact ⟨rfl, vals, rfl, h⟩
    | panic => exact absurd hr (hp st)
    | timeout => trivial

/-- If the condition of every rule holds, results satisfy any condition that can be computed. -/
theorem parseExpr_fits (hg : ∀ r, Wp P (g r) [] (fun v _ => P r v)) :
    ∀ n e env st K, Wp P e env K → Fits K (parseExpr g n e env st) := by
  intro n
  induction n with
  | zero => intros; trivial
  | succ n ih =>
    intro e env st K h
    have np : ∀ e, Wp P e [] (fun _ _ => True) → ∀ st, parseExpr g n e [] st ≠ .panic := by
      intro e he st hc
      have := ih e [] st _ he
      rw [hc] at this
      exact this
    have el : ∀ e st v env' st', parseExpr g n e [] st = .ok v env' st' →
        ∀ Q : Val → Prop, Wp P e [] (fun v _ => Q v) → Q v := by
      intro e st v env' st' hr Q hQ
      have := ih e [] st _ hQ
      rw [hr] at this
      exact this
    cases e with
    | seq es => exact seqLoop_fits ih st es [] env st K h
    | choice es => exact choiceLoop_fits ih es env st K h
    | star e =>
      simp only [Wp] at h
      simp only [parseExpr]
      refine (starLoop_fits (np e h.1) (el e) env n [] st (by simp)).mono ?_
      rintro v env' ⟨rfl, vs, rfl, hvs⟩
      exact h.2 vs hvs
    | plus e =>
      simp only [Wp] at h
      simp only [parseExpr]
      cases hr : parseExpr g n e [] st with
      | ok v env' st' =>
        refine (starLoop_fits (np e h.1) (el e) env n [v] st' ?_).mono ?_
        · intro x hx
          simp only [List.mem_singleton] at hx
          subst hx
          exact el e _ _ _ _ hr
        · rintro v env' ⟨rfl, vs, rfl, hvs⟩
          exact h.2 vs hvs
      | panic => exact absurd hr (np e h.1 st)
      | _ => trivial
    | action e run =>
      simp only [Wp] at h
      simp only [parseExpr]
      have := ih e env st _ h
      cases hr : parseExpr g n e env st with
      | ok v env' st' =>
        rw [hr] at this
        obtain ⟨v, err, h1, h2⟩ := this (St.slice st st') st'.ling
        simp only [h1]
        exact h2
      | panic => rw [hr] at this; exact this
      | _ => trivial
    | ref r =>
      simp only [Wp] at h
      simp only [parseExpr]
      have := ih (g r) [] st _ (hg r)
      cases hr : parseExpr g n (g r) [] st with
      | ok v env' st' => rw [hr] at this; exact h _ this
      | panic => rw [hr] at this; exact this
      | _ => trivial
    | label l e =>
      simp only [Wp] at h
      simp only [parseExpr]
      have := ih e [] st _ h
      cases hr : parseExpr g n e [] st with
      | ok v env' st' => rw [hr] at this; exact this
      | panic => rw [hr] at this; exact this
      | _ => trivial
    | opt e =>
      simp only [Wp] at h
      simp only [parseExpr]
      have := ih e [] st _ h.2
      cases hr : parseExpr g n e [] st with
      | ok v env' st' => rw [hr] at this; exact this
      | panic => rw [hr] at this; exact this
      | fail st' => exact h.1
      | timeout => trivial
    | not e =>
      simp only [Wp] at h
      simp only [parseExpr]
      cases hr : parseExpr g n e [] st with
      | panic => exact absurd hr (np e h.1 st)
      | fail st' => exact h.2
      | _ => trivial
    | lit s =>
      simp only [Wp] at h
      simp only [parseExpr]
      cases hr : litLoop s.toList st with
      | mk b st' => cases b <;> first | trivial | exact h _
    | cls a b =>
      simp only [Wp] at h
      simp only [parseExpr]
      split
      · trivial
      · split
        · exact h _
        · trivial
    | any =>
      simp only [Wp] at h
      simp only [parseExpr]
      split
      · trivial
      · exact h _
    | code run => exact h

end

/-- The values each rule returns. -/
def Shape : RuleName → Val → Prop
  | .File => fun v => v = .nil ∨ ∃ f, v = .file f
  | .Declaration => fun v => (∃ c, v = .constant c) ∨ (∃ c, v = .context c) ∨ (∃ s, v = .struct s) ∨ ∃ p, v = .pragma p
  | .ConstDeclaration => fun v => ∃ c, v = .constant c
  | .ContextDeclaration => fun v => ∃ c, v = .context c
  | .ContextMember => fun v => ∃ f, v = .field f
  | .StructDeclaration | .StructDecl | .ExternDeclaration => fun v => ∃ s, v = .struct s
  | .StructIdentifier | .Identifier | .ConstIdentifier => fun v => ∃ s, v = .str s
  | .PragmaDeclaration => fun v => ∃ p, v = .pragma p
  | .ContextRefs | .IdentifierList => fun v => ∃ l, v = .strs l
  | .StructMember => fun v => (∃ f, v = .field f) ∨ ∃ u, v = .union u
  | .StructEnding => fun v => (∃ f, v = .field f) ∨ v = .eos
  | .StructEOS => fun v => v = .eos
  | .SMArray | .SMFixedArray | .SMVarArray | .SMRemainder | .SMInteger | .SMPosition | .SMString
  | .SMStruct | .UnionField => fun v => ∃ f, v = .field f
  | .LengthConstraint => fun v => (∃ i, v = .leftover i) ∨ ∃ r, v = .idRef r
  | .UnionLength => fun v => (∃ i, v = .leftover i) ∨ ∃ r, v = .idRef r
  | .Leftover => fun v => ∃ i, v = .leftover i
  | .IDRef => fun v => ∃ r, v = .idRef r
  | .ArrayBase => fun v => (∃ t, v = .intType t) ∨ v = .charType ∨ ∃ n, v = .structRef n
  | .IntType => fun v => ∃ t, v = .intType t
  | .CharType => fun v => v = .charType
  | .StructRef => fun v => ∃ n, v = .structRef n
  | .SMUnion => fun v => ∃ u, v = .union u
  | .UnionMember => fun v => ∃ c, v = .case c
  | .UnionCase => fun v => v = .nil ∨ ∃ l, v = .intList l
  | .UnionBody => fun v => v = .nil ∨ ∃ l, v = .members l
  | .UnionFields => fun v => ∃ l, v = .members l
  | .ExtentSpec => fun v => v = .ignore ∨ ∃ f, v = .field f
  | .IntConstraint | .IntList => fun v => ∃ l, v = .intList l
  | .IntListMember => fun v => ∃ r, v = .range r
  | .Integer | .IntegerConstRef | .IntegerLiteral => fun v => ∃ i, v = .integer i
  | .IntLiteral => fun v => ∃ n, v = .int n
  | _ => fun _ => True

theorem mapM_some {α β : Type} {f : α → Option β} {l : List α} (h : ∀ x ∈ l, ∃ y, f x = some y) :
    ∃ ys, l.mapM f = some ys := by
  induction l with
  | nil => exact ⟨[], rfl⟩
  | cons a l ih =>
    obtain ⟨y, hy⟩ := h a (by simp)
    obtain ⟨ys, hys⟩ := ih (fun x hx => h x (by simp [hx]))
    exact ⟨y :: ys, by simp [List.mapM_cons, hy, hys]⟩

set_option linter.unusedSimpArgs false

/-- Compute the condition of a rule. -/
local macro "shape" "[" ts:Lean.Parser.Tactic.simpLemma,* "]" : tactic =>
  `(tactic| simp [$ts,*, Wp, WpSeq, WpAll, Shape, act, Env.get, List.lookup, Val.asStr, Val.asStrs, Val.asInt, Val.asList,
    Val.index, Val.asField, Val.asIntType, Val.asBase, Val.asStructRef, Val.asStruct, Val.asLeaf, Val.asMember,
    Val.asMembers, Val.asCase, Val.asInteger, Val.asIntList, Val.asRange, Val.asIDRef, Val.asLength, Val.asBytes,
    Val.opt, contextsOf, or_imp, forall_and])

theorem wp_File : Wp Shape rFile [] (fun v _ => Shape .File v) := by
  shape [rFile, onFile1]
  intro _ vs _ _ _ l
  cases distribute (vs ++ l) ⟨[], [], [], []⟩ <;> simp

theorem wp_Declaration : Wp Shape rDeclaration [] (fun v _ => Shape .Declaration v) := by
  shape [rDeclaration, onDeclaration1]

theorem wp_ConstDeclaration : Wp Shape rConstDeclaration [] (fun v _ => Shape .ConstDeclaration v) := by
  shape [rConstDeclaration, onConstDeclaration1]

theorem wp_ContextDeclaration : Wp Shape rContextDeclaration [] (fun v _ => Shape .ContextDeclaration v) := by
  shape [rContextDeclaration, onContextDeclaration1]
  have key : ∀ vs : List Val, (∀ x ∈ vs, ∀ Q : Val → Prop, (∀ a, Q (.field a)) → Q x) →
      ∃ ys, vs.mapM Val.asField = some ys :=
    fun vs h => mapM_some (fun x hx => h x hx (fun x => ∃ y, Val.asField x = some y) (fun a => ⟨a, rfl⟩))
  intros
  obtain ⟨ys, hys⟩ := key _ (by assumption)
  simp [hys]

theorem wp_ContextMember : Wp Shape rContextMember [] (fun v _ => Shape .ContextMember v) := by
  shape [rContextMember, onContextMember1]

theorem wp_StructDeclaration : Wp Shape rStructDeclaration [] (fun v _ => Shape .StructDeclaration v) := by
  shape [rStructDeclaration, onStructDeclaration1]

theorem wp_StructDecl : Wp Shape rStructDecl [] (fun v _ => Shape .StructDecl v) := by
  shape [rStructDecl, onStructDecl1]
  have key : ∀ vs : List Val, (∀ x ∈ vs, ∀ Q : Val → Prop, (∀ a, Q (.field a)) → (∀ a, Q (.union a)) → Q x) →
      ∃ ys, vs.mapM Val.asMember = some ys :=
    fun vs h => mapM_some (fun x hx => h x hx (fun x => ∃ y, Val.asMember x = some y) (fun a => ⟨.leaf (.field a), rfl⟩) (fun a => ⟨.union a, rfl⟩))
  and_intros
  all_goals
    intros
    obtain ⟨ys, hys⟩ := key _ (by assumption)
    simp [hys]

theorem wp_StructIdentifier : Wp Shape rStructIdentifier [] (fun v _ => Shape .StructIdentifier v) := by
  shape [rStructIdentifier, onStructIdentifier1]

theorem wp_ExternDeclaration : Wp Shape rExternDeclaration [] (fun v _ => Shape .ExternDeclaration v) := by
  shape [rExternDeclaration, onExternDeclaration1]

theorem wp_PragmaDeclaration : Wp Shape rPragmaDeclaration [] (fun v _ => Shape .PragmaDeclaration v) := by
  shape [rPragmaDeclaration, onPragmaDeclaration1]

theorem wp_ContextRefs : Wp Shape rContextRefs [] (fun v _ => Shape .ContextRefs v) := by
  shape [rContextRefs, onContextRefs1]

theorem wp_StructMember : Wp Shape rStructMember [] (fun v _ => Shape .StructMember v) := by
  shape [rStructMember, onStructMember1]

theorem wp_StructEnding : Wp Shape rStructEnding [] (fun v _ => Shape .StructEnding v) := by
  shape [rStructEnding, onStructEnding1]

theorem wp_StructEOS : Wp Shape rStructEOS [] (fun v _ => Shape .StructEOS v) := by
  shape [rStructEOS, onStructEOS1]

theorem wp_SMArray : Wp Shape rSMArray [] (fun v _ => Shape .SMArray v) := by
  shape [rSMArray, onSMArray1]

theorem wp_SMFixedArray : Wp Shape rSMFixedArray [] (fun v _ => Shape .SMFixedArray v) := by
  shape [rSMFixedArray, onSMFixedArray1]

theorem wp_SMVarArray : Wp Shape rSMVarArray [] (fun v _ => Shape .SMVarArray v) := by
  shape [rSMVarArray, onSMVarArray1]

theorem wp_LengthConstraint : Wp Shape rLengthConstraint [] (fun v _ => Shape .LengthConstraint v) := by
  shape [rLengthConstraint, onLengthConstraint1]

theorem wp_Leftover : Wp Shape rLeftover [] (fun v _ => Shape .Leftover v) := by
  shape [rLeftover, onLeftover1]

theorem wp_SMRemainder : Wp Shape rSMRemainder [] (fun v _ => Shape .SMRemainder v) := by
  shape [rSMRemainder, onSMRemainder1]

theorem wp_ArrayBase : Wp Shape rArrayBase [] (fun v _ => Shape .ArrayBase v) := by
  shape [rArrayBase, onArrayBase1]

theorem wp_SMInteger : Wp Shape rSMInteger [] (fun v _ => Shape .SMInteger v) := by
  shape [rSMInteger, onSMInteger1]

theorem wp_SMPosition : Wp Shape rSMPosition [] (fun v _ => Shape .SMPosition v) := by
  shape [rSMPosition, onSMPosition1]

theorem wp_SMString : Wp Shape rSMString [] (fun v _ => Shape .SMString v) := by
  shape [rSMString, onSMString1]

theorem wp_SMStruct : Wp Shape rSMStruct [] (fun v _ => Shape .SMStruct v) := by
  shape [rSMStruct, onSMStruct1]

theorem wp_SMUnion : Wp Shape rSMUnion [] (fun v _ => Shape .SMUnion v) := by
  shape [rSMUnion, onSMUnion1]
  have key : ∀ vs : List Val, (∀ x ∈ vs, ∀ Q : Val → Prop, (∀ a, Q (.case a)) → Q x) →
      ∃ ys, vs.mapM Val.asCase = some ys :=
    fun vs h => mapM_some (fun x hx => h x hx (fun x => ∃ y, Val.asCase x = some y) (fun a => ⟨a, rfl⟩))
  and_intros
  all_goals
    intros
    obtain ⟨ys, hys⟩ := key _ (by assumption)
    simp [hys]

theorem wp_UnionLength : Wp Shape rUnionLength [] (fun v _ => Shape .UnionLength v) := by
  shape [rUnionLength, onUnionLength1]

theorem wp_UnionMember : Wp Shape rUnionMember [] (fun v _ => Shape .UnionMember v) := by
  shape [rUnionMember, onUnionMember1]

theorem wp_UnionCase : Wp Shape rUnionCase [] (fun v _ => Shape .UnionCase v) := by
  shape [rUnionCase, onUnionCase2, onUnionCase5]

theorem wp_UnionBody : Wp Shape rUnionBody [] (fun v _ => Shape .UnionBody v) := by
  shape [rUnionBody, onUnionBody2, onUnionBody6, onUnionBody11, onUnionBody16]

theorem wp_UnionFields : Wp Shape rUnionFields [] (fun v _ => Shape .UnionFields v) := by
  shape [rUnionFields, onUnionFields1]
  have key : ∀ vs : List Val, (∀ x ∈ vs, ∀ Q : Val → Prop, (∀ a, Q (.field a)) → Q x) →
      ∃ ys, vs.mapM Val.asLeaf = some ys :=
    fun vs h => mapM_some (fun x hx => h x hx (fun x => ∃ y, Val.asLeaf x = some y) (fun a => ⟨.field a, rfl⟩))
  and_intros
  all_goals
    intros
    obtain ⟨ys, hys⟩ := key _ (by assumption)
    simp [hys]

theorem wp_UnionField : Wp Shape rUnionField [] (fun v _ => Shape .UnionField v) := by
  shape [rUnionField, onUnionField1]

theorem wp_ExtentSpec : Wp Shape rExtentSpec [] (fun v _ => Shape .ExtentSpec v) := by
  shape [rExtentSpec, onExtentSpec2, onExtentSpec7]

theorem wp_StructRef : Wp Shape rStructRef [] (fun v _ => Shape .StructRef v) := by
  shape [rStructRef, onStructRef6, onStructRef2, onStructRef7]

theorem wp_CharType : Wp Shape rCharType [] (fun v _ => Shape .CharType v) := by
  shape [rCharType, onCharType1]

theorem wp_IntType : Wp Shape rIntType [] (fun v _ => Shape .IntType v) := by
  shape [rIntType, onIntType1]
  intro t
  cases digits 10 (t.map Rune.char) 0 <;> simp

theorem wp_IntConstraint : Wp Shape rIntConstraint [] (fun v _ => Shape .IntConstraint v) := by
  shape [rIntConstraint, onIntConstraint1]

theorem wp_IntList : Wp Shape rIntList [] (fun v _ => Shape .IntList v) := by
  shape [rIntList, onIntList1]
  intro a vs h
  generalize hF : (fun i : Val => (_ : Option IntegerRange)) = F
  obtain ⟨ys, hys⟩ : ∃ ys, vs.mapM F = some ys :=
    mapM_some (fun x hx => h x hx (fun x => ∃ y, F x = some y) (fun v t w a => ⟨a, by subst hF; rfl⟩))
  simp [hys]

theorem wp_IntListMember : Wp Shape rIntListMember [] (fun v _ => Shape .IntListMember v) := by
  shape [rIntListMember, onIntListMember1]

theorem wp_Integer : Wp Shape rInteger [] (fun v _ => Shape .Integer v) := by
  shape [rInteger, onInteger1]

theorem wp_IntegerConstRef : Wp Shape rIntegerConstRef [] (fun v _ => Shape .IntegerConstRef v) := by
  shape [rIntegerConstRef, onIntegerConstRef1]

theorem wp_IntegerLiteral : Wp Shape rIntegerLiteral [] (fun v _ => Shape .IntegerLiteral v) := by
  shape [rIntegerLiteral, onIntegerLiteral1]

theorem wp_IDRef : Wp Shape rIDRef [] (fun v _ => Shape .IDRef v) := by
  shape [rIDRef, onIDRef1]

theorem wp_IdentifierList : Wp Shape rIdentifierList [] (fun v _ => Shape .IdentifierList v) := by
  shape [rIdentifierList, onIdentifierList1]
  intro a vs h
  generalize hF : (fun i : Val => (_ : Option String)) = F
  obtain ⟨ys, hys⟩ : ∃ ys, vs.mapM F = some ys :=
    mapM_some (fun x hx => h x hx (fun x => ∃ y, F x = some y) (fun v t w a => ⟨a, by subst hF; rfl⟩))
  simp [hys]

theorem wp_Identifier : Wp Shape rIdentifier [] (fun v _ => Shape .Identifier v) := by
  shape [rIdentifier, onIdentifier1]

theorem wp_ConstIdentifier : Wp Shape rConstIdentifier [] (fun v _ => Shape .ConstIdentifier v) := by
  shape [rConstIdentifier, onConstIdentifier1]

theorem wp_IntLiteral : Wp Shape rIntLiteral [] (fun v _ => Shape .IntLiteral v) := by
  shape [rIntLiteral, onIntLiteral1]

theorem wp_DecimalLiteral : Wp Shape rDecimalLiteral [] (fun v _ => Shape .DecimalLiteral v) := by
  shape [rDecimalLiteral]

theorem wp_HexLiteral : Wp Shape rHexLiteral [] (fun v _ => Shape .HexLiteral v) := by
  shape [rHexLiteral]

theorem wp_OctalLiteral : Wp Shape rOctalLiteral [] (fun v _ => Shape .OctalLiteral v) := by
  shape [rOctalLiteral]

theorem wp_SourceChar : Wp Shape rSourceChar [] (fun v _ => Shape .SourceChar v) := by
  shape [rSourceChar]

theorem wp_Comment : Wp Shape rComment [] (fun v _ => Shape .Comment v) := by
  shape [rComment]

theorem wp_MultiLineComment : Wp Shape rMultiLineComment [] (fun v _ => Shape .MultiLineComment v) := by
  shape [rMultiLineComment]

theorem wp_SingleLineComment : Wp Shape rSingleLineComment [] (fun v _ => Shape .SingleLineComment v) := by
  shape [rSingleLineComment]

theorem wp_gap1 : Wp Shape rgap1 [] (fun v _ => Shape .gap1 v) := by
  shape [rgap1]

theorem wp_gap : Wp Shape rgap [] (fun v _ => Shape .gap v) := by
  shape [rgap]

theorem wp_Skip : Wp Shape rSkip [] (fun v _ => Shape .Skip v) := by
  shape [rSkip]

theorem wp_Whitespace : Wp Shape rWhitespace [] (fun v _ => Shape .Whitespace v) := by
  shape [rWhitespace]

theorem wp_EOL : Wp Shape rEOL [] (fun v _ => Shape .EOL v) := by
  shape [rEOL]

theorem wp_EOF : Wp Shape rEOF [] (fun v _ => Shape .EOF v) := by
  shape [rEOF]
theorem rules_fit (r : RuleName) : Wp Shape (rules r) [] (fun v _ => Shape r v) := by
  cases r
  · exact wp_File
  · exact wp_Declaration
  · exact wp_ConstDeclaration
  · exact wp_ContextDeclaration
  · exact wp_ContextMember
  · exact wp_StructDeclaration
  · exact wp_StructDecl
  · exact wp_StructIdentifier
  · exact wp_ExternDeclaration
  · exact wp_PragmaDeclaration
  · exact wp_ContextRefs
  · exact wp_StructMember
  · exact wp_StructEnding
  · exact wp_StructEOS
  · exact wp_SMArray
  · exact wp_SMFixedArray
  · exact wp_SMVarArray
  · exact wp_LengthConstraint
  · exact wp_Leftover
  · exact wp_SMRemainder
  · exact wp_ArrayBase
  · exact wp_SMInteger
  · exact wp_SMPosition
  · exact wp_SMString
  · exact wp_SMStruct
  · exact wp_SMUnion
  · exact wp_UnionLength
  · exact wp_UnionMember
  · exact wp_UnionCase
  · exact wp_UnionBody
  · exact wp_UnionFields
  · exact wp_UnionField
  · exact wp_ExtentSpec
  · exact wp_StructRef
  · exact wp_CharType
  · exact wp_IntType
  · exact wp_IntConstraint
  · exact wp_IntList
  · exact wp_IntListMember
  · exact wp_Integer
  · exact wp_IntegerConstRef
  · exact wp_IntegerLiteral
  · exact wp_IDRef
  · exact wp_IdentifierList
  · exact wp_Identifier
  · exact wp_ConstIdentifier
  · exact wp_IntLiteral
  · exact wp_DecimalLiteral
  · exact wp_HexLiteral
  · exact wp_OctalLiteral
  · exact wp_SourceChar
  · exact wp_Comment
  · exact wp_MultiLineComment
  · exact wp_SingleLineComment
  · exact wp_gap1
  · exact wp_gap
  · exact wp_Skip
  · exact wp_Whitespace
  · exact wp_EOL
  · exact wp_EOF

theorem ev_fits {e : Expr} {env : Env} {K : Val → Env → Prop} (h : Wp Shape e env K) (st : St) :
    Fits K (ev rules e env st) := by
  obtain ⟨N, hN⟩ := ev_eventually rules e env st
  rw [← hN N (Nat.le_refl _)]
  exact parseExpr_fits rules_fit N e env st K h

/-- The value of a rule has its shape. -/
theorem ev_shape {r : RuleName} {env env' : Env} {st st' : St} {v : Val}
    (h : ev rules (.ref r) env st = .ok v env' st') : Shape r v := by
  have := ev_fits (e := .ref r) (env := env) (K := fun v _ => Shape r v) (fun v hv => hv) st
  rw [h] at this
  exact this

theorem ev_ref_no_panic (r : RuleName) (env : Env) (st : St) : ev rules (.ref r) env st ≠ .panic := by
  intro h
  have := ev_fits (e := .ref r) (env := env) (K := fun _ _ => True) (fun v hv => trivial) st
  rw [h] at this
  exact this

/-! ## The outcome of a parse -/

/-- The eventual result of parsing. -/
noncomputable def outcome (rs : List Rune) : Res File :=
  match ev rules (.ref .File) [] ⟨rs, [], headBad rs⟩ with
  | .ok v _ st =>
    if st.errs then .err "errors"
    else
      match v with
      | .file f => .ok f
      | _ => .panic "cast"
  | .fail _ => .err "no match"
  | .panic => .err "panic"
  | .timeout => .err "timeout"

theorem parseRunes_outcome (rs : List Rune) : ∃ N, ∀ fuel, N ≤ fuel → parseRunes fuel rs = some (outcome rs) := by
  obtain ⟨N, hN⟩ := ev_eventually rules (.ref .File) [] ⟨rs, [], headBad rs⟩
  refine ⟨N, fun fuel hf => ?_⟩
  have ht := ev_ref_finishes .File [] ⟨rs, [], headBad rs⟩
  unfold parseRunes outcome
  rw [hN fuel hf]
  cases hr : ev rules (.ref .File) [] ⟨rs, [], headBad rs⟩ with
  | timeout => exact absurd hr ht
  | ok v env st => by_cases he : st.errs = true <;> simp only [he] <;> cases v <;> rfl
  | _ => rfl

theorem outcome_cases (rs : List Rune) : (∃ f, outcome rs = .ok f) ∨
    outcome rs = .err "errors" ∨ outcome rs = .err "no match" := by
  have hp := ev_ref_no_panic .File [] ⟨rs, [], headBad rs⟩
  have ht := ev_ref_finishes .File [] ⟨rs, [], headBad rs⟩
  unfold outcome
  cases hr : ev rules (.ref .File) [] ⟨rs, [], headBad rs⟩ with
  | timeout => exact absurd hr ht
  | panic => exact absurd hr hp
  | fail st => exact Or.inr (Or.inr rfl)
  | ok v env st =>
    by_cases he : st.errs = true
    · simp [he]
    · rw [ev_ref, show rules .File = rFile from rfl, rFile, ev_action] at hr
      revert hr
      generalize ev rules _ _ _ = q
      cases q with
      | ok v' env' st' =>
        simp only [actRes, onFile1]
        intro hr
        cases hd : (Env.get env' "ds").asList with
        | none => simp [hd, R.scope] at hr
        | some ds =>
          simp only [hd, Option.bind_eq_bind, Option.bind_some] at hr
          split at hr
          · next x v0 err heq =>
            simp only [R.scope, R.ok.injEq] at hr
            obtain ⟨rfl, rfl, rfl⟩ := hr
            split at heq
            · simp only [Option.some.injEq, Prod.mk.injEq] at heq
              obtain ⟨rfl, rfl⟩ := heq
              left
              simp only [Bool.or_false] at he
              simp [he]
            · simp only [Option.some.injEq, Prod.mk.injEq] at heq
              obtain ⟨rfl, rfl⟩ := heq
              simp at he
          · simp [R.scope] at hr
      | _ => simp [actRes, R.scope]

end Verif.Peg
