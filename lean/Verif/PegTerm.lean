import Verif.PegLemmas
/-!
# Termination of the interpreter for well-formed grammars
-/
namespace Verif.Peg
open Verif Verif.Ast

/-! ## Position and state after a result -/

/-- A match moves forward; a failure restores everything but the errors; errors are never removed. -/
def Moves (st : St) : R → Prop
  | .ok _ _ st' => st'.rest <:+ st.rest ∧ (st.errs = true → st'.errs = true)
  | .fail st' => st'.rest = st.rest ∧ st'.ling = st.ling ∧ (st.errs = true → st'.errs = true)
  | _ => True

/-- A match consumes input. -/
def Eats (st : St) : R → Prop
  | .ok _ _ st' => st'.rest.length < st.rest.length
  | _ => True

theorem read_moves (st : St) : st.read.rest <:+ st.rest ∧ (st.errs = true → st.read.errs = true) :=
  ⟨List.drop_suffix _ _, fun h => by simp [St.read, h]⟩

theorem litLoop_moves (cs : List Char) : ∀ st, (litLoop cs st).2.rest <:+ st.rest ∧
    (litLoop cs st).2.ling = st.ling ∧ (st.errs = true → (litLoop cs st).2.errs = true) ∧
    ((litLoop cs st).1 = true → cs ≠ [] → (litLoop cs st).2.rest.length < st.rest.length) := by
  induction cs with
  | nil => intro st; exact ⟨List.suffix_rfl, rfl, id, fun _ h => absurd rfl h⟩
  | cons c cs ih =>
    intro st
    simp only [litLoop]
    cases hr : st.rest with
    | nil => simp [hr]
    | cons r t =>
      simp only
      split
      · obtain ⟨h1, h2, h3, h4⟩ := ih st.read
        have h5 := read_moves st
        have hl : st.read.rest = t := by simp [St.read, hr]
        refine ⟨by rw [← hr]; exact h1.trans h5.1, h2, fun h => h3 (h5.2 h), fun _ _ => ?_⟩
        have := h1.length_le
        rw [hl] at this
        simp only [List.length_cons]
        omega
      · simp [hr]

theorem seqLoop_moves {f : Expr → Env → St → R} (hf : ∀ e env st, Moves st (f e env st)) (start : St)
    (es : List Expr) : ∀ vals env st, st.rest <:+ start.rest → (start.errs = true → st.errs = true) →
      Moves start (seqLoop f start es vals env st) := by
  induction es with
  | nil => intro vals env st h1 h2; exact ⟨h1, h2⟩
  | cons e es ih =>
    intro vals env st h1 h2
    simp only [seqLoop]
    have := hf e env st
    cases hr : f e env st with
    | ok v env' st' => rw [hr] at this; exact ih _ _ _ (this.1.trans h1) (fun h => this.2 (h2 h))
    | fail st' => rw [hr] at this; exact ⟨rfl, rfl, fun h => this.2.2 (h2 h)⟩
    | _ => trivial

theorem choiceLoop_moves {f : Expr → Env → St → R} (hf : ∀ e env st, Moves st (f e env st))
    (es : List Expr) : ∀ env st, Moves st (choiceLoop f es env st) := by
  induction es with
  | nil => intro env st; exact ⟨rfl, rfl, id⟩
  | cons e es ih =>
    intro env st
    simp only [choiceLoop]
    have := hf e [] st
    cases hr : f e [] st with
    | ok v env' st' => rw [hr] at this; exact this
    | fail st' =>
      rw [hr] at this
      have h2 := ih env { st' with ling := st.ling }
      simp only
      revert h2
      cases choiceLoop f es env { st' with ling := st.ling } with
      | ok v env' st'' => intro h2; exact ⟨this.1 ▸ h2.1, fun h => h2.2 (this.2.2 h)⟩
      | fail st'' => intro h2; exact ⟨h2.1.trans this.1, h2.2.1, fun h => h2.2.2 (this.2.2 h)⟩
      | _ => intro _; trivial
    | _ => trivial

theorem starLoop_moves {f : St → R} (hf : ∀ st, Moves st (f st)) (env : Env) : ∀ n vals st start,
    st.rest <:+ start.rest → (start.errs = true → st.errs = true) →
      Moves start (starLoop f env n vals st) := by
  intro n
  induction n with
  | zero => intros; trivial
  | succ n ih =>
    intro vals st start h1 h2
    simp only [starLoop]
    have := hf st
    cases hr : f st with
    | ok v env' st' => rw [hr] at this; exact ih _ _ _ (this.1.trans h1) (fun h => this.2 (h2 h))
    | fail st' => rw [hr] at this; exact ⟨this.1 ▸ h1, fun h => this.2.2 (h2 h)⟩
    | _ => trivial

theorem parseExpr_moves (g : RuleName → Expr) : ∀ n e env st, Moves st (parseExpr g n e env st) := by
  intro n
  induction n with
  | zero => intros; trivial
  | succ n ih =>
    intro e env st
    cases e with
    | seq es => exact seqLoop_moves ih st es _ _ _ List.suffix_rfl id
    | choice es => exact choiceLoop_moves ih es env st
    | star e => exact starLoop_moves (fun st => ih e [] st) env n _ _ _ List.suffix_rfl id
    | plus e =>
      simp only [parseExpr]
      have := ih e [] st
      cases hr : parseExpr g n e [] st with
      | ok v env' st' => rw [hr] at this; exact starLoop_moves (fun st => ih e [] st) env n _ _ _ this.1 this.2
      | fail st' => rw [hr] at this; exact this
      | _ => trivial
    | action e run =>
      simp only [parseExpr]
      have := ih e env st
      cases hr : parseExpr g n e env st with
      | ok v env' st' =>
        rw [hr] at this
        simp only
        split
        · exact ⟨this.1, fun h => by simp [this.2 h]⟩
        · trivial
      | fail st' => rw [hr] at this; exact this
      | _ => trivial
    | ref r =>
      simp only [parseExpr]
      have := ih (g r) [] st
      cases hr : parseExpr g n (g r) [] st <;> (rw [hr] at this; exact this)
    | label l e =>
      simp only [parseExpr]
      have := ih e [] st
      cases hr : parseExpr g n e [] st <;> (rw [hr] at this; exact this)
    | opt e =>
      simp only [parseExpr]
      have := ih e [] st
      cases hr : parseExpr g n e [] st with
      | fail st' => rw [hr] at this; exact ⟨this.1 ▸ List.suffix_rfl, this.2.2⟩
      | ok v env' st' => rw [hr] at this; exact this
      | _ => trivial
    | not e =>
      simp only [parseExpr]
      have := ih e [] st
      cases hr : parseExpr g n e [] st with
      | fail st' => rw [hr] at this; exact ⟨List.suffix_rfl, this.2.2⟩
      | ok v env' st' => rw [hr] at this; exact ⟨rfl, rfl, this.2⟩
      | _ => trivial
    | lit s =>
      simp only [parseExpr]
      have := litLoop_moves s.toList st
      cases hr : litLoop s.toList st with
      | mk b st' =>
        rw [hr] at this
        cases b
        · exact ⟨rfl, rfl, this.2.2.1⟩
        · exact ⟨this.1, this.2.2.1⟩
    | cls a b =>
      simp only [parseExpr]
      split
      · exact ⟨rfl, rfl, id⟩
      · split
        · exact read_moves st
        · exact ⟨rfl, rfl, id⟩
    | any =>
      simp only [parseExpr]
      split
      · exact ⟨rfl, rfl, id⟩
      · exact read_moves st
    | code run => exact ⟨List.suffix_rfl, id⟩

theorem ev_moves (g : RuleName → Expr) (e : Expr) (env : Env) (st : St) : Moves st (ev g e env st) := by
  obtain ⟨N, hN⟩ := ev_eventually g e env st
  rw [← hN N (Nat.le_refl _)]
  exact parseExpr_moves g N e env st

/-! ## Well-formed grammars -/

section
variable (nr : RuleName → Bool)

mutual
/-- Whether an expression may match without consuming input, given which rules may. -/
def nullable : Expr → Bool
  | .action e _ => nullable e
  | .seq es => nullableAll es
  | .choice es => nullableAny es
  | .ref r => nr r
  | .label _ e => nullable e
  | .star _ => true
  | .plus e => nullable e
  | .opt _ => true
  | .not _ => true
  | .lit s => s.toList.isEmpty
  | .cls _ _ => false
  | .any => false
  | .code _ => true
def nullableAll : List Expr → Bool
  | [] => true
  | e :: es => nullable e && nullableAll es
def nullableAny : List Expr → Bool
  | [] => false
  | e :: es => nullable e || nullableAny es
end

variable (rank : RuleName → Nat) (top : Nat)

mutual
/-- Rules reached before consuming input have rank below `k`; bodies of repetitions consume input; everywhere
else ranks are below `top`. -/
def guarded (k : Nat) : Expr → Bool
  | .action e _ => guarded k e
  | .seq es => guardedSeq k es
  | .choice es => guardedAll k es
  | .ref r => decide (rank r < k)
  | .label _ e => guarded k e
  | .star e => guarded k e && guarded top e && !nullable nr e
  | .plus e => guarded k e && guarded top e && !nullable nr e
  | .opt e => guarded k e
  | .not e => guarded k e
  | .lit _ => true
  | .cls _ _ => true
  | .any => true
  | .code _ => true
def guardedSeq (k : Nat) : List Expr → Bool
  | [] => true
  | e :: es => guarded k e && guardedSeq (if nullable nr e then k else top) es
def guardedAll (k : Nat) : List Expr → Bool
  | [] => true
  | e :: es => guarded k e && guardedAll k es
end

/-- A grammar whose rules are nullable only where declared so, and whose ranks decrease along calls made
before consuming input. -/
structure WellFormed (g : RuleName → Expr) : Prop where
  null : ∀ r, nullable nr (g r) = true → nr r = true
  ranks : ∀ r, rank r < top
  guard : ∀ r, guarded nr rank top (rank r) (g r) = true

end

variable {nr : RuleName → Bool} {rank : RuleName → Nat} {top : Nat} {g : RuleName → Expr}

theorem seqLoop_eats {f : Expr → Env → St → R} (hm : ∀ e env st, Moves st (f e env st))
    (hf : ∀ e env st, nullable nr e = false → Eats st (f e env st)) (start : St) (es : List Expr) :
    ∀ vals env st, st.rest <:+ start.rest →
      (nullableAll nr es = false ∨ st.rest.length < start.rest.length) →
      Eats start (seqLoop f start es vals env st) := by
  induction es with
  | nil => intro vals env st h1 h2; exact h2.resolve_left (by simp [nullableAll])
  | cons e es ih =>
    intro vals env st h1 h2
    simp only [seqLoop]
    have m := hm e env st
    have a := hf e env st
    cases hr : f e env st with
    | ok v env' st' =>
      rw [hr] at m a
      refine ih _ _ _ (m.1.trans h1) ?_
      have l1 := m.1.length_le
      have l2 := h1.length_le
      rcases h2 with h2 | h2
      · cases hn : nullable nr e with
        | false => have := a hn; simp only [Eats] at this; right; omega
        | true => left; simpa [nullableAll, hn] using h2
      · right; omega
    | _ => trivial

theorem choiceLoop_eats {f : Expr → Env → St → R} (hm : ∀ e env st, Moves st (f e env st))
    (hf : ∀ e env st, nullable nr e = false → Eats st (f e env st)) (es : List Expr) :
    ∀ env st, nullableAny nr es = false → Eats st (choiceLoop f es env st) := by
  induction es with
  | nil => intro env st _; trivial
  | cons e es ih =>
    intro env st h
    simp only [nullableAny, Bool.or_eq_false_iff] at h
    simp only [choiceLoop]
    have m := hm e [] st
    have a := hf e [] st h.1
    cases hr : f e [] st with
    | ok v env' st' => rw [hr] at a; exact a
    | fail st' =>
      rw [hr] at m
      have := ih env { st' with ling := st.ling } h.2
      simp only
      revert this
      cases choiceLoop f es env { st' with ling := st.ling } with
      | ok v env' st'' => simp only [Eats, m.1]; exact id
      | _ => intro _; trivial
    | _ => trivial

theorem parseExpr_eats (hg : ∀ r, nullable nr (g r) = true → nr r = true) :
    ∀ n e env st, nullable nr e = false → Eats st (parseExpr g n e env st) := by
  intro n
  induction n with
  | zero => intros; trivial
  | succ n ih =>
    intro e env st h
    cases e with
    | seq es =>
      exact seqLoop_eats (parseExpr_moves g n) ih st es _ _ _ List.suffix_rfl (Or.inl h)
    | choice es => exact choiceLoop_eats (parseExpr_moves g n) ih es env st h
    | star e => exact absurd h (by simp [nullable])
    | plus e =>
      simp only [nullable] at h
      simp only [parseExpr]
      have := ih e [] st h
      cases hr : parseExpr g n e [] st with
      | ok v env' st' =>
        rw [hr] at this
        have hs := starLoop_moves (fun st => parseExpr_moves g n e [] st) env n [v] st' st' List.suffix_rfl id
        simp only
        revert hs
        cases starLoop (parseExpr g n e []) env n [v] st' with
        | ok v env'' st'' =>
          intro hs
          have := hs.1.length_le
          simp only [Eats] at *
          omega
        | _ => intro _; trivial
      | _ => trivial
    | action e run =>
      simp only [parseExpr]
      have := ih e env st h
      cases hr : parseExpr g n e env st with
      | ok v env' st' =>
        rw [hr] at this
        simp only
        split
        · exact this
        · trivial
      | _ => trivial
    | ref r =>
      simp only [parseExpr]
      have hb : nullable nr (g r) = false := by
        cases hc : nullable nr (g r) with
        | false => rfl
        | true => rw [show nullable nr (.ref r) = nr r from rfl, hg r hc] at h; cases h
      have := ih (g r) [] st hb
      cases hr : parseExpr g n (g r) [] st <;> (rw [hr] at this; exact this)
    | label l e =>
      simp only [parseExpr]
      have := ih e [] st h
      cases hr : parseExpr g n e [] st <;> (rw [hr] at this; exact this)
    | opt e => exact absurd h (by simp [nullable])
    | not e => exact absurd h (by simp [nullable])
    | lit s =>
      simp only [parseExpr]
      have := litLoop_moves s.toList st
      cases hr : litLoop s.toList st with
      | mk b st' =>
        rw [hr] at this
        cases b
        · trivial
        · exact this.2.2.2 rfl (by intro hc; simp [nullable, hc] at h)
    | cls a b =>
      simp only [parseExpr]
      split
      · trivial
      · next r t hr =>
        split
        · simp only [Eats, St.read, hr]; simp
        · trivial
    | any =>
      simp only [parseExpr]
      split
      · trivial
      · next r t hr => simp only [Eats, St.read, hr]; simp
    | code run => exact absurd h (by simp [nullable])

theorem ev_eats (hg : ∀ r, nullable nr (g r) = true → nr r = true) (e : Expr) (env : Env) (st : St)
    (h : nullable nr e = false) : Eats st (ev g e env st) := by
  obtain ⟨N, hN⟩ := ev_eventually g e env st
  rw [← hN N (Nat.le_refl _)]
  exact parseExpr_eats hg N e env st h

/-! ## Termination -/

mutual
/-- Size, for induction. -/
def Expr.size : Expr → Nat
  | .action e _ => e.size + 1
  | .seq es => sizeList es + 1
  | .choice es => sizeList es + 1
  | .label _ e => e.size + 1
  | .star e => e.size + 1
  | .plus e => e.size + 1
  | .opt e => e.size + 1
  | .not e => e.size + 1
  | _ => 1
def sizeList : List Expr → Nat
  | [] => 0
  | e :: es => e.size + sizeList es + 1
end

/-- Everything terminates on shorter input, and with smaller rank or size on input of this length. -/
structure Before (nr : RuleName → Bool) (rank : RuleName → Nat) (top : Nat) (g : RuleName → Expr)
    (L k s : Nat) : Prop where
  shorter : ∀ e, guarded nr rank top top e = true → ∀ env st, st.rest.length < L → ev g e env st ≠ .timeout
  smaller : ∀ e, guarded nr rank top k e = true → e.size < s → ∀ env st, st.rest.length = L →
    ev g e env st ≠ .timeout

mutual
theorem guarded_mono {k k' : Nat} (h : k ≤ k') : ∀ e, guarded nr rank top k e = true →
    (k' ≤ top) → guarded nr rank top k' e = true
  | .action e _, hg, ht => guarded_mono h e hg ht
  | .seq es, hg, ht => guardedSeq_mono h es hg ht
  | .choice es, hg, ht => guardedAll_mono h es hg ht
  | .ref r, hg, _ => by simp only [guarded, decide_eq_true_eq] at hg ⊢; omega
  | .label _ e, hg, ht => guarded_mono h e hg ht
  | .star e, hg, ht => by
    simp only [guarded, Bool.and_eq_true] at hg ⊢
    exact ⟨⟨guarded_mono h e hg.1.1 ht, hg.1.2⟩, hg.2⟩
  | .plus e, hg, ht => by
    simp only [guarded, Bool.and_eq_true] at hg ⊢
    exact ⟨⟨guarded_mono h e hg.1.1 ht, hg.1.2⟩, hg.2⟩
  | .opt e, hg, ht => guarded_mono h e hg ht
  | .not e, hg, ht => guarded_mono h e hg ht
  | .lit _, _, _ => rfl
  | .cls _ _, _, _ => rfl
  | .any, _, _ => rfl
  | .code _, _, _ => rfl
theorem guardedSeq_mono {k k' : Nat} (h : k ≤ k') : ∀ es, guardedSeq nr rank top k es = true →
    (k' ≤ top) → guardedSeq nr rank top k' es = true
  | [], _, _ => rfl
  | e :: es, hg, ht => by
    simp only [guardedSeq, Bool.and_eq_true] at hg ⊢
    refine ⟨guarded_mono h e hg.1 ht, ?_⟩
    split
    · next hn => rw [if_pos hn] at hg; exact guardedSeq_mono h es hg.2 ht
    · next hn => rw [if_neg hn] at hg; exact hg.2
theorem guardedAll_mono {k k' : Nat} (h : k ≤ k') : ∀ es, guardedAll nr rank top k es = true →
    (k' ≤ top) → guardedAll nr rank top k' es = true
  | [], _, _ => rfl
  | e :: es, hg, ht => by
    simp only [guardedAll, Bool.and_eq_true] at hg ⊢
    exact ⟨guarded_mono h e hg.1 ht, guardedAll_mono h es hg.2 ht⟩
end

theorem seq_terminates (hn : ∀ r, nullable nr (g r) = true → nr r = true) {L k s : Nat} (hk : k ≤ top)
    (B : Before nr rank top g L k s) (start : St) (es : List Expr) : ∀ vals env st,
    ((st.rest.length = L ∧ guardedSeq nr rank top k es = true ∧ sizeList es < s) ∨
      (st.rest.length < L ∧ guardedSeq nr rank top top es = true)) →
    seqLoop (ev g) start es vals env st ≠ .timeout := by
  induction es with
  | nil => intro vals env st _ h; cases h
  | cons e es ih =>
    intro vals env st h
    simp only [seqLoop]
    have hm := ev_moves g e env st
    have he := ev_eats (g := g) hn e env st
    have ht : ev g e env st ≠ .timeout := by
      rcases h with ⟨h1, h2, h3⟩ | ⟨h1, h2⟩
      · simp only [guardedSeq, Bool.and_eq_true] at h2
        simp only [sizeList] at h3
        exact B.smaller e h2.1 (by omega) env st h1
      · simp only [guardedSeq, Bool.and_eq_true] at h2
        exact B.shorter e h2.1 env st h1
    cases hr : ev g e env st with
    | timeout => exact absurd hr ht
    | panic => intro hc; cases hc
    | fail st' => intro hc; cases hc
    | ok v env' st' =>
      rw [hr] at hm he
      refine ih _ _ _ ?_
      have hl := hm.1.length_le
      rcases h with ⟨h1, h2, h3⟩ | ⟨h1, h2⟩
      · simp only [guardedSeq, Bool.and_eq_true] at h2
        simp only [sizeList] at h3
        by_cases hlt : st'.rest.length < L
        · right
          refine ⟨hlt, ?_⟩
          have := h2.2
          split at this
          · exact guardedSeq_mono hk es this (Nat.le_refl _)
          · exact this
        · left
          refine ⟨by omega, ?_, by omega⟩
          have := h2.2
          split at this
          · exact this
          · next hc =>
            have := he (by simpa using hc)
            simp only [Eats] at this
            omega
      · simp only [guardedSeq, Bool.and_eq_true] at h2
        right
        refine ⟨by omega, ?_⟩
        have := h2.2
        split at this <;> exact this
theorem choice_terminates {L k s : Nat} (B : Before nr rank top g L k s) (es : List Expr) : ∀ env st,
    st.rest.length = L → guardedAll nr rank top k es = true → sizeList es < s →
    choiceLoop (ev g) es env st ≠ .timeout := by
  induction es with
  | nil => intro env st _ _ _ h; cases h
  | cons e es ih =>
    intro env st h1 h2 h3
    simp only [guardedAll, Bool.and_eq_true] at h2
    simp only [sizeList] at h3
    simp only [choiceLoop]
    have hm := ev_moves g e [] st
    have ht := B.smaller e h2.1 (by omega) [] st h1
    cases hr : ev g e [] st with
    | timeout => exact absurd hr ht
    | panic => intro hc; cases hc
    | ok v env' st' => intro hc; cases hc
    | fail st' =>
      rw [hr] at hm
      exact ih env _ (by simp only [hm.1]; exact h1) h2.2 (by omega)

theorem star_terminates {e : Expr} {env : Env} {L : Nat} (hm : ∀ st, st.rest.length < L → ev g e [] st ≠ .timeout)
    (he : ∀ st, Eats st (ev g e [] st)) :
    ∀ n vals st, st.rest.length ≤ n → n < L → evStar g e env vals st ≠ .timeout := by
  intro n
  induction n with
  | zero =>
    intro vals st h hL
    rw [evStar_eq]
    have h1 := hm st (by omega)
    have h2 := he st
    cases hr : ev g e [] st with
    | timeout => exact absurd hr h1
    | panic => intro hc; cases hc
    | fail st' => intro hc; cases hc
    | ok v env' st' => rw [hr] at h2; simp only [Eats] at h2; omega
  | succ n ih =>
    intro vals st h hL
    rw [evStar_eq]
    have h1 := hm st (by omega)
    have h2 := he st
    cases hr : ev g e [] st with
    | timeout => exact absurd hr h1
    | panic => intro hc; cases hc
    | fail st' => intro hc; cases hc
    | ok v env' st' =>
      rw [hr] at h2
      simp only [Eats] at h2
      exact ih _ _ (by omega) (by omega)

/-- A well-formed grammar makes every guarded expression terminate. -/
theorem ev_terminates (W : WellFormed nr rank top g) : ∀ L k, k ≤ top → ∀ s e, guarded nr rank top k e = true →
    e.size ≤ s → ∀ env st, st.rest.length = L → ev g e env st ≠ .timeout := by
  intro L
  induction L using Nat.strongRecOn with
  | _ L ihL =>
    intro k
    induction k using Nat.strongRecOn with
    | _ k ihk =>
      intro hk s
      induction s with
      | zero => intro e _ hs; cases e <;> simp [Expr.size] at hs
      | succ s ihs =>
        intro e hg hs env st hst
        have B : Before nr rank top g L k (s + 1) :=
          ⟨fun e hg env st hl => ihL _ hl top (Nat.le_refl _) e.size e hg (Nat.le_refl _) env st rfl,
            fun e hg hl env st h => ihs e hg (by omega) env st h⟩
        have loop : ∀ e, guarded nr rank top top e = true → nullable nr e = false → ∀ env vals st',
            st'.rest.length < L → evStar g e env vals st' ≠ .timeout := by
          intro e ht hn env vals st' hl
          exact star_terminates (fun st h => B.shorter e ht [] st h)
            (fun st => ev_eats W.null e [] st hn) _ vals st' (Nat.le_refl _) hl
        cases e with
        | seq es =>
          rw [ev_seq]
          simp only [Expr.size] at hs
          exact seq_terminates W.null hk B st es _ _ _ (Or.inl ⟨hst, hg, by omega⟩)
        | choice es =>
          rw [ev_choice]
          simp only [Expr.size] at hs
          exact choice_terminates B es _ _ hst hg (by omega)
        | action e run =>
          rw [ev_action]
          simp only [Expr.size] at hs
          have := B.smaller e hg (by omega) env st hst
          cases hr : ev g e env st with
          | timeout => exact absurd hr this
          | ok v env' st' =>
            simp only [actRes]
            split <;> (intro hc; cases hc)
          | _ => intro hc; cases hc
        | ref r =>
          rw [ev_ref]
          simp only [guarded, decide_eq_true_eq] at hg
          have := ihk (rank r) hg (by omega) (g r).size (g r) (W.guard r) (Nat.le_refl _) [] st hst
          cases hr : ev g (g r) [] st with
          | timeout => exact absurd hr this
          | _ => intro hc; cases hc
        | label l e =>
          rw [ev_label]
          simp only [Expr.size] at hs
          have := B.smaller e hg (by omega) [] st hst
          cases hr : ev g e [] st with
          | timeout => exact absurd hr this
          | _ => intro hc; cases hc
        | opt e =>
          rw [ev_opt]
          simp only [Expr.size] at hs
          have := B.smaller e hg (by omega) [] st hst
          cases hr : ev g e [] st with
          | timeout => exact absurd hr this
          | _ => intro hc; cases hc
        | not e =>
          rw [ev_not]
          simp only [Expr.size] at hs
          have := B.smaller e hg (by omega) [] st hst
          cases hr : ev g e [] st with
          | timeout => exact absurd hr this
          | _ => intro hc; cases hc
        | star e =>
          simp only [Expr.size] at hs
          simp only [guarded, Bool.and_eq_true, Bool.not_eq_true'] at hg
          rw [ev_star, evStar_eq]
          have h1 := B.smaller e hg.1.1 (by omega) [] st hst
          have h2 := ev_eats W.null e [] st hg.2
          cases hr : ev g e [] st with
          | timeout => exact absurd hr h1
          | ok v env' st' =>
            rw [hr] at h2
            simp only [Eats] at h2
            exact loop e hg.1.2 hg.2 _ _ _ (by omega)
          | _ => intro hc; cases hc
        | plus e =>
          simp only [Expr.size] at hs
          simp only [guarded, Bool.and_eq_true, Bool.not_eq_true'] at hg
          rw [ev_plus]
          have h1 := B.smaller e hg.1.1 (by omega) [] st hst
          have h2 := ev_eats W.null e [] st hg.2
          cases hr : ev g e [] st with
          | timeout => exact absurd hr h1
          | ok v env' st' =>
            rw [hr] at h2
            simp only [Eats] at h2
            exact loop e hg.1.2 hg.2 _ _ _ (by omega)
          | _ => intro hc; cases hc
        | lit s =>
          rw [ev_lit]
          split <;> (intro hc; cases hc)
        | cls a b =>
          rw [ev_cls]
          split
          · intro hc; cases hc
          · split <;> (intro hc; cases hc)
        | any =>
          rw [ev_any]
          split <;> (intro hc; cases hc)
        | code run => rw [ev_code]; intro hc; cases hc

end Verif.Peg
