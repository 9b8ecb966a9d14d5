import Verif.PegDiag
import Verif.PegSound
/-!
# Positions in the text, and the parser of `Verif/PegDiag.lean` as the parser of `Verif/Peg.lean`
-/
namespace Verif.Peg
open Verif Verif.Ast

set_option linter.unusedSimpArgs false
set_option linter.unusedVariables false

/-! ## Positions, as specified -/

/-- The end of a text after its last line feed, backwards. -/
def lastLine (t : List Rune) : List Rune := t.reverse.takeWhile (fun r => r.char != '\n')

/-- The number of line feeds in a text. -/
def newlines (t : List Rune) : Nat := (t.filter (fun r => r.char == '\n')).length

/-- The number of bytes of a text. -/
def byteLength (t : List Rune) : Nat := (t.map Rune.width).sum

/-- The position of the `k`-th rune of a text. Lines count from 1, and a line feed belongs to the line it begins, where it has
column 0; other columns count from 1. The end of the text is one column after the last rune. -/
def posAt (rs : List Rune) (k : Nat) : Pos :=
  ⟨1 + newlines (rs.take (k + 1)), (lastLine (rs.take (k + 1))).length + (if k < rs.length then 0 else 1),
    byteLength (rs.take k)⟩

theorem width_pos (r : Rune) : 0 < r.width := by
  cases r with
  | ok c => exact c.utf8Size_pos
  | bad b => exact Nat.one_pos

theorem byteLength_append (a b : List Rune) : byteLength (a ++ b) = byteLength a + byteLength b := by
  simp [byteLength]

theorem lastLine_snoc (t : List Rune) (r : Rune) :
    lastLine (t ++ [r]) = if r.char = '\n' then [] else r :: lastLine t := by
  simp only [lastLine, List.reverse_append, List.reverse_cons, List.reverse_nil, List.nil_append, List.singleton_append,
    List.takeWhile_cons]
  by_cases h : r.char = '\n' <;> simp [h]

theorem newlines_snoc (t : List Rune) (r : Rune) : newlines (t ++ [r]) = newlines t + if r.char = '\n' then 1 else 0 := by
  by_cases h : r.char = '\n' <;> simp [newlines, h]

/-- Offsets tell positions apart. -/
theorem posAt_lt {rs : List Rune} {k k' : Nat} (h : k < k') (hk : k' ≤ rs.length) :
    (posAt rs k).offset < (posAt rs k').offset := by
  have : rs.take k' = rs.take k ++ (rs.drop k).take (k' - k) := by
    rw [← List.take_add]; congr 1; omega
  simp only [posAt]
  rw [this, byteLength_append]
  have h1 : (rs.drop k).take (k' - k) ≠ [] := by
    simp only [ne_eq, List.take_eq_nil_iff, List.drop_eq_nil_iff, not_or]
    omega
  cases h2 : (rs.drop k).take (k' - k) with
  | nil => exact absurd h2 h1
  | cons a l =>
    have := width_pos a
    simp only [byteLength, List.map_cons, List.sum_cons]
    omega

theorem posAt_offset_inj {rs : List Rune} {k k' : Nat} (hk : k ≤ rs.length) (hk' : k' ≤ rs.length)
    (h : (posAt rs k).offset = (posAt rs k').offset) : k = k' := by
  rcases Nat.lt_trichotomy k k' with hlt | rfl | hlt
  · have := posAt_lt hlt hk'; omega
  · rfl
  · have := posAt_lt hlt hk; omega

theorem posAt_offset_lt {rs : List Rune} {k k' : Nat} (hk : k ≤ rs.length) (hk' : k' ≤ rs.length) :
    (posAt rs k).offset < (posAt rs k').offset ↔ k < k' := by
  constructor
  · intro h
    rcases Nat.lt_or_ge k k' with hlt | hge
    · exact hlt
    · rcases Nat.lt_or_eq_of_le hge with hlt | rfl
      · have := posAt_lt hlt hk; omega
      · omega
  · intro h; exact posAt_lt h hk'

/-! ## States at a position -/

/-- The state looks at the `k`-th rune. -/
structure At (rs : List Rune) (k : Nat) (st : DSt) : Prop where
  le : k ≤ rs.length
  rest : st.rest = rs.drop k
  pos : st.pos = posAt rs k

/-- Invalid bytes up to the current position have been recorded. -/
def Full (rs : List Rune) (k : Nat) (st : DSt) : Prop :=
  ∀ i r, i ≤ k → rs[i]? = some r → r.isBad = true → ∃ x ∈ st.errs, x.inner = .encoding ∧ x.pos = posAt rs i

theorem Full.errs {rs : List Rune} {k : Nat} {st st' : DSt} (h : Full rs k st) (he : st.errs <+: st'.errs) : Full rs k st' := by
  intro i r hi hr hb
  obtain ⟨x, hx, h1⟩ := h i r hi hr hb
  exact ⟨x, he.subset hx, h1⟩

/-- What holds throughout a run. -/
def Inv (rs : List Rune) (st : DSt) : Prop := ∃ k, At rs k st ∧ Full rs k st

theorem headBad_drop {rs : List Rune} {k : Nat} {r : Rune} (h : rs[k]? = some r) : headBad (rs.drop k) = r.isBad := by
  rw [List.getElem?_eq_some_iff] at h
  obtain ⟨hl, rfl⟩ := h
  rw [List.drop_eq_getElem_cons hl]; rfl

theorem look_errs (rule : Option RuleName) (rest : List Rune) (o : Nat) (st : DSt) : st.errs <+: (st.look rule rest o).errs := by
  simp only [DSt.look]
  split
  · exact List.prefix_append _ _
  · exact List.prefix_rfl

theorem read_at {rs : List Rune} {k : Nat} {st : DSt} (rule : Option RuleName) (h : At rs k st) (hk : k < rs.length) :
    At rs (k + 1) (st.read rule) := by
  obtain ⟨h1, h2, h3⟩ := h
  have hd : st.rest.drop 1 = rs.drop (k + 1) := by rw [h2, List.drop_drop]
  have hw : headWidth st.rest = (rs[k]).width := by rw [h2, List.drop_eq_getElem_cons hk]; rfl
  have ho : (posAt rs k).offset + headWidth st.rest = byteLength (rs.take (k + 1)) := by
    rw [hw, List.take_succ_eq_append_getElem hk, byteLength_append]; simp [posAt, byteLength]
  refine ⟨hk, hd, ?_⟩
  simp only [DSt.read, DSt.look, hd, h3, ho]
  by_cases hk1 : k + 1 < rs.length
  · have e : rs.take (k + 1 + 1) = rs.take (k + 1) ++ [rs[k + 1]] := List.take_succ_eq_append_getElem hk1
    have hn : headNewline (rs.drop (k + 1)) = (rs[k + 1].char == '\n') := by rw [List.drop_eq_getElem_cons hk1]; rfl
    rw [hn]
    simp only [posAt, e, newlines_snoc, lastLine_snoc, hk, hk1, if_true]
    by_cases hc : rs[k + 1].char = '\n'
    · simp only [hc, beq_self_eq_true, if_true, List.length_nil]; rfl
    · simp [hc]
  · have e : k + 1 = rs.length := by omega
    have hn : headNewline (rs.drop (k + 1)) = false := by rw [e, List.drop_length]; rfl
    rw [hn]
    have e1 : rs.take (k + 1) = rs := by rw [e, List.take_length]
    have e2 : rs.take (k + 1 + 1) = rs := List.take_of_length_le (by omega)
    simp only [posAt, e1, e2, hk, if_true]
    rw [if_neg (by omega : ¬ k + 1 < rs.length)]
    simp

theorem read_full {rs : List Rune} {k : Nat} {st : DSt} (rule : Option RuleName) (h : At rs k st) (hk : k < rs.length)
    (hf : Full rs k st) : Full rs (k + 1) (st.read rule) := by
  intro i r hi hr hb
  rcases Nat.lt_or_eq_of_le hi with hlt | rfl
  · obtain ⟨x, hx, h1⟩ := hf i r (by omega) hr hb
    exact ⟨x, (look_errs _ _ _ _).subset hx, h1⟩
  · have ha := read_at rule h hk
    have hd : st.rest.drop 1 = rs.drop (k + 1) := by rw [h.rest, List.drop_drop]
    have hb' : headBad (st.rest.drop 1) = true := by rw [hd, headBad_drop hr]; exact hb
    refine ⟨⟨rule, (st.read rule).pos, .encoding⟩, ?_, rfl, ha.pos⟩
    simp only [DSt.read, DSt.look, hb', if_true]
    simp

theorem read_inv {rs : List Rune} {st : DSt} (rule : Option RuleName) (h : Inv rs st) (hr : st.rest ≠ []) :
    Inv rs (st.read rule) := by
  obtain ⟨k, ha, hf⟩ := h
  have hk : k < rs.length := by
    rcases Nat.lt_or_ge k rs.length with hlt | hge
    · exact hlt
    · exact absurd (by rw [ha.rest, List.drop_eq_nil_iff]; exact hge) hr
  exact ⟨k + 1, read_at rule ha hk, read_full rule ha hk hf⟩

theorem start_at (rs : List Rune) : At rs 0 (startD rs) := by
  refine ⟨Nat.zero_le _, rfl, ?_⟩
  cases rs with
  | nil => rfl
  | cons r t =>
    simp only [startD, DSt.look, headNewline, posAt, List.take_succ_cons, List.take_zero]
    rw [show [r] = [] ++ [r] from rfl, newlines_snoc, lastLine_snoc]
    by_cases hc : r.char = '\n' <;> simp [hc, newlines, lastLine, byteLength]

theorem full_zero (rs : List Rune) : Full rs 0 (startD rs) := by
  intro i r hi hr hb
  obtain rfl : i = 0 := by omega
  refine ⟨⟨none, (startD rs).pos, .encoding⟩, ?_, rfl, (start_at rs).pos⟩
  have : headBad rs = true := by rw [← List.drop_zero (l := rs), headBad_drop hr]; exact hb
  simp [startD, DSt.look, this]

theorem start_inv (rs : List Rune) : Inv rs (startD rs) := ⟨0, start_at rs, full_zero rs⟩

/-- Going back is what it seems to be: the offset tells whether there is something to do. -/
theorem restore_eq {rs : List Rune} {st saved : DSt} (h : Inv rs st) (h' : Inv rs saved) :
    st.restore saved = { st with rest := saved.rest, pos := saved.pos } := by
  obtain ⟨k, ha, _⟩ := h
  obtain ⟨k', ha', _⟩ := h'
  unfold DSt.restore
  split
  · next he =>
    rw [ha.pos, ha'.pos] at he
    obtain rfl := posAt_offset_inj ha'.le ha.le he
    rw [show saved.rest = st.rest by rw [ha.rest, ha'.rest], show saved.pos = st.pos by rw [ha.pos, ha'.pos]]
  · rfl

theorem Inv.errs {rs : List Rune} {st st' : DSt} (h : Inv rs st) (hr : st'.rest = st.rest) (hp : st'.pos = st.pos)
    (he : st.errs ⊆ st'.errs) : Inv rs st' := by
  obtain ⟨k, ha, hf⟩ := h
  refine ⟨k, ⟨ha.le, hr.trans ha.rest, hp.trans ha.pos⟩, fun i r hi hr hb => ?_⟩
  obtain ⟨x, hx, h1⟩ := hf i r hi hr hb
  exact ⟨x, he hx, h1⟩

theorem restore_inv {rs : List Rune} {st saved : DSt} (h : Inv rs st) (h' : Inv rs saved) (he : saved.errs ⊆ st.errs) :
    Inv rs (st.restore saved) := by
  rw [restore_eq h h']
  exact h'.errs rfl rfl he

theorem back_eq {rs : List Rune} {st saved : DSt} (h : Inv rs st) (h' : Inv rs saved) :
    st.back saved = { st with rest := saved.rest, pos := saved.pos, ling := saved.ling } := by
  unfold DSt.back
  rw [restore_eq (h.errs (st' := { st with ling := saved.ling }) rfl rfl (fun _ => id)) h']

theorem back_inv {rs : List Rune} {st saved : DSt} (h : Inv rs st) (h' : Inv rs saved) (he : saved.errs ⊆ st.errs) :
    Inv rs (st.back saved) := by
  rw [back_eq h h']
  exact h'.errs rfl rfl he

@[simp] theorem failAt_rest (i f : Bool) (p : Pos) (w : List Char) (st : DSt) : (st.failAt i f p w).rest = st.rest := by
  unfold DSt.failAt; repeat' split
  all_goals rfl
@[simp] theorem failAt_pos (i f : Bool) (p : Pos) (w : List Char) (st : DSt) : (st.failAt i f p w).pos = st.pos := by
  unfold DSt.failAt; repeat' split
  all_goals rfl
@[simp] theorem failAt_ling (i f : Bool) (p : Pos) (w : List Char) (st : DSt) : (st.failAt i f p w).ling = st.ling := by
  unfold DSt.failAt; repeat' split
  all_goals rfl
@[simp] theorem failAt_errs (i f : Bool) (p : Pos) (w : List Char) (st : DSt) : (st.failAt i f p w).errs = st.errs := by
  unfold DSt.failAt; repeat' split
  all_goals rfl

theorem failAt_inv {rs : List Rune} {st : DSt} (i f : Bool) (p : Pos) (w : List Char) (h : Inv rs st) :
    Inv rs (st.failAt i f p w) := h.errs (by simp) (by simp) (by simp)

/-! ## The same parser -/

/-- What `Verif/Peg.lean` keeps of a state. -/
def DSt.forget (st : DSt) : St := ⟨st.rest, st.ling, !st.errs.isEmpty⟩

/-- Results agree, and what holds throughout a run holds afterwards. -/
def Same (rs : List Rune) (st : DSt) : DR → R → Prop
  | .ok v env st', .ok v' env' s => v' = v ∧ env' = env ∧ st'.forget = s ∧ Inv rs st' ∧ st.errs <+: st'.errs
  | .fail st', .fail s => st'.forget = s ∧ Inv rs st' ∧ st.errs <+: st'.errs
  | .panic, .panic => True
  | .timeout, .timeout => True
  | _, _ => False

theorem Same.errs {rs : List Rune} {a b : DSt} {r : DR} {s : R} (h : Same rs b r s) (hp : a.errs <+: b.errs) : Same rs a r s := by
  cases r <;> cases s <;> first | exact h.elim | trivial | skip
  · exact ⟨h.1, h.2.1, h.2.2.1, h.2.2.2.1, hp.trans h.2.2.2.2⟩
  · exact ⟨h.1, h.2.1, hp.trans h.2.2⟩

theorem not_isEmpty_of_prefix {a b : List PErr} (h : a <+: b) : (!b.isEmpty) = (!a.isEmpty || !b.isEmpty) := by
  obtain ⟨t, rfl⟩ := h
  cases a <;> simp

theorem forget_read (rule : Option RuleName) (st : DSt) : (st.read rule).forget = st.forget.read := by
  simp only [DSt.forget, DSt.read, DSt.look, St.read]
  congr 1
  cases headBad (List.drop 1 st.rest) <;> simp

theorem forget_back {rs : List Rune} {st saved : DSt} (h : Inv rs st) (h' : Inv rs saved) :
    (st.back saved).forget = st.forget.back saved.forget := by
  rw [back_eq h h']; rfl

theorem forget_restore {rs : List Rune} {st saved : DSt} (h : Inv rs st) (h' : Inv rs saved) (hl : st.ling = saved.ling) :
    (st.restore saved).forget = st.forget.back saved.forget := by
  rw [restore_eq h h']; simp [DSt.forget, St.back, hl]

@[simp] theorem forget_failAt (i f : Bool) (p : Pos) (w : List Char) (st : DSt) :
    (st.failAt i f p w).forget = st.forget := by simp [DSt.forget]

@[simp] theorem forget_slice (a b : DSt) : St.slice a.forget b.forget = DSt.slice a b := rfl

theorem dLitLoop_same {rs : List Rune} (rule : Option RuleName) (cs : List Char) : ∀ st, Inv rs st →
    (dLitLoop rule cs st).1 = (litLoop cs st.forget).1 ∧ (dLitLoop rule cs st).2.forget = (litLoop cs st.forget).2 ∧
    Inv rs (dLitLoop rule cs st).2 ∧ st.errs <+: (dLitLoop rule cs st).2.errs ∧ (dLitLoop rule cs st).2.ling = st.ling := by
  induction cs with
  | nil => intro st h; exact ⟨rfl, rfl, h, List.prefix_rfl, rfl⟩
  | cons c cs ih =>
    intro st h
    simp only [dLitLoop, litLoop]
    have hr' : st.forget.rest = st.rest := rfl
    rw [hr']
    cases hr : st.rest with
    | nil => exact ⟨rfl, rfl, h, List.prefix_rfl, rfl⟩
    | cons r t =>
      simp only
      split
      · obtain ⟨h1, h2, h3, h4, h5⟩ := ih (st.read rule) (read_inv rule h (by rw [hr]; simp))
        rw [forget_read] at h1 h2
        exact ⟨h1, h2, h3, (look_errs _ _ _ _).trans h4, h5⟩
      · exact ⟨rfl, rfl, h, List.prefix_rfl, rfl⟩

theorem dSeqLoop_same {rs : List Rune} {f : Expr → Env → DSt → DR} {f' : Expr → Env → St → R}
    (hf : ∀ e env st, Inv rs st → Same rs st (f e env st) (f' e env st.forget)) (start : DSt) (hs : Inv rs start) (es : List Expr) :
    ∀ vals env st, Inv rs st → start.errs <+: st.errs →
      Same rs start (dSeqLoop f start es vals env st) (seqLoop f' start.forget es vals env st.forget) := by
  induction es with
  | nil => intro vals env st hi hp; exact ⟨rfl, rfl, rfl, hi, hp⟩
  | cons e es ih =>
    intro vals env st hi hp
    have h := hf e env st hi
    simp only [dSeqLoop, seqLoop]
    cases hr : f e env st <;> cases hr' : f' e env st.forget <;> rw [hr, hr'] at h <;> first | exact h.elim | trivial | skip
    · obtain ⟨rfl, rfl, rfl, h1, h2⟩ := h
      exact ih _ _ _ h1 (hp.trans h2)
    · obtain ⟨rfl, h1, h2⟩ := h
      refine ⟨forget_back h1 hs, back_inv h1 hs (hp.trans h2).subset, ?_⟩
      rw [back_eq h1 hs]; exact hp.trans h2

theorem dChoiceLoop_same {rs : List Rune} {f : Expr → Env → DSt → DR} {f' : Expr → Env → St → R}
    (hf : ∀ e env st, Inv rs st → Same rs st (f e env st) (f' e env st.forget)) (es : List Expr) :
    ∀ env st, Inv rs st → Same rs st (dChoiceLoop f es env st) (choiceLoop f' es env st.forget) := by
  induction es with
  | nil => intro env st hi; exact ⟨rfl, hi, List.prefix_rfl⟩
  | cons e es ih =>
    intro env st hi
    have h := hf e [] st hi
    simp only [dChoiceLoop, choiceLoop]
    cases hr : f e [] st <;> cases hr' : f' e [] st.forget <;> rw [hr, hr'] at h <;> first | exact h.elim | trivial | skip
    · obtain ⟨rfl, rfl, rfl, h1, h2⟩ := h
      exact ⟨rfl, rfl, rfl, h1, h2⟩
    · next st' s =>
      obtain ⟨rfl, h1, h2⟩ := h
      exact (ih env { st' with ling := st.ling } (h1.errs rfl rfl (fun _ => id))).errs h2

theorem dStarLoop_same {rs : List Rune} {f : DSt → DR} {f' : St → R}
    (hf : ∀ st, Inv rs st → Same rs st (f st) (f' st.forget)) (env : Env) : ∀ n vals st, Inv rs st →
      Same rs st (dStarLoop f env n vals st) (starLoop f' env n vals st.forget) := by
  intro n
  induction n with
  | zero => intros; trivial
  | succ n ih =>
    intro vals st hi
    have h := hf st hi
    simp only [dStarLoop, starLoop]
    cases hr : f st <;> cases hr' : f' st.forget <;> rw [hr, hr'] at h <;> first | exact h.elim | trivial | skip
    · obtain ⟨rfl, rfl, rfl, h1, h2⟩ := h
      exact (ih _ _ h1).errs h2

/-- The parser with positions is the parser without. -/
theorem parseD_same {rs : List Rune} (g : RuleName → Expr) : ∀ n rule inv e env st, Inv rs st →
    Same rs st (parseD g n rule inv e env st) (parseExpr g n e env st.forget) := by
  intro n
  induction n with
  | zero => intros; trivial
  | succ n ih =>
    intro rule inv e env st hi
    cases e with
    | action e run =>
      simp only [parseD, parseExpr]
      have h := ih rule inv e env st hi
      cases hr : parseD g n rule inv e env st <;> cases hr' : parseExpr g n e env st.forget <;> rw [hr, hr'] at h <;>
        first | exact h.elim | trivial | skip
      · next v env1 st' v' env' s =>
        obtain ⟨rfl, rfl, rfl, h1, h2⟩ := h
        simp only [forget_slice]
        have hl : st'.forget.ling = st'.ling := rfl
        rw [hl]
        cases hrun : run env' (DSt.slice st st') st'.ling with
        | none => trivial
        | some p =>
          obtain ⟨v, err⟩ := p
          refine ⟨rfl, rfl, ?_, ?_, ?_⟩
          · cases err <;> simp [DSt.forget]
          · refine h1.errs rfl rfl ?_
            cases err <;> simp
          · cases err
            · exact h2
            · exact h2.trans (List.prefix_append _ _)
    | seq es => exact dSeqLoop_same (ih rule inv) st hi es [] env st hi List.prefix_rfl
    | choice es => exact dChoiceLoop_same (ih rule inv) es env st hi
    | ref r =>
      simp only [parseD, parseExpr]
      have h := ih (some r) inv (g r) [] st hi
      cases hr : parseD g n (some r) inv (g r) [] st <;> cases hr' : parseExpr g n (g r) [] st.forget <;> rw [hr, hr'] at h <;>
        first | exact h.elim | trivial | skip
      · obtain ⟨rfl, rfl, rfl, h1, h2⟩ := h
        exact ⟨rfl, rfl, rfl, h1, h2⟩
    | label l e =>
      simp only [parseD, parseExpr]
      have h := ih rule inv e [] st hi
      cases hr : parseD g n rule inv e [] st <;> cases hr' : parseExpr g n e [] st.forget <;> rw [hr, hr'] at h <;>
        first | exact h.elim | trivial | skip
      · obtain ⟨rfl, rfl, rfl, h1, h2⟩ := h
        exact ⟨rfl, rfl, rfl, h1, h2⟩
    | star e => exact dStarLoop_same (fun st h => ih rule inv e [] st h) env n [] st hi
    | plus e =>
      simp only [parseD, parseExpr]
      have h := ih rule inv e [] st hi
      cases hr : parseD g n rule inv e [] st <;> cases hr' : parseExpr g n e [] st.forget <;> rw [hr, hr'] at h <;>
        first | exact h.elim | trivial | skip
      · obtain ⟨rfl, rfl, rfl, h1, h2⟩ := h
        exact (dStarLoop_same (fun st h => ih rule inv e [] st h) env n _ _ h1).errs h2
    | opt e =>
      simp only [parseD, parseExpr]
      have h := ih rule inv e [] st hi
      cases hr : parseD g n rule inv e [] st <;> cases hr' : parseExpr g n e [] st.forget <;> rw [hr, hr'] at h <;>
        first | exact h.elim | trivial | skip
      · obtain ⟨rfl, rfl, rfl, h1, h2⟩ := h
        exact ⟨rfl, rfl, rfl, h1, h2⟩
    | not e =>
      simp only [parseD, parseExpr]
      have h := ih rule (!inv) e [] st hi
      cases hr : parseD g n rule (!inv) e [] st <;> cases hr' : parseExpr g n e [] st.forget <;> rw [hr, hr'] at h <;>
        first | exact h.elim | trivial | skip
      · obtain ⟨rfl, rfl, rfl, h1, h2⟩ := h
        refine ⟨forget_back h1 hi, back_inv h1 hi h2.subset, ?_⟩
        rw [back_eq h1 hi]; exact h2
      · obtain ⟨rfl, h1, h2⟩ := h
        refine ⟨rfl, rfl, forget_back h1 hi, back_inv h1 hi h2.subset, ?_⟩
        rw [back_eq h1 hi]; exact h2
    | lit s =>
      simp only [parseD, parseExpr]
      obtain ⟨h1, h2, h3, h4, h5⟩ := dLitLoop_same rule s.toList st hi
      cases hr : dLitLoop rule s.toList st with
      | mk b st' =>
        cases hr' : litLoop s.toList st.forget with
        | mk b' s' =>
          rw [hr, hr'] at h1 h2
          rw [hr] at h3 h4 h5
          simp only at h1 h2 h3 h4 h5
          subst h1 h2
          cases b with
          | true => exact ⟨rfl, rfl, by simp, failAt_inv _ _ _ _ h3, by simpa using h4⟩
          | false =>
            have hf := failAt_inv inv false st.pos (litWant s) h3
            refine ⟨?_, restore_inv hf hi (by simpa using h4.subset), ?_⟩
            · rw [forget_restore hf hi (by simpa using h5)]; simp
            · rw [restore_eq hf hi]; simpa using h4
    | cls a b =>
      simp only [parseD, parseExpr]
      have hr' : st.forget.rest = st.rest := rfl
      rw [hr']
      cases hr : st.rest with
      | nil => exact ⟨by simp, failAt_inv _ _ _ _ hi, by simp⟩
      | cons r t =>
        simp only
        split
        · exact ⟨rfl, rfl, by simp [forget_read], failAt_inv _ _ _ _ (read_inv rule hi (by rw [hr]; simp)), by
            rw [failAt_errs]; exact look_errs _ _ _ _⟩
        · exact ⟨by simp, failAt_inv _ _ _ _ hi, by simp⟩
    | any =>
      simp only [parseD, parseExpr]
      have hr' : st.forget.rest = st.rest := rfl
      rw [hr']
      cases hr : st.rest with
      | nil => exact ⟨by simp, failAt_inv _ _ _ _ hi, by simp⟩
      | cons r t =>
        exact ⟨rfl, rfl, by simp [forget_read], failAt_inv _ _ _ _ (read_inv rule hi (by rw [hr]; simp)), by
            rw [failAt_errs]; exact look_errs _ _ _ _⟩
    | code run => exact ⟨rfl, rfl, rfl, hi.errs rfl rfl (fun _ => id), List.prefix_rfl⟩

end Verif.Peg
