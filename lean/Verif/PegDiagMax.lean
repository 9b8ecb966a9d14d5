import Verif.PegDiagPos
/-!
# The farthest position where a match failed

What the parser attempts to match is specified here, without an order, as a relation between an expression evaluated at a
place in the text and the terminals evaluated in the course of that. The bookkeeping of `failAt` is shown to keep the
farthest of the failed attempts.
-/
namespace Verif.Peg
open Verif Verif.Ast

set_option linter.unusedSimpArgs false
set_option linter.unusedVariables false

/-! ## Attempts, as specified -/

/-- A terminal matches at the start of a text. -/
def Matches : Expr → List Rune → Prop
  | .lit s, t => s.toList <+: t.map Rune.char
  | .cls a b, t => ∃ r t', t = r :: t' ∧ (r.char ∈ a ∨ ∃ p ∈ b, p.1 ≤ r.char ∧ r.char ≤ p.2)
  | .any, t => t ≠ []
  | _, _ => False

/-- `Tries g e env st n t u`: evaluating `e` at `st` evaluates the terminal `t` at `u`, within an odd number of negations if
`n`. -/
inductive Tries (g : RuleName → Expr) : Expr → Env → St → Bool → Expr → St → Prop
  | lit (s env st) : Tries g (.lit s) env st false (.lit s) st
  | cls (a b env st) : Tries g (.cls a b) env st false (.cls a b) st
  | any (env st) : Tries g .any env st false .any st
  | action {e run env st n t u} : Tries g e env st n t u → Tries g (.action e run) env st n t u
  | seqHead {e es env st n t u} : Tries g e env st n t u → Tries g (.seq (e :: es)) env st n t u
  | seqTail {e es env st v env' st' n t u} : ev g e env st = .ok v env' st' → Tries g (.seq es) env' st' n t u →
      Tries g (.seq (e :: es)) env st n t u
  | choiceHead {e es env st n t u} : Tries g e [] st n t u → Tries g (.choice (e :: es)) env st n t u
  | choiceTail {e es env st st' n t u} : ev g e [] st = .fail st' → Tries g (.choice es) env { st' with ling := st.ling } n t u →
      Tries g (.choice (e :: es)) env st n t u
  | ref {r env st n t u} : Tries g (g r) [] st n t u → Tries g (.ref r) env st n t u
  | label {l e env st n t u} : Tries g e [] st n t u → Tries g (.label l e) env st n t u
  | starHead {e env st n t u} : Tries g e [] st n t u → Tries g (.star e) env st n t u
  | starTail {e env st v env' st' n t u} : ev g e [] st = .ok v env' st' → Tries g (.star e) env st' n t u →
      Tries g (.star e) env st n t u
  | plusHead {e env st n t u} : Tries g e [] st n t u → Tries g (.plus e) env st n t u
  | plusTail {e env st v env' st' n t u} : ev g e [] st = .ok v env' st' → Tries g (.star e) env st' n t u →
      Tries g (.plus e) env st n t u
  | opt {e env st n t u} : Tries g e [] st n t u → Tries g (.opt e) env st n t u
  | not {e env st n t u} : Tries g e [] st n t u → Tries g (.not e) env st (!n) t u

/-- How a terminal is shown in a message, negated or not. -/
def shown (n : Bool) (t : Expr) : List Char :=
  (if n then ['!'] else []) ++ match t with
    | .lit s => litWant s
    | .cls a b => clsWant a b
    | .any => ['.']
    | _ => []

/-- Evaluating `e` at `st` meets something unexpected at the `i`-th rune: a terminal that does not match or, within an odd
number of negations (those of `e` and one more if `inv`), a terminal that does. The terminal is shown as `w`. -/
def Blame (rs : List Rune) (g : RuleName → Expr) (e : Expr) (env : Env) (st : St) (inv : Bool) (i : Nat) (w : List Char) : Prop :=
  ∃ n t u, Tries g e env st n t u ∧ i ≤ rs.length ∧ u.rest = rs.drop i ∧
    ((n ^^ inv) = true ↔ Matches t u.rest) ∧ w = shown (n ^^ inv) t

section
variable {rs : List Rune} {g : RuleName → Expr} {inv : Bool} {i : Nat} {w : List Char} {env : Env} {st : St}

theorem blame_action {e : Expr} {run : Act} : Blame rs g (.action e run) env st inv i w ↔ Blame rs g e env st inv i w := by
  constructor
  · rintro ⟨n, t, u, h, r⟩; cases h with | action h => exact ⟨n, t, u, h, r⟩
  · rintro ⟨n, t, u, h, r⟩; exact ⟨n, t, u, .action h, r⟩

theorem blame_seq_nil : ¬ Blame rs g (.seq []) env st inv i w := by
  rintro ⟨n, t, u, h, r⟩; cases h

theorem blame_seq {e : Expr} {es : List Expr} : Blame rs g (.seq (e :: es)) env st inv i w ↔
    Blame rs g e env st inv i w ∨ ∃ v env' st', ev g e env st = .ok v env' st' ∧ Blame rs g (.seq es) env' st' inv i w := by
  constructor
  · rintro ⟨n, t, u, h, r⟩
    cases h with
    | seqHead h => exact .inl ⟨n, t, u, h, r⟩
    | seqTail h1 h => exact .inr ⟨_, _, _, h1, n, t, u, h, r⟩
  · rintro (⟨n, t, u, h, r⟩ | ⟨v, env', st', h1, n, t, u, h, r⟩)
    · exact ⟨n, t, u, .seqHead h, r⟩
    · exact ⟨n, t, u, .seqTail h1 h, r⟩

theorem blame_choice_nil : ¬ Blame rs g (.choice []) env st inv i w := by
  rintro ⟨n, t, u, h, r⟩; cases h

theorem blame_choice {e : Expr} {es : List Expr} : Blame rs g (.choice (e :: es)) env st inv i w ↔
    Blame rs g e [] st inv i w ∨
      ∃ st', ev g e [] st = .fail st' ∧ Blame rs g (.choice es) env { st' with ling := st.ling } inv i w := by
  constructor
  · rintro ⟨n, t, u, h, r⟩
    cases h with
    | choiceHead h => exact .inl ⟨n, t, u, h, r⟩
    | choiceTail h1 h => exact .inr ⟨_, h1, n, t, u, h, r⟩
  · rintro (⟨n, t, u, h, r⟩ | ⟨st', h1, n, t, u, h, r⟩)
    · exact ⟨n, t, u, .choiceHead h, r⟩
    · exact ⟨n, t, u, .choiceTail h1 h, r⟩

theorem blame_ref {r : RuleName} : Blame rs g (.ref r) env st inv i w ↔ Blame rs g (g r) [] st inv i w := by
  constructor
  · rintro ⟨n, t, u, h, r⟩; cases h with | ref h => exact ⟨n, t, u, h, r⟩
  · rintro ⟨n, t, u, h, r⟩; exact ⟨n, t, u, .ref h, r⟩

theorem blame_label {l : String} {e : Expr} : Blame rs g (.label l e) env st inv i w ↔ Blame rs g e [] st inv i w := by
  constructor
  · rintro ⟨n, t, u, h, r⟩; cases h with | label h => exact ⟨n, t, u, h, r⟩
  · rintro ⟨n, t, u, h, r⟩; exact ⟨n, t, u, .label h, r⟩

theorem blame_opt {e : Expr} : Blame rs g (.opt e) env st inv i w ↔ Blame rs g e [] st inv i w := by
  constructor
  · rintro ⟨n, t, u, h, r⟩; cases h with | opt h => exact ⟨n, t, u, h, r⟩
  · rintro ⟨n, t, u, h, r⟩; exact ⟨n, t, u, .opt h, r⟩

theorem blame_star {e : Expr} : Blame rs g (.star e) env st inv i w ↔
    Blame rs g e [] st inv i w ∨ ∃ v env' st', ev g e [] st = .ok v env' st' ∧ Blame rs g (.star e) env st' inv i w := by
  constructor
  · rintro ⟨n, t, u, h, r⟩
    cases h with
    | starHead h => exact .inl ⟨n, t, u, h, r⟩
    | starTail h1 h => exact .inr ⟨_, _, _, h1, n, t, u, h, r⟩
  · rintro (⟨n, t, u, h, r⟩ | ⟨v, env', st', h1, n, t, u, h, r⟩)
    · exact ⟨n, t, u, .starHead h, r⟩
    · exact ⟨n, t, u, .starTail h1 h, r⟩

theorem blame_plus {e : Expr} : Blame rs g (.plus e) env st inv i w ↔
    Blame rs g e [] st inv i w ∨ ∃ v env' st', ev g e [] st = .ok v env' st' ∧ Blame rs g (.star e) env st' inv i w := by
  constructor
  · rintro ⟨n, t, u, h, r⟩
    cases h with
    | plusHead h => exact .inl ⟨n, t, u, h, r⟩
    | plusTail h1 h => exact .inr ⟨_, _, _, h1, n, t, u, h, r⟩
  · rintro (⟨n, t, u, h, r⟩ | ⟨v, env', st', h1, n, t, u, h, r⟩)
    · exact ⟨n, t, u, .plusHead h, r⟩
    · exact ⟨n, t, u, .plusTail h1 h, r⟩

theorem not_xor' (n inv : Bool) : ((!n) ^^ inv) = (n ^^ !inv) := by cases n <;> cases inv <;> rfl

theorem blame_not {e : Expr} : Blame rs g (.not e) env st inv i w ↔ Blame rs g e [] st (!inv) i w := by
  constructor
  · rintro ⟨n, t, u, h, r⟩
    cases h with | not h => rw [not_xor'] at r; exact ⟨_, t, u, h, r⟩
  · rintro ⟨n, t, u, h, r⟩; refine ⟨!n, t, u, .not h, ?_⟩; rw [not_xor']; exact r

theorem blame_code {run : Code} : ¬ Blame rs g (.code run) env st inv i w := by
  rintro ⟨n, t, u, h, r⟩; cases h

end

/-! ## The bookkeeping -/

/-- `maxFailPos` and `maxFailExpected` hold the farthest of the events in `S`. -/
def Farthest (rs : List Rune) (S : Nat → List Char → Prop) (st : DSt) : Prop :=
  ∃ m, m ≤ rs.length ∧ (st.maxPos = posAt rs m ∨ m = 0 ∧ st.maxPos = ⟨1, 1, 0⟩) ∧ (∀ i w, S i w → i ≤ m) ∧
    (∀ w, w ∈ st.maxExp ↔ S m w) ∧ (m = 0 ∨ ∃ w, S m w) ∧ Full rs m st

theorem Farthest.congr {rs : List Rune} {S T : Nat → List Char → Prop} {st st' : DSt} (h : Farthest rs S st)
    (hS : ∀ i w, S i w ↔ T i w) (h1 : st'.maxPos = st.maxPos) (h2 : st'.maxExp = st.maxExp)
    (h3 : st.errs <+: st'.errs := by exact List.prefix_refl _) : Farthest rs T st' := by
  obtain ⟨m, a, b, c, d, e, f⟩ := h
  exact ⟨m, a, by rw [h1]; exact b, fun i w hT => c i w ((hS i w).2 hT), fun w => by rw [h2, d, hS],
    e.imp_right fun ⟨w, h⟩ => ⟨w, (hS _ _).1 h⟩, f.errs h3⟩

/-- Events of a result. -/
def FarthestR (rs : List Rune) (S : Nat → List Char → Prop) : DR → Prop
  | .ok _ _ st => Farthest rs S st
  | .fail st => Farthest rs S st
  | _ => True

theorem FarthestR.congr {rs : List Rune} {S T : Nat → List Char → Prop} {r : DR} (h : FarthestR rs S r)
    (hS : ∀ i w, S i w ↔ T i w) : FarthestR rs T r := by
  cases r <;> first | trivial | exact Farthest.congr h hS rfl rfl

theorem failAt_farthest {rs : List Rune} {S : Nat → List Char → Prop} {st : DSt} (h : Farthest rs S st) (inv fail : Bool) {k : Nat}
    (hk : k ≤ rs.length) (hfl : Full rs k st) (w : List Char) :
    Farthest rs (fun i x => S i x ∨ fail = inv ∧ i = k ∧ x = if inv then '!' :: w else w) (st.failAt inv fail (posAt rs k) w) := by
  obtain ⟨m, hm, hp, hS, hx, hne, hfu⟩ := h
  have ho : st.maxPos.offset = (posAt rs m).offset := by
    rcases hp with hp | ⟨rfl, hp⟩
    · rw [hp]
    · rw [hp]; rfl
  unfold DSt.failAt
  by_cases hf : fail = inv
  · simp only [hf, if_true, true_and]
    by_cases hlt : (posAt rs k).offset < st.maxPos.offset
    · rw [if_pos hlt]
      rw [ho, posAt_offset_lt hk hm] at hlt
      refine ⟨m, hm, hp, ?_, fun x => ?_, hne.imp_right fun ⟨w, h⟩ => ⟨w, .inl h⟩, hfu⟩
      · rintro i x (h | ⟨rfl, _⟩)
        · exact hS i x h
        · omega
      · rw [hx]
        constructor
        · exact .inl
        · rintro (h | ⟨rfl, _⟩)
          · exact h
          · omega
    · rw [if_neg hlt]
      rw [ho, posAt_offset_lt hk hm] at hlt
      by_cases hgt : (posAt rs k).offset > st.maxPos.offset
      · simp only [hgt, if_true]
        rw [gt_iff_lt, ho, posAt_offset_lt hm hk] at hgt
        refine ⟨k, hk, .inl rfl, ?_, fun x => ?_, .inr ⟨_, .inr ⟨rfl, rfl⟩⟩, hfl⟩
        · rintro i x (h | ⟨rfl, _⟩)
          · have := hS i x h; omega
          · omega
        · simp only [List.nil_append, List.mem_singleton, true_and]
          constructor
          · exact .inr
          · rintro (h | h)
            · have := hS k x h; omega
            · exact h
      · simp only [hgt, if_false]
        rw [gt_iff_lt, ho, posAt_offset_lt hm hk] at hgt
        obtain rfl : k = m := by omega
        refine ⟨k, hk, hp, ?_, fun x => ?_, .inr ⟨_, .inr ⟨rfl, rfl⟩⟩, hfl⟩
        · rintro i x (h | ⟨rfl, _⟩)
          · exact hS i x h
          · omega
        · simp [hx]
  · simp only [hf, if_false, false_and, or_false]
    exact ⟨m, hm, hp, hS, hx, hne, hfu⟩

theorem back_max (st saved : DSt) : (st.back saved).maxPos = st.maxPos ∧ (st.back saved).maxExp = st.maxExp := by
  unfold DSt.back DSt.restore; split <;> exact ⟨rfl, rfl⟩

theorem restore_max (st saved : DSt) : (st.restore saved).maxPos = st.maxPos ∧ (st.restore saved).maxExp = st.maxExp := by
  unfold DSt.restore; split <;> exact ⟨rfl, rfl⟩

theorem back_errs' (st saved : DSt) : st.errs <+: (st.back saved).errs := by
  unfold DSt.back DSt.restore; split <;> exact List.prefix_refl _

theorem restore_errs' (st saved : DSt) : st.errs <+: (st.restore saved).errs := by
  unfold DSt.restore; split <;> exact List.prefix_refl _

theorem dLitLoop_max (rule : Option RuleName) (cs : List Char) : ∀ st,
    (dLitLoop rule cs st).2.maxPos = st.maxPos ∧ (dLitLoop rule cs st).2.maxExp = st.maxExp ∧
    ((dLitLoop rule cs st).1 = true ↔ cs <+: st.rest.map Rune.char) := by
  induction cs with
  | nil => intro st; exact ⟨rfl, rfl, by simp [dLitLoop]⟩
  | cons c cs ih =>
    intro st
    simp only [dLitLoop]
    cases hr : st.rest with
    | nil => exact ⟨rfl, rfl, by simp⟩
    | cons r t =>
      simp only
      split
      · next hc =>
        obtain ⟨h1, h2, h3⟩ := ih (st.read rule)
        refine ⟨h1, h2, h3.trans ?_⟩
        have : (st.read rule).rest = t := by simp [DSt.read, DSt.look, hr]
        rw [this, List.map_cons, List.cons_prefix_cons]
        simp [hc]
      · next hc =>
        refine ⟨rfl, rfl, ?_⟩
        rw [List.map_cons, List.cons_prefix_cons]
        simp [Ne.symm hc]

/-- A result continues `st` with the value of `e`. -/
def Reached (rs : List Rune) (g : RuleName → Expr) (e : Expr) (env : Env) (st : DSt) : DR → Prop
  | .ok v env' st' => Inv rs st' ∧ ev g e env st.forget = .ok v env' st'.forget
  | .fail st' => Inv rs st' ∧ ev g e env st.forget = .fail st'.forget
  | _ => True

theorem parseD_reached {rs : List Rune} (g : RuleName → Expr) (n : Nat) (rule : Option RuleName) (inv : Bool) (e : Expr) (env : Env)
    (st : DSt) (hi : Inv rs st) : Reached rs g e env st (parseD g n rule inv e env st) := by
  have h := parseD_same g n rule inv e env st hi
  cases hr : parseD g n rule inv e env st <;> cases hr' : parseExpr g n e env st.forget <;> rw [hr, hr'] at h <;>
    first | exact h.elim | trivial | skip
  · obtain ⟨rfl, rfl, rfl, h1, h2⟩ := h
    exact ⟨h1, by rw [ev_of_parse (by rw [hr']; simp), hr']⟩
  · obtain ⟨rfl, h1, h2⟩ := h
    exact ⟨h1, by rw [ev_of_parse (by rw [hr']; simp), hr']⟩

section
variable {rs : List Rune} {g : RuleName → Expr} {inv : Bool}

theorem ex_ok {P : Val → Env → St → Prop} {v : Val} {env : Env} {st : St} :
    (∃ v' env' st', R.ok v env st = .ok v' env' st' ∧ P v' env' st') ↔ P v env st := by
  constructor
  · rintro ⟨_, _, _, h, hp⟩; cases h; exact hp
  · intro h; exact ⟨_, _, _, rfl, h⟩

theorem dSeqLoop_farthest {f : Expr → Env → DSt → DR} (hf : ∀ e env st, Inv rs st → Reached rs g e env st (f e env st))
    (hm : ∀ e env st S, Inv rs st → Farthest rs S st →
      FarthestR rs (fun i w => S i w ∨ Blame rs g e env st.forget inv i w) (f e env st)) (start : DSt) (es : List Expr) :
    ∀ vals env st S, Inv rs st → Farthest rs S st →
      FarthestR rs (fun i w => S i w ∨ Blame rs g (.seq es) env st.forget inv i w) (dSeqLoop f start es vals env st) := by
  induction es with
  | nil => intro vals env st S hi h; exact h.congr (by simp [blame_seq_nil]) rfl rfl
  | cons e es ih =>
    intro vals env st S hi h
    have h1 := hf e env st hi
    have h2 := hm e env st S hi h
    simp only [dSeqLoop]
    cases hr : f e env st with
    | ok v env' st' =>
      rw [hr] at h1 h2
      refine (ih (vals ++ [v]) env' st' _ h1.1 h2).congr fun i w => ?_
      rw [or_assoc, blame_seq (st := st.forget), h1.2, ex_ok]
    | fail st' =>
      rw [hr] at h1 h2
      refine Farthest.congr h2 (fun i w => ?_) (back_max _ _).1 (back_max _ _).2 (back_errs' _ _)
      rw [blame_seq]
      simp [h1.2]
    | _ => trivial

theorem dChoiceLoop_farthest {f : Expr → Env → DSt → DR} (hf : ∀ e env st, Inv rs st → Reached rs g e env st (f e env st))
    (hm : ∀ e env st S, Inv rs st → Farthest rs S st →
      FarthestR rs (fun i w => S i w ∨ Blame rs g e env st.forget inv i w) (f e env st)) (es : List Expr) :
    ∀ env st S, Inv rs st → Farthest rs S st →
      FarthestR rs (fun i w => S i w ∨ Blame rs g (.choice es) env st.forget inv i w) (dChoiceLoop f es env st) := by
  induction es with
  | nil => intro env st S hi h; exact Farthest.congr h (by simp [blame_choice_nil]) rfl rfl
  | cons e es ih =>
    intro env st S hi h
    have h1 := hf e [] st hi
    have h2 := hm e [] st S hi h
    simp only [dChoiceLoop]
    cases hr : f e [] st with
    | ok v env' st' =>
      rw [hr] at h1 h2
      refine Farthest.congr h2 (fun i w => ?_) rfl rfl
      rw [blame_choice]
      simp [h1.2]
    | fail st' =>
      rw [hr] at h1 h2
      have h3 := ih env { st' with ling := st.ling } _ (h1.1.errs rfl rfl (fun _ => id)) (Farthest.congr h2 (fun _ _ => Iff.rfl) rfl rfl)
      refine h3.congr fun i w => ?_
      rw [blame_choice, or_assoc]
      simp only [h1.2, R.fail.injEq, exists_eq_left']
      exact Iff.rfl
    | _ => trivial

theorem dStarLoop_farthest {e : Expr} {f : DSt → DR} (hf : ∀ st, Inv rs st → Reached rs g e [] st (f st))
    (hm : ∀ st S, Inv rs st → Farthest rs S st →
      FarthestR rs (fun i w => S i w ∨ Blame rs g e [] st.forget inv i w) (f st)) (env : Env) :
    ∀ n vals st S, Inv rs st → Farthest rs S st →
      FarthestR rs (fun i w => S i w ∨ Blame rs g (.star e) env st.forget inv i w) (dStarLoop f env n vals st) := by
  intro n
  induction n with
  | zero => intros; trivial
  | succ n ih =>
    intro vals st S hi h
    have h1 := hf st hi
    have h2 := hm st S hi h
    simp only [dStarLoop]
    cases hr : f st with
    | ok v env' st' =>
      rw [hr] at h1 h2
      refine (ih (vals ++ [v]) st' _ h1.1 h2).congr fun i w => ?_
      rw [or_assoc, blame_star (e := e) (st := st.forget), h1.2, ex_ok]
    | fail st' =>
      rw [hr] at h1 h2
      refine Farthest.congr h2 (fun i w => ?_) rfl rfl
      rw [blame_star]
      simp [h1.2]
    | _ => trivial

/-- A terminal leaves the events it stands for. -/
theorem blame_terminal {t : Expr} {env : Env} {st : DSt} {k : Nat} (ha : At rs k st)
    (ht : ∀ n t' u, Tries g t env st.forget n t' u ↔ n = false ∧ t' = t ∧ u = st.forget) {fail : Bool}
    (hf : fail = true ↔ Matches t st.rest) (i : Nat) (w : List Char) :
    (fail = inv ∧ i = k ∧ w = if inv then '!' :: shown false t else shown false t) ↔ Blame rs g t env st.forget inv i w := by
  have e : (if inv then '!' :: shown false t else shown false t) = shown inv t := by cases inv <;> rfl
  rw [e]
  constructor
  · rintro ⟨rfl, rfl, rfl⟩
    exact ⟨false, t, st.forget, (ht _ _ _).2 ⟨rfl, rfl, rfl⟩, ha.le, ha.rest,
      by rw [Bool.false_xor]; exact hf, by simp⟩
  · rintro ⟨n, t', u, h, hi, hr, hm, rfl⟩
    obtain ⟨rfl, rfl, rfl⟩ := (ht _ _ _).1 h
    have hk : i = k := by
      have h1 : st.rest.length = rs.length - i := by
        have : st.forget.rest = st.rest := rfl
        rw [← this, hr, List.length_drop]
      have h2 : st.rest.length = rs.length - k := by rw [ha.rest, List.length_drop]
      have := ha.le
      omega
    refine ⟨?_, hk, by simp⟩
    have hm' : inv = true ↔ Matches t' st.rest := by rw [Bool.false_xor] at hm; exact hm
    cases fail <;> cases inv <;> simp_all

/-- A run keeps the farthest of the events there were before and of those of the run. -/
theorem parseD_farthest (g : RuleName → Expr) : ∀ n rule inv e env st S, Inv rs st → Farthest rs S st →
    FarthestR rs (fun i w => S i w ∨ Blame rs g e env st.forget inv i w) (parseD g n rule inv e env st) := by
  intro n
  induction n with
  | zero => intros; trivial
  | succ n ih =>
    intro rule inv e env st S hi h
    cases e with
    | action e run =>
      simp only [parseD]
      have h1 := ih rule inv e env st S hi h
      cases hr : parseD g n rule inv e env st with
      | ok v env' st' =>
        rw [hr] at h1
        simp only
        cases hrun : run env' (DSt.slice st st') st'.ling with
        | none => trivial
        | some p =>
          refine Farthest.congr h1 (fun i w => by rw [blame_action]) rfl rfl ?_
          simp only
          split
          · exact List.prefix_append _ _
          · exact List.prefix_refl _
      | fail st' => rw [hr] at h1; exact Farthest.congr h1 (fun i w => by rw [blame_action]) rfl rfl
      | _ => trivial
    | seq es => exact dSeqLoop_farthest (parseD_reached g n rule inv) (ih rule inv) st es [] env st S hi h
    | choice es => exact dChoiceLoop_farthest (parseD_reached g n rule inv) (ih rule inv) es env st S hi h
    | ref r =>
      simp only [parseD]
      have h1 := ih (some r) inv (g r) [] st S hi h
      cases hr : parseD g n (some r) inv (g r) [] st with
      | ok v env' st' => rw [hr] at h1; exact Farthest.congr h1 (fun i w => by rw [blame_ref]) rfl rfl
      | fail st' => rw [hr] at h1; exact Farthest.congr h1 (fun i w => by rw [blame_ref]) rfl rfl
      | _ => trivial
    | label l e =>
      simp only [parseD]
      have h1 := ih rule inv e [] st S hi h
      cases hr : parseD g n rule inv e [] st with
      | ok v env' st' => rw [hr] at h1; exact Farthest.congr h1 (fun i w => by rw [blame_label]) rfl rfl
      | fail st' => rw [hr] at h1; exact Farthest.congr h1 (fun i w => by rw [blame_label]) rfl rfl
      | _ => trivial
    | star e =>
      exact dStarLoop_farthest (parseD_reached g n rule inv e []) (ih rule inv e []) env n [] st S hi h
    | plus e =>
      simp only [parseD]
      have h0 := parseD_reached g n rule inv e [] st hi
      have h1 := ih rule inv e [] st S hi h
      cases hr : parseD g n rule inv e [] st with
      | ok v env' st' =>
        rw [hr] at h0 h1
        refine (dStarLoop_farthest (parseD_reached g n rule inv e []) (ih rule inv e []) env n [v] st' _ h0.1 h1).congr fun i w => ?_
        rw [or_assoc, blame_plus (st := st.forget), h0.2, ex_ok]
      | fail st' =>
        rw [hr] at h0 h1
        refine Farthest.congr h1 (fun i w => ?_) rfl rfl
        rw [blame_plus]
        simp [h0.2]
      | _ => trivial
    | opt e =>
      simp only [parseD]
      have h1 := ih rule inv e [] st S hi h
      cases hr : parseD g n rule inv e [] st with
      | ok v env' st' => rw [hr] at h1; exact Farthest.congr h1 (fun i w => by rw [blame_opt]) rfl rfl
      | fail st' => rw [hr] at h1; exact Farthest.congr h1 (fun i w => by rw [blame_opt]) rfl rfl
      | _ => trivial
    | not e =>
      simp only [parseD]
      have h1 := ih rule (!inv) e [] st S hi h
      cases hr : parseD g n rule (!inv) e [] st with
      | ok v env' st' =>
        rw [hr] at h1
        exact Farthest.congr h1 (fun i w => by rw [blame_not]) (back_max _ _).1 (back_max _ _).2 (back_errs' _ _)
      | fail st' =>
        rw [hr] at h1
        exact Farthest.congr h1 (fun i w => by rw [blame_not]) (back_max _ _).1 (back_max _ _).2 (back_errs' _ _)
      | _ => trivial
    | lit s =>
      simp only [parseD]
      have hle := (dLitLoop_same rule s.toList st hi).2.2.2.1
      obtain ⟨k, ha, hfl⟩ := hi
      obtain ⟨h1, h2, h3⟩ := dLitLoop_max rule s.toList st
      have ht : ∀ n t' u, Tries g (.lit s) env st.forget n t' u ↔ n = false ∧ t' = .lit s ∧ u = st.forget := by
        intro n t' u
        constructor
        · intro h; cases h; exact ⟨rfl, rfl, rfl⟩
        · rintro ⟨rfl, rfl, rfl⟩; exact .lit _ _ _
      cases hr : dLitLoop rule s.toList st with
      | mk b st' =>
        rw [hr] at h1 h2 h3 hle
        have h' : Farthest rs S st' := h.congr (fun _ _ => Iff.rfl) h1 h2 hle
        have hb := blame_terminal (g := g) (inv := inv) ha ht (fail := b) h3
        have h4 := failAt_farthest h' inv b ha.le (hfl.errs hle) (litWant s)
        rw [← ha.pos] at h4
        cases b with
        | true => exact Farthest.congr h4 (fun i w => or_congr Iff.rfl (hb i w)) rfl rfl
        | false =>
          exact Farthest.congr h4 (fun i w => or_congr Iff.rfl (hb i w)) (restore_max _ _).1 (restore_max _ _).2 (restore_errs' _ _)
    | cls a b =>
      simp only [parseD]
      obtain ⟨k, ha, hfl⟩ := hi
      have ht : ∀ n t' u, Tries g (.cls a b) env st.forget n t' u ↔ n = false ∧ t' = .cls a b ∧ u = st.forget := by
        intro n t' u
        constructor
        · intro h; cases h; exact ⟨rfl, rfl, rfl⟩
        · rintro ⟨rfl, rfl, rfl⟩; exact .cls _ _ _ _
      have fin : ∀ (fail : Bool) (st' : DSt), (fail = true ↔ Matches (.cls a b) st.rest) → st'.maxPos = st.maxPos → st'.maxExp = st.maxExp → st.errs <+: st'.errs →
          Farthest rs (fun i w => S i w ∨ Blame rs g (.cls a b) env st.forget inv i w) (st'.failAt inv fail st.pos (clsWant a b)) := by
        intro fail st' hf h1 h2 h3
        have h4 := failAt_farthest (h.congr (st' := st') (fun _ _ => Iff.rfl) h1 h2 h3) inv fail ha.le (hfl.errs h3) (clsWant a b)
        rw [← ha.pos] at h4
        exact h4.congr (fun i w => or_congr Iff.rfl (blame_terminal (g := g) (inv := inv) ha ht hf i w)) rfl rfl
      cases hr : st.rest with
      | nil => exact fin false st (by simp [Matches, hr]) rfl rfl List.prefix_rfl
      | cons r t =>
        have hc : inClass a b r.char = true ↔ Matches (.cls a b) st.rest := by
          simp [Matches, hr, inClass]
        simp only
        split
        · next hin => exact fin true (st.read rule) (by simpa [hin] using hc) rfl rfl (look_errs _ _ _ _)
        · next hin => exact fin false st (by simpa [hin] using hc) rfl rfl List.prefix_rfl
    | any =>
      simp only [parseD]
      obtain ⟨k, ha, hfl⟩ := hi
      have ht : ∀ n t' u, Tries g .any env st.forget n t' u ↔ n = false ∧ t' = .any ∧ u = st.forget := by
        intro n t' u
        constructor
        · intro h; cases h; exact ⟨rfl, rfl, rfl⟩
        · rintro ⟨rfl, rfl, rfl⟩; exact .any _ _
      have fin : ∀ (fail : Bool) (st' : DSt), (fail = true ↔ Matches .any st.rest) → st'.maxPos = st.maxPos → st'.maxExp = st.maxExp → st.errs <+: st'.errs →
          Farthest rs (fun i w => S i w ∨ Blame rs g .any env st.forget inv i w) (st'.failAt inv fail st.pos ['.']) := by
        intro fail st' hf h1 h2 h3
        have h4 := failAt_farthest (h.congr (st' := st') (fun _ _ => Iff.rfl) h1 h2 h3) inv fail ha.le (hfl.errs h3) ['.']
        rw [← ha.pos] at h4
        exact h4.congr (fun i w => or_congr Iff.rfl (blame_terminal (g := g) (inv := inv) ha ht hf i w)) rfl rfl
      cases hr : st.rest with
      | nil => exact fin false st (by simp [Matches, hr]) rfl rfl List.prefix_rfl
      | cons r t => exact fin true (st.read rule) (by simp [Matches, hr]) rfl rfl (look_errs _ _ _ _)
    | code run => exact Farthest.congr h (fun i w => by simp [blame_code]) rfl rfl

end

end Verif.Peg
