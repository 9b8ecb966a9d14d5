import Verif.PegLex
/-!
# What a successful parse tells about the text
-/
namespace Verif.Peg
open Verif Verif.Ast Verif.Syntax

/-! ## Bytes that are not valid UTF-8 -/

/-- An invalid byte that has been looked at is recorded. -/
def Noted (st : St) : Prop := headBad st.rest = true → st.errs = true

/-- From one state to a later one: unless errors are recorded, all that was consumed is valid. -/
structure Adv (st st' : St) : Prop where
  noted : Noted st → Noted st'
  errs : st.errs = true → st'.errs = true
  valid : Noted st → st'.errs = false → ∃ t, st.rest = t ++ st'.rest ∧ ∀ x ∈ t, x.isBad = false

theorem Adv.refl (st : St) : Adv st st := ⟨id, id, fun _ _ => ⟨[], rfl, by simp⟩⟩

theorem Adv.trans {a b c : St} (h : Adv a b) (h' : Adv b c) : Adv a c where
  noted hn := h'.noted (h.noted hn)
  errs he := h'.errs (h.errs he)
  valid hn hc := by
    obtain ⟨t', ht', hv'⟩ := h'.valid (h.noted hn) hc
    have hb : b.errs = false := by
      cases hb : b.errs with
      | false => rfl
      | true => rw [h'.errs hb] at hc; cases hc
    obtain ⟨t, ht, hv⟩ := h.valid hn hb
    refine ⟨t ++ t', by rw [ht, ht', List.append_assoc], fun x hx => ?_⟩
    rcases List.mem_append.1 hx with hx | hx
    · exact hv x hx
    · exact hv' x hx

/-- Going on with the same text. -/
theorem Adv.same {st st' : St} (h : st'.rest = st.rest) (he : st.errs = true → st'.errs = true) : Adv st st' :=
  ⟨fun hn hb => he (hn (by rwa [h] at hb)), he, fun _ _ => ⟨[], by rw [h]; rfl, by simp⟩⟩

theorem Adv.fail {st st' : St} {r : R} (hm : Moves st r) (h : r = .fail st') : Adv st st' := by
  subst h
  exact .same hm.1 hm.2.2

theorem Adv.read (st : St) : Adv st st.read where
  noted _ hb := by simp only [St.read] at hb ⊢; rw [hb]; simp
  errs h := by simp [St.read, h]
  valid hn he := by
    cases hr : st.rest with
    | nil => exact ⟨[], by simp [St.read, hr], by simp⟩
    | cons r t =>
      refine ⟨[r], by simp [St.read, hr], ?_⟩
      intro x hx
      simp only [List.mem_singleton] at hx
      subst hx
      cases hb : x.isBad with
      | false => rfl
      | true =>
        have := hn (by rw [hr]; exact hb)
        simp [St.read, this] at he

/-- The result, if a match, is a later state. -/
def Clean (st : St) : R → Prop
  | .ok _ _ st' => Adv st st'
  | _ => True

theorem litLoop_adv (cs : List Char) : ∀ st, Adv st (litLoop cs st).2 := by
  induction cs with
  | nil => intro st; exact .refl st
  | cons c cs ih =>
    intro st
    simp only [litLoop]
    cases hr : st.rest with
    | nil => exact .refl st
    | cons r t =>
      simp only
      split
      · exact (Adv.read st).trans (ih _)
      · exact .refl st

variable {g : RuleName → Expr}

theorem seqLoop_clean {f : Expr → Env → St → R} (hf : ∀ e env st, Clean st (f e env st)) (start : St)
    (es : List Expr) : ∀ vals env st, Adv start st → Clean start (seqLoop f start es vals env st) := by
  induction es with
  | nil => intro vals env st h; exact h
  | cons e es ih =>
    intro vals env st h
    simp only [seqLoop]
    have := hf e env st
    cases hr : f e env st with
    | ok v env' st' => rw [hr] at this; exact ih _ _ _ (h.trans this)
    | _ => trivial

theorem choiceLoop_clean {f : Expr → Env → St → R} (hm : ∀ e env st, Moves st (f e env st))
    (hf : ∀ e env st, Clean st (f e env st)) (es : List Expr) : ∀ env st, Clean st (choiceLoop f es env st) := by
  induction es with
  | nil => intro env st; trivial
  | cons e es ih =>
    intro env st
    simp only [choiceLoop]
    have := hf e [] st
    have hmv := hm e [] st
    cases hr : f e [] st with
    | ok v env' st' => rw [hr] at this; exact this
    | fail st' =>
      have ha : Adv st { st' with ling := st.ling } := by
        rw [hr] at hmv
        exact .same hmv.1 hmv.2.2
      have hi := ih env { st' with ling := st.ling }
      show Clean st (choiceLoop f es env { st' with ling := st.ling })
      revert hi
      cases choiceLoop f es env { st' with ling := st.ling } with
      | ok v env' st2 => intro hi; exact ha.trans hi
      | _ => intro _; trivial
    | _ => trivial

theorem starLoop_clean {f : St → R} (hm : ∀ st, Moves st (f st)) (hf : ∀ st, Clean st (f st)) (env : Env) :
    ∀ n vals start st, Adv start st → Clean start (starLoop f env n vals st) := by
  intro n
  induction n with
  | zero => intros; trivial
  | succ n ih =>
    intro vals start st h
    simp only [starLoop]
    have := hf st
    have hmv := hm st
    cases hr : f st with
    | ok v env' st' => rw [hr] at this; exact ih _ _ _ (h.trans this)
    | fail st' => exact h.trans (.fail hmv hr)
    | _ => trivial

theorem parseExpr_clean (g : RuleName → Expr) : ∀ n e env st, Clean st (parseExpr g n e env st) := by
  intro n
  induction n with
  | zero => intros; trivial
  | succ n ih =>
    intro e env st
    have mv := parseExpr_moves g n
    cases e with
    | seq es => exact seqLoop_clean ih st es [] env st (.refl st)
    | choice es => exact choiceLoop_clean mv ih es env st
    | star e => exact starLoop_clean (fun st => mv e [] st) (fun st => ih e [] st) env n [] st st (.refl st)
    | plus e =>
      simp only [parseExpr]
      have := ih e [] st
      cases hr : parseExpr g n e [] st with
      | ok v env' st' =>
        rw [hr] at this
        exact starLoop_clean (fun st => mv e [] st) (fun st => ih e [] st) env n [v] st st' this
      | _ => trivial
    | action e run =>
      simp only [parseExpr]
      have := ih e env st
      cases hr : parseExpr g n e env st with
      | ok v env' st' =>
        rw [hr] at this
        simp only
        cases run env' (St.slice st st') st'.ling with
        | none => trivial
        | some x =>
          refine Adv.trans this (.same rfl ?_)
          intro h
          simp [h]
      | _ => trivial
    | ref r =>
      simp only [parseExpr]
      have := ih (g r) [] st
      cases hr : parseExpr g n (g r) [] st with
      | ok v env' st' => rw [hr] at this; exact this
      | _ => trivial
    | label l e =>
      simp only [parseExpr]
      have := ih e [] st
      cases hr : parseExpr g n e [] st with
      | ok v env' st' => rw [hr] at this; exact this
      | _ => trivial
    | opt e =>
      simp only [parseExpr]
      have := ih e [] st
      have hmv := mv e [] st
      cases hr : parseExpr g n e [] st with
      | ok v env' st' => rw [hr] at this; exact this
      | fail st' => exact .fail hmv hr
      | _ => trivial
    | not e =>
      simp only [parseExpr]
      have hmv := mv e [] st
      cases hr : parseExpr g n e [] st with
      | fail st' => rw [hr] at hmv; exact .same rfl hmv.2.2
      | _ => trivial
    | lit s =>
      simp only [parseExpr]
      have := litLoop_adv s.toList st
      cases hr : litLoop s.toList st with
      | mk b st' =>
        rw [hr] at this
        cases b with
        | true => exact this
        | false => trivial
    | cls a b =>
      simp only [parseExpr]
      split
      · trivial
      · split
        · exact .read st
        · trivial
    | any =>
      simp only [parseExpr]
      split
      · trivial
      · exact .read st
    | code run => exact .same rfl id

theorem ev_clean (g : RuleName → Expr) (e : Expr) (env : Env) (st : St) : Clean st (ev g e env st) := by
  obtain ⟨N, hN⟩ := ev_eventually g e env st
  rw [← hN N (Nat.le_refl _)]
  exact parseExpr_clean g N e env st

theorem all_ok {rs : List Rune} (h : ∀ x ∈ rs, x.isBad = false) : ∃ s : List Char, rs = s.map Rune.ok := by
  induction rs with
  | nil => exact ⟨[], rfl⟩
  | cons r rs ih =>
    obtain ⟨s, rfl⟩ := ih (fun x hx => h x (by simp [hx]))
    cases r with
    | ok c => exact ⟨c :: s, rfl⟩
    | bad b => have := h (.bad b) (by simp); cases this

theorem map_ok_inj {a b : List Char} (h : a.map Rune.ok = b.map Rune.ok) : a = b := by
  rw [← char_ok a, h, char_ok]

/-! ## Conditions with positions -/

/-- A relation repeated. -/
inductive Star (M : List Char → List Val → Val → List Char → List Val → Prop) :
    List Char → List Val → List Val → List Char → List Val → Prop
  | nil (s l) : Star M s l [] s l
  | cons {s l v s1 l1 vs s2 l2} : M s l v s1 l1 → Star M s1 l1 vs s2 l2 → Star M s l (v :: vs) s2 l2

theorem Star.snoc {M : List Char → List Val → Val → List Char → List Val → Prop} {s l vs s1 l1 v s2 l2}
    (h : Star M s l vs s1 l1) (hm : M s1 l1 v s2 l2) : Star M s l (vs ++ [v]) s2 l2 := by
  induction h with
  | nil => exact .cons hm (.nil _ _)
  | cons h1 _ ih => exact .cons h1 (ih hm)

/-- A match from one valid text to another without errors. -/
def Ran (g : RuleName → Expr) (e : Expr) (s : List Char) (l : List Val) (v : Val) (s' : List Char) (l' : List Val) : Prop :=
  ∃ env, ev g e [] (C s l false) = .ok v env (C s' l' false)

/-- No match. -/
def Failed (g : RuleName → Expr) (e : Expr) (s : List Char) (l : List Val) : Prop :=
  ∃ st, ev g e [] (C s l false) = .fail st

section
variable (g : RuleName → Expr) (P : RuleName → List Char → List Val → Val → List Char → List Val → Prop)

mutual
/-- A condition under which every match without errors satisfies `K`: from the text and the lingering
declarations to the value, the labels, the text that remains and the lingering declarations then. `P` is what is known
of rules. -/
def WpS : Expr → Env → List Char → List Val → (Val → Env → List Char → List Val → Prop) → Prop
  | .action e run, env, s, l, K => WpS e env s l (fun _ env' s' l' =>
      ∀ t v, s = t ++ s' → run env' (t.map Rune.ok) l' = some (v, false) → K v env' s' l')
  | .seq es, env, s, l, K => WpSSeq es env [] s l K
  | .choice es, env, s, l, K => WpSAll es s l (fun v s' l' => K v env s' l')
  | .ref r, env, s, l, K => ∀ v s' l', P r s l v s' l' → Ran g (.ref r) s l v s' l' → K v env s' l'
  | .label n e, env, s, l, K => WpS e [] s l (fun v _ s' l' => K v ((n, v) :: env) s' l')
  | .star e, env, s, l, K => ∀ vs s' l',
      Star (fun s l v s' l' => ∀ Q : Val → List Char → List Val → Prop,
        WpS e [] s l (fun v _ s' l' => Q v s' l') → Q v s' l') s l vs s' l' → K (.list vs) env s' l'
  | .plus e, env, s, l, K => ∀ vs s' l',
      Star (fun s l v s' l' => ∀ Q : Val → List Char → List Val → Prop,
        WpS e [] s l (fun v _ s' l' => Q v s' l') → Q v s' l') s l vs s' l' → K (.list vs) env s' l'
  | .opt e, env, s, l, K => K .nil env s l ∧ WpS e [] s l (fun v _ s' l' => K v env s' l')
  | .not e, env, s, l, K => Failed g e s l → K .nil env s l
  | .lit t, env, s, l, K => ∀ s', s = t.toList ++ s' → K (.bytes (t.toList.map Rune.ok)) env s' l
  | .cls a r, env, s, l, K => ∀ c s', s = c :: s' → inClass a r c = true → K (.bytes [.ok c]) env s' l
  | .any, env, s, l, K => ∀ c s', s = c :: s' → K (.bytes [.ok c]) env s' l
  | .code run, env, s, l, K => K .nil env s (run env l)
def WpSSeq : List Expr → Env → List Val → List Char → List Val → (Val → Env → List Char → List Val → Prop) → Prop
  | [], env, vs, s, l, K => K (.list vs) env s l
  | e :: es, env, vs, s, l, K => WpS e env s l (fun v env1 s1 l1 => WpSSeq es env1 (vs ++ [v]) s1 l1 K)
def WpSAll : List Expr → List Char → List Val → (Val → List Char → List Val → Prop) → Prop
  | [], _, _, _ => True
  | e :: es, s, l, K => WpS e [] s l (fun v _ s' l' => K v s' l') ∧ (Failed g e s l → WpSAll es s l K)
end

/-- What the conditions tell of one round of a repetition. -/
def Elt (e : Expr) : List Char → List Val → Val → List Char → List Val → Prop :=
  fun s l v s' l' => ∀ Q : Val → List Char → List Val → Prop,
    WpS g P e [] s l (fun v _ s' l' => Q v s' l') → Q v s' l'

end

/-- A match without errors satisfies the condition. -/
def Meets (K : Val → Env → List Char → List Val → Prop) (r : R) : Prop :=
  ∀ v env st, r = .ok v env st → st.errs = false → ∃ s l, st = C s l false ∧ K v env s l

theorem Meets.mono {K K' : Val → Env → List Char → List Val → Prop} {r : R}
    (h : ∀ v env s l, K v env s l → K' v env s l) (hr : Meets K r) : Meets K' r := by
  intro v env st he herr
  obtain ⟨s, l, hs, hk⟩ := hr v env st he herr
  exact ⟨s, l, hs, h _ _ _ _ hk⟩

theorem Meets.fail {K : Val → Env → List Char → List Val → Prop} {st : St} : Meets K (.fail st) := by
  intro v env st' h; cases h

theorem Meets.panic {K : Val → Env → List Char → List Val → Prop} : Meets K .panic := by
  intro v env st' h; cases h

theorem Meets.timeout {K : Val → Env → List Char → List Val → Prop} : Meets K .timeout := by
  intro v env st' h; cases h

theorem Meets.ok {K : Val → Env → List Char → List Val → Prop} {v : Val} {env : Env} {s : List Char} {l : List Val}
    (h : K v env s l) : Meets K (.ok v env (C s l false)) := by
  intro v' env' st' h' _
  cases h'
  exact ⟨s, l, rfl, h⟩

theorem C_inj {s s' : List Char} {l l' : List Val} {b b' : Bool} (h : C s l b = C s' l' b') : s = s' ∧ l = l' := by
  simp only [C, St.mk.injEq] at h
  exact ⟨map_ok_inj h.1, h.2.1⟩

theorem ev_of_parse {n : Nat} {e : Expr} {env : Env} {st : St} (h : parseExpr g n e env st ≠ .timeout) :
    ev g e env st = parseExpr g n e env st := by
  obtain ⟨N, hN⟩ := ev_eventually g e env st
  rw [← hN (max n N) (by omega)]
  exact parseExpr_mono g n (max n N) (by omega) e env st h

section
variable {P : RuleName → List Char → List Val → Val → List Char → List Val → Prop}

theorem seqLoop_errs {f : Expr → Env → St → R} (hm : ∀ e env st, Moves st (f e env st)) (start : St)
    (es : List Expr) : ∀ vals env st v env' st', seqLoop f start es vals env st = .ok v env' st' → st'.errs = false →
      st.errs = false := by
  induction es with
  | nil =>
    intro vals env st v env' st' h he
    simp only [seqLoop, R.ok.injEq] at h
    obtain ⟨rfl, rfl, rfl⟩ := h
    exact he
  | cons e es ih =>
    intro vals env st v env' st' h he
    simp only [seqLoop] at h
    have hmv := hm e env st
    cases hr : f e env st with
    | ok v1 env1 st1 =>
      rw [hr] at h hmv
      have h1 := ih _ _ _ _ _ _ h he
      cases hb : st.errs with
      | false => rfl
      | true => rw [hmv.2 hb] at h1; cases h1
    | _ => rw [hr] at h; cases h

theorem starLoop_errs {f : St → R} (hm : ∀ st, Moves st (f st)) (env : Env) :
    ∀ n vals st v env' st', starLoop f env n vals st = .ok v env' st' → st'.errs = false → st.errs = false := by
  intro n
  induction n with
  | zero => intro vals st v env' st' h; cases h
  | succ n ih =>
    intro vals st v env' st' h he
    simp only [starLoop] at h
    have hmv := hm st
    cases hr : f st with
    | ok v1 env1 st1 =>
      rw [hr] at h hmv
      have h1 := ih _ _ _ _ _ h he
      cases hb : st.errs with
      | false => rfl
      | true => rw [hmv.2 hb] at h1; cases h1
    | fail st1 =>
      rw [hr] at h hmv
      simp only [R.ok.injEq] at h
      obtain ⟨rfl, rfl, rfl⟩ := h
      cases hb : st.errs with
      | false => rfl
      | true => rw [hmv.2.2 hb] at he; cases he
    | _ => rw [hr] at h; cases h

/-- After a failure the state is as before, unless there are errors. -/
theorem fail_state {s : List Char} {l : List Val} {st : St} {r : R} (hm : Moves (C s l false) r) (h : r = .fail st)
    (he : st.errs = false) : st = C s l false := by
  subst h
  obtain ⟨h1, h2, _⟩ := hm
  cases st
  simp only [C_rest, C_ling] at h1 h2 he
  subst h1 h2 he
  rfl

theorem seqLoop_meets {f : Expr → Env → St → R} (hm : ∀ e env st, Moves st (f e env st))
    (hf : ∀ e env s l K, WpS g P e env s l K → Meets K (f e env (C s l false))) (start : St)
    (es : List Expr) : ∀ vals env s l K, WpSSeq g P es env vals s l K →
      Meets K (seqLoop f start es vals env (C s l false)) := by
  induction es with
  | nil =>
    intro vals env s l K h
    exact .ok h
  | cons e es ih =>
    intro vals env s l K h
    simp only [WpSSeq] at h
    simp only [seqLoop]
    have := hf e env s l _ h
    cases hr : f e env (C s l false) with
    | ok v env' st' =>
      intro v2 env2 st2 he herr
      obtain ⟨s', l', rfl, hk⟩ := this v env' st' hr (seqLoop_errs hm start es _ _ _ _ _ _ he herr)
      exact ih _ _ _ _ _ hk v2 env2 st2 he herr
    | fail => exact .fail
    | panic => exact .panic
    | timeout => exact .timeout

theorem choiceLoop_errs {f : Expr → Env → St → R} (hm : ∀ e env st, Moves st (f e env st))
    (es : List Expr) {env : Env} {st : St} {v : Val} {env' : Env} {st' : St}
    (h : choiceLoop f es env st = .ok v env' st') (he : st'.errs = false) : st.errs = false := by
  have := choiceLoop_moves hm es env st
  rw [h] at this
  cases hb : st.errs with
  | false => rfl
  | true => rw [this.2 hb] at he; cases he

theorem choiceLoop_meets {n : Nat}
    (hf : ∀ e env s l K, WpS g P e env s l K → Meets K (parseExpr g n e env (C s l false)))
    (es : List Expr) : ∀ env s l (K : Val → Env → List Char → List Val → Prop),
      WpSAll g P es s l (fun v s' l' => K v env s' l') → Meets K (choiceLoop (parseExpr g n) es env (C s l false)) := by
  have hm := parseExpr_moves g n
  induction es with
  | nil => intro env s l K _; exact .fail
  | cons e es ih =>
    intro env s l K h
    simp only [WpSAll] at h
    simp only [choiceLoop]
    have := hf e [] s l _ h.1
    have hmv := hm e [] (C s l false)
    cases hr : parseExpr g n e [] (C s l false) with
    | ok v env' st' =>
      intro v2 env2 st2 he herr
      simp only [R.ok.injEq] at he
      obtain ⟨rfl, rfl, rfl⟩ := he
      exact this _ _ _ hr herr
    | fail st' =>
      intro v2 env2 st2 he herr
      have h1 := choiceLoop_errs hm es he herr
      have h2 := fail_state hmv hr h1
      subst h2
      have h3 : ev g e [] (C s l false) = .fail (C s l false) := by rw [ev_of_parse (by rw [hr]; simp), hr]
      exact ih env s l K (h.2 ⟨_, h3⟩) v2 env2 st2 he herr
    | panic => exact .panic
    | timeout => exact .timeout

theorem starLoop_meets {f : St → R} {M : List Char → List Val → Val → List Char → List Val → Prop}
    (hm : ∀ st, Moves st (f st))
    (hf : ∀ s l, Meets (fun v _ s' l' => M s l v s' l') (f (C s l false))) (env : Env) :
    ∀ n vals s l s0 l0, Star M s0 l0 vals s l →
      Meets (fun v env' s' l' => env' = env ∧ ∃ vs, v = .list vs ∧ Star M s0 l0 vs s' l')
        (starLoop f env n vals (C s l false)) := by
  intro n
  induction n with
  | zero => intros; exact .timeout
  | succ n ih =>
    intro vals s l s0 l0 h
    simp only [starLoop]
    have := hf s l
    have hmv := hm (C s l false)
    cases hr : f (C s l false) with
    | ok v env' st' =>
      intro v2 env2 st2 he herr
      obtain ⟨s', l', rfl, hk⟩ := this v env' st' hr (starLoop_errs hm env n _ _ _ _ _ he herr)
      exact ih _ s' l' s0 l0 (h.snoc hk) v2 env2 st2 he herr
    | fail st' =>
      intro v2 env2 st2 he herr
      simp only [R.ok.injEq] at he
      obtain ⟨rfl, rfl, rfl⟩ := he
      have h2 := fail_state hmv hr herr
      subst h2
      exact ⟨s, l, rfl, rfl, vals, rfl, h⟩
    | panic => exact .panic
    | timeout => exact .timeout

theorem litLoop_sound {t : List Char} : ∀ {s : List Char} {l : List Val} {b : Bool}, (litLoop t (C s l b)).1 = true →
    ∃ s', s = t ++ s' ∧ (litLoop t (C s l b)).2 = C s' l b := by
  intro s l b h
  by_cases hp : t <+: s
  · obtain ⟨s', rfl⟩ := hp
    exact ⟨s', rfl, by rw [litLoop_ok]⟩
  · rw [(litLoop_fail t s l b hp).1] at h
    cases h

/-- If every rule satisfies its condition, so do all results. -/
theorem parseExpr_meets
    (hg : ∀ r, (∀ s l, WpS g P (g r) [] s l (fun v _ s' l' => P r s l v s' l')) ∨
      ∀ s l v s' l', Ran g (.ref r) s l v s' l' → P r s l v s' l') :
    ∀ n e env s l K, WpS g P e env s l K → Meets K (parseExpr g n e env (C s l false)) := by
  intro n
  induction n with
  | zero => intros; exact .timeout
  | succ n ih =>
    intro e env s l K h
    have mv := parseExpr_moves g n
    have hrep : ∀ e s l, Meets (fun v _ s' l' => Elt g P e s l v s' l') (parseExpr g n e [] (C s l false)) := by
      intro e s l v env' st' he herr
      have hmv := mv e [] (C s l false)
      rw [he] at hmv
      obtain ⟨t, ht⟩ := hmv.1
      have hst : st'.rest = (s.map Rune.ok).drop t.length := by rw [← C_rest s l false, ← ht]; simp
      have hC : st' = C (s.drop t.length) st'.ling false := by
        cases st'
        simp only at hst herr ⊢
        simp only [C, hst, herr, List.map_drop]
      refine ⟨_, _, hC, fun Q hQ => ?_⟩
      obtain ⟨s'', l'', hs'', hq⟩ := ih e [] s l _ hQ v env' st' he herr
      have := C_inj (hs''.symm.trans hC)
      rw [← this.1, ← this.2]
      exact hq
    cases e with
    | seq es => exact seqLoop_meets mv ih (C s l false) es [] env s l K h
    | choice es => exact choiceLoop_meets ih es env s l K h
    | star e =>
      simp only [WpS] at h
      refine (starLoop_meets (M := Elt g P e) (fun st => mv e [] st) (hrep e) env n [] s l s l (.nil _ _)).mono ?_
      rintro v env' s' l' ⟨rfl, vs, rfl, hst⟩
      exact h vs s' l' hst
    | plus e =>
      simp only [WpS] at h
      simp only [parseExpr]
      cases hr : parseExpr g n e [] (C s l false) with
      | ok v env' st' =>
        intro v2 env2 st2 he herr
        obtain ⟨s', l', rfl, hk⟩ := hrep e s l v env' st' hr (starLoop_errs (fun st => mv e [] st) env n _ _ _ _ _ he herr)
        have h2 := starLoop_meets (M := Elt g P e) (fun st => mv e [] st) (hrep e) env n [v] s' l' s l (.cons hk (.nil _ _))
        obtain ⟨s2, l2, hs2, rfl, vs, rfl, hst⟩ := h2 v2 env2 st2 he herr
        exact ⟨s2, l2, hs2, h vs s2 _ hst⟩
      | fail => exact .fail
      | panic => exact .panic
      | timeout => exact .timeout
    | action e run =>
      simp only [WpS] at h
      simp only [parseExpr]
      have := ih e env s l _ h
      cases hr : parseExpr g n e env (C s l false) with
      | ok v env' st' =>
        simp only
        intro v2 env2 st2 he herr
        cases hrun : run env' (St.slice (C s l false) st') st'.ling with
        | none => rw [hrun] at he; cases he
        | some x =>
          obtain ⟨v3, err⟩ := x
          rw [hrun] at he
          simp only [R.ok.injEq] at he
          obtain ⟨rfl, rfl, rfl⟩ := he
          simp only [Bool.or_eq_false_iff] at herr
          obtain ⟨herr, rfl⟩ := herr
          obtain ⟨s', l', rfl, hk⟩ := this v env' st' hr herr
          refine ⟨s', l', rfl, ?_⟩
          have hmv := mv e env (C s l false)
          rw [hr] at hmv
          obtain ⟨t, ht⟩ := hmv.1
          simp only [C_rest] at ht
          have hst : s.length = t.length + s'.length := by
            have := congrArg List.length ht
            simpa using this.symm
          have hsplit : s = s.take t.length ++ s' := by
            have h1 : (s.drop t.length).map Rune.ok = s'.map Rune.ok := by
              rw [List.map_drop, ← ht]
              simp
            have h2 := map_ok_inj h1
            rw [← h2, List.take_append_drop]
          refine hk (s.take t.length) v3 hsplit ?_
          rw [hsplit, slice_C] at hrun
          simp only [C_ling] at hrun
          exact hrun
      | fail => exact .fail
      | panic => exact .panic
      | timeout => exact .timeout
    | ref r =>
      simp only [WpS] at h
      simp only [parseExpr]
      cases hr : parseExpr g n (g r) [] (C s l false) with
      | ok v env' st' =>
        intro v2 env2 st2 he herr
        simp only [R.ok.injEq] at he
        obtain ⟨rfl, rfl, rfl⟩ := he
        have hmv := mv (g r) [] (C s l false)
        rw [hr] at hmv
        obtain ⟨s', l', rfl, -⟩ := hrep (g r) s l _ _ _ hr herr
        have hran : Ran g (.ref r) s l v s' l' := by
          refine ⟨[], ?_⟩
          rw [ev_ref, ev_of_parse (by rw [hr]; simp), hr]
          rfl
        refine ⟨s', l', rfl, h v s' l' ?_ hran⟩
        rcases hg r with hgr | hgr
        · obtain ⟨s2, l2, h1, h2⟩ := ih (g r) [] s l _ (hgr s l) _ _ _ hr herr
          obtain ⟨rfl, rfl⟩ := C_inj h1
          exact h2
        · exact hgr s l v s' l' hran
      | fail => exact .fail
      | panic => exact .panic
      | timeout => exact .timeout
    | label x e =>
      simp only [WpS] at h
      simp only [parseExpr]
      have := ih e [] s l _ h
      cases hr : parseExpr g n e [] (C s l false) with
      | ok v env' st' =>
        intro v2 env2 st2 he herr
        simp only [R.ok.injEq] at he
        obtain ⟨rfl, rfl, rfl⟩ := he
        exact this _ _ _ hr herr
      | fail => exact .fail
      | panic => exact .panic
      | timeout => exact .timeout
    | opt e =>
      simp only [WpS] at h
      simp only [parseExpr]
      have := ih e [] s l _ h.2
      have hmv := mv e [] (C s l false)
      cases hr : parseExpr g n e [] (C s l false) with
      | ok v env' st' =>
        intro v2 env2 st2 he herr
        simp only [R.ok.injEq] at he
        obtain ⟨rfl, rfl, rfl⟩ := he
        exact this _ _ _ hr herr
      | fail st' =>
        intro v2 env2 st2 he herr
        simp only [R.ok.injEq] at he
        obtain ⟨rfl, rfl, rfl⟩ := he
        exact ⟨s, l, fail_state hmv hr herr, h.1⟩
      | panic => exact .panic
      | timeout => exact .timeout
    | not e =>
      simp only [WpS] at h
      simp only [parseExpr]
      have hmv := mv e [] (C s l false)
      cases hr : parseExpr g n e [] (C s l false) with
      | fail st' =>
        intro v2 env2 st2 he herr
        simp only [R.ok.injEq] at he
        obtain ⟨rfl, rfl, rfl⟩ := he
        refine ⟨s, l, ?_, h ⟨st', by rw [ev_of_parse (by rw [hr]; simp), hr]⟩⟩
        simp only [St.back] at herr
        simp only [St.back, herr]
        rfl
      | ok v env' st' => exact .fail
      | panic => exact .panic
      | timeout => exact .timeout
    | lit t =>
      simp only [WpS] at h
      simp only [parseExpr]
      have hq := litLoop_sound (t := t.toList) (s := s) (l := l) (b := false)
      cases hr : litLoop t.toList (C s l false) with
      | mk b st' =>
        rw [hr] at hq
        cases b with
        | false => exact .fail
        | true =>
          obtain ⟨s', rfl, h2⟩ := hq rfl
          simp only at h2
          subst h2
          simp only [slice_C]
          exact .ok (h s' rfl)
    | cls a b =>
      simp only [WpS] at h
      simp only [parseExpr]
      cases s with
      | nil => exact .fail
      | cons c s =>
        show Meets K (if inClass a b c = true then _ else _)
        cases hc : inClass a b c with
        | false => exact .fail
        | true =>
          rw [if_pos rfl, read_C]
          exact .ok (h c s rfl hc)
    | any =>
      simp only [WpS] at h
      simp only [parseExpr]
      cases s with
      | nil => exact .fail
      | cons c s =>
        show Meets K (.ok _ _ (C (c :: s) l false).read)
        rw [read_C]
        exact .ok (h c s rfl)
    | code run =>
      simp only [WpS] at h
      exact Meets.ok (s := s) (l := run env l) h

theorem ev_meets
    (hg : ∀ r, (∀ s l, WpS g P (g r) [] s l (fun v _ s' l' => P r s l v s' l')) ∨
      ∀ s l v s' l', Ran g (.ref r) s l v s' l' → P r s l v s' l') {r : RuleName} {s : List Char} {l : List Val} {v : Val}
    {env : Env} {st : St} (h : ev g (.ref r) [] (C s l false) = .ok v env st) (he : st.errs = false) :
    ∃ s' l', st = C s' l' false ∧ P r s l v s' l' := by
  obtain ⟨N, hN⟩ := ev_eventually g (.ref r) [] (C s l false)
  rw [← hN N (Nat.le_refl _)] at h
  have hw : WpS g P (.ref r) [] s l (fun v _ s' l' => P r s l v s' l') := by
    simp only [WpS]
    exact fun v s' l' hp _ => hp
  exact parseExpr_meets hg N (.ref r) [] s l _ hw v env st h he

end

end Verif.Peg
