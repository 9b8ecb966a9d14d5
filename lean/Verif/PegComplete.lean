import Verif.PegRules
/-!
# Every spelling parses
-/
namespace Verif.Peg
open Verif Verif.Ast Verif.Syntax

set_option linter.unusedSimpArgs false
set_option linter.unusedVariables false

/-! ## Matches and failures that hold in every state -/

/-- The expression matches, with this value and these lingering structs. -/
def Ok (e : Expr) (s : List Char) (v : Val) (h : List Struct) (s' : List Char) : Prop :=
  ∀ env l b, ev rules e env (C s l b) = .ok v env (C s' (l ++ lingers h) b)

/-- The expression matches, with some value. -/
def Skips (e : Expr) (s s' : List Char) : Prop := ∀ env l b, ∃ v, ev rules e env (C s l b) = .ok v env (C s' l b)

/-- The expression does not match. -/
def No (e : Expr) (s : List Char) : Prop := ∀ env l b, ev rules e env (C s l b) = .fail (C s l b)

/-- The expression matches, with a value for which the predicate holds. -/
def Gives (e : Expr) (s : List Char) (P : Val → Prop) (s' : List Char) : Prop :=
  ∀ env l b, ∃ v, P v ∧ ev rules e env (C s l b) = .ok v env (C s' l b)

/-- A sequence matches; the predicate holds for the labels. -/
def Chain (es : List Expr) (s : List Char) (env : Env) (K : Env → Prop) (h : List Struct) (s' : List Char) : Prop :=
  ∀ start vals l b, ∃ vs env', K env' ∧
    seqLoop (ev rules) start es vals env (C s l b) = .ok (.list vs) env' (C s' (l ++ lingers h) b)

/-- A sequence does not match. -/
def NoChain (es : List Expr) (s : List Char) : Prop :=
  ∀ s0 l0 vals env l b, seqLoop (ev rules) (C s0 l0 b) es vals env (C s l b) = .fail (C s0 l0 b)

theorem Ok.skips {e s v s'} (h : Ok e s v [] s') : Skips e s s' := by
  intro env l b
  refine ⟨v, ?_⟩
  rw [h]
  simp

theorem chain_nil {s : List Char} {env : Env} {K : Env → Prop} (h : K env) : Chain [] s env K [] s := by
  intro start vals l b
  exact ⟨vals, env, h, by simp [seqLoop]⟩

theorem chain_skip {e es s s1 env K h s'} (h1 : Skips e s s1) (h2 : Chain es s1 env K h s') :
    Chain (e :: es) s env K h s' := by
  intro start vals l b
  obtain ⟨v, hv⟩ := h1 env l b
  obtain ⟨vs, env', hk, hvs⟩ := h2 start (vals ++ [v]) l b
  exact ⟨vs, env', hk, by rw [seq_ok hv, hvs]⟩

theorem chain_lit {t : String} {es s s1 env K h s'} (h1 : s = t.toList ++ s1) (h2 : Chain es s1 env K h s') :
    Chain (.lit t :: es) s env K h s' := by
  subst h1
  exact chain_skip (fun env l b => ⟨_, lit_ok t env s1 l b⟩) h2

theorem chain_label {n e es s v s1 env K h s'} (h1 : Ok e s v [] s1) (h2 : Chain es s1 ((n, v) :: env) K h s') :
    Chain (.label n e :: es) s env K h s' := by
  intro start vals l b
  obtain ⟨vs, env', hk, hvs⟩ := h2 start (vals ++ [v]) l b
  refine ⟨vs, env', hk, ?_⟩
  rw [seq_ok (label_ok (h1 [] l b))]
  simpa using hvs

theorem chain_gives {n e es s P s1 env K h s'} (h1 : Gives e s P s1)
    (h2 : ∀ v, P v → Chain es s1 ((n, v) :: env) K h s') : Chain (.label n e :: es) s env K h s' := by
  intro start vals l b
  obtain ⟨v, hp, hv⟩ := h1 [] l b
  obtain ⟨vs, env', hk, hvs⟩ := h2 v hp start (vals ++ [v]) l b
  refine ⟨vs, env', hk, ?_⟩
  rw [seq_ok (label_ok hv)]
  exact hvs

theorem chain_label' {n e es s v s1 env K h h' s'} (h1 : Ok e s v h s1)
    (h2 : Chain es s1 ((n, v) :: env) K h' s') : Chain (.label n e :: es) s env K (h ++ h') s' := by
  intro start vals l b
  obtain ⟨vs, env', hk, hvs⟩ := h2 start (vals ++ [v]) (l ++ lingers h) b
  refine ⟨vs, env', hk, ?_⟩
  rw [seq_ok (label_ok (h1 [] l b)), hvs]
  simp

theorem nochain_here {e es s} (h : No e s) : NoChain (e :: es) s := by
  intro s0 l0 vals env l b
  rw [seq_fail (h env l b)]
  rfl

theorem nochain_label {n e es s} (h : No e s) : NoChain (.label n e :: es) s := by
  intro s0 l0 vals env l b
  rw [seq_fail (label_fail (h [] l b))]
  rfl

theorem nochain_skip {e es s s1} (h1 : Skips e s s1) (h2 : NoChain es s1) : NoChain (e :: es) s := by
  intro s0 l0 vals env l b
  obtain ⟨v, hv⟩ := h1 env l b
  rw [seq_ok hv, h2]

theorem nochain_ok {e es s v h s1} (h1 : Ok e s v h s1) (h2 : NoChain es s1) : NoChain (e :: es) s := by
  intro s0 l0 vals env l b
  rw [seq_ok (h1 env l b), h2]

theorem nochain_labelled {n e es s v h s1} (h1 : Ok e s v h s1) (h2 : NoChain es s1) : NoChain (.label n e :: es) s := by
  intro s0 l0 vals env l b
  rw [seq_ok (label_ok (h1 [] l b)), h2]

theorem nochain_lit {t : String} {es s} (h : ∀ s1, s = t.toList ++ s1 → NoChain es s1) : NoChain (.lit t :: es) s := by
  by_cases hp : t.toList <+: s
  · obtain ⟨s1, rfl⟩ := hp
    exact nochain_skip (fun env l b => ⟨_, lit_ok t env s1 l b⟩) (h s1 rfl)
  · exact nochain_here (fun env l b => lit_fail hp)

theorem no_seq {es s} (h : NoChain es s) : No (.seq es) s := by
  intro env l b
  rw [ev_seq, h]

theorem no_action {e run s} (h : No e s) : No (.action e run) s := by
  intro env l b
  rw [ev_action, h]
  rfl

theorem no_label {n e s} (h : No e s) : No (.label n e) s := fun env l b => label_fail (h [] l b)

theorem no_ref {r s} (h : No (rules r) s) : No (.ref r) s := fun env l b => ev_ref_fail (h [] l b)

theorem no_lit {t : String} {s} (h : ¬ t.toList <+: s) : No (.lit t) s := fun _ _ _ => lit_fail h

theorem no_choice_nil {s} : No (.choice []) s := by
  intro env l b
  rw [ev_choice]; rfl

theorem no_choice {e es s} (h : No e s) (h2 : No (.choice es) s) : No (.choice (e :: es)) s := by
  intro env l b
  rw [ev_choice, choice_fail (h [] l b), ← ev_choice, h2]

theorem ok_choice {e es s v h s'} (h1 : Ok e s v h s') : Ok (.choice (e :: es)) s v h s' := by
  intro env l b
  rw [ev_choice, choice_ok (h1 [] l b)]

theorem ok_next {e es s v h s'} (h1 : No e s) (h2 : Ok (.choice es) s v h s') : Ok (.choice (e :: es)) s v h s' := by
  intro env l b
  rw [ev_choice, choice_fail (h1 [] l b), ← ev_choice, h2]

theorem ok_ref {r s v h s'} (h1 : ∀ l b, ∃ env, ev rules (rules r) [] (C s l b) = .ok v env (C s' (l ++ lingers h) b)) :
    Ok (.ref r) s v h s' := by
  intro env l b
  obtain ⟨env', he⟩ := h1 l b
  exact ev_ref_ok he

theorem act_seq {es run s h s' v} (h1 : Chain es s [] (fun env => ∀ t l, run env t l = some (v, false)) h s')
    (l : List Val) (b : Bool) :
    ∃ env', ev rules (.action (.seq es) run) [] (C s l b) = .ok v env' (C s' (l ++ lingers h) b) := by
  obtain ⟨vs, env', hk, hvs⟩ := h1 (C s l b) [] l b
  refine ⟨env', ?_⟩
  rw [ev_action, ev_seq, hvs]
  simp only [actRes, hk]
  simp [C]

theorem act_lab {n e run s w v h s'} (h1 : Ok e s w h s') (h2 : ∀ t l, run [(n, w)] t l = some (v, false))
    (l : List Val) (b : Bool) : ev rules (.action (.label n e) run) [] (C s l b) = .ok v [(n, w)] (C s' (l ++ lingers h) b) := by
  rw [ev_action, label_ok (h1 [] l b)]
  simp only [actRes, h2]
  simp [C]

/-- A rule that is a sequence with an action. -/
theorem rule_ok {r es run s h s' v} (hr : rules r = .action (.seq es) run)
    (h1 : Chain es s [] (fun env => ∀ t l, run env t l = some (v, false)) h s') : Ok (.ref r) s v h s' :=
  ok_ref (fun l b => by rw [hr]; exact act_seq h1 l b)

theorem rule_lab {r n e run s w v h s'} (hr : rules r = .action (.label n e) run) (h1 : Ok e s w h s')
    (h2 : ∀ t l, run [(n, w)] t l = some (v, false)) : Ok (.ref r) s v h s' :=
  ok_ref (fun l b => ⟨_, by rw [hr]; exact act_lab h1 h2 l b⟩)

/-- A rule that is a choice. -/
theorem rule_choice {r es s v h s'} (hr : rules r = .choice es) (h1 : Ok (.choice es) s v h s') : Ok (.ref r) s v h s' :=
  ok_ref (fun l b => ⟨_, by rw [hr]; exact h1 [] l b⟩)

theorem ok_alt {es run s h s' v es'} (h1 : Chain es s [] (fun env => ∀ t l, run env t l = some (v, false)) h s') :
    Ok (.choice (.action (.seq es) run :: es')) s v h s' := by
  intro env l b
  obtain ⟨env', he⟩ := act_seq h1 l b
  rw [ev_choice, choice_ok he]

theorem ok_alt_lab {n e run s w v h s' es'} (h1 : Ok e s w h s') (h2 : ∀ t l, run [(n, w)] t l = some (v, false)) :
    Ok (.choice (.action (.label n e) run :: es')) s v h s' := by
  intro env l b
  rw [ev_choice, choice_ok (act_lab h1 h2 l b)]

theorem rule_no {r es run s} (hr : rules r = .action (.seq es) run) (h1 : NoChain es s) : No (.ref r) s :=
  no_ref (by rw [hr]; exact no_action (no_seq h1))

theorem rule_lab_no {r n e run s} (hr : rules r = .action (.label n e) run) (h1 : No e s) : No (.ref r) s :=
  no_ref (by rw [hr]; exact no_action (no_label h1))

theorem ok_opt {e s v h s'} (h1 : Ok e s v h s') : Ok (.opt e) s v h s' := by
  intro env l b
  rw [ev_opt, h1 [] l b]; rfl

theorem ok_opt_nil {e s} (h : No e s) : Ok (.opt e) s .nil [] s := by
  intro env l b
  rw [ev_opt, h [] l b]
  simp [R.option]

theorem gives_opt {e s P s'} (h1 : Gives e s P s') : Gives (.opt e) s P s' := by
  intro env l b
  obtain ⟨v, hp, hv⟩ := h1 [] l b
  exact ⟨v, hp, by rw [ev_opt, hv]; rfl⟩

theorem ok_star_nil {e s} (h : No e s) (env : Env) (vals : List Val) (l : List Val) (b : Bool) :
    evStar rules e env vals (C s l b) = .ok (.list vals) env (C s l b) := by
  rw [evStar_eq, h [] l b]

theorem ok_star_cons {e s v h s'} (h1 : Ok e s v h s') (env : Env) (vals : List Val) (l : List Val) (b : Bool) :
    evStar rules e env vals (C s l b) = evStar rules e env (vals ++ [v]) (C s' (l ++ lingers h) b) := by
  rw [evStar_eq, h1 [] l b]

/-- One more element of a list separated by commas or dots: a gap, the separator, a gap, the element. -/
theorem gives_sep {t : String} {e : Expr} {v : Val} {s s1 s2 s' : List Char} (h1 : Skips (.ref .gap) s (t.toList ++ s1))
    (h2 : Skips (.ref .gap) s1 s2) (h3 : Ok e s2 v [] s') :
    Gives (.seq [.ref .gap, .lit t, .ref .gap, e]) s (fun w => ∃ a b c, w = .list [a, b, c, v]) s' := by
  intro env l b
  obtain ⟨a, ha⟩ := h1 env l b
  obtain ⟨c, hc⟩ := h2 env l b
  refine ⟨_, ⟨a, .bytes (t.toList.map Rune.ok), c, rfl⟩, ?_⟩
  rw [ev_seq, seq_ok ha, seq_ok (lit_ok t env s1 l b), seq_ok hc, seq_ok (h3 env l b)]
  simp [seqLoop]

/-! ## First characters -/

/-- White space, or the start of a comment. -/
def isSkipStart (c : Char) : Bool := c == ' ' || c == '\t' || c == '\r' || c == '\n' || c == '/'

theorem stops_cons {p : Char → Bool} {c : Char} {t : List Char} (h : p c = false) : Stops p (c :: t) := by
  rintro c' t' ⟨⟩; exact h

theorem stops_nil {p : Char → Bool} : Stops p [] := by rintro c t ⟨⟩

theorem skip1_stops {s : List Char} (h : Stops isSkipStart s) : skip1 s = none := by
  unfold skip1
  split <;> first
    | rfl
    | (have := h _ _ rfl; simp [isSkipStart] at this)

theorem skip_fresh {s : List Char} (h : Stops isSkipStart s) : skip s = s := skip_none (skip1_stops h)

theorem gap_to {s s1 : List Char} (h : Gap s s1) (hf : Stops isSkipStart s1) : skip s = s1 := by
  rw [skip_gap h, skip_fresh hf]

/-- A gap, up to something that is not a gap. -/
theorem skips_gap {s s1 : List Char} (h : Gap s s1) (hf : Stops isSkipStart s1) : Skips (.ref .gap) s s1 := by
  intro env l b
  rw [← gap_to h hf]
  exact gap_ok env s l b

theorem skips_gap1 {s s1 : List Char} (h : Gap s s1 ∧ s ≠ s1) (hf : Stops isSkipStart s1) : Skips (.ref .gap1) s s1 := by
  intro env l b
  have := gap_to h.1 hf
  rw [← this]
  exact gap1_ok (by rw [this]; exact fun h' => h.2 h'.symm) env l b

theorem skips_here (s : List Char) : Skips (.ref .gap) s (skip s) := fun env l b => gap_ok env s l b

/-- A gap that is not empty does not start like a word. -/
theorem gap_stops {p : Char → Bool} (hp : ∀ c, isSkipStart c = true → p c = false) {s s1 : List Char} (h : Gap s s1)
    (hs : Stops p s1) : Stops p s := by
  cases h with
  | done => exact hs
  | white c s s' hc _ =>
    apply stops_cons
    apply hp
    simp only [List.mem_cons, List.not_mem_nil, or_false] at hc
    rcases hc with rfl | rfl | rfl | rfl <;> rfl
  | block => exact stops_cons (hp _ rfl)
  | line => exact stops_cons (hp _ rfl)

theorem gap1_stops {p : Char → Bool} (hp : ∀ c, isSkipStart c = true → p c = false) {s s1 : List Char} (h : Gap s s1 ∧ s ≠ s1) :
    Stops p s := by
  cases h.1 with
  | done => exact absurd rfl h.2
  | white c s s' hc _ =>
    apply stops_cons
    apply hp
    simp only [List.mem_cons, List.not_mem_nil, or_false] at hc
    rcases hc with rfl | rfl | rfl | rfl <;> rfl
  | block => exact stops_cons (hp _ rfl)
  | line => exact stops_cons (hp _ rfl)

theorem skipStart_idChar (c : Char) (h : isSkipStart c = true) : isIdChar c = false := by
  simp only [isSkipStart, Bool.or_eq_true, beq_iff_eq] at h
  rcases h with (((rfl | rfl) | rfl) | rfl) | rfl <;> rfl

theorem gap_word {s s1 : List Char} (h : Gap s s1) (hs : Stops isIdChar s1) : Stops isIdChar s :=
  gap_stops skipStart_idChar h hs

/-- A text that starts with a character of a set avoids all sets disjoint from it. -/
def Starts (p : Char → Bool) (s : List Char) : Prop := ∃ c t, s = c :: t ∧ p c = true

theorem Starts.stops {p q : Char → Bool} {s : List Char} (h : Starts p s) (hpq : ∀ c, p c = true → q c = false) : Stops q s := by
  obtain ⟨c, t, rfl, hc⟩ := h
  exact stops_cons (hpq c hc)

theorem ident_starts {n : String} (h : IsIdent n) (s : List Char) : Starts isIdStart (n.toList ++ s) := by
  obtain ⟨c, cs, hn, hc, _⟩ := h
  exact ⟨c, cs ++ s, by rw [hn]; rfl, hc⟩

theorem const_starts {n : String} (h : IsConst n) (s : List Char) : Starts isConstStart (n.toList ++ s) := by
  obtain ⟨c, cs, hn, hc, _⟩ := h
  exact ⟨c, cs ++ s, by rw [hn]; rfl, hc⟩

theorem lit_starts {t : List Char} {n : Nat} (h : IsLiteral t n) (s : List Char) : Starts Char.isDigit (t ++ s) := by
  cases h with
  | zero => exact ⟨_, _, rfl, rfl⟩
  | dec c ds hc => exact ⟨c, ds ++ s, rfl, hc⟩
  | oct ds => exact ⟨'0', ds ++ s, rfl, rfl⟩
  | hex ds => exact ⟨'0', 'x' :: ds ++ s, rfl, rfl⟩

theorem idStart_fresh (c : Char) (h : isIdStart c = true) : isSkipStart c = false := by
  rw [idStart_iff] at h
  simp only [isSkipStart, Bool.or_eq_false_iff, beq_eq_false_iff_ne, ne_eq, char_eq, Char.reduceToNat]
  omega

theorem constStart_fresh (c : Char) (h : isConstStart c = true) : isSkipStart c = false := by
  rw [constStart_iff] at h
  simp only [isSkipStart, Bool.or_eq_false_iff, beq_eq_false_iff_ne, ne_eq, char_eq, Char.reduceToNat]
  omega

theorem digit_fresh (c : Char) (h : c.isDigit = true) : isSkipStart c = false := by
  rw [digit_iff] at h
  simp only [isSkipStart, Bool.or_eq_false_iff, beq_eq_false_iff_ne, ne_eq, char_eq, Char.reduceToNat]
  omega

theorem not_prefix {t : String} {c : Char} {cs s : List Char} (ht : t.toList = c :: cs) (h : Stops (· == c) s) :
    ¬ t.toList <+: s := by
  rintro ⟨u, rfl⟩
  have := h c (cs ++ u) (by rw [ht]; rfl)
  simp at this

/-! ## Rules without structs -/

theorem id_ok {n : String} {s s' : List Char} (h : (Piece.id n).At s s') : Ok (.ref .Identifier) s (.str n) [] s' := by
  obtain ⟨hn, rfl, hs⟩ := h
  intro env l b
  rw [ident_ok hn hs]
  simp

theorem id_fresh {n : String} {s s' : List Char} (h : (Piece.id n).At s s') : Stops isSkipStart s := by
  obtain ⟨hn, rfl, hs⟩ := h
  exact (ident_starts hn _).stops idStart_fresh

theorem id_starts {n : String} {s s' : List Char} (h : (Piece.id n).At s s') : Starts isIdStart s := by
  obtain ⟨hn, rfl, hs⟩ := h
  exact ident_starts hn _

theorem id_no {s : List Char} (h : Stops isIdStart s) : No (.ref .Identifier) s := fun env l b => ident_fail h env l b

theorem cid_ok {n : String} {s s' : List Char} (h : (Piece.cid n).At s s') (hs : Stops isIdChar s') :
    Ok (.ref .ConstIdentifier) s (.str n) [] s' := by
  obtain ⟨hn, rfl⟩ := h
  intro env l b
  rw [const_ok hn (hs.mono (fun c hc => by rw [constChar_iff] at hc; rw [idChar_iff]; omega))]
  simp

theorem int_ok {k : Int} {s s' : List Char} (h : (Piece.int k).At s s') (hs : Stops isIdChar s') :
    Ok (.ref .IntLiteral) s (.int k) [] s' := by
  obtain ⟨t, n, hn, rfl, rfl⟩ := h
  intro env l b
  rw [intLit_ok hn hs]
  simp

theorem const_no {s : List Char} (h : Stops isConstStart s) : No (.ref .ConstIdentifier) s :=
  fun env l b => const_fail h env l b

theorem int_no {s : List Char} (h : Stops Char.isDigit s) : No (.ref .IntLiteral) s := fun env l b => intLit_fail h env l b

/-- Where numbers start. -/
def isIntStart (c : Char) : Bool := isConstStart c || c.isDigit

theorem integer_starts {i : Integer} {s s' : List Char} (h : Layout (integer i) s s') : Starts isIntStart s := by
  cases i with
  | constRef n =>
    obtain ⟨_, ⟨hn, rfl⟩, rfl⟩ := h
    obtain ⟨c, t, h1, h2⟩ := const_starts hn _
    exact ⟨c, t, h1, by simp [isIntStart, h2]⟩
  | literal v =>
    obtain ⟨_, ⟨t, n, hn, rfl, rfl⟩, rfl⟩ := h
    obtain ⟨c, u, h1, h2⟩ := lit_starts hn _
    exact ⟨c, u, h1, by simp [isIntStart, h2]⟩

theorem intStart_iff (c : Char) : isIntStart c = true ↔
    (65 ≤ c.toNat ∧ c.toNat ≤ 90) ∨ (48 ≤ c.toNat ∧ c.toNat ≤ 57) ∨ c.toNat = 95 := by
  simp only [isIntStart, Bool.or_eq_true, constStart_iff, digit_iff]
  omega

theorem intStart_fresh (c : Char) (h : isIntStart c = true) : isSkipStart c = false := by
  rw [intStart_iff] at h
  simp only [isSkipStart, Bool.or_eq_false_iff, beq_eq_false_iff_ne, ne_eq, char_eq, Char.reduceToNat]
  omega

theorem integer_ok {i : Integer} {s s' : List Char} (h : Layout (integer i) s s') (hs : Stops isIdChar s') :
    Ok (.ref .Integer) s (.integer i) [] s' := by
  cases i with
  | constRef n =>
    obtain ⟨_, ⟨hn, rfl⟩, rfl⟩ := h
    intro env l b
    rw [integer_const hn hs]
    simp
  | literal v =>
    obtain ⟨_, h, rfl⟩ := h
    have hd : Starts Char.isDigit s := by
      obtain ⟨t, n, hn, rfl, rfl⟩ := h
      exact lit_starts hn _
    refine rule_lab (r := .Integer) (n := "i") (w := .integer (.literal v)) rfl (ok_next ?_ (ok_choice ?_)) (fun _ _ => rfl)
    · exact rule_lab_no (r := .IntegerConstRef) rfl (const_no (hd.stops (fun c hc => by
        rw [digit_iff] at hc
        rw [← Bool.not_eq_true, constStart_iff]; omega)))
    · exact rule_lab (r := .IntegerLiteral) rfl (int_ok h hs) (fun _ _ => rfl)

theorem integer_no {s : List Char} (h : Stops isIntStart s) : No (.ref .Integer) s := by
  refine rule_lab_no (r := .Integer) rfl (no_choice ?_ (no_choice ?_ no_choice_nil))
  · exact rule_lab_no (r := .IntegerConstRef) rfl (const_no (h.mono (fun c hc => by simp [isIntStart, hc])))
  · exact rule_lab_no (r := .IntegerLiteral) rfl (int_no (h.mono (fun c hc => by simp [isIntStart, hc])))

/-- What a gap leads to does not start with the character. -/
def After (p : Char → Bool) (s : List Char) : Prop := Stops p (skip s)

theorem after_gap {p : Char → Bool} {s s1 : List Char} (h : Gap s s1) (hf : Stops isSkipStart s1) (hp : Stops p s1) :
    After p s := by
  unfold After
  rw [gap_to h hf]
  exact hp

theorem range_starts {r : IntegerRange} {s s' : List Char} (h : Layout (range r) s s') : Starts isIntStart s := by
  simp only [range, layout_append] at h
  obtain ⟨t, h1, h2⟩ := h
  exact integer_starts h1

theorem range_ok {r : IntegerRange} {s s' : List Char} (h : Layout (range r) s s') (hs : Stops isIdChar s')
    (ha : After (· == '.') s') : Ok (.ref .IntListMember) s (.range r) [] s' := by
  obtain ⟨lo, hi⟩ := r
  simp only [range, layout_append] at h
  obtain ⟨t, h1, h2⟩ := h
  cases hi with
  | none =>
    obtain rfl := h2
    refine rule_ok (r := .IntListMember) rfl (chain_label (integer_ok h1 hs) (chain_label (ok_opt_nil (no_seq ?_))
      (chain_nil (fun _ _ => rfl))))
    exact nochain_skip (skips_here _) (nochain_here (no_lit (not_prefix (t := "..") rfl ha)))
  | some j =>
    simp only [layout_append] at h2
    obtain ⟨t1, ⟨t2, h3, t3, rfl, t4, h4, rfl⟩, h5⟩ := h2
    have hs1 : Stops isIdChar t := gap_word h3 (stops_cons rfl)
    refine rule_ok (r := .IntListMember) rfl (chain_label (integer_ok h1 hs1) (chain_gives (gives_opt
      (gives_sep (t := "..") (skips_gap h3 (stops_cons rfl)) (skips_gap h4 ?_) (integer_ok h5 hs))) ?_))
    · exact (integer_starts h5).stops intStart_fresh
    · rintro v ⟨a, b, c, rfl⟩
      exact chain_nil (fun _ _ => rfl)

/-- More elements separated by commas. -/
theorem more_ok {α : Type} {f : α → List Piece} {out : α → Val} {e : Expr} {Q : List Char → Prop}
    (hok : ∀ a s s', Layout (f a) s s' → Q s' → Ok e s (out a) [] s')
    (hst : ∀ a s s', Layout (f a) s s' → Stops isSkipStart s)
    (hQ : ∀ s t, Gap s (',' :: t) → Q s) (as : List α) : ∀ {s s' : List Char}, Layout (more f as) s s' → Q s' →
    After (· == ',') s' → ∀ env vals l b, ∃ ws,
      List.Forall₂ (fun v a => ∃ x y z, v = Val.list [x, y, z, out a]) ws as ∧
      evStar rules (.seq [.ref .gap, .lit ",", .ref .gap, e]) env vals (C s l b) = .ok (.list (vals ++ ws)) env (C s' l b) := by
  induction as with
  | nil =>
    intro s s' h hq ha env vals l b
    obtain rfl := h
    refine ⟨[], .nil, ?_⟩
    rw [ok_star_nil]
    · simp
    · exact no_seq (nochain_skip (skips_here _) (nochain_here (no_lit (not_prefix (t := ",") rfl ha))))
  | cons a as ih =>
    intro s s' h hq ha env vals l b
    simp only [more, layout_append] at h
    obtain ⟨s5, ⟨s4, ⟨s1, h1, s2, rfl, s3, h3, rfl⟩, h4⟩, h5⟩ := h
    have hq5 : Q s5 := by
      cases as with
      | nil => obtain rfl := h5; exact hq
      | cons a' as' =>
        simp only [more, layout_append] at h5
        obtain ⟨_, ⟨_, ⟨_, h6, _, rfl, _⟩, _⟩, _⟩ := h5
        exact hQ _ _ h6
    obtain ⟨w, hw, hev⟩ := gives_sep (t := ",") (skips_gap h1 (stops_cons rfl)) (skips_gap h3 (hst _ _ _ h4)) (hok _ _ _ h4 hq5) [] l b
    obtain ⟨ws, hws, hev2⟩ := ih h5 hq ha env (vals ++ [w]) l b
    refine ⟨w :: ws, .cons hw hws, ?_⟩
    rw [evStar_eq, hev]
    simpa using hev2

theorem more_gives {α : Type} {f : α → List Piece} {out : α → Val} {e : Expr} {Q : List Char → Prop}
    (hok : ∀ a s s', Layout (f a) s s' → Q s' → Ok e s (out a) [] s')
    (hst : ∀ a s s', Layout (f a) s s' → Stops isSkipStart s)
    (hQ : ∀ s t, Gap s (',' :: t) → Q s) {as : List α} {s s' : List Char} (h : Layout (more f as) s s') (hq : Q s')
    (ha : After (· == ',') s') : Gives (.star (.seq [.ref .gap, .lit ",", .ref .gap, e])) s
      (fun v => ∃ ws, v = .list ws ∧ List.Forall₂ (fun v a => ∃ x y z, v = Val.list [x, y, z, out a]) ws as) s' := by
  intro env l b
  obtain ⟨ws, hws, hev⟩ := more_ok hok hst hQ as h hq ha env [] l b
  exact ⟨_, ⟨ws, rfl, hws⟩, by rw [ev_star]; exact hev⟩

/-- The text does not continue a range. -/
def AfterRange (s : List Char) : Prop := Stops isIdChar s ∧ After (· == '.') s

theorem afterRange_gap {s t : List Char} {c : Char} (h : Gap s (c :: t)) (h1 : isSkipStart c = false)
    (h2 : isIdChar c = false) (h3 : (c == '.') = false) : AfterRange s :=
  ⟨gap_word h (stops_cons h2), after_gap h (stops_cons h1) (stops_cons h3)⟩

theorem intList_starts {k : IntegerList} {s s' : List Char} (h : Layout (intList k) s s') : Starts isIntStart s := by
  obtain ⟨rs⟩ := k
  cases rs with
  | nil => obtain ⟨_, ⟨h, _⟩, _⟩ := h; exact h.elim
  | cons r rs =>
    simp only [intList, commas, layout_append] at h
    obtain ⟨t, h1, h2⟩ := h
    exact range_starts h1

theorem intList_ok {k : IntegerList} {s s' : List Char} (h : Layout (intList k) s s') (hs : AfterRange s')
    (ha : After (· == ',') s') : Ok (.ref .IntList) s (.intList k) [] s' := by
  obtain ⟨rs⟩ := k
  cases rs with
  | nil => obtain ⟨_, ⟨h, _⟩, _⟩ := h; exact h.elim
  | cons r rs =>
    simp only [intList, commas, layout_append] at h
    obtain ⟨t, h1, h2⟩ := h
    have hq : AfterRange t := by
      cases rs with
      | nil => obtain rfl := h2; exact hs
      | cons a' as' =>
        simp only [more, layout_append] at h2
        obtain ⟨_, ⟨_, ⟨_, h6, _, rfl, _⟩, _⟩, _⟩ := h2
        exact afterRange_gap h6 rfl rfl rfl
    refine rule_ok (r := .IntList) rfl (chain_label (range_ok h1 hq.1 hq.2) (chain_gives
      (more_gives (Q := AfterRange) (out := Val.range) (f := range) (fun a s s' h hq => range_ok h hq.1 hq.2)
        (fun a s s' h => (range_starts h).stops intStart_fresh) (fun s t h => afterRange_gap h rfl rfl rfl) h2 hs ha) ?_))
    rintro v ⟨ws, rfl, hws⟩
    refine chain_nil (fun t l => ?_)
    have hm := mapM_index (get := Val.asRange) (g := id) (fun _ => rfl) hws
    simp only [onIntList1, act, Env.get, List.lookup]
    simp [show (Val.range r).asRange = some r from rfl, show (Val.list ws).asList = some ws from rfl]
    simp only [Option.bind_eq_bind] at hm
    rw [hm]
    simp

theorem idList_starts {k : List String} {s s' : List Char} (h : Layout (idList k) s s') : Starts isIdStart s := by
  cases k with
  | nil => obtain ⟨_, ⟨h, _⟩, _⟩ := h; exact h.elim
  | cons r rs =>
    simp only [idList, commas, layout_append] at h
    obtain ⟨t, ⟨_, h1, rfl⟩, h2⟩ := h
    exact id_starts h1

theorem idList_ok {k : List String} {s s' : List Char} (h : Layout (idList k) s s')
    (ha : After (· == ',') s') : Ok (.ref .IdentifierList) s (.strs k) [] s' := by
  cases k with
  | nil => obtain ⟨_, ⟨h, _⟩, _⟩ := h; exact h.elim
  | cons r rs =>
    simp only [idList, commas, layout_append] at h
    obtain ⟨t, ⟨_, h1, rfl⟩, h2⟩ := h
    refine rule_ok (r := .IdentifierList) rfl (chain_label (id_ok h1) (chain_gives
      (more_gives (Q := fun _ => True) (out := Val.str) (f := fun n => [Piece.id n])
        (by rintro a s s' ⟨_, h, rfl⟩ -; exact id_ok h)
        (by rintro a s s' ⟨_, h, rfl⟩; exact id_fresh h) (fun s t h => trivial) h2 trivial ha) ?_))
    rintro v ⟨ws, rfl, hws⟩
    refine chain_nil (fun t l => ?_)
    have hm := mapM_index (get := Val.asStr) (g := id) (fun _ => rfl) hws
    simp only [onIdentifierList1, act, Env.get, List.lookup]
    simp [show (Val.str r).asStr = some r from rfl, show (Val.list ws).asList = some ws from rfl]
    simp only [Option.bind_eq_bind] at hm
    rw [hm]
    simp

theorem idRef_starts {r : IDRef} {s s' : List Char} (h : Layout (idRef r) s s') : Starts isIdStart s := by
  unfold idRef at h
  split at h
  · obtain ⟨_, h, rfl⟩ := h
    exact id_starts h
  · obtain ⟨_, h, _⟩ := h
    exact id_starts h

theorem ok_pair {n : String} {t : String} {s s1 s' : List Char} (h : (Piece.id n).At s s1) (h1 : s1 = t.toList ++ s') :
    Ok (.seq [.ref .Identifier, .lit t]) s (.list [.str n, .bytes (t.toList.map Rune.ok)]) [] s' := by
  subst h1
  intro env l b
  rw [ev_seq, seq_ok (id_ok h env l b), seq_ok (lit_ok t env s' _ b)]
  simp [seqLoop]

theorem idRef_ok {r : IDRef} {s s' : List Char} (h : Layout (idRef r) s s') (hs : Stops (· == '.') s') :
    Ok (.ref .IDRef) s (.idRef r) [] s' := by
  obtain ⟨sc, n⟩ := r
  unfold idRef at h
  split at h
  · rename_i hsc
    simp only at hsc
    subst hsc
    obtain ⟨_, h, rfl⟩ := h
    refine rule_ok (r := .IDRef) rfl (chain_label (ok_opt_nil (no_seq ?_)) (chain_label (id_ok h) (chain_nil (fun _ _ => rfl))))
    exact nochain_ok (id_ok h) (nochain_here (no_lit (not_prefix (t := ".") rfl hs)))
  · obtain ⟨_, h1, _, rfl, _, h2, rfl⟩ := h
    exact rule_ok (r := .IDRef) rfl (chain_label (ok_opt (ok_pair h1 rfl)) (chain_label (id_ok h2) (chain_nil (fun _ _ => rfl))))

theorem idRef_no {s : List Char} (h : Stops isIdStart s) : No (.ref .IDRef) s :=
  rule_no (r := .IDRef) rfl (nochain_labelled (ok_opt_nil (no_seq (nochain_here (id_no h)))) (nochain_label (id_no h)))

/-- Where lengths start. -/
def isLengthStart (c : Char) : Bool := isIdStart c || c == '.'

theorem length_starts {k : LengthConstraint} {s s' : List Char} (h : Layout (length k) s s') : Starts isLengthStart s := by
  cases k with
  | leftover i =>
    obtain ⟨t, rfl, h⟩ := h
    exact ⟨'.', _, rfl, rfl⟩
  | idRef r =>
    obtain ⟨c, t, rfl, hc⟩ := idRef_starts h
    exact ⟨c, t, rfl, by simp [isLengthStart, hc]⟩

theorem lengthStart_fresh (c : Char) (h : isLengthStart c = true) : isSkipStart c = false := by
  simp only [isLengthStart, Bool.or_eq_true, beq_iff_eq] at h
  rcases h with h | rfl
  · exact idStart_fresh c h
  · rfl

theorem idStart_dot (c : Char) (h : isIdStart c = true) : (c == '.') = false := by
  rw [idStart_iff] at h
  simp only [beq_eq_false_iff_ne, ne_eq, char_eq, Char.reduceToNat]
  omega

theorem length_ok {k : LengthConstraint} {s s' : List Char} (h : Layout (length k) s s') (h1 : Stops isIdChar s')
    (h2 : Stops (· == '.') s') : Ok (.ref .LengthConstraint) s (lengthVal k) [] s' := by
  cases k with
  | leftover i =>
    obtain ⟨t, rfl, h⟩ := h
    exact rule_lab (r := .LengthConstraint) rfl (ok_choice (rule_ok (r := .Leftover) rfl
      (chain_lit (t := "..-") rfl (chain_label (integer_ok h h1) (chain_nil (fun _ _ => rfl)))))) (fun _ _ => rfl)
  | idRef r =>
    refine rule_lab (r := .LengthConstraint) rfl (ok_next ?_ (ok_choice (idRef_ok h h2))) (fun _ _ => rfl)
    exact rule_no (r := .Leftover) rfl (nochain_here (no_lit (not_prefix (t := "..-") rfl ((idRef_starts h).stops idStart_dot))))

theorem length_no {s : List Char} (h : Stops isLengthStart s) : No (.ref .LengthConstraint) s := by
  refine rule_lab_no (r := .LengthConstraint) rfl (no_choice ?_ (no_choice (idRef_no (h.mono ?_)) no_choice_nil))
  · exact rule_no (r := .Leftover) rfl (nochain_here (no_lit (not_prefix (t := "..-") rfl
      (h.mono (fun c hc => by simp only [beq_iff_eq] at hc; subst hc; rfl)))))
  · intro c hc
    simp [isLengthStart, hc]

/-! ## Types -/

theorem intType_ok {w : Width} {s s' : List Char} (h : s = w.word.toList ++ s') :
    Ok (.ref .IntType) s (.intType ⟨w.bits, none⟩) [] s' := by
  subst h
  have lit (t : String) (s : List Char) : Ok (.lit t) (t.toList ++ s) (.bytes (t.toList.map Rune.ok)) [] s := by
    intro env l b
    rw [lit_ok]; simp
  cases w
  · exact rule_ok (r := .IntType) rfl (chain_lit (t := "u") rfl (chain_label (ok_choice (lit "8" s')) (chain_nil (fun _ _ => rfl))))
  · exact rule_ok (r := .IntType) rfl (chain_lit (t := "u") rfl (chain_label (ok_next (no_lit (not_prefix rfl (stops_cons rfl)))
      (ok_choice (lit "16" s'))) (chain_nil (fun _ _ => rfl))))
  · exact rule_ok (r := .IntType) rfl (chain_lit (t := "u") rfl (chain_label (ok_next (no_lit (not_prefix rfl (stops_cons rfl)))
      (ok_next (no_lit (not_prefix rfl (stops_cons rfl))) (ok_choice (lit "32" s')))) (chain_nil (fun _ _ => rfl))))
  · exact rule_ok (r := .IntType) rfl (chain_lit (t := "u") rfl (chain_label (ok_next (no_lit (not_prefix rfl (stops_cons rfl)))
      (ok_next (no_lit (not_prefix rfl (stops_cons rfl))) (ok_next (no_lit (not_prefix rfl (stops_cons rfl)))
        (ok_choice (lit "64" s'))))) (chain_nil (fun _ _ => rfl))))

theorem intType_no {s : List Char} (h : ∀ t, s = 'u' :: t → Stops Char.isDigit t) : No (.ref .IntType) s := by
  refine rule_no (r := .IntType) rfl (nochain_lit (fun t ht => nochain_label ?_))
  have hd := h t ht
  refine no_choice ?_ (no_choice ?_ (no_choice ?_ (no_choice ?_ no_choice_nil))) <;>
    exact no_lit (not_prefix rfl (hd.mono (fun c hc => by simp only [beq_iff_eq] at hc; subst hc; rfl)))

theorem intType_no' {s : List Char} (h : Stops (· == 'u') s) : No (.ref .IntType) s :=
  intType_no (fun t ht => by subst ht; have := h 'u' t rfl; simp at this)

theorem word_u (w : Width) : ∃ t, w.word.toList = 'u' :: t := by cases w <;> exact ⟨_, rfl⟩

/-! ## References to structs -/

/-- A word followed by something else, compared with a text of letters. -/
theorem word_split {m t : List Char} {s2 s1 : List Char} (h : m ++ s2 = t ++ s1) (ht : ∀ c ∈ t, isIdChar c = true)
    (hs : Stops isIdChar s2) : ∃ m', m = t ++ m' ∧ s1 = m' ++ s2 := by
  rcases List.append_eq_append_iff.1 h with ⟨a, rfl, rfl⟩ | ⟨a, rfl, rfl⟩
  · cases a with
    | nil => exact ⟨[], by simp, by simp⟩
    | cons c a =>
      have := hs c _ rfl
      rw [ht c (by simp)] at this
      cases this
  · exact ⟨a, rfl, rfl⟩

theorem ident_chars {n : String} (h : IsIdent n) : ∀ c ∈ n.toList, isIdChar c = true := by
  obtain ⟨c, cs, hn, hc, hcs⟩ := h
  rw [hn]
  intro x hx
  rcases List.mem_cons.1 hx with rfl | hx
  · rw [idStart_iff] at hc
    rw [idChar_iff]; omega
  · exact hcs x hx

theorem const_chars {n : String} (h : IsConst n) : ∀ c ∈ n.toList, isIdChar c = true := by
  obtain ⟨c, cs, hn, hc, hcs⟩ := h
  rw [hn]
  intro x hx
  rcases List.mem_cons.1 hx with rfl | hx
  · rw [constStart_iff] at hc
    rw [idChar_iff]; omega
  · have := hcs x hx
    rw [constChar_iff] at this
    rw [idChar_iff]; omega

theorem idChar_fresh (c : Char) (h : isIdChar c = true) : isSkipStart c = false := by
  rw [idChar_iff] at h
  simp only [isSkipStart, Bool.or_eq_false_iff, beq_eq_false_iff_ne, ne_eq, char_eq, Char.reduceToNat]
  omega

theorem gap1_no {s : List Char} (h : Stops isSkipStart s) : No (.ref .gap1) s := fun env l b => gap1_fail (skip_fresh h) env l b

/-- A gap, a word, and something that is not `context`. -/
def AfterRef (s : List Char) : Prop :=
  ∃ m s1 s2, Piece.gap1.At s s1 ∧ (Piece.id m).At s1 s2 ∧ After (· == 'c') s2

theorem gap1_cases (s : List Char) : Skips (.ref .gap1) s (skip s) ∨ No (.ref .gap1) s := by
  by_cases h : skip s = s
  · exact Or.inr (fun env l b => gap1_fail h env l b)
  · exact Or.inl (fun env l b => gap1_ok h env l b)

/-- `with context` is not there. -/
theorem contexts_no {s : List Char} (h : Stops (· == 'w') (skip s)) : No (.seq [.ref .gap1, .ref .ContextRefs]) s := by
  rcases gap1_cases s with h1 | h1
  · exact no_seq (nochain_skip h1 (nochain_here (rule_no (r := .ContextRefs) rfl (nochain_here (no_lit (not_prefix (t := "with") rfl h))))))
  · exact no_seq (nochain_here h1)

theorem contexts_no_ref {s : List Char} (h : AfterRef s) : No (.seq [.ref .gap1, .ref .ContextRefs]) s := by
  obtain ⟨m, s1, s2, h1, h2, h3⟩ := h
  refine no_seq (nochain_skip (skips_gap1 h1 (id_fresh h2)) (nochain_here (rule_no (r := .ContextRefs) rfl
    (nochain_lit (fun t ht => ?_)))))
  obtain ⟨hm, rfl, hs⟩ := h2
  obtain ⟨m', hm', rfl⟩ := word_split ht (by decide) hs
  cases m' with
  | nil =>
    rcases gap1_cases s2 with h4 | h4
    · exact nochain_skip h4 (nochain_here (no_lit (not_prefix (t := "context") rfl h3)))
    · exact nochain_here h4
  | cons c m' =>
    refine nochain_here (gap1_no (stops_cons (idChar_fresh c (ident_chars hm c ?_))))
    rw [hm']; simp

theorem structId_ok {n : String} {s s' : List Char} (h : Layout [.tok "struct", .gap1, .id n] s s') :
    Ok (.ref .StructIdentifier) s (.str n) [] s' := by
  obtain ⟨_, rfl, _, h1, _, h2, rfl⟩ := h
  exact rule_ok (r := .StructIdentifier) rfl (chain_lit rfl (chain_skip (skips_gap1 h1 (id_fresh h2))
    (chain_label (id_ok h2) (chain_nil (fun _ _ => rfl)))))

theorem structId_no {s : List Char} (h : Stops (· == 's') s) : No (.ref .StructIdentifier) s :=
  rule_no (r := .StructIdentifier) rfl (nochain_here (no_lit (not_prefix (t := "struct") rfl h)))

theorem structDecl_no {s : List Char} (h : Stops (· == 's') s) : No (.ref .StructDecl) s :=
  rule_no (r := .StructDecl) rfl (nochain_label (structId_no h))

theorem structRef_no {s : List Char} (h : Stops (· == 's') s) : No (.ref .StructRef) s :=
  no_ref (show No rStructRef s from no_choice (no_action (no_seq (nochain_label (structDecl_no h))))
    (no_choice (no_action (no_label (structId_no h))) no_choice_nil))

theorem idStart_brace (c : Char) (h : isIdStart c = true) : (c == '{') = false := by
  rw [idStart_iff] at h
  simp only [beq_eq_false_iff_ne, ne_eq, char_eq, Char.reduceToNat]
  omega

/-- A struct named is not taken for one declared. -/
theorem structDecl_ref {n : String} {s s' : List Char} (h : Layout [.tok "struct", .gap1, .id n] s s') (ha : AfterRef s') :
    No (.ref .StructDecl) s := by
  refine rule_no (r := .StructDecl) rfl (nochain_labelled (structId_ok h) (nochain_labelled (ok_opt_nil (contexts_no_ref ha)) ?_))
  obtain ⟨m, s1, s2, h1, h2, h3⟩ := ha
  exact nochain_skip (skips_gap h1.1 (id_fresh h2)) (nochain_here (no_lit (not_prefix (t := "{") rfl
    ((id_starts h2).stops idStart_brace))))

theorem chain_code {s : List Char} {S : Struct} {K : Env → Prop} (hK : K [("s", .struct S)]) :
    Chain [.code onStructRef6] s [("s", .struct S)] K [S] s := by
  intro start vals l b
  refine ⟨vals ++ [.nil], _, hK, ?_⟩
  rw [seq_ok (ev_code onStructRef6 [("s", .struct S)] (C s l b))]
  simp [seqLoop, onStructRef6, Env.get, List.lookup, C, lingers]

section
variable {ι : Type} {sp : ι → List Piece} {mn : ι → Struct × List Struct}

/-- Structs declared in place parse. -/
def Inner (sp : ι → List Piece) (mn : ι → Struct × List Struct) : Prop :=
  ∀ d s s', Layout (sp d) s s' → (∃ t, s = "struct".toList ++ t) ∧ Ok (.ref .StructDecl) s (.struct (mn d).1) (mn d).2 s'

variable (H : Inner sp mn)
include H

theorem ref_starts {r : Ref ι} {s s' : List Char} (h : Layout (r.spell sp) s s') : ∃ t, s = 's' :: t := by
  cases r with
  | name n => obtain ⟨_, rfl, _⟩ := h; exact ⟨_, rfl⟩
  | decl d => obtain ⟨⟨t, rfl⟩, _⟩ := H _ _ _ h; exact ⟨_, rfl⟩

theorem ref_ok {r : Ref ι} {s s' : List Char} (h : Layout (r.spell sp) s s') (ha : AfterRef s') :
    Ok (.ref .StructRef) s (.structRef (r.target mn)) (r.hoist mn) s' := by
  refine rule_choice (r := .StructRef) rfl ?_
  cases r with
  | name n =>
    exact ok_next (no_action (no_seq (nochain_label (structDecl_ref h ha))))
      (ok_alt_lab (structId_ok h) (fun _ _ => rfl))
  | decl d =>
    exact ok_alt (chain_label' (H _ _ _ h).2 (chain_code (fun _ _ => rfl)))

/-- Where element types start. -/
def isElemStart (c : Char) : Bool := c == 'u' || c == 'c' || c == 's'

theorem elem_starts {e : Elem ι} {s s' : List Char} (h : Layout (e.spell sp) s s') : Starts isElemStart s := by
  cases e with
  | int w =>
    obtain ⟨_, rfl, rfl⟩ := h
    obtain ⟨t, ht⟩ := word_u w
    exact ⟨'u', t ++ _, by rw [ht]; rfl, rfl⟩
  | char => obtain ⟨_, rfl, rfl⟩ := h; exact ⟨'c', _, rfl, rfl⟩
  | ref r => obtain ⟨t, rfl⟩ := ref_starts H h; exact ⟨'s', _, rfl, rfl⟩

theorem elem_ok {e : Elem ι} {s s' : List Char} (h : Layout (e.spell sp) s s') (ha : AfterRef s') :
    Ok (.ref .ArrayBase) s (baseVal (e.base mn)) (e.hoist mn) s' := by
  cases e with
  | int w =>
    obtain ⟨_, hw, rfl⟩ := h
    exact rule_lab (r := .ArrayBase) rfl (ok_choice (intType_ok hw)) (fun _ _ => rfl)
  | char =>
    obtain ⟨_, rfl, rfl⟩ := h
    refine rule_lab (r := .ArrayBase) rfl (ok_next (intType_no' (stops_cons rfl)) (ok_choice (v := .charType) (h := []) ?_)) (fun _ _ => rfl)
    refine ok_ref (fun l b => ⟨[], ?_⟩)
    rw [show rules .CharType = rCharType from rfl, rCharType, ev_action, lit_ok]
    simp [actRes, onCharType1, C]
  | ref r =>
    obtain ⟨t, rfl⟩ := ref_starts H h
    refine rule_lab (r := .ArrayBase) rfl (ok_next (intType_no' (stops_cons rfl)) (ok_next ?_ (ok_choice (ref_ok H h ha)))) (fun _ _ => rfl)
    exact no_ref (show No rCharType _ from no_action (no_lit (not_prefix (t := "char") rfl (stops_cons rfl))))

omit H in
theorem elem_no {s : List Char} (h1 : No (.ref .IntType) s) (h2 : Stops (fun c => c == 'c' || c == 's') s) : No (.ref .ArrayBase) s :=
  rule_lab_no (r := .ArrayBase) rfl (no_choice h1 (no_choice
    (no_ref (show No rCharType _ from no_action (no_lit (not_prefix (t := "char") (c := 'c') rfl (h2.mono (fun c hc => by simp [hc]))))))
    (no_choice (structRef_no (h2.mono (fun c hc => by simp [hc]))) no_choice_nil)))

/-! ## Arrays -/

omit H in
theorem afterRef_of {n : String} {s s1 s2 s3 : List Char} {c : Char} (h1 : Piece.gap1.At s s1) (h2 : (Piece.id n).At s1 s2)
    (h3 : Gap s2 (c :: s3)) (hc : isSkipStart c = false) (hc2 : (c == 'c') = false) : AfterRef s :=
  ⟨n, s1, s2, h1, h2, after_gap h3 (stops_cons hc) (stops_cons hc2)⟩

/-- The start of an array. -/
theorem arr_chain {e : Elem ι} {n : String} {s s' s'' : List Char} {es : List Expr} {K : Env → Prop}
    (h : Layout (e.spell sp ++ [.gap1, .id n, .gap, .tok "["]) s s')
    (h2 : Chain es s' [("n", .str n), ("b", baseVal (e.base mn))] K [] s'') :
    Chain (.label "b" (.ref .ArrayBase) :: .ref .gap1 :: .label "n" (.ref .Identifier) :: .ref .gap :: .lit "[" :: es) s [] K
      (e.hoist mn) s'' := by
  rw [layout_append] at h
  obtain ⟨s1, h1, s2, h3, s3, h4, s4, h5, s5, rfl, rfl⟩ := h
  have := chain_label' (n := "b") (env := []) (elem_ok H h1 (afterRef_of h3 h4 h5 rfl rfl)) (chain_skip (skips_gap1 h3 (id_fresh h4))
    (chain_label (n := "n") (id_ok h4) (chain_skip (skips_gap h5 (stops_cons rfl)) (chain_lit (t := "[") rfl h2))))
  rwa [List.append_nil] at this

theorem arr_nochain {e : Elem ι} {n : String} {s s' : List Char} {es : List Expr}
    (h : Layout (e.spell sp ++ [.gap1, .id n, .gap, .tok "["]) s s') (h2 : NoChain es s') :
    NoChain (.label "b" (.ref .ArrayBase) :: .ref .gap1 :: .label "n" (.ref .Identifier) :: .ref .gap :: .lit "[" :: es) s := by
  rw [layout_append] at h
  obtain ⟨s1, h1, s2, h3, s3, h4, s4, h5, s5, rfl, rfl⟩ := h
  refine nochain_labelled (elem_ok H h1 (afterRef_of h3 h4 h5 rfl rfl)) (nochain_skip (skips_gap1 h3 (id_fresh h4))
    (nochain_labelled (id_ok h4) (nochain_skip (skips_gap h5 (stops_cons rfl)) (nochain_lit (fun t ht => ?_)))))
  obtain rfl := List.append_cancel_left ht
  exact h2

theorem fixed_ok {e : Elem ι} {n : String} {k : Integer} {s s' : List Char}
    (h : Layout (e.spell sp ++ [.gap1, .id n, .gap, .tok "["] ++ integer k ++ [.tok "]"]) s s') :
    Ok (.ref .SMFixedArray) s (.field ⟨n, .fixedArray (e.base mn) k⟩) (e.hoist mn) s' := by
  rw [layout_append, ] at h
  obtain ⟨s2, h, s3, rfl, rfl⟩ := h
  rw [layout_append] at h
  obtain ⟨s1, h1, h2⟩ := h
  refine rule_ok (r := .SMFixedArray) rfl (arr_chain H h1 (chain_label (integer_ok h2 (stops_cons rfl))
    (chain_lit rfl (chain_nil (fun _ _ => ?_)))))
  cases hb : e.base mn <;> rfl

omit H in
/-- A length that does not look like a constant is not the size of a fixed array. -/
theorem length_integer {k : LengthConstraint} {s s' : List Char} (h : Layout (length k ++ [.tok "]"]) s s') (hk : ¬ likeConst k) :
    NoChain [.label "s" (.ref .Integer), .lit "]"] s := by
  rw [layout_append] at h
  obtain ⟨s2, h, s3, rfl, rfl⟩ := h
  have word (n : String) (rest : List Char) (hn : IsIdent n) (hr : Stops isIdChar rest) (hc : IsConst n → Stops (· == ']') rest) :
      NoChain [.label "s" (.ref .Integer), .lit "]"] (n.toList ++ rest) := by
    rcases const_split (n.toList ++ rest) with h1 | ⟨m, t, hm, ht, hst⟩
    · refine nochain_label (integer_no ?_)
      rintro c t hct
      have h2 := h1 c t hct
      obtain ⟨c', t', h3, h4⟩ := ident_starts hn rest
      rw [hct] at h3
      obtain ⟨rfl, rfl⟩ := List.cons.inj h3
      simp only [isIntStart, h2, Bool.false_or]
      rw [← Bool.not_eq_true, digit_iff]
      rw [idStart_iff] at h4
      omega
    · have hI : Ok (.ref .Integer) (n.toList ++ rest) (.integer (.constRef m)) [] t := by
        rw [ht]
        refine rule_lab (r := .Integer) rfl (ok_choice (rule_lab (r := .IntegerConstRef) rfl (w := .str m) (h := []) ?_ (fun _ _ => rfl))) (fun _ _ => rfl)
        intro env l b
        rw [const_ok hm hst]; simp
      refine nochain_labelled hI (nochain_here (no_lit (not_prefix (t := "]") (c := ']') rfl ?_)))
      obtain ⟨m', hm', rfl⟩ := word_split ht (const_chars hm) hr
      cases m' with
      | nil =>
        apply hc
        obtain rfl : n = m := by
          apply String.ext
          simpa using hm'
        exact hm
      | cons c m' =>
        have := ident_chars hn c (by rw [hm']; simp)
        refine stops_cons ?_
        rw [idChar_iff] at this
        simp only [beq_eq_false_iff_ne, ne_eq, char_eq, Char.reduceToNat]
        omega
  cases k with
  | leftover i =>
    obtain ⟨t, rfl, h⟩ := h
    exact nochain_label (integer_no (stops_cons rfl))
  | idRef r =>
    simp only [length, idRef] at h
    split at h
    · rename_i hsc
      obtain ⟨_, ⟨hn, rfl, hs⟩, rfl⟩ := h
      refine word _ _ hn hs (fun hc => absurd ⟨hsc, hc⟩ hk)
    · obtain ⟨_, ⟨hn, rfl, hs⟩, _, rfl, h⟩ := h
      exact word _ _ hn hs (fun _ => stops_cons rfl)

theorem var_ok {e : Elem ι} {n : String} {k : LengthConstraint} {s s' : List Char}
    (h : Layout (e.spell sp ++ [.gap1, .id n, .gap, .tok "["] ++ length k ++ [.tok "]"]) s s') (hk : ¬ likeConst k) :
    No (.ref .SMFixedArray) s ∧ Ok (.ref .SMVarArray) s (.field ⟨n, .varArray (e.base mn) (some k)⟩) (e.hoist mn) s' := by
  rw [List.append_assoc, layout_append] at h
  obtain ⟨s1, h1, h2⟩ := h
  refine ⟨rule_no (r := .SMFixedArray) rfl (arr_nochain H h1 (length_integer h2 hk)), ?_⟩
  rw [layout_append] at h2
  obtain ⟨s2, h2, s3, rfl, rfl⟩ := h2
  refine rule_ok (r := .SMVarArray) rfl (arr_chain H h1 (chain_label (length_ok h2 (stops_cons rfl) (stops_cons rfl))
    (chain_lit rfl (chain_nil (fun _ _ => ?_)))))
  cases hb : e.base mn <;> cases k <;> rfl

theorem rem_ok {e : Elem ι} {n : String} {s s' : List Char} (h : Layout (remainder sp e n) s s') :
    No (.ref .SMArray) s ∧ Ok (.ref .SMRemainder) s (.field ⟨n, .varArray (e.base mn) none⟩) (e.hoist mn) s' := by
  rw [remainder, show ([.gap1, .id n, .gap, .tok "[", .gap, .tok "]"] : List Piece) = [.gap1, .id n, .gap, .tok "["] ++ [.gap, .tok "]"] from rfl,
    ← List.append_assoc, layout_append] at h
  obtain ⟨s1, h1, s2, h2, s3, rfl, rfl⟩ := h
  have hint : Stops isIntStart s1 := gap_stops (fun c hc => by
    cases h : isIntStart c with
    | false => rfl
    | true => rw [intStart_fresh c h] at hc; cases hc) h2 (stops_cons rfl)
  have hlen : Stops isLengthStart s1 := gap_stops (fun c hc => by
    cases h : isLengthStart c with
    | false => rfl
    | true => rw [lengthStart_fresh c h] at hc; cases hc) h2 (stops_cons rfl)
  refine ⟨rule_lab_no (r := .SMArray) rfl (no_choice ?_ (no_choice ?_ no_choice_nil)), ?_⟩
  · exact rule_no (r := .SMFixedArray) rfl (arr_nochain H h1 (nochain_label (integer_no hint)))
  · exact rule_no (r := .SMVarArray) rfl (arr_nochain H h1 (nochain_label (length_no hlen)))
  · refine rule_ok (r := .SMRemainder) rfl (arr_chain H h1 (chain_skip (skips_gap h2 (stops_cons rfl))
      (chain_lit rfl (chain_nil (fun _ _ => ?_)))))
    cases hb : e.base mn <;> rfl

omit H in
theorem array_no {s : List Char} (h : No (.ref .ArrayBase) s) : No (.ref .SMArray) s :=
  rule_lab_no (r := .SMArray) rfl (no_choice (rule_no (r := .SMFixedArray) rfl (nochain_label h))
    (no_choice (rule_no (r := .SMVarArray) rfl (nochain_label h)) no_choice_nil))

omit H in
theorem rem_no {s : List Char} (h : No (.ref .ArrayBase) s) : No (.ref .SMRemainder) s :=
  rule_no (r := .SMRemainder) rfl (nochain_label h)

/-- A field without brackets is not an array. -/
theorem array_no_plain {e : Elem ι} {n : String} {s s1 s2 s3 : List Char} (h : Layout (e.spell sp) s s1)
    (h1 : Gap s1 s2) (h2 : (Piece.id n).At s2 s3) (hc : After (fun c => c == '[' || c == 'c') s3)
    (hg : Piece.gap1.At s1 s2 ∨ (s1 = s2 ∧ ∃ w, e = .int w)) : No (.ref .SMArray) s := by
  have key (es : List Expr) : NoChain (.label "b" (.ref .ArrayBase) :: .ref .gap1 :: .label "n" (.ref .Identifier) ::
      .ref .gap :: .lit "[" :: es) s := by
    rcases hg with hg | ⟨rfl, w, rfl⟩
    · refine nochain_labelled (elem_ok H h ⟨n, s2, s3, hg, h2, hc.mono (fun c h => by simp [h])⟩) (nochain_skip (skips_gap1 hg (id_fresh h2))
        (nochain_labelled (id_ok h2) (nochain_skip (skips_here _) (nochain_here (no_lit (not_prefix (t := "[") (c := '[') rfl
          (hc.mono (fun c h => by simp [h]))))))))
    · obtain ⟨_, hw, rfl⟩ := h
      have : Ok (.ref .ArrayBase) s (.intType ⟨w.bits, none⟩) [] _ :=
        rule_lab (r := .ArrayBase) rfl (ok_choice (intType_ok hw)) (fun _ _ => rfl)
      exact nochain_labelled this (nochain_here (gap1_no (id_fresh h2)))
  exact rule_lab_no (r := .SMArray) rfl (no_choice (rule_no (r := .SMFixedArray) rfl (key _))
    (no_choice (rule_no (r := .SMVarArray) rfl (key _)) no_choice_nil))

/-! ## Fields -/

/-- One of the rules for fields matches, and those tried before it do not. -/
def FieldAt (s : List Char) (v : Val) (h : List Struct) (s' : List Char) : Prop :=
  Ok (.ref .SMArray) s v h s' ∨
  (No (.ref .SMArray) s ∧ Ok (.ref .SMInteger) s v h s') ∨
  (No (.ref .SMArray) s ∧ No (.ref .SMInteger) s ∧ No (.ref .SMPosition) s ∧ Ok (.ref .SMString) s v h s') ∨
  (No (.ref .SMArray) s ∧ No (.ref .SMInteger) s ∧ No (.ref .SMPosition) s ∧ No (.ref .SMString) s ∧
    Ok (.ref .SMStruct) s v h s')

/-- None of the rules for members matches. -/
def NoField (s : List Char) : Prop :=
  No (.ref .SMArray) s ∧ No (.ref .SMInteger) s ∧ No (.ref .SMPosition) s ∧ No (.ref .SMString) s ∧
    No (.ref .SMStruct) s ∧ No (.ref .SMUnion) s

omit H in
theorem fieldAt_member {s v h s'} (hf : FieldAt s v h s') :
    Ok (.choice [.ref .SMArray, .ref .SMInteger, .ref .SMPosition, .ref .SMString, .ref .SMStruct, .ref .SMUnion]) s v h s' := by
  rcases hf with h1 | ⟨h1, h2⟩ | ⟨h1, h2, h3, h4⟩ | ⟨h1, h2, h3, h4, h5⟩
  · exact ok_choice h1
  · exact ok_next h1 (ok_choice h2)
  · exact ok_next h1 (ok_next h2 (ok_next h3 (ok_choice h4)))
  · exact ok_next h1 (ok_next h2 (ok_next h3 (ok_next h4 (ok_choice h5))))

omit H in
theorem fieldAt_union {s v h s'} (hf : FieldAt s v h s') :
    Ok (.choice [.ref .SMArray, .ref .SMInteger, .ref .SMString, .ref .SMStruct]) s v h s' := by
  rcases hf with h1 | ⟨h1, h2⟩ | ⟨h1, h2, h3, h4⟩ | ⟨h1, h2, h3, h4, h5⟩
  · exact ok_choice h1
  · exact ok_next h1 (ok_choice h2)
  · exact ok_next h1 (ok_next h2 (ok_choice h4))
  · exact ok_next h1 (ok_next h2 (ok_next h4 (ok_choice h5)))

omit H in
theorem noField_member {s} (h : NoField s) :
    No (.choice [.ref .SMArray, .ref .SMInteger, .ref .SMPosition, .ref .SMString, .ref .SMStruct, .ref .SMUnion]) s :=
  no_choice h.1 (no_choice h.2.1 (no_choice h.2.2.1 (no_choice h.2.2.2.1 (no_choice h.2.2.2.2.1 (no_choice h.2.2.2.2.2 no_choice_nil)))))

omit H in
theorem noField_union {s} (h : NoField s) :
    No (.choice [.ref .SMArray, .ref .SMInteger, .ref .SMString, .ref .SMStruct]) s :=
  no_choice h.1 (no_choice h.2.1 (no_choice h.2.2.2.1 (no_choice h.2.2.2.2.1 no_choice_nil)))

omit H in
theorem integerRule_no {s} (h : No (.ref .IntType) s) : No (.ref .SMInteger) s :=
  rule_no (r := .SMInteger) rfl (nochain_label h)

omit H in
theorem position_no {s} (h : Stops (· == '@') s) : No (.ref .SMPosition) s :=
  rule_no (r := .SMPosition) rfl (nochain_here (no_lit (not_prefix (t := "@ptr") rfl h)))

omit H in
theorem string_no {s} (h : Stops (· == 'n') s) : No (.ref .SMString) s :=
  rule_no (r := .SMString) rfl (nochain_here (no_lit (not_prefix (t := "nulterm") rfl h)))

omit H in
theorem structRule_no {s} (h : Stops (· == 's') s) : No (.ref .SMStruct) s :=
  rule_no (r := .SMStruct) rfl (nochain_label (structRef_no h))

omit H in
theorem unionRule_no {s} (h : ∀ t, s ≠ 'u' :: 'n' :: t) : No (.ref .SMUnion) s :=
  rule_no (r := .SMUnion) rfl (nochain_here (no_lit (by rintro ⟨t, rfl⟩; exact h _ rfl)))

/-- Where fields start. -/
def isFieldStart (c : Char) : Bool := c == 'u' || c == 'c' || c == 's' || c == 'n'

theorem field_starts {f : SField ι} {s s' : List Char} (h : Layout (f.spell sp) s s') : Starts isFieldStart s := by
  have elem {e : Elem ι} {s s' : List Char} (h : Layout (e.spell sp) s s') : Starts isFieldStart s := by
    obtain ⟨c, t, rfl, hc⟩ := elem_starts H h
    refine ⟨c, t, rfl, ?_⟩
    simp only [isElemStart, isFieldStart, Bool.or_eq_true] at hc ⊢
    tauto
  cases f with
  | fixed b n k =>
    simp only [SField.spell, layout_append] at h
    obtain ⟨_, ⟨_, ⟨_, h, _⟩, _⟩, _⟩ := h
    exact elem h
  | var b n l =>
    simp only [SField.spell, layout_append, List.cons_append] at h
    obtain ⟨_, ⟨_, rfl⟩, h⟩ := h
    simp only [layout_append] at h
    obtain ⟨_, ⟨_, ⟨_, h, _⟩, _⟩, _⟩ := h
    exact elem h
  | int w n c =>
    obtain ⟨t, ht⟩ := word_u w
    cases c with
    | none => obtain ⟨_, rfl, _⟩ := h; exact ⟨'u', t ++ _, by rw [ht]; rfl, rfl⟩
    | some l => obtain ⟨_, rfl, _⟩ := h; exact ⟨'u', t ++ _, by rw [ht]; rfl, rfl⟩
  | str n => obtain ⟨_, rfl, _⟩ := h; exact ⟨'n', _, rfl, rfl⟩
  | struct r n =>
    simp only [SField.spell, layout_append] at h
    obtain ⟨_, h, _⟩ := h
    obtain ⟨t, rfl⟩ := ref_starts H h
    exact ⟨'s', t, rfl, rfl⟩

omit H in
theorem fieldStart_fresh (c : Char) (h : isFieldStart c = true) : isSkipStart c = false := by
  simp only [isFieldStart, Bool.or_eq_true, beq_iff_eq] at h
  rcases h with ((rfl | rfl) | rfl) | rfl <;> rfl

theorem field_ok {f : SField ι} {s s1 t : List Char} (h : Layout (f.spell sp) s s1) (hg : Gap s1 (';' :: t)) :
    ∃ s3, Gap s3 (';' :: t) ∧ FieldAt s (.field (f.field mn)) (f.hoist mn) s3 := by
  cases f with
  | fixed b n k =>
    exact ⟨s1, hg, Or.inl (rule_lab (r := .SMArray) rfl (ok_choice (fixed_ok H h)) (fun _ _ => rfl))⟩
  | var b n l =>
    obtain ⟨_, ⟨hl, rfl⟩, h⟩ := h
    obtain ⟨h1, h2⟩ := var_ok H h hl
    exact ⟨s1, hg, Or.inl (rule_lab (r := .SMArray) rfl (ok_next h1 (ok_choice h2)) (fun _ _ => rfl))⟩
  | int w n c =>
    cases c with
    | none =>
      obtain ⟨u1, h1, u2, h2, u3, h3, rfl⟩ := h
      refine ⟨_, .done _, Or.inr (Or.inl ⟨?_, ?_⟩)⟩
      · refine array_no_plain H (e := .int w) ⟨u1, h1, rfl⟩ h2 h3 (after_gap hg (stops_cons rfl) (stops_cons rfl)) ?_
        by_cases hu : u1 = u2
        · exact Or.inr ⟨hu, w, rfl⟩
        · exact Or.inl ⟨h2, hu⟩
      · refine rule_ok (r := .SMInteger) rfl (chain_label (intType_ok h1) (chain_skip (skips_gap h2 (id_fresh h3)) (chain_label (id_ok h3)
          (chain_skip (skips_gap hg (stops_cons rfl)) (chain_label (ok_opt_nil ?_) (chain_nil (fun _ _ => rfl)))))))
        exact rule_no (r := .IntConstraint) rfl (nochain_here (no_lit (not_prefix (t := "IN") rfl (stops_cons rfl))))
    | some k =>
      simp only [SField.spell, layout_append] at h
      obtain ⟨v2, ⟨v1, ⟨u1, h1, u2, h2, u3, h3, u4, h4, u5, rfl, u6, h6, u7, rfl, u8, h8, rfl⟩, hk⟩, v3, h9, v4, rfl, rfl⟩ := h
      refine ⟨_, hg, Or.inr (Or.inl ⟨?_, ?_⟩)⟩
      · refine array_no_plain H (e := .int w) ⟨u1, h1, rfl⟩ h2 h3 (after_gap h4.1 (stops_cons rfl) (stops_cons rfl)) ?_
        by_cases hu : u1 = u2
        · exact Or.inr ⟨hu, w, rfl⟩
        · exact Or.inl ⟨h2, hu⟩
      · refine rule_ok (r := .SMInteger) rfl (chain_label (intType_ok h1) (chain_skip (skips_gap h2 (id_fresh h3)) (chain_label (id_ok h3)
          (chain_skip (skips_gap h4.1 (stops_cons rfl)) (chain_label (v := .intList k) (ok_opt ?_) (chain_nil (fun _ _ => rfl)))))))
        exact rule_ok (r := .IntConstraint) rfl (chain_lit rfl (chain_skip (skips_gap1 h6 (stops_cons rfl)) (chain_lit rfl
          (chain_skip (skips_gap h8 ((intList_starts hk).stops intStart_fresh)) (chain_label
            (intList_ok hk (afterRange_gap h9 rfl rfl rfl) (after_gap h9 (stops_cons rfl) (stops_cons rfl)))
            (chain_skip (skips_gap h9 (stops_cons rfl)) (chain_lit rfl (chain_nil (fun _ _ => rfl)))))))))
  | str n =>
    obtain ⟨_, rfl, u1, h1, u2, h2, rfl⟩ := h
    refine ⟨_, hg, Or.inr (Or.inr (Or.inl ⟨array_no (elem_no (intType_no' (stops_cons rfl)) (stops_cons rfl)),
      integerRule_no (intType_no' (stops_cons rfl)), position_no (stops_cons rfl), ?_⟩))⟩
    exact rule_ok (r := .SMString) rfl (chain_lit rfl (chain_skip (skips_gap1 h1 (id_fresh h2)) (chain_label (id_ok h2) (chain_nil (fun _ _ => rfl)))))
  | struct r n =>
    simp only [SField.spell, layout_append] at h
    obtain ⟨u, h, u1, h1, u2, h2, rfl⟩ := h
    have hno := array_no_plain H (e := .ref r) h h1.1 h2 (after_gap hg (stops_cons rfl) (stops_cons rfl)) (Or.inl h1)
    have hok : Ok (.ref .SMStruct) s (.field ((SField.struct r n).field mn)) (r.hoist mn ++ []) u2 :=
      rule_ok (r := .SMStruct) rfl (chain_label' (ref_ok H h (afterRef_of h1 h2 hg rfl rfl))
        (chain_skip (skips_gap1 h1 (id_fresh h2)) (chain_label (id_ok h2) (chain_nil (fun _ _ => rfl)))))
    rw [List.append_nil] at hok
    obtain ⟨t', rfl⟩ := ref_starts H h
    exact ⟨u2, hg, Or.inr (Or.inr (Or.inr ⟨hno, integerRule_no (intType_no' (stops_cons rfl)), position_no (stops_cons rfl),
      string_no (stops_cons rfl), hok⟩))⟩

/-- No field starts here: the list of fields ends. -/
def EndField (s : List Char) : Prop :=
  Stops isSkipStart s ∧ (NoField s ∨ ∃ v h s3, FieldAt s v h s3 ∧ After (· == ';') s3)

omit H in
theorem unionField_no {x s : List Char} (hg : Gap x s) (h : EndField s) : No (.ref .UnionField) x := by
  obtain ⟨hf, h | ⟨v, hs, s3, h1, h2⟩⟩ := h
  · exact rule_no (r := .UnionField) rfl (nochain_skip (skips_gap hg hf) (nochain_label (noField_union h)))
  · exact rule_no (r := .UnionField) rfl (nochain_skip (skips_gap hg hf) (nochain_labelled (fieldAt_union h1)
      (nochain_skip (skips_here _) (nochain_here (no_lit (not_prefix (t := ";") rfl h2))))))

omit H in
theorem structMember_no {x s : List Char} (hg : Gap x s) (h : EndField s) : No (.ref .StructMember) x := by
  obtain ⟨hf, h | ⟨v, hs, s3, h1, h2⟩⟩ := h
  · exact rule_no (r := .StructMember) rfl (nochain_skip (skips_gap hg hf) (nochain_label (noField_member h)))
  · exact rule_no (r := .StructMember) rfl (nochain_skip (skips_gap hg hf) (nochain_labelled (fieldAt_member h1)
      (nochain_skip (skips_here _) (nochain_here (no_lit (not_prefix (t := ";") rfl h2))))))

omit H in
theorem endField_first {s : List Char} (hf : Stops isSkipStart s) (h : Stops (fun c => isFieldStart c || c == '@') s) : EndField s := by
  have hu : Stops (· == 'u') s := h.mono (fun c hc => by simp only [beq_iff_eq] at hc; subst hc; rfl)
  have hs : Stops (· == 's') s := h.mono (fun c hc => by simp only [beq_iff_eq] at hc; subst hc; rfl)
  have hcs : Stops (fun c => c == 'c' || c == 's') s := h.mono (fun c hc => by
    simp only [beq_iff_eq, Bool.or_eq_true] at hc; rcases hc with rfl | rfl <;> rfl)
  refine ⟨hf, Or.inl ⟨array_no (elem_no (intType_no' hu) hcs), integerRule_no (intType_no' hu), position_no (h.mono ?_),
    string_no (h.mono ?_), structRule_no hs, unionRule_no ?_⟩⟩
  · intro c hc; simp only [beq_iff_eq] at hc; subst hc; rfl
  · intro c hc; simp only [beq_iff_eq] at hc; subst hc; rfl
  · rintro t rfl
    have := hu 'u' _ rfl
    simp at this

theorem endField_rem {e : Elem ι} {n : String} {s s' : List Char} (h : Layout (remainder sp e n) s s') : EndField s := by
  have hno := (rem_ok H h).1
  simp only [remainder, layout_append] at h
  obtain ⟨u, h, u1, h1, u2, h2, u3, h3, u4, rfl, _⟩ := h
  have hfresh : Stops isSkipStart s := (elem_starts H h).stops (fun c hc => fieldStart_fresh c (by
    simp only [isElemStart, isFieldStart, Bool.or_eq_true] at hc ⊢; tauto))
  refine ⟨hfresh, ?_⟩
  cases e with
  | int w =>
    right
    obtain ⟨_, hw, rfl⟩ := h
    refine ⟨.field ⟨n, .base (.int ⟨w.bits, none⟩)⟩, [], _, Or.inr (Or.inl ⟨hno, rule_ok (r := .SMInteger) rfl
      (chain_label (intType_ok hw) (chain_skip (skips_gap h1.1 (id_fresh h2)) (chain_label (id_ok h2)
          (chain_skip (skips_gap h3 (stops_cons rfl)) (chain_label (ok_opt_nil ?_) (chain_nil (fun _ _ => rfl)))))))⟩), ?_⟩
    · exact rule_no (r := .IntConstraint) rfl (nochain_here (no_lit (not_prefix (t := "IN") rfl (stops_cons rfl))))
    · exact after_gap (.done _) (stops_cons rfl) (stops_cons rfl)
  | char =>
    left
    obtain ⟨_, rfl, rfl⟩ := h
    exact ⟨hno, integerRule_no (intType_no' (stops_cons rfl)), position_no (stops_cons rfl), string_no (stops_cons rfl),
      structRule_no (stops_cons rfl), unionRule_no (by rintro t ⟨⟩)⟩
  | ref r =>
    right
    have hok : Ok (.ref .SMStruct) s (.field ((SField.struct r n).field mn)) (r.hoist mn ++ []) u2 :=
      rule_ok (r := .SMStruct) rfl (chain_label' (ref_ok H h (afterRef_of h1 h2 h3 rfl rfl))
        (chain_skip (skips_gap1 h1 (id_fresh h2)) (chain_label (id_ok h2) (chain_nil (fun _ _ => rfl)))))
    obtain ⟨t', rfl⟩ := ref_starts H h
    exact ⟨_, _, _, Or.inr (Or.inr (Or.inr ⟨hno, integerRule_no (intType_no' (stops_cons rfl)), position_no (stops_cons rfl),
      string_no (stops_cons rfl), hok⟩)), after_gap h3 (stops_cons rfl) (stops_cons rfl)⟩

theorem unionField_ok {f : SField ι} {x s s' : List Char} (hg : Gap x s) (h : Layout (f.spell sp ++ [.gap, .tok ";"]) s s') :
    Ok (.ref .UnionField) x (.field (f.field mn)) (f.hoist mn) s' := by
  rw [layout_append] at h
  obtain ⟨s1, h1, s2, h2, s3, rfl, rfl⟩ := h
  obtain ⟨s4, h4, h5⟩ := field_ok H h1 h2
  have := rule_ok (r := .UnionField) (v := .field (f.field mn)) rfl (chain_skip (skips_gap hg ((field_starts H h1).stops fieldStart_fresh))
    (chain_label' (fieldAt_union h5) (chain_skip (skips_gap h4 (stops_cons rfl)) (chain_lit rfl (chain_nil (fun _ _ => rfl))))))
  rwa [List.append_nil] at this

theorem structMember_field {f : SField ι} {x s s' : List Char} (hg : Gap x s) (h : Layout (f.spell sp ++ [.gap, .tok ";"]) s s') :
    Ok (.ref .StructMember) x (.field (f.field mn)) (f.hoist mn) s' := by
  rw [layout_append] at h
  obtain ⟨s1, h1, s2, h2, s3, rfl, rfl⟩ := h
  obtain ⟨s4, h4, h5⟩ := field_ok H h1 h2
  have := rule_ok (r := .StructMember) (v := .field (f.field mn)) rfl (chain_skip (skips_gap hg ((field_starts H h1).stops fieldStart_fresh))
    (chain_label' (fieldAt_member h5) (chain_skip (skips_gap h4 (stops_cons rfl)) (chain_lit rfl (chain_nil (fun _ _ => rfl))))))
  rwa [List.append_nil] at this

end

/-! ## Repetitions -/

/-- Items one after the other. -/
def Items {α : Type} (step : α → List Char → List Char → Prop) : List α → List Char → List Char → Prop
  | [], s, s' => s = s'
  | a :: as, s, s' => ∃ s1, step a s s1 ∧ Items step as s1 s'

theorem items_ok {α : Type} {e : Expr} {out : α → Val} {hs : α → List Struct} {as : List α} {s s' : List Char}
    (h : Items (fun a s s' => Ok e s (out a) (hs a) s') as s s') (hno : No e s') :
    Ok (.star e) s (.list (as.map out)) (as.flatMap hs) s' := by
  have key : ∀ (s : List Char) (env : Env) (vals : List Val) (l : List Val) (b : Bool),
      Items (fun a s s' => Ok e s (out a) (hs a) s') as s s' →
      evStar rules e env vals (C s l b) = .ok (.list (vals ++ as.map out)) env (C s' (l ++ lingers (as.flatMap hs)) b) := by
    clear h
    induction as with
    | nil => rintro s env vals l b rfl; rw [ok_star_nil hno]; simp
    | cons a as ih =>
      rintro s env vals l b ⟨s1, h1, h2⟩
      rw [ok_star_cons h1, ih s1 env _ _ _ h2]
      simp
  intro env l b
  rw [ev_star, key s env [] l b h]
  simp

/-- Items each of which starts with a gap. -/
theorem items_gap {α : Type} {e : Expr} {out : α → Val} {hs : α → List Struct} {f : α → List Piece}
    (hitem : ∀ a x s s', Gap x s → Layout (f a) s s' → Ok e x (out a) (hs a) s') {as : List α} : ∀ {x s s' : List Char},
    Gap x s → Layout (as.flatMap (fun a => f a ++ [.gap])) s s' → (∀ y, Gap y s' → No e y) →
    ∃ y, Gap y s' ∧ Ok (.star e) x (.list (as.map out)) (as.flatMap hs) y := by
  have key : ∀ (x s s' : List Char), Gap x s → Layout (as.flatMap (fun a => f a ++ [.gap])) s s' →
      ∃ y, Gap y s' ∧ Items (fun a s s' => Ok e s (out a) (hs a) s') as x y := by
    induction as with
    | nil => rintro x s s' hg rfl; exact ⟨x, hg, rfl⟩
    | cons a as ih =>
      intro x s s' hg h
      simp only [List.flatMap_cons, layout_append] at h
      obtain ⟨s2, ⟨s1, h1, _, h2, rfl⟩, h3⟩ := h
      obtain ⟨y, hy, hi⟩ := ih s1 _ s' h2 h3
      exact ⟨y, hy, s1, hitem a x s s1 hg h1, hi⟩
  intro x s s' hg h hno
  obtain ⟨y, hy, hi⟩ := key x s s' hg h
  exact ⟨y, hy, items_ok hi (hno y hy)⟩

/-! ## Unions -/

/-- Where union cases start and where the list of them ends. -/
def isCaseEnd (c : Char) : Bool := isIntStart c || c == 'd' || c == '}'

theorem caseEnd_iff (c : Char) : isCaseEnd c = true ↔ (65 ≤ c.toNat ∧ c.toNat ≤ 90) ∨ (48 ≤ c.toNat ∧ c.toNat ≤ 57) ∨
    c.toNat = 95 ∨ c.toNat = 100 ∨ c.toNat = 125 := by
  simp only [isCaseEnd, Bool.or_eq_true, intStart_iff, beq_iff_eq, char_eq, Char.reduceToNat]
  omega

theorem caseEnd_fresh (c : Char) (h : isCaseEnd c = true) : isSkipStart c = false := by
  rw [caseEnd_iff] at h
  simp only [isSkipStart, Bool.or_eq_false_iff, beq_eq_false_iff_ne, ne_eq, char_eq, Char.reduceToNat]
  omega

theorem caseEnd_field (c : Char) (h : isCaseEnd c = true) : (isFieldStart c || c == '@') = false := by
  rw [caseEnd_iff] at h
  simp only [isFieldStart, Bool.or_eq_false_iff, beq_eq_false_iff_ne, ne_eq, char_eq, Char.reduceToNat]
  omega

section
variable {ι : Type} {sp : ι → List Piece} {mn : ι → Struct × List Struct} (H : Inner sp mn)
include H

theorem extent_ok {e : Extent ι} {s s' : List Char} (h : Layout (e.spell sp) s s') : EndField s ∧
    Ok (.ref .ExtentSpec) s (memberVal (.leaf (e.leaf mn))) (e.hoist mn) s' := by
  cases e with
  | dots =>
    obtain ⟨_, rfl, u1, h1, u2, rfl, rfl⟩ := h
    refine ⟨endField_first (stops_cons rfl) (stops_cons rfl), rule_choice (r := .ExtentSpec) rfl (ok_alt ?_)⟩
    exact chain_lit rfl (chain_skip (skips_gap h1 (stops_cons rfl)) (chain_lit rfl (chain_nil (fun _ _ => rfl))))
  | rest b n =>
    simp only [Extent.spell, layout_append] at h
    obtain ⟨u, h, u1, h1, u2, rfl, rfl⟩ := h
    refine ⟨endField_rem H h, rule_choice (r := .ExtentSpec) rfl (ok_next ?_ ?_)⟩
    · have hst : Starts isElemStart s := by
        simp only [remainder, layout_append] at h
        obtain ⟨_, h, _⟩ := h
        exact elem_starts H h
      exact no_action (no_seq (nochain_here (no_lit (not_prefix (t := "...") (c := '.') rfl (hst.stops (fun c hc => by
        simp only [isElemStart, Bool.or_eq_true, beq_iff_eq] at hc
        rcases hc with (rfl | rfl) | rfl <;> rfl))))))
    · have hc := chain_label' (n := "r") (env := []) (rem_ok H h).2 (chain_skip (skips_gap h1 (stops_cons rfl)) (chain_lit (t := ";") rfl (chain_nil
        (K := fun env => ∀ t l, onExtentSpec7 env t l = some (memberVal (.leaf ((Extent.rest b n).leaf mn)), false)) (fun _ _ => rfl))))
      rw [List.append_nil] at hc
      exact ok_alt hc

omit H in
theorem extent_no {s : List Char} (h : Starts isCaseEnd s) : No (.ref .ExtentSpec) s := by
  refine no_ref (show No rExtentSpec s from no_choice (no_action (no_seq (nochain_here (no_lit (not_prefix (t := "...") (c := '.') rfl
    (h.stops ?_)))))) (no_choice (no_action (no_seq (nochain_label (rem_no (elem_no (intType_no' (h.stops ?_)) (h.stops ?_)))))) no_choice_nil))
  all_goals
    intro c hc
    rw [caseEnd_iff] at hc
    simp only [Bool.or_eq_false_iff, beq_eq_false_iff_ne, ne_eq, char_eq, Char.reduceToNat]
    omega

/-- Where bodies of union cases start. -/
def isBodyStart (c : Char) : Bool := isCaseEnd c || isFieldStart c || c == '.'

theorem body_starts {fs : List (SField ι)} {e : Option (Extent ι)} {s s' : List Char}
    (h : Layout ((Body.fields fs e).spell sp) s s') (hs : Starts isCaseEnd s') : Starts isBodyStart s := by
  simp only [Body.spell, layout_append] at h
  obtain ⟨s1, h1, h2⟩ := h
  cases fs with
  | nil =>
    obtain rfl := h1
    cases e with
    | none =>
      obtain rfl := h2
      obtain ⟨c, t, rfl, hc⟩ := hs
      exact ⟨c, t, rfl, by simp [isBodyStart, hc]⟩
    | some e =>
      simp only [layout_append] at h2
      obtain ⟨s2, h2, _⟩ := h2
      cases e with
      | dots => obtain ⟨_, rfl, _⟩ := h2; exact ⟨'.', _, rfl, rfl⟩
      | rest b n =>
        simp only [Extent.spell, remainder, layout_append] at h2
        obtain ⟨_, ⟨_, h2, _⟩, _⟩ := h2
        obtain ⟨c, t, rfl, hc⟩ := elem_starts H h2
        refine ⟨c, t, rfl, ?_⟩
        simp only [isElemStart, isBodyStart, isFieldStart, Bool.or_eq_true] at hc ⊢
        tauto
  | cons f fs =>
    simp only [fieldsSpell, layout_append] at h1
    obtain ⟨_, ⟨_, h1, _⟩, _⟩ := h1
    obtain ⟨c, t, rfl, hc⟩ := field_starts H h1
    exact ⟨c, t, rfl, by simp [isBodyStart, hc]⟩

omit H in
theorem bodyStart_fresh (c : Char) (h : isBodyStart c = true) : isSkipStart c = false := by
  simp only [isBodyStart, Bool.or_eq_true, beq_iff_eq] at h
  rcases h with (h | h) | rfl
  · exact caseEnd_fresh c h
  · exact fieldStart_fresh c h
  · rfl

omit H in
theorem bodyStart_not (c : Char) (h : isBodyStart c = true) (d : Char) (hd : d = ';' ∨ d = 'f' ∨ d = 'i') : (c == d) = false := by
  simp only [isBodyStart, isFieldStart, Bool.or_eq_true, caseEnd_iff, beq_iff_eq, char_eq, Char.reduceToNat] at h
  simp only [beq_eq_false_iff_ne, ne_eq, char_eq] 
  rcases hd with rfl | rfl | rfl <;> simp only [Char.reduceToNat] <;> omega

theorem unionFields_ok {fs : List (SField ι)} {e : Option (Extent ι)} {s s' : List Char}
    (h : Layout ((Body.fields fs e).spell sp) s s') (hs : Starts isCaseEnd s') :
    ∃ s3, Gap s3 s' ∧ Ok (.ref .UnionFields) s (.members ((Body.fields fs e).leaves mn)) ((Body.fields fs e).hoist mn) s3 := by
  simp only [Body.spell, layout_append] at h
  obtain ⟨s1, h1, h2⟩ := h
  rw [fieldsSpell_eq] at h1
  have hcaseEnd : EndField s' := endField_first (hs.stops caseEnd_fresh) (hs.stops caseEnd_field)
  have hend : EndField s1 := by
    cases e with
    | none => obtain rfl := h2; exact hcaseEnd
    | some e =>
      simp only [layout_append] at h2
      obtain ⟨_, h2, _⟩ := h2
      exact (extent_ok H h2).1
  obtain ⟨y, hy, hstar⟩ := items_gap (f := fun f : SField ι => f.spell sp ++ [.gap, .tok ";"]) (out := fun f => .field (f.field mn))
    (hs := SField.hoist mn) (e := .ref .UnionField) (fun a x s s' hg hl => unionField_ok H hg hl) (.done s)
    (by simpa using h1) (fun y hy => unionField_no hy hend)
  have hm := mapM_out (out := fun f : SField ι => Val.field (f.field mn)) (g := fun f : SField ι => Leaf.field (f.field mn)) (get := Val.asLeaf)
    (fun a => asLeaf_field _) fs
  cases e with
  | none =>
    obtain rfl := h2
    have := rule_ok (r := .UnionFields) (v := .members ((Body.fields fs none).leaves mn)) rfl (chain_label' hstar (chain_skip (skips_gap hy hend.1)
      (chain_label (ok_opt_nil (extent_no hs)) (chain_nil (fun t l => by
        simp only [onUnionFields1, act, Env.get, List.lookup]
        simp [-List.mapM_map, Val.asList, Val.opt, hm, Body.leaves])))))
    exact ⟨_, .done _, by simpa [Body.hoist] using this⟩
  | some e =>
    simp only [layout_append] at h2
    obtain ⟨s2, h2, s3, h3, rfl⟩ := h2
    refine ⟨s2, h3, ?_⟩
    have := rule_ok (r := .UnionFields) (v := .members ((Body.fields fs (some e)).leaves mn)) rfl (chain_label' hstar (chain_skip (skips_gap hy hend.1)
      (chain_label' (ok_opt (extent_ok H h2).2) (chain_nil (fun t l => by
        simp only [onUnionFields1, act, Env.get, List.lookup]
        cases e <;>
        simp [-List.mapM_map, Val.asList, Val.opt, hm, Body.leaves, Extent.leaf, memberVal, Val.asLeaf])))))
    simpa [Body.hoist] using this

theorem unionBody_ok {b : Body ι} {s s' : List Char} (h : Layout (b.spell sp) s s') (hs : Starts isCaseEnd s') :
    Stops isSkipStart s ∧ ∃ s3 v, Gap s3 s' ∧ (v = .members (b.leaves mn) ∨ (v = .nil ∧ b.leaves mn = [])) ∧
      Ok (.ref .UnionBody) s v (b.hoist mn) s3 := by
  cases b with
  | empty =>
    obtain ⟨_, rfl, u1, h1, rfl⟩ := h
    exact ⟨stops_cons rfl, _, .nil, h1, Or.inr ⟨rfl, rfl⟩, rule_choice (r := .UnionBody) rfl (ok_alt
      (chain_skip (skips_gap (.done _) (stops_cons rfl)) (chain_lit rfl (chain_nil (fun _ _ => rfl)))))⟩
  | fail =>
    obtain ⟨_, rfl, u1, h1, u2, rfl, u3, h3, rfl⟩ := h
    exact ⟨stops_cons rfl, _, _, h3, Or.inl rfl, rule_choice (r := .UnionBody) rfl (ok_next
      (no_action (no_seq (nochain_skip (skips_gap (.done _) (stops_cons rfl)) (nochain_here (no_lit (not_prefix (t := ";") rfl (stops_cons rfl)))))))
      (ok_alt (chain_lit rfl (chain_skip (skips_gap h1 (stops_cons rfl)) (chain_lit rfl (chain_nil (fun _ _ => rfl)))))))⟩
  | ignore =>
    obtain ⟨_, rfl, u1, h1, u2, rfl, u3, h3, rfl⟩ := h
    exact ⟨stops_cons rfl, _, _, h3, Or.inl rfl, rule_choice (r := .UnionBody) rfl (ok_next
      (no_action (no_seq (nochain_skip (skips_gap (.done _) (stops_cons rfl)) (nochain_here (no_lit (not_prefix (t := ";") rfl (stops_cons rfl)))))))
      (ok_next (no_action (no_seq (nochain_here (no_lit (not_prefix (t := "fail") rfl (stops_cons rfl))))))
      (ok_alt (chain_lit rfl (chain_skip (skips_gap h1 (stops_cons rfl)) (chain_lit rfl (chain_nil (fun _ _ => rfl))))))))⟩
  | fields fs e =>
    obtain ⟨s3, h3, h4⟩ := unionFields_ok H h hs
    have hst := body_starts H h hs
    have hfresh := hst.stops bodyStart_fresh
    refine ⟨hfresh, s3, _, h3, Or.inl rfl, rule_choice (r := .UnionBody) rfl (ok_next
      (no_action (no_seq (nochain_skip (skips_gap (.done _) hfresh) (nochain_here (no_lit (not_prefix (t := ";") (c := ';') rfl
        (hst.stops (fun c hc => bodyStart_not c hc _ (by simp)))))))))
      (ok_next (no_action (no_seq (nochain_here (no_lit (not_prefix (t := "fail") (c := 'f') rfl (hst.stops (fun c hc => bodyStart_not c hc _ (by simp))))))))
      (ok_next (no_action (no_seq (nochain_here (no_lit (not_prefix (t := "ignore") (c := 'i') rfl (hst.stops (fun c hc => bodyStart_not c hc _ (by simp))))))))
      (ok_alt_lab h4 (fun _ _ => rfl)))))⟩

theorem case_starts {c : SCase ι} {s s' : List Char} (h : Layout (c.spell sp) s s') : Starts isCaseEnd s := by
  obtain ⟨cs, b⟩ := c
  simp only [SCase.spell, layout_append] at h
  obtain ⟨_, ⟨_, h, _⟩, _⟩ := h
  cases cs with
  | none => obtain ⟨_, rfl, _⟩ := h; exact ⟨'d', _, rfl, rfl⟩
  | some l =>
    obtain ⟨c, t, rfl, hc⟩ := intList_starts h
    exact ⟨c, t, rfl, by simp [isCaseEnd, hc]⟩

theorem unionMember_ok {c : SCase ι} {x s s' : List Char} (hg : Gap x s) (h : Layout (c.spell sp) s s') (hs : Starts isCaseEnd s') :
    Ok (.ref .UnionMember) x (.case ⟨c.case, c.body.leaves mn⟩) (c.body.hoist mn) s' := by
  have hst := case_starts H h
  obtain ⟨cs, b⟩ := c
  simp only [SCase.spell, layout_append] at h
  obtain ⟨s4, ⟨s1, h1, s2, h2, s3, rfl, s4', h3, rfl⟩, h4⟩ := h
  obtain ⟨hf, s5, v, h5, hv, hok⟩ := unionBody_ok H h4 hs
  have hcase : Ok (.ref .UnionCase) s ((cs.map Val.intList).getD .nil) [] s1 := by
    refine rule_choice (r := .UnionCase) rfl ?_
    cases cs with
    | none =>
      obtain ⟨_, rfl, rfl⟩ := h1
      refine ok_next (no_action (no_label (rule_no (r := .IntList) rfl (nochain_label (rule_no (r := .IntListMember) rfl (nochain_label
        (integer_no (stops_cons rfl)))))))) (ok_choice (v := .nil) (h := []) ?_)
      intro env l b
      rw [ev_action, lit_ok]
      simp [actRes, onUnionCase5, C]
    | some k =>
      exact ok_alt_lab (intList_ok h1 (afterRange_gap h2 rfl rfl rfl) (after_gap h2 (stops_cons rfl) (stops_cons rfl))) (fun _ _ => rfl)
  have := rule_ok (r := .UnionMember) (v := .case ⟨cs, b.leaves mn⟩) rfl (chain_skip (skips_gap hg (hst.stops caseEnd_fresh)) (chain_label hcase
    (chain_skip (skips_gap h2 (stops_cons rfl)) (chain_lit rfl (chain_skip (skips_gap h3 hf) (chain_label' hok
      (chain_skip (skips_gap h5 (hs.stops caseEnd_fresh)) (chain_nil (fun t l => by
        rcases hv with rfl | ⟨rfl, hv⟩
        · cases cs <;> rfl
        · rw [hv]; cases cs <;> rfl)))))))))
  rwa [List.append_nil] at this

theorem cases_items {cs : List (SCase ι)} : ∀ {s s' : List Char}, Layout (cs.flatMap (fun c => c.spell sp)) s s' → Starts isCaseEnd s' →
    Starts isCaseEnd s ∧ Items (fun c s s' => Ok (.ref .UnionMember) s (.case ⟨c.case, c.body.leaves mn⟩) (c.body.hoist mn) s') cs s s' := by
  induction cs with
  | nil => rintro s s' rfl hs; exact ⟨hs, rfl⟩
  | cons c cs ih =>
    intro s s' h hs
    simp only [List.flatMap_cons, layout_append] at h
    obtain ⟨s1, h1, h2⟩ := h
    obtain ⟨h3, h4⟩ := ih h2 hs
    exact ⟨case_starts H h1, s1, unionMember_ok H (.done s) h1 h3, h4⟩

omit H in
theorem unionMember_no {s : List Char} (h : ∃ t, s = '}' :: t) : No (.ref .UnionMember) s := by
  obtain ⟨t, rfl⟩ := h
  refine rule_no (r := .UnionMember) rfl (nochain_skip (skips_gap (.done _) (stops_cons rfl)) (nochain_label
    (no_ref (show No rUnionCase _ from no_choice ?_ (no_choice ?_ no_choice_nil)))))
  · exact no_action (no_label (rule_no (r := .IntList) rfl (nochain_label (rule_no (r := .IntListMember) rfl (nochain_label
        (integer_no (stops_cons rfl)))))))
  · exact no_action (no_lit (not_prefix (t := "default") rfl (stops_cons rfl)))

theorem union_ok {n : String} {tag : IDRef} {len : Option LengthConstraint} {cs : List (SCase ι)} {s s' : List Char}
    (h : Layout ((SMember.union n tag len cs).spell sp) s s') :
    Ok (.ref .SMUnion) s (memberVal ((SMember.union n tag len cs).member mn)) ((SMember.union n tag len cs).hoist mn) s' := by
  rw [union_spell] at h
  simp only [layout_append] at h
  obtain ⟨v1, ⟨v2, ⟨v3, ⟨v4, ⟨v5, ⟨v6, ⟨u0, rfl, u1, h1, u2, h2, u3, h3, u4, rfl, rfl⟩, h4⟩, u5, rfl, u6, h6, rfl⟩, h7⟩, u7, rfl, u8, h9, rfl⟩, h10⟩, u9, rfl, rfl⟩ := h
  obtain ⟨hst, hitems⟩ := cases_items H h10 ⟨'}', _, rfl, rfl⟩
  have hstar := items_ok hitems (unionMember_no ⟨_, rfl⟩)
  have hm := mapM_out (out := fun c : SCase ι => Val.case ⟨c.case, c.body.leaves mn⟩) (g := fun c : SCase ι => (⟨c.case, c.body.leaves mn⟩ : UnionCase))
    (get := Val.asCase) (fun a => rfl) cs
  have htail (v : Val) (hv : v.opt Val.asLength = some len) : Chain [.lit "{", .ref .gap, .label "cs" (.star (.ref .UnionMember)), .ref .gap, .lit "}"]
      ("{".toList ++ u7) [("l", v), ("t", .idRef tag), ("n", .str n)]
      (fun env => ∀ t l, onSMUnion1 env t l = some (memberVal ((SMember.union n tag len cs).member mn), false)) ((SMember.union n tag len cs).hoist mn) u9 := by
    have := chain_lit (t := "{") (env := [("l", v), ("t", .idRef tag), ("n", .str n)]) rfl (chain_skip (skips_gap h9 (hst.stops caseEnd_fresh)) (chain_label' (n := "cs") hstar (chain_skip (skips_gap (.done _) (stops_cons rfl))
      (chain_lit (t := "}") rfl (chain_nil (K := fun env => ∀ t l, onSMUnion1 env t l = some (memberVal ((SMember.union n tag len cs).member mn), false)) (fun t l => by
        simp only [onSMUnion1, act, Env.get, List.lookup]
        simp [-List.mapM_map, Val.asList, hm, Val.asStr, Val.asIDRef, hv, SMember.member, memberVal]))))))
    rwa [List.append_nil] at this
  refine rule_ok (r := .SMUnion) rfl (chain_lit rfl (chain_skip (skips_gap1 h1 (id_fresh h2)) (chain_label (id_ok h2)
    (chain_skip (skips_gap h3 (stops_cons rfl)) (chain_lit rfl (chain_label (idRef_ok h4 (stops_cons rfl)) (chain_lit rfl ?_)))))))
  cases len with
  | none =>
    obtain rfl := h7
    refine chain_skip (skips_gap h6 (stops_cons rfl)) (chain_label (ok_opt_nil ?_) (chain_skip (skips_gap (.done _) (stops_cons rfl))
      (htail .nil rfl)))
    exact rule_no (r := .UnionLength) rfl (nochain_here (no_lit (not_prefix (t := "with") rfl (stops_cons rfl))))
  | some k =>
    simp only [lenSpell, layout_append] at h7
    obtain ⟨w1, ⟨w2, ⟨w3, rfl, w4, h11, w5, rfl, w6, h12, rfl⟩, h13⟩, w7, h14, rfl⟩ := h7
    refine chain_skip (skips_gap h6 (stops_cons rfl)) (chain_label (v := lengthVal k) (ok_opt ?_) (chain_skip (skips_gap h14 (stops_cons rfl))
      (htail _ (by cases k <;> rfl))))
    exact rule_ok (r := .UnionLength) rfl (chain_lit rfl (chain_skip (skips_gap1 h11 (stops_cons rfl)) (chain_lit rfl
      (chain_skip (skips_gap1 h12 ((length_starts h13).stops lengthStart_fresh)) (chain_label
        (length_ok h13 (gap_word h14 (stops_cons rfl)) (gap_stops (fun c hc => by
          cases h : (c == '.') with
          | false => rfl
          | true => simp only [beq_iff_eq] at h; subst h; cases hc) h14 (stops_cons rfl)))
        (chain_nil (fun _ _ => rfl)))))))

/-! ## Members and structs -/

theorem structMember_ok {m : SMember ι} {x s s' : List Char} (hg : Gap x s) (h : Layout (m.spell sp ++ [.gap, .tok ";"]) s s') :
    Ok (.ref .StructMember) x (memberVal (m.member mn)) (m.hoist mn) s' := by
  cases m with
  | field f => exact structMember_field H hg h
  | ptr n =>
    obtain ⟨u0, rfl, u1, h1, u2, h2, u3, h3, u4, rfl, rfl⟩ := h
    refine rule_ok (r := .StructMember) rfl (chain_skip (skips_gap hg (stops_cons rfl)) (chain_label (v := .field ⟨n, .ptr⟩)
      (ok_next (array_no (elem_no (intType_no' (stops_cons rfl)) (stops_cons rfl))) (ok_next (integerRule_no (intType_no' (stops_cons rfl)))
        (ok_choice ?_))) (chain_skip (skips_gap h3 (stops_cons rfl)) (chain_lit rfl (chain_nil (fun _ _ => rfl))))))
    exact rule_ok (r := .SMPosition) rfl (chain_lit rfl (chain_skip (skips_gap1 h1 (id_fresh h2)) (chain_label (id_ok h2) (chain_nil (fun _ _ => rfl)))))
  | union n t l cs =>
    rw [layout_append] at h
    obtain ⟨s1, h1, s2, h2, s3, rfl, rfl⟩ := h
    have hok := union_ok H h1
    rw [union_spell] at h1
    obtain ⟨u0, rfl, -⟩ := h1
    have hint : No (.ref .IntType) ("union".toList ++ u0) := intType_no (by rintro t ⟨⟩; exact stops_cons rfl)
    have := rule_ok (r := .StructMember) (v := memberVal ((SMember.union n t l cs).member mn)) rfl (chain_skip (skips_gap hg (stops_cons rfl)) (chain_label'
      (ok_next (array_no (elem_no hint (stops_cons rfl))) (ok_next (integerRule_no hint) (ok_next (position_no (stops_cons rfl))
        (ok_next (string_no (stops_cons rfl)) (ok_next (structRule_no (stops_cons rfl)) (ok_choice hok))))))
      (chain_skip (skips_gap h2 (stops_cons rfl)) (chain_lit rfl (chain_nil (fun _ _ => rfl))))))
    rwa [List.append_nil] at this

theorem ending_ok {e : Ending ι} {s s' : List Char} (h : Layout (e.spell sp) s s') : EndField s ∧ ∃ s3, Gap s3 s' ∧
    Ok (.ref .StructEnding) s (memberVal (e.member mn)) (e.hoist mn) s3 := by
  cases e with
  | eos =>
    obtain ⟨u0, rfl, u1, h1, u2, rfl, u3, h3, rfl⟩ := h
    have heos : Ok (.ref .StructEOS) ("eos".toList ++ u0) .eos [] u0 := by
      refine ok_ref (fun l b => ⟨[], ?_⟩)
      rw [show rules .StructEOS = rStructEOS from rfl, rStructEOS, ev_action, lit_ok]
      simp [actRes, onStructEOS1, C]
    exact ⟨endField_first (stops_cons rfl) (stops_cons rfl), u2, h3, rule_ok (r := .StructEnding) rfl (chain_skip (skips_gap (.done _) (stops_cons rfl))
      (chain_label (ok_next (rem_no (elem_no (intType_no' (stops_cons rfl)) (stops_cons rfl))) (ok_choice heos))
      (chain_skip (skips_gap h1 (stops_cons rfl)) (chain_lit rfl (chain_nil (fun _ _ => rfl))))))⟩
  | rest b n =>
    simp only [Ending.spell, layout_append] at h
    obtain ⟨u, h, u1, h1, u2, rfl, u3, h3, rfl⟩ := h
    have hend := endField_rem H h
    refine ⟨hend, u2, h3, ?_⟩
    have := rule_ok (r := .StructEnding) (v := memberVal ((Ending.rest b n).member mn)) rfl (chain_skip (skips_gap (.done _) hend.1)
      (chain_label' (ok_choice (rem_ok H h).2) (chain_skip (skips_gap h1 (stops_cons rfl)) (chain_lit rfl (chain_nil (fun _ _ => rfl))))))
    rwa [List.append_nil] at this

omit H in
theorem ending_no {s : List Char} (h : ∃ t, s = '}' :: t) : No (.ref .StructEnding) s := by
  obtain ⟨t, rfl⟩ := h
  exact rule_no (r := .StructEnding) rfl (nochain_skip (skips_gap (.done _) (stops_cons rfl)) (nochain_label (no_choice
    (rem_no (elem_no (intType_no' (stops_cons rfl)) (stops_cons rfl))) (no_choice
    (no_ref (show No rStructEOS _ from no_action (no_lit (not_prefix (t := "eos") rfl (stops_cons rfl))))) no_choice_nil))))

omit H in
/-- `with context`, and the gap after it. -/
theorem contexts_ok {k : List String} {s s1 s2 : List Char} {c : Char} (h : Layout (withContext k) s s1) (hg : Gap s1 (c :: s2))
    (h1 : isSkipStart c = false) (h2 : c ≠ 'w') (h3 : c ≠ ',') :
    Gives (.opt (.seq [.ref .gap1, .ref .ContextRefs])) s (fun v => contextsOf v = some k) s1 := by
  cases k with
  | nil =>
    obtain rfl := h
    have hno : No (.seq [.ref .gap1, .ref .ContextRefs]) s := by
      apply contexts_no
      rw [gap_to hg (stops_cons h1)]
      exact stops_cons (by simpa using h2)
    intro env l b
    refine ⟨.nil, rfl, ?_⟩
    rw [ok_opt_nil hno]
    simp
  | cons n ns =>
    simp only [withContext, layout_append] at h
    obtain ⟨t, ⟨t1, h4, t2, rfl, t3, h5, t4, rfl, t5, h6, rfl⟩, h7⟩ := h
    have hrefs : Ok (.ref .ContextRefs) ("with".toList ++ t2) (.strs (n :: ns)) [] s1 :=
      rule_ok (r := .ContextRefs) rfl (chain_lit rfl (chain_skip (skips_gap1 h5 (stops_cons rfl)) (chain_lit rfl
        (chain_skip (skips_gap1 h6 ((idList_starts h7).stops idStart_fresh)) (chain_label
          (idList_ok h7 (after_gap hg (stops_cons h1) (stops_cons (by simpa using h3)))) (chain_nil (fun _ _ => rfl)))))))
    refine gives_opt ?_
    intro env l b
    obtain ⟨v, hv⟩ := skips_gap1 h4 (stops_cons rfl) env l b
    refine ⟨.list [v, .strs (n :: ns)], rfl, ?_⟩
    rw [ev_seq, seq_ok hv, seq_ok (hrefs env l b)]
    simp [seqLoop]

theorem structDecl_ok {d : SStruct ι} {s s' : List Char} (h : Layout (d.spell sp) s s') :
    (∃ t, s = "struct".toList ++ t) ∧ Ok (.ref .StructDecl) s (.struct (d.struct mn)) (d.hoist mn) s' := by
  obtain ⟨n, k, ms, e⟩ := d
  simp only [SStruct.spell, layout_append] at h
  obtain ⟨v1, ⟨v2, ⟨v3, ⟨v4, ⟨v5, h1, h2⟩, u1, h3, u2, rfl, u3, h4, rfl⟩, h5⟩, h6⟩, u4, rfl, rfl⟩ := h
  have hstart : ∃ t, s = "struct".toList ++ t := by
    obtain ⟨t, rfl, _⟩ := h1
    exact ⟨t, rfl⟩
  refine ⟨hstart, ?_⟩
  rw [membersSpell_eq] at h5
  have hend : EndField v2 := by
    cases e with
    | none => obtain rfl := h6; exact endField_first (stops_cons rfl) (stops_cons rfl)
    | some e => exact (ending_ok H h6).1
  obtain ⟨y, hy, hstar⟩ := items_gap (f := fun f : SMember ι => f.spell sp ++ [.gap, .tok ";"]) (out := fun m => memberVal (m.member mn))
    (hs := SMember.hoist mn) (e := .ref .StructMember) (fun a x s s' hg hl => structMember_ok H hg hl) h4
    (by simpa using h5) (fun y hy => structMember_no hy hend)
  have hm := mapM_out (out := fun f : SMember ι => memberVal (f.member mn)) (g := fun f : SMember ι => f.member mn) (get := Val.asMember)
    (fun a => asMember_val _) ms
  cases e with
  | none =>
    obtain rfl := h6
    have := rule_ok (r := .StructDecl) (v := .struct ((SStruct.mk n k ms none).struct mn)) rfl (chain_label (structId_ok h1)
      (chain_gives (contexts_ok h2 h3 rfl (by decide) (by decide)) (fun w hw => chain_skip (skips_gap h3 (stops_cons rfl)) (chain_lit rfl
        (chain_label' hstar (chain_skip (skips_gap hy hend.1) (chain_label (ok_opt_nil (ending_no ⟨_, rfl⟩))
          (chain_skip (skips_gap (.done _) (stops_cons rfl)) (chain_lit rfl (chain_nil (fun t l => by
            simp only [onStructDecl1, act, Env.get, List.lookup]
            simp [-List.mapM_map, Val.asList, Val.opt, hm, Val.asStr, hw, SStruct.struct])))))))))))
    simpa [SStruct.hoist] using this
  | some e =>
    obtain ⟨s3, h7, h8⟩ := (ending_ok H h6).2
    have := rule_ok (r := .StructDecl) (v := .struct ((SStruct.mk n k ms (some e)).struct mn)) rfl (chain_label (structId_ok h1)
      (chain_gives (contexts_ok h2 h3 rfl (by decide) (by decide)) (fun w hw => chain_skip (skips_gap h3 (stops_cons rfl)) (chain_lit rfl
        (chain_label' hstar (chain_skip (skips_gap hy hend.1) (chain_label' (ok_opt h8)
          (chain_skip (skips_gap h7 (stops_cons rfl)) (chain_lit rfl (chain_nil (fun t l => by
            have hv : (memberVal (e.member mn)).opt Val.asMember = some (some (e.member mn)) := by cases e <;> rfl
            simp only [onStructDecl1, act, Env.get, List.lookup]
            simp [-List.mapM_map, Val.asList, hv, hm, Val.asStr, hw, SStruct.struct])))))))))))
    simpa [SStruct.hoist] using this

end

/-- Structs declared in place parse, at every depth. -/
theorem tree_inner : ∀ k, Inner (Tree.spell k) (Tree.mean k)
  | 0 => fun d => nomatch d
  | k + 1 => fun d s s' h => structDecl_ok (tree_inner k) (d := d) h

/-! ## Declarations -/

/-- The first letters of declarations. -/
def isDeclStart (c : Char) : Bool := c == 'c' || c == 's' || c == 'e' || c == 't'

theorem declStart_fresh (c : Char) (h : isDeclStart c = true) : isSkipStart c = false ∧ (c == ';') = false := by
  simp only [isDeclStart, Bool.or_eq_true, beq_iff_eq] at h
  rcases h with ((rfl | rfl) | rfl) | rfl <;> exact ⟨rfl, rfl⟩

/-- What may follow a declaration: the next one or the end. -/
def DeclEnd (s : List Char) : Prop := s = [] ∨ Starts isDeclStart s

theorem DeclEnd.fresh {s : List Char} (h : DeclEnd s) : Stops isSkipStart s ∧ Stops (· == ';') s := by
  rcases h with rfl | h
  · exact ⟨stops_nil, stops_nil⟩
  · exact ⟨h.stops (fun c hc => (declStart_fresh c hc).1), h.stops (fun c hc => (declStart_fresh c hc).2)⟩

theorem decl_starts {k : Nat} {d : Decl (Tree k)} {s s' : List Char} (h : Layout d.spell s s') : Starts isDeclStart s := by
  cases d with
  | const => obtain ⟨_, rfl, _⟩ := h; exact ⟨'c', _, rfl, rfl⟩
  | context => obtain ⟨_, rfl, _⟩ := h; exact ⟨'c', _, rfl, rfl⟩
  | struct => obtain ⟨_, rfl, _⟩ := h; exact ⟨'s', _, rfl, rfl⟩
  | extern => obtain ⟨_, rfl, _⟩ := h; exact ⟨'e', _, rfl, rfl⟩
  | pragma => obtain ⟨_, rfl, _⟩ := h; exact ⟨'t', _, rfl, rfl⟩

/-- The optional semicolon and the gap after it. -/
theorem semi_chain {semi : Bool} {s s1 s' : List Char} {env : Env} {K : Env → Prop} (h : Layout (semicolon semi) s s1) (hg : Gap s1 s')
    (he : DeclEnd s') (hK : K env) : ∃ s2, Gap s2 s' ∧ Chain [.ref .gap, .opt (.lit ";")] s env K [] s2 := by
  cases semi with
  | false =>
    obtain rfl := h
    exact ⟨s', .done _, chain_skip (skips_gap hg he.fresh.1) (chain_skip (Ok.skips (ok_opt_nil (no_lit (not_prefix (t := ";") rfl he.fresh.2))))
      (chain_nil hK))⟩
  | true =>
    obtain ⟨u1, h1, u2, rfl, rfl⟩ := h
    refine ⟨_, hg, chain_skip (skips_gap h1 (stops_cons rfl)) (chain_skip (Ok.skips (v := .bytes (";".toList.map Rune.ok)) (ok_opt ?_)) (chain_nil hK))⟩
    intro env l b
    rw [lit_ok]; simp

theorem contextMember_ok (f : Width × String) {x s s' : List Char} (hg : Gap x s)
    (h : Layout [.tok f.1.word, .gap1, .id f.2, .gap, .tok ";", .gap] s s') (hs : Stops isSkipStart s') :
    Ok (.ref .ContextMember) x (.field ⟨f.2, .base (.int ⟨f.1.bits, none⟩)⟩) [] s' := by
  obtain ⟨u0, h0, u1, h1, u2, h2, u3, h3, u4, rfl, u5, h5, rfl⟩ := h
  have hf : Stops isSkipStart s := by
    obtain ⟨t, ht⟩ := word_u f.1
    rw [show s = f.1.word.toList ++ u0 from h0, ht]
    exact stops_cons rfl
  exact rule_ok (r := .ContextMember) rfl (chain_skip (skips_gap hg hf) (chain_label (intType_ok h0) (chain_skip (skips_gap1 h1 (id_fresh h2))
    (chain_label (id_ok h2) (chain_skip (skips_gap h3 (stops_cons rfl)) (chain_lit rfl (chain_skip (skips_gap h5 hs) (chain_nil (fun _ _ => rfl)))))))))

theorem context_items {fs : List (Width × String)} : ∀ {s s' : List Char}, Layout (contextSpell fs) s s' → Stops isSkipStart s' →
    Stops isSkipStart s ∧ Items (fun (f : Width × String) s s' => Ok (.ref .ContextMember) s (.field ⟨f.2, .base (.int ⟨f.1.bits, none⟩)⟩) [] s') fs s s' := by
  induction fs with
  | nil => rintro s s' rfl hs; exact ⟨hs, rfl⟩
  | cons f fs ih =>
    intro s s' h hs
    obtain ⟨w, n⟩ := f
    rw [contextSpell, layout_append] at h
    obtain ⟨s1, h1, h2⟩ := h
    obtain ⟨h3, h4⟩ := ih h2 hs
    refine ⟨?_, s1, contextMember_ok (w, n) (.done s) h1 h3, h4⟩
    obtain ⟨u0, h0, -⟩ := h1
    obtain ⟨t, ht⟩ := word_u w
    rw [show s = w.word.toList ++ u0 from h0, ht]
    exact stops_cons rfl

theorem contextMember_no {s : List Char} (h : ∃ t, s = '}' :: t) : No (.ref .ContextMember) s := by
  obtain ⟨t, rfl⟩ := h
  exact rule_no (r := .ContextMember) rfl (nochain_skip (skips_gap (.done _) (stops_cons rfl)) (nochain_label (intType_no' (stops_cons rfl))))

theorem constDecl_no {s : List Char} (h : ¬ "const".toList <+: s) : No (.ref .ConstDeclaration) s :=
  rule_no (r := .ConstDeclaration) rfl (nochain_here (no_lit h))

theorem contextDecl_no {s : List Char} (h : ¬ "context".toList <+: s) : No (.ref .ContextDeclaration) s :=
  rule_no (r := .ContextDeclaration) rfl (nochain_here (no_lit h))

theorem structDeclaration_no {s : List Char} (h : Stops (· == 's') s) : No (.ref .StructDeclaration) s :=
  rule_no (r := .StructDeclaration) rfl (nochain_label (structDecl_no h))

theorem externDecl_no {s : List Char} (h : Stops (· == 'e') s) : No (.ref .ExternDeclaration) s :=
  rule_no (r := .ExternDeclaration) rfl (nochain_here (no_lit (not_prefix (t := "extern") rfl h)))

theorem pragmaDecl_no {s : List Char} (h : Stops (· == 't') s) : No (.ref .PragmaDeclaration) s :=
  rule_no (r := .PragmaDeclaration) rfl (nochain_here (no_lit (not_prefix (t := "trunnel") rfl h)))

theorem declaration_ok {k : Nat} {d : Decl (Tree k)} {x s s1 s' : List Char} (hx : Gap x s) (h : Layout d.spell s s1) (hg : Gap s1 s')
    (he : DeclEnd s') : Ok (.ref .Declaration) x (declVal d) d.hoist s' := by
  have hst := decl_starts h
  have wrap {s2 : List Char} (hok : Ok (.choice [.ref .ConstDeclaration, .ref .ContextDeclaration, .ref .StructDeclaration, .ref .ExternDeclaration,
      .ref .PragmaDeclaration]) s (declVal d) d.hoist s2) (hg : Gap s2 s') : Ok (.ref .Declaration) x (declVal d) d.hoist s' := by
    have := rule_ok (r := .Declaration) (v := declVal d) rfl (chain_skip (skips_gap hx (hst.stops (fun c hc => (declStart_fresh c hc).1)))
      (chain_label' hok (chain_skip (skips_gap hg he.fresh.1) (chain_nil (fun _ _ => rfl)))))
    rwa [List.append_nil] at this
  cases d with
  | const n v =>
    obtain ⟨u0, rfl, u1, h1, u2, h2, u3, h3, u4, rfl, u5, h5, u6, h6, u7, h7, u8, rfl, rfl⟩ := h
    refine wrap (ok_choice (rule_ok (r := .ConstDeclaration) rfl (chain_lit rfl (chain_skip (skips_gap1 h1 ?_) (chain_label
      (cid_ok h2 (gap_word h3 (stops_cons rfl))) (chain_skip (skips_gap h3 (stops_cons rfl)) (chain_lit rfl (chain_skip (skips_gap h5 ?_)
        (chain_label (int_ok h6 (gap_word h7 (stops_cons rfl))) (chain_skip (skips_gap h7 (stops_cons rfl)) (chain_lit rfl
          (chain_nil (fun _ _ => rfl))))))))))))) hg
    · obtain ⟨hn, rfl⟩ := h2
      exact (const_starts hn _).stops constStart_fresh
    · obtain ⟨t, m, hm, rfl, rfl⟩ := h6
      exact (lit_starts hm _).stops digit_fresh
  | context n fs semi =>
    simp only [Decl.spell, layout_append] at h
    obtain ⟨v1, ⟨v2, ⟨v3, ⟨u0, rfl, u1, h1, u2, h2, u3, h3, u4, rfl, u5, h5, rfl⟩, h6⟩, u6, rfl, rfl⟩, h7⟩ := h
    obtain ⟨hf, hitems⟩ := context_items h6 (stops_cons rfl)
    have hstar := items_ok hitems (contextMember_no ⟨_, rfl⟩)
    have hnil : fs.flatMap (fun _ : Width × String => ([] : List Struct)) = [] := by simp
    rw [hnil] at hstar
    have hm := mapM_out (out := fun f : Width × String => Val.field ⟨f.2, .base (.int ⟨f.1.bits, none⟩)⟩)
      (g := fun f : Width × String => (⟨f.2, .base (.int ⟨f.1.bits, none⟩)⟩ : Field)) (get := Val.asField) (fun a => rfl) fs
    obtain ⟨s2, hg2, hc⟩ := semi_chain (env := [("fs", .list (fs.map fun f : Width × String => Val.field ⟨f.2, .base (.int ⟨f.1.bits, none⟩)⟩)), ("n", .str n)])
      (K := fun env => ∀ t l, onContextDeclaration1 env t l = some (declVal (Decl.context (ι := Tree k) n fs semi), false)) h7 hg he (fun t l => by
        simp only [onContextDeclaration1, act, Env.get, List.lookup]
        simp [-List.mapM_map, Val.asList, hm, Val.asStr, declVal])
    refine wrap (ok_next (constDecl_no (by simp [List.cons_prefix_cons])) (ok_choice (rule_ok (r := .ContextDeclaration) rfl (chain_lit rfl
      (chain_skip (skips_gap1 h1 (id_fresh h2)) (chain_label (id_ok h2) (chain_skip (skips_gap1 h3 (stops_cons rfl)) (chain_lit rfl
        (chain_skip (skips_gap h5 hf) (chain_label hstar (chain_skip (skips_gap (.done _) (stops_cons rfl)) (chain_lit rfl hc)))))))))))) hg2
  | struct t semi =>
    simp only [Decl.spell, layout_append] at h
    obtain ⟨v1, h1, h2⟩ := h
    obtain ⟨⟨t', rfl⟩, hok⟩ := structDecl_ok (tree_inner k) h1
    obtain ⟨s2, hg2, hc⟩ := semi_chain (env := [("s", .struct (t.struct (Tree.mean k)))])
      (K := fun env => ∀ t' l, onStructDeclaration1 env t' l = some (declVal (Decl.struct (ι := Tree k) t semi), false)) h2 hg he (fun _ _ => rfl)
    have := rule_ok (r := .StructDeclaration) rfl (chain_label' hok hc)
    rw [List.append_nil] at this
    exact wrap (ok_next (constDecl_no (by simp [List.cons_prefix_cons])) (ok_next (contextDecl_no (by simp [List.cons_prefix_cons])) (ok_choice this))) hg2
  | extern n l =>
    simp only [Decl.spell, layout_append] at h
    obtain ⟨v1, ⟨v2, ⟨u0, rfl, u1, h1, h2⟩, h3⟩, u2, h4, u3, rfl, rfl⟩ := h
    have hstr : Stops isSkipStart u1 := by
      obtain ⟨_, rfl, _⟩ := h2
      exact stops_cons rfl
    refine wrap (ok_next (constDecl_no (by simp [List.cons_prefix_cons])) (ok_next (contextDecl_no (by simp [List.cons_prefix_cons]))
      (ok_next (structDeclaration_no (stops_cons rfl)) (ok_choice (rule_ok (r := .ExternDeclaration) rfl (chain_lit rfl (chain_skip (skips_gap1 h1 hstr)
        (chain_label (structId_ok h2) (chain_gives (contexts_ok h3 h4 rfl (by decide) (by decide)) (fun w hw => chain_skip (skips_gap h4 (stops_cons rfl))
          (chain_lit rfl (chain_nil (fun t l => by
            simp only [onExternDeclaration1, act, Env.get, List.lookup]
            simp [Val.asStr, hw, declVal]))))))))))))) hg
  | pragma n l =>
    simp only [Decl.spell, layout_append] at h
    obtain ⟨v1, ⟨v2, ⟨u0, rfl, u1, h1, u2, h2, u3, h3, rfl⟩, h4⟩, u4, h5, u5, rfl, rfl⟩ := h
    exact wrap (ok_next (constDecl_no (by simp [List.cons_prefix_cons])) (ok_next (contextDecl_no (by simp [List.cons_prefix_cons]))
      (ok_next (structDeclaration_no (stops_cons rfl)) (ok_next (externDecl_no (stops_cons rfl)) (ok_choice (rule_ok (r := .PragmaDeclaration) rfl
        (chain_lit rfl (chain_skip (skips_gap1 h1 (id_fresh h2)) (chain_label (id_ok h2) (chain_skip (skips_gap1 h3 ((idList_starts h4).stops idStart_fresh))
          (chain_label (idList_ok h4 (after_gap h5 (stops_cons rfl) (stops_cons rfl))) (chain_skip (skips_gap h5 (stops_cons rfl)) (chain_lit rfl
            (chain_nil (fun _ _ => rfl))))))))))))))) hg

theorem decls_items {k : Nat} {ds : List (Decl (Tree k))} : ∀ {s : List Char}, Layout (declsSpell ds) s [] →
    DeclEnd s ∧ Items (fun d s s' => Ok (.ref .Declaration) s (declVal d) d.hoist s') ds s [] := by
  induction ds with
  | nil => rintro s rfl; exact ⟨Or.inl rfl, rfl⟩
  | cons d ds ih =>
    intro s h
    simp only [declsSpell, layout_append] at h
    obtain ⟨s2, ⟨s1, h1, _, h2, rfl⟩, h3⟩ := h
    obtain ⟨h4, h5⟩ := ih h3
    exact ⟨Or.inr (decl_starts h1), _, declaration_ok (.done s) h1 h2 h4, h5⟩

theorem declaration_no : No (.ref .Declaration) [] :=
  rule_no (r := .Declaration) rfl (nochain_skip (skips_gap (.done _) stops_nil) (nochain_label (no_choice
    (constDecl_no (by simp)) (no_choice (contextDecl_no (by simp)) (no_choice (structDeclaration_no stops_nil) (no_choice
      (externDecl_no stops_nil) (no_choice (pragmaDecl_no stops_nil) no_choice_nil)))))))

/-- The whole text. -/
theorem file_ok {k : Nat} {ds : List (Decl (Tree k))} {s : List Char} (h : Writes ds s) :
    ∃ l, ev rules (.ref .File) [] (C s [] false) = .ok (.file (denote ds)) [] (C [] l false) := by
  obtain ⟨s1, h1, h2⟩ := h
  obtain ⟨h3, h4⟩ := decls_items h2
  have hstar := items_ok h4 declaration_no
  obtain ⟨v1, hv1⟩ := skips_gap h1 h3.fresh.1 [] [] false
  have hs := label_ok (n := "ds") (env := []) (hstar [] [] false)
  obtain ⟨v2, hv2⟩ := skips_gap (.done []) stops_nil [("ds", .list (ds.map declVal))] (lingers (ds.flatMap Decl.hoist)) false
  have hd := distribute_decls ds (ds.flatMap Decl.hoist) ⟨[], [], [], []⟩
  have heof : ∀ env l, ∃ v, ev rules (.ref .EOF) env (C [] l false) = .ok v env (C [] l false) := by
    intro env l
    refine ⟨.nil, ev_ref_ok (env' := []) ?_⟩
    rw [show rules .EOF = rEOF from rfl, rEOF]
    exact not_ok (any_fail _ _ _)
  obtain ⟨v3, hv3⟩ := heof [("ds", .list (ds.map declVal))] (lingers (ds.flatMap Decl.hoist))
  refine ⟨lingers (ds.flatMap Decl.hoist), ev_ref_ok (env' := [("ds", .list (ds.map declVal))]) ?_⟩
  rw [show rules .File = rFile from rfl, rFile, ev_action, ev_seq, seq_ok hv1, seq_ok hs]
  simp only [List.nil_append]
  rw [seq_ok hv2, seq_ok hv3]
  simp only [seqLoop, actRes, onFile1, Env.get, List.lookup, C]
  simp [Val.asList, hd, denote]

/-- A text that is a way to write declarations parses to the file they denote. -/
theorem outcome_complete {k : Nat} {ds : List (Decl (Tree k))} {s : List Char} (h : Writes ds s) :
    outcome (s.map Rune.ok) = .ok (denote ds) := by
  obtain ⟨l, hl⟩ := file_ok h
  have : C s [] false = ⟨s.map Rune.ok, [], headBad (s.map Rune.ok)⟩ := by simp [C]
  rw [this] at hl
  unfold outcome
  rw [hl]
  simp [C]

/-- Exactly the texts that are a way to write declarations parse, to the file these denote. -/
theorem outcome_iff {rs : List Rune} {f : File} : outcome rs = .ok f ↔
    ∃ s : List Char, rs = s.map Rune.ok ∧ ∃ (k : Nat) (ds : List (Decl (Tree k))), Writes ds s ∧ f = denote ds := by
  constructor
  · exact outcome_sound
  · rintro ⟨s, rfl, k, ds, hw, rfl⟩
    exact outcome_complete hw

end Verif.Peg
