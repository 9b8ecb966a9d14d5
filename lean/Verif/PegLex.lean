import Verif.PegTyped
import Verif.Syntax
/-!
# The lexical rules of the grammar, exactly
-/
namespace Verif.Peg
open Verif Verif.Ast Verif.Syntax

/-! ## Texts without invalid bytes -/

/-- A state whose remaining text is valid. -/
def C (s : List Char) (l : List Val) (b : Bool) : St := ⟨s.map Rune.ok, l, b⟩

variable {g : RuleName → Expr}

@[simp] theorem headBad_ok (s : List Char) : headBad (s.map Rune.ok) = false := by cases s <;> rfl

@[simp] theorem read_C (c : Char) (s : List Char) (l : List Val) (b : Bool) : (C (c :: s) l b).read = C s l b := by
  simp [C, St.read]

@[simp] theorem back_C (s s' : List Char) (l l' : List Val) (b b' : Bool) : (C s l b).back (C s' l' b') = C s' l' b := rfl

@[simp] theorem C_rest (s : List Char) (l : List Val) (b : Bool) : (C s l b).rest = s.map Rune.ok := rfl
@[simp] theorem C_ling (s : List Char) (l : List Val) (b : Bool) : (C s l b).ling = l := rfl
@[simp] theorem C_errs (s : List Char) (l : List Val) (b : Bool) : (C s l b).errs = b := rfl

theorem slice_C (t s : List Char) (l l' : List Val) (b b' : Bool) :
    St.slice (C (t ++ s) l b) (C s l' b') = t.map Rune.ok := by
  simp [St.slice, C]

@[simp] theorem text_ok (t : List Char) : text (t.map Rune.ok) = String.ofList t := by
  simp [text, Function.comp_def, Rune.char]

@[simp] theorem char_ok (t : List Char) : (t.map Rune.ok).map Rune.char = t := by
  simp [Function.comp_def, Rune.char]

theorem takeWhile_all {p : Char → Bool} {s : List Char} : ∀ x ∈ s.takeWhile p, p x = true := by
  induction s with
  | nil => simp
  | cons c s ih =>
    rw [List.takeWhile_cons]
    split
    · next h =>
      intro x hx
      simp only [List.mem_cons] at hx
      rcases hx with rfl | hx
      · exact h
      · exact ih x hx
    · simp

theorem dropWhile_head {p : Char → Bool} {s t : List Char} {c : Char} (h : s.dropWhile p = c :: t) : p c = false := by
  induction s with
  | nil => simp at h
  | cons d s ih =>
    rw [List.dropWhile_cons] at h
    split at h
    · exact ih h
    · next hd => cases h; simpa using hd

/-- The longest run of characters in a set, when what comes next is not in it. -/
theorem dropWhile_run {p : Char → Bool} {t s : List Char} (ht : ∀ x ∈ t, p x = true)
    (hs : ∀ c s', s = c :: s' → p c = false) : (t ++ s).dropWhile p = s := by
  rw [List.dropWhile_append_of_pos ht]
  cases s with
  | nil => rfl
  | cons c s => rw [List.dropWhile_cons, hs c s rfl]; rfl

/-! ## Steps -/

theorem seq_ok {e : Expr} {es : List Expr} {vals : List Val} {env env' : Env} {st st' start : St} {v : Val}
    (h : ev g e env st = .ok v env' st') :
    seqLoop (ev g) start (e :: es) vals env st = seqLoop (ev g) start es (vals ++ [v]) env' st' := by
  simp only [seqLoop, h]

theorem seq_fail {e : Expr} {es : List Expr} {vals : List Val} {env : Env} {st st' start : St}
    (h : ev g e env st = .fail st') : seqLoop (ev g) start (e :: es) vals env st = .fail (st'.back start) := by
  simp only [seqLoop, h]

theorem choice_ok {e : Expr} {es : List Expr} {env env' : Env} {st st' : St} {v : Val}
    (h : ev g e [] st = .ok v env' st') : choiceLoop (ev g) (e :: es) env st = .ok v env st' := by
  simp only [choiceLoop, h]

theorem choice_fail {e : Expr} {es : List Expr} {env : Env} {s : List Char} {l : List Val} {b : Bool}
    (h : ev g e [] (C s l b) = .fail (C s l b)) :
    choiceLoop (ev g) (e :: es) env (C s l b) = choiceLoop (ev g) es env (C s l b) := by
  simp only [choiceLoop, h]

/-! ## Matchers -/

theorem litLoop_ok (t s : List Char) (l : List Val) (b : Bool) : litLoop t (C (t ++ s) l b) = (true, C s l b) := by
  induction t with
  | nil => rfl
  | cons c t ih =>
    have : (C (c :: (t ++ s)) l b).rest = .ok c :: (t ++ s).map Rune.ok := rfl
    simp only [List.cons_append, litLoop, this, Rune.char]
    simpa using ih

theorem litLoop_fail (t : List Char) : ∀ (s : List Char) (l : List Val) (b : Bool), ¬ t <+: s →
    (litLoop t (C s l b)).1 = false ∧ (litLoop t (C s l b)).2.errs = b := by
  induction t with
  | nil => intro s l b h; exact absurd (List.nil_prefix) h
  | cons c t ih =>
    intro s l b h
    cases s with
    | nil => exact ⟨rfl, rfl⟩
    | cons d s =>
      have : (C (d :: s) l b).rest = .ok d :: s.map Rune.ok := rfl
      simp only [litLoop, this]
      by_cases hd : (Rune.ok d).char = c
      · rw [if_pos hd, read_C]
        simp only [Rune.char] at hd
        subst hd
        exact ih s l b (fun hc => h (by simpa using hc))
      · rw [if_neg hd]
        exact ⟨rfl, rfl⟩

theorem lit_ok (t : String) (env : Env) (s : List Char) (l : List Val) (b : Bool) :
    ev g (.lit t) env (C (t.toList ++ s) l b) = .ok (.bytes (t.toList.map Rune.ok)) env (C s l b) := by
  rw [ev_lit, litLoop_ok]
  simp only [slice_C]

theorem lit_at {t : String} {s₀ s : List Char} (h : s₀ = t.toList ++ s) (env : Env) (l : List Val) (b : Bool) :
    ev g (.lit t) env (C s₀ l b) = .ok (.bytes (t.toList.map Rune.ok)) env (C s l b) := by
  subst h; exact lit_ok t env s l b

theorem lit_fail {t : String} {env : Env} {s : List Char} {l : List Val} {b : Bool} (h : ¬ t.toList <+: s) :
    ev g (.lit t) env (C s l b) = .fail (C s l b) := by
  rw [ev_lit]
  obtain ⟨h1, h2⟩ := litLoop_fail t.toList s l b h
  cases hr : litLoop t.toList (C s l b) with
  | mk x st =>
    rw [hr] at h1 h2
    simp only at h1 h2
    subst h1
    simp only [St.back, C_rest, C_ling, h2]
    rfl

theorem cls_ok {a : List Char} {r : List (Char × Char)} {c : Char} (h : inClass a r c = true) (env : Env) (s : List Char)
    (l : List Val) (b : Bool) : ev g (.cls a r) env (C (c :: s) l b) = .ok (.bytes [.ok c]) env (C s l b) := by
  rw [ev_cls]
  simp [C_rest, Rune.char, h]

theorem cls_fail {a : List Char} {r : List (Char × Char)} {s : List Char} (h : ∀ c t, s = c :: t → inClass a r c = false)
    (env : Env) (l : List Val) (b : Bool) : ev g (.cls a r) env (C s l b) = .fail (C s l b) := by
  rw [ev_cls]
  cases s with
  | nil => rfl
  | cons c t => simp [C_rest, Rune.char, h c t rfl]

theorem any_ok (env : Env) (c : Char) (s : List Char) (l : List Val) (b : Bool) :
    ev g .any env (C (c :: s) l b) = .ok (.bytes [.ok c]) env (C s l b) := by
  rw [ev_any]
  simp [C_rest]

theorem any_fail (env : Env) (l : List Val) (b : Bool) : ev g .any env (C [] l b) = .fail (C [] l b) := by
  rw [ev_any]; rfl

theorem star_cls (a : List Char) (r : List (Char × Char)) (env : Env) (l : List Val) (b : Bool) (s : List Char) :
    ∀ vals, ∃ vs, evStar g (.cls a r) env vals (C s l b) =
      .ok (.list vs) env (C (s.dropWhile (inClass a r)) l b) := by
  induction s with
  | nil =>
    intro vals
    refine ⟨vals, ?_⟩
    rw [evStar_eq, cls_fail (by simp)]
    rfl
  | cons c s ih =>
    intro vals
    cases h : inClass a r c with
    | true =>
      obtain ⟨vs, hvs⟩ := ih (vals ++ [.bytes [.ok c]])
      refine ⟨vs, ?_⟩
      rw [evStar_eq, cls_ok h]
      simp only [hvs, List.dropWhile_cons, h, ↓reduceIte]
    | false =>
      refine ⟨vals, ?_⟩
      rw [evStar_eq, cls_fail (by rintro c' t ⟨⟩; exact h)]
      simp [List.dropWhile_cons, h]

/-! ## White space and comments -/

/-- The text from the first `*/` on. -/
def stop : List Char → List Char
  | [] => []
  | '*' :: '/' :: t => '*' :: '/' :: t
  | _ :: t => stop t

/-- What follows one item of white space or comment. -/
def skip1 : List Char → Option (List Char)
  | ' ' :: t => some t
  | '\t' :: t => some t
  | '\r' :: t => some t
  | '\n' :: t => some t
  | '/' :: '*' :: t =>
    match stop t with
    | [] => none
    | _ :: t => some (t.drop 1)
  | '/' :: '/' :: t => some (t.dropWhile (· ≠ '\n'))
  | _ => none

theorem stop_suffix (s : List Char) : stop s <:+ s := by
  induction s using stop.induct with
  | case1 => exact List.suffix_rfl
  | case2 t => exact List.suffix_rfl
  | case3 c t h ih => rw [stop]; exact ih.trans (List.suffix_cons _ _); exact h

theorem stop_cases (s : List Char) : stop s = [] ∨ ∃ t, stop s = '*' :: '/' :: t := by
  induction s using stop.induct with
  | case1 => exact Or.inl rfl
  | case2 t => exact Or.inr ⟨t, rfl⟩
  | case3 c t h ih => rw [stop]; exact ih; exact h

theorem skip1_lt {s s' : List Char} (h : skip1 s = some s') : s'.length < s.length := by
  unfold skip1 at h
  split at h
  · cases h; simp
  · cases h; simp
  · cases h; simp
  · cases h; simp
  · next t =>
    have hs := (stop_suffix t).length_le
    split at h
    · cases h
    · next x t' heq => cases h; rw [heq] at hs; simp at hs ⊢; omega
  · next t =>
    cases h
    have := (List.dropWhile_suffix (l := t) (fun x => decide (x ≠ '\n'))).length_le
    simp at this ⊢
    omega
  · cases h

/-- What follows all white space and comments. -/
def skip (s : List Char) : List Char :=
  match h : skip1 s with
  | none => s
  | some s' => skip s'
termination_by s.length
decreasing_by exact skip1_lt h

theorem skip_none {s : List Char} (h : skip1 s = none) : skip s = s := by
  rw [skip]
  split
  · rfl
  · next heq => rw [h] at heq; cases heq

theorem skip_some {s s' : List Char} (h : skip1 s = some s') : skip s = skip s' := by
  rw [skip]
  split
  · next heq => rw [h] at heq; cases heq
  · next heq => rw [h] at heq; cases heq; rfl

theorem skip1_skip (s : List Char) : skip1 (skip s) = none := by
  induction hn : s.length using Nat.strongRecOn generalizing s with
  | _ n ih =>
    cases h : skip1 s with
    | none => rw [skip_none h]; exact h
    | some s' => rw [skip_some h]; exact ih _ (by rw [← hn]; exact skip1_lt h) s' rfl

theorem skip_skip (s : List Char) : skip (skip s) = skip s := skip_none (skip1_skip s)

theorem skip_le (s : List Char) : (skip s).length ≤ s.length := by
  induction hn : s.length using Nat.strongRecOn generalizing s with
  | _ n ih =>
    cases h : skip1 s with
    | none => rw [skip_none h]; omega
    | some s' =>
      rw [skip_some h]
      have := ih _ (by rw [← hn]; exact skip1_lt h) s' rfl
      have := skip1_lt h
      omega

/-! ### The rules -/

theorem ev_ref_ok {r : RuleName} {env env' : Env} {st st' : St} {v : Val} (h : ev rules (rules r) [] st = .ok v env' st') :
    ev rules (.ref r) env st = .ok v env st' := by rw [ev_ref, h]; rfl

theorem ev_ref_fail {r : RuleName} {env : Env} {st st' : St} (h : ev rules (rules r) [] st = .fail st') :
    ev rules (.ref r) env st = .fail st' := by rw [ev_ref, h]; rfl

theorem source_ok (env : Env) (c : Char) (s : List Char) (l : List Val) (b : Bool) :
    ev rules (.ref .SourceChar) env (C (c :: s) l b) = .ok (.bytes [.ok c]) env (C s l b) :=
  ev_ref_ok (any_ok [] c s l b)

theorem source_fail (env : Env) (l : List Val) (b : Bool) :
    ev rules (.ref .SourceChar) env (C [] l b) = .fail (C [] l b) := ev_ref_fail (any_fail [] l b)

theorem not_ok {e : Expr} {env : Env} {s : List Char} {l : List Val} {b : Bool}
    (h : ev g e [] (C s l b) = .fail (C s l b)) : ev g (.not e) env (C s l b) = .ok .nil env (C s l b) := by
  rw [ev_not, h]; rfl

theorem not_fail {e : Expr} {env env' : Env} {s s' : List Char} {l l' : List Val} {b : Bool} {v : Val}
    (h : ev g e [] (C s l b) = .ok v env' (C s' l' b)) : ev g (.not e) env (C s l b) = .fail (C s l b) := by
  rw [ev_not, h]; rfl

/-- The body of a repetition in a comment: anything but a terminator. -/
theorem body_ok {e : Expr} {c : Char} {s : List Char} {l : List Val} {b : Bool}
    (h : ev rules e [] (C (c :: s) l b) = .fail (C (c :: s) l b)) :
    ev rules (.seq [.not e, .ref .SourceChar]) [] (C (c :: s) l b) =
      .ok (.list [.nil, .bytes [.ok c]]) [] (C s l b) := by
  rw [ev_seq, seq_ok (not_ok h), seq_ok (source_ok _ _ _ _ _)]
  rfl

theorem body_fail {e : Expr} {env' : Env} {s s' : List Char} {l : List Val} {b : Bool} {v : Val}
    (h : ev rules e [] (C s l b) = .ok v env' (C s' l b)) :
    ev rules (.seq [.not e, .ref .SourceChar]) [] (C s l b) = .fail (C s l b) := by
  rw [ev_seq, seq_fail (not_fail h)]; rfl

theorem body_end {e : Expr} {l : List Val} {b : Bool} (h : ev rules e [] (C [] l b) = .fail (C [] l b)) :
    ev rules (.seq [.not e, .ref .SourceChar]) [] (C [] l b) = .fail (C [] l b) := by
  rw [ev_seq, seq_ok (not_ok h), seq_fail (source_fail _ _ _)]; rfl

theorem star_block (env : Env) (l : List Val) (b : Bool) (s : List Char) : ∀ vals, ∃ vs,
    evStar rules (.seq [.not (.lit "*/"), .ref .SourceChar]) env vals (C s l b) =
      .ok (.list vs) env (C (stop s) l b) := by
  induction s using stop.induct with
  | case1 =>
    intro vals
    refine ⟨vals, ?_⟩
    rw [evStar_eq, body_end (lit_fail (by decide))]
    rfl
  | case2 t =>
    intro vals
    refine ⟨vals, ?_⟩
    rw [evStar_eq, body_fail (lit_at (t := "*/") (s₀ := '*' :: '/' :: t) (s := t) rfl [] l b)]
    rfl
  | case3 c t h ih =>
    intro vals
    obtain ⟨vs, hvs⟩ := ih (vals ++ [.list [.nil, .bytes [.ok c]]])
    refine ⟨vs, ?_⟩
    rw [evStar_eq, body_ok (lit_fail ?_)]
    · simp only [hvs]
      rw [stop]
      exact h
    · intro hc
      have : "*/".toList = ['*', '/'] := rfl
      rw [this, List.cons_prefix_cons] at hc
      obtain ⟨rfl, t', ht⟩ := hc
      simp only [List.cons_append, List.nil_append] at ht
      exact h t' rfl ht.symm

theorem eol_ok (env : Env) (s : List Char) (l : List Val) (b : Bool) :
    ev rules (.ref .EOL) env (C ('\n' :: s) l b) = .ok (.bytes [.ok '\n']) env (C s l b) :=
  ev_ref_ok (lit_ok "\n" [] s l b)

theorem eol_fail {s : List Char} (h : ∀ t, s ≠ '\n' :: t) (env : Env) (l : List Val) (b : Bool) :
    ev rules (.ref .EOL) env (C s l b) = .fail (C s l b) := by
  refine ev_ref_fail (lit_fail ?_)
  rintro ⟨t, ht⟩
  exact h t ht.symm

theorem star_line (env : Env) (l : List Val) (b : Bool) (s : List Char) : ∀ vals, ∃ vs,
    evStar rules (.seq [.not (.ref .EOL), .ref .SourceChar]) env vals (C s l b) =
      .ok (.list vs) env (C (s.dropWhile (· ≠ '\n')) l b) := by
  induction s with
  | nil =>
    intro vals
    refine ⟨vals, ?_⟩
    rw [evStar_eq, body_end (eol_fail (by simp) _ _ _)]
    rfl
  | cons c s ih =>
    intro vals
    by_cases hc : c = '\n'
    · subst hc
      refine ⟨vals, ?_⟩
      rw [evStar_eq, body_fail (eol_ok _ _ _ _)]
      rfl
    · obtain ⟨vs, hvs⟩ := ih (vals ++ [.list [.nil, .bytes [.ok c]]])
      refine ⟨vs, ?_⟩
      rw [evStar_eq, body_ok (eol_fail (by rintro t ⟨⟩; exact hc rfl) _ _ _)]
      simp only [hvs, List.dropWhile_cons, ne_eq, hc, not_false_eq_true, decide_true, ↓reduceIte]

theorem comment_block {t t' : List Char} (h : stop t = '*' :: '/' :: t') (env : Env) (l : List Val) (b : Bool) :
    ∃ v, ev rules (.ref .MultiLineComment) env (C ('/' :: '*' :: t) l b) = .ok v env (C t' l b) := by
  obtain ⟨vs, hvs⟩ := star_block [] l b t []
  refine ⟨.list [.bytes ("/*".toList.map Rune.ok), .list vs, .bytes ("*/".toList.map Rune.ok)], ev_ref_ok (env' := []) ?_⟩
  · rw [show rules .MultiLineComment = rMultiLineComment from rfl, rMultiLineComment, ev_seq,
      seq_ok (lit_at (t := "/*") (s₀ := '/' :: '*' :: t) (s := t) rfl [] l b), seq_ok (by rw [ev_star]; exact hvs), h, seq_ok (lit_at (t := "*/") (s₀ := '*' :: '/' :: t') (s := t') rfl [] l b)]
    rfl

theorem comment_open {t : List Char} (h : stop t = []) (env : Env) (l : List Val) (b : Bool) :
    ev rules (.ref .MultiLineComment) env (C ('/' :: '*' :: t) l b) = .fail (C ('/' :: '*' :: t) l b) := by
  obtain ⟨vs, hvs⟩ := star_block [] l b t []
  refine ev_ref_fail ?_
  rw [show rules .MultiLineComment = rMultiLineComment from rfl, rMultiLineComment, ev_seq,
    seq_ok (lit_at (t := "/*") (s₀ := '/' :: '*' :: t) (s := t) rfl [] l b), seq_ok (by rw [ev_star]; exact hvs), h, seq_fail (lit_fail (by decide))]
  rfl

theorem comment_line (t : List Char) (env : Env) (l : List Val) (b : Bool) :
    ∃ v, ev rules (.ref .SingleLineComment) env (C ('/' :: '/' :: t) l b) =
      .ok v env (C (t.dropWhile (· ≠ '\n')) l b) := by
  obtain ⟨vs, hvs⟩ := star_line [] l b t []
  refine ⟨.list [.bytes ("//".toList.map Rune.ok), .list vs], ev_ref_ok (env' := []) ?_⟩
  · rw [show rules .SingleLineComment = rSingleLineComment from rfl, rSingleLineComment, ev_seq,
      seq_ok (lit_at (t := "//") (s₀ := '/' :: '/' :: t) (s := t) rfl [] l b), seq_ok (by rw [ev_star]; exact hvs)]
    rfl

theorem multi_fail {s : List Char} (h : ¬ ['/', '*'] <+: s) (env : Env) (l : List Val) (b : Bool) :
    ev rules (.ref .MultiLineComment) env (C s l b) = .fail (C s l b) := by
  refine ev_ref_fail ?_
  rw [show rules .MultiLineComment = rMultiLineComment from rfl, rMultiLineComment, ev_seq,
    seq_fail (lit_fail (t := "/*") h)]
  rfl

theorem single_fail {s : List Char} (h : ¬ ['/', '/'] <+: s) (env : Env) (l : List Val) (b : Bool) :
    ev rules (.ref .SingleLineComment) env (C s l b) = .fail (C s l b) := by
  refine ev_ref_fail ?_
  rw [show rules .SingleLineComment = rSingleLineComment from rfl, rSingleLineComment, ev_seq,
    seq_fail (lit_fail (t := "//") h)]
  rfl

theorem white_ok {c : Char} (h : c = ' ' ∨ c = '\t' ∨ c = '\r') (env : Env) (s : List Char) (l : List Val) (b : Bool) :
    ev rules (.ref .Whitespace) env (C (c :: s) l b) = .ok (.bytes [.ok c]) env (C s l b) := by
  refine ev_ref_ok (cls_ok ?_ [] s l b)
  rcases h with rfl | rfl | rfl <;> rfl

theorem white_fail {s : List Char} (h : ∀ c t, s = c :: t → ¬ (c = ' ' ∨ c = '\t' ∨ c = '\r')) (env : Env)
    (l : List Val) (b : Bool) : ev rules (.ref .Whitespace) env (C s l b) = .fail (C s l b) := by
  refine ev_ref_fail (cls_fail ?_ [] l b)
  intro c t hs
  have := h c t hs
  simp only [inClass, List.any_cons, List.any_nil, Bool.or_false, Bool.or_eq_false_iff, decide_eq_false_iff_not]
  exact ⟨fun hc => this (Or.inl hc.symm), fun hc => this (Or.inr (Or.inl hc.symm)),
    fun hc => this (Or.inr (Or.inr hc.symm))⟩

theorem skipRule (env : Env) (s : List Char) (l : List Val) (b : Bool) :
    (∀ s', skip1 s = some s' → ∃ v, ev rules (.ref .Skip) env (C s l b) = .ok v env (C s' l b)) ∧
    (skip1 s = none → ev rules (.ref .Skip) env (C s l b) = .fail (C s l b)) := by
  have hdef : rules .Skip = .choice [.ref .Whitespace, .ref .EOL, .ref .Comment] := rfl
  have viaWhite : ∀ c t, s = c :: t → (c = ' ' ∨ c = '\t' ∨ c = '\r') →
      ∃ v, ev rules (.ref .Skip) env (C s l b) = .ok v env (C t l b) := by
    rintro c t rfl hc
    exact ⟨_, ev_ref_ok (env' := []) (by rw [hdef, ev_choice, choice_ok (white_ok hc _ _ _ _)])⟩
  have noWhite : ∀ {s}, (∀ c t, s = c :: t → ¬ (c = ' ' ∨ c = '\t' ∨ c = '\r')) → (∀ t, s ≠ '\n' :: t) →
      choiceLoop (ev rules) [.ref .Whitespace, .ref .EOL, .ref .Comment] [] (C s l b) =
        choiceLoop (ev rules) [.ref .Comment] [] (C s l b) := by
    intro s h1 h2
    rw [choice_fail (white_fail h1 _ _ _), choice_fail (eol_fail h2 _ _ _)]
  have hcom : rules .Comment = .choice [.ref .MultiLineComment, .ref .SingleLineComment] := rfl
  have cfail : ∀ {s}, (∀ c t, s = c :: t → ¬ (c = ' ' ∨ c = '\t' ∨ c = '\r')) → (∀ t, s ≠ '\n' :: t) →
      ev rules (.ref .Comment) [] (C s l b) = .fail (C s l b) →
      ev rules (.ref .Skip) env (C s l b) = .fail (C s l b) := by
    intro s h1 h2 h3
    refine ev_ref_fail ?_
    rw [hdef, ev_choice, noWhite h1 h2, choice_fail h3]
    rfl
  constructor
  · intro s' h
    unfold skip1 at h
    split at h
    · next t => cases h; exact viaWhite _ _ rfl (by simp)
    · next t => cases h; exact viaWhite _ _ rfl (by simp)
    · next t => cases h; exact viaWhite _ _ rfl (by simp)
    · next t =>
      cases h
      refine ⟨.bytes [.ok '\n'], ev_ref_ok (env' := []) ?_⟩
      · rw [hdef, ev_choice, choice_fail (white_fail (by rintro c t ⟨⟩; simp) _ _ _), choice_ok (eol_ok _ _ _ _)]
    · next t =>
      rcases stop_cases t with hs | ⟨t', hs⟩
      · rw [hs] at h; cases h
      · rw [hs] at h
        simp only [Option.some.injEq, List.drop_one, List.tail_cons] at h
        subst h
        obtain ⟨v, hv⟩ := comment_block hs [] l b
        have hc : ev rules (.ref .Comment) [] (C ('/' :: '*' :: t) l b) = .ok v [] (C t' l b) :=
          ev_ref_ok (env' := []) (by rw [hcom, ev_choice, choice_ok hv])
        refine ⟨v, ev_ref_ok (env' := []) ?_⟩
        rw [hdef, ev_choice, noWhite (by rintro c t ⟨⟩; simp) (by rintro t ⟨⟩), choice_ok hc]
    · next t =>
      cases h
      obtain ⟨v, hv⟩ := comment_line t [] l b
      have hc : ev rules (.ref .Comment) [] (C ('/' :: '/' :: t) l b) = .ok v [] (C (t.dropWhile (· ≠ '\n')) l b) :=
        ev_ref_ok (env' := []) (by
          rw [hcom, ev_choice, choice_fail (multi_fail (by simp [List.cons_prefix_cons]) _ _ _), choice_ok hv])
      refine ⟨v, ev_ref_ok (env' := []) ?_⟩
      rw [hdef, ev_choice, noWhite (by rintro c t ⟨⟩; simp) (by rintro t ⟨⟩), choice_ok hc]
    · cases h
  · intro h
    have h1 : ∀ c t, s = c :: t → ¬ (c = ' ' ∨ c = '\t' ∨ c = '\r') := by
      rintro c t rfl (rfl | rfl | rfl) <;> simp [skip1] at h
    have h2 : ∀ t, s ≠ '\n' :: t := by
      rintro t rfl
      simp [skip1] at h
    refine cfail h1 h2 (ev_ref_fail ?_)
    have hsingle : ¬ ['/', '/'] <+: s := by
      rintro ⟨t, rfl⟩
      simp [skip1] at h
    rw [hcom, ev_choice]
    by_cases hm : ['/', '*'] <+: s
    · obtain ⟨t, rfl⟩ := hm
      have hs : stop t = [] := by
        rcases stop_cases t with hs | ⟨t', hs⟩
        · exact hs
        · simp [skip1, hs] at h
      have := comment_open hs [] l b
      rw [show ['/', '*'] ++ t = '/' :: '*' :: t from rfl] at *
      rw [choice_fail this, choice_fail (single_fail hsingle _ _ _)]
      rfl
    · rw [choice_fail (multi_fail hm _ _ _), choice_fail (single_fail hsingle _ _ _)]
      rfl

theorem star_skip (env : Env) (l : List Val) (b : Bool) (s : List Char) : ∀ vals, ∃ vs,
    evStar rules (.ref .Skip) env vals (C s l b) = .ok (.list vs) env (C (skip s) l b) := by
  induction hn : s.length using Nat.strongRecOn generalizing s with
  | _ n ih =>
    intro vals
    obtain ⟨h1, h2⟩ := skipRule [] s l b
    cases h : skip1 s with
    | none =>
      refine ⟨vals, ?_⟩
      rw [evStar_eq, h2 h, skip_none h]
    | some s' =>
      obtain ⟨v, hv⟩ := h1 s' h
      obtain ⟨vs, hvs⟩ := ih _ (by rw [← hn]; exact skip1_lt h) s' rfl (vals ++ [v])
      refine ⟨vs, ?_⟩
      rw [evStar_eq, hv, skip_some h]
      exact hvs

/-- The rule `_`. -/
theorem gap_ok (env : Env) (s : List Char) (l : List Val) (b : Bool) :
    ∃ v, ev rules (.ref .gap) env (C s l b) = .ok v env (C (skip s) l b) := by
  obtain ⟨vs, hvs⟩ := star_skip [] l b s []
  exact ⟨_, ev_ref_ok (env' := []) (by
    rw [show rules .gap = .star (.ref .Skip) from rfl, ev_star]; exact hvs)⟩

/-- The rule `__`. -/
theorem gap1_ok {s : List Char} (h : skip s ≠ s) (env : Env) (l : List Val) (b : Bool) :
    ∃ v, ev rules (.ref .gap1) env (C s l b) = .ok v env (C (skip s) l b) := by
  cases hs : skip1 s with
  | none => exact absurd (skip_none hs) h
  | some s' =>
    obtain ⟨v, hv⟩ := (skipRule [] s l b).1 s' hs
    obtain ⟨vs, hvs⟩ := star_skip [] l b s' [v]
    refine ⟨.list vs, ev_ref_ok (env' := []) ?_⟩
    rw [show rules .gap1 = .plus (.ref .Skip) from rfl, ev_plus, hv, skip_some hs]
    exact hvs

theorem gap1_fail {s : List Char} (h : skip s = s) (env : Env) (l : List Val) (b : Bool) :
    ev rules (.ref .gap1) env (C s l b) = .fail (C s l b) := by
  have hs : skip1 s = none := by
    cases hs : skip1 s with
    | none => rfl
    | some s' =>
      rw [skip_some hs] at h
      have h1 := skip_le s'
      have h2 := skip1_lt hs
      rw [h] at h1
      omega
  refine ev_ref_fail ?_
  rw [show rules .gap1 = .plus (.ref .Skip) from rfl, ev_plus, (skipRule [] s l b).2 hs]

/-! ### Gaps of the specification -/

theorem stop_split {s t : List Char} (h : stop s = '*' :: '/' :: t) :
    ∃ body, s = body ++ '*' :: '/' :: t ∧ ¬ ['*', '/'] <:+: body := by
  induction s using stop.induct with
  | case1 => simp [stop] at h
  | case2 t' => simp [stop] at h; subst h; exact ⟨[], rfl, by simp⟩
  | case3 c t' hc ih =>
    rw [stop] at h
    · obtain ⟨body, rfl, hb⟩ := ih h
      refine ⟨c :: body, rfl, ?_⟩
      rw [List.infix_cons_iff]
      rintro (hp | hi)
      · rw [List.cons_prefix_cons] at hp
        obtain ⟨rfl, t'', ht⟩ := hp
        subst ht
        exact hc _ rfl rfl
      · exact hb hi
    · exact hc

theorem stop_append {body t : List Char} (h : ¬ ['*', '/'] <:+: body) :
    stop (body ++ '*' :: '/' :: t) = '*' :: '/' :: t := by
  induction body with
  | nil => rfl
  | cons c body ih =>
    rw [List.infix_cons_iff] at h
    have h1 : ¬ ['*', '/'] <+: c :: body := fun hc => h (Or.inl hc)
    have h2 : ¬ ['*', '/'] <:+: body := fun hc => h (Or.inr hc)
    rw [List.cons_append, stop]
    · exact ih h2
    · intro t' hc ht
      subst hc
      cases body with
      | nil => simp at ht
      | cons d body =>
        simp only [List.cons_append, List.cons.injEq] at ht
        apply h1
        rw [ht.1]
        simp [List.cons_prefix_cons]

/-- Skipping is a gap. -/
theorem gap_skip (s : List Char) : Gap s (skip s) := by
  induction hn : s.length using Nat.strongRecOn generalizing s with
  | _ n ih =>
    cases h : skip1 s with
    | none => rw [skip_none h]; exact .done s
    | some s' =>
      have hg := ih _ (by rw [← hn]; exact skip1_lt h) s' rfl
      rw [skip_some h]
      unfold skip1 at h
      split at h
      · cases h; exact .white _ _ _ (by simp) hg
      · cases h; exact .white _ _ _ (by simp) hg
      · cases h; exact .white _ _ _ (by simp) hg
      · cases h; exact .white _ _ _ (by simp) hg
      · next t =>
        rcases stop_cases t with hs | ⟨t', hs⟩
        · rw [hs] at h; cases h
        · rw [hs] at h
          simp only [Option.some.injEq, List.drop_one, List.tail_cons] at h
          subst h
          obtain ⟨body, rfl, hb⟩ := stop_split hs
          exact .block _ _ _ hb hg
      · next t =>
        cases h
        have := List.takeWhile_append_dropWhile (p := (fun x => decide (x ≠ '\n'))) (l := t)
        rw [← this]
        refine .line _ _ _ ?_ ?_ ?_
        · intro hm
          have := takeWhile_all _ hm
          simp at this
        · cases hd : t.dropWhile (fun x => decide (x ≠ '\n')) with
          | nil => exact Or.inl rfl
          | cons c t' =>
            right
            have := dropWhile_head hd
            simp only [ne_eq, decide_not, Bool.not_eq_false', decide_eq_true_eq] at this
            subst this
            exact ⟨t', rfl⟩
        · rw [this]; exact hg
      · cases h

/-- A gap of the specification is skipped. -/
theorem skip_gap {s s' : List Char} (h : Gap s s') : skip s = skip s' := by
  induction h with
  | done => rfl
  | white c s s' hc _ ih =>
    rw [← ih]
    refine skip_some ?_
    simp only [List.mem_cons, List.not_mem_nil, or_false] at hc
    rcases hc with rfl | rfl | rfl | rfl <;> rfl
  | block body s s' hb _ ih =>
    rw [← ih]
    refine skip_some ?_
    simp [skip1, stop_append hb]
  | line body s s' hb hs _ ih =>
    rw [← ih]
    refine skip_some ?_
    simp only [skip1, Option.some.injEq]
    rw [List.dropWhile_append_of_pos]
    · rcases hs with rfl | ⟨t, rfl⟩
      · rfl
      · simp [List.dropWhile_cons]
    · intro c hc
      simp only [ne_eq, decide_not, Bool.not_eq_eq_eq_not, Bool.not_true, decide_eq_false_iff_not]
      rintro rfl
      exact hb hc

theorem gap_le {s s' : List Char} (h : Gap s s') : s'.length ≤ s.length := by
  induction h with
  | done => exact Nat.le_refl _
  | white => simp; omega
  | block => simp; omega
  | line => simp; omega

/-! ## Character classes -/

theorem upper_iff (c : Char) : c.isUpper = true ↔ 65 ≤ c.toNat ∧ c.toNat ≤ 90 := by
  simp only [Char.isUpper, decide_eq_true_eq, UInt32.le_iff_toNat_le, ge_iff_le, Char.toNat]
  exact Iff.rfl

theorem lower_iff (c : Char) : c.isLower = true ↔ 97 ≤ c.toNat ∧ c.toNat ≤ 122 := by
  simp only [Char.isLower, Bool.and_eq_true, decide_eq_true_eq, UInt32.le_iff_toNat_le, ge_iff_le, Char.toNat]
  exact Iff.rfl

theorem digit_iff (c : Char) : c.isDigit = true ↔ 48 ≤ c.toNat ∧ c.toNat ≤ 57 := by
  simp only [Char.isDigit, Bool.and_eq_true, decide_eq_true_eq, UInt32.le_iff_toNat_le, ge_iff_le, Char.toNat]
  exact Iff.rfl

theorem char_le (a c : Char) : a ≤ c ↔ a.toNat ≤ c.toNat := Iff.rfl

theorem char_eq (a c : Char) : a = c ↔ a.toNat = c.toNat :=
  ⟨fun h => by rw [h], fun h => Char.ext (UInt32.toNat_inj.1 h)⟩

theorem idStart_iff (c : Char) : isIdStart c = true ↔
    (65 ≤ c.toNat ∧ c.toNat ≤ 90) ∨ (97 ≤ c.toNat ∧ c.toNat ≤ 122) ∨ c.toNat = 95 := by
  simp only [isIdStart, Char.isAlpha, Bool.or_eq_true, upper_iff, lower_iff, decide_eq_true_eq, char_eq,
    Char.reduceToNat, or_assoc]

theorem idChar_iff (c : Char) : isIdChar c = true ↔
    (65 ≤ c.toNat ∧ c.toNat ≤ 90) ∨ (97 ≤ c.toNat ∧ c.toNat ≤ 122) ∨ (48 ≤ c.toNat ∧ c.toNat ≤ 57) ∨ c.toNat = 95 := by
  simp only [isIdChar, Char.isAlphanum, Char.isAlpha, Bool.or_eq_true, upper_iff, lower_iff, digit_iff,
    decide_eq_true_eq, char_eq, Char.reduceToNat, or_assoc]

theorem constStart_iff (c : Char) : isConstStart c = true ↔ (65 ≤ c.toNat ∧ c.toNat ≤ 90) ∨ c.toNat = 95 := by
  simp only [isConstStart, Bool.or_eq_true, upper_iff, decide_eq_true_eq, char_eq, Char.reduceToNat]

theorem constChar_iff (c : Char) : isConstChar c = true ↔
    (65 ≤ c.toNat ∧ c.toNat ≤ 90) ∨ (48 ≤ c.toNat ∧ c.toNat ≤ 57) ∨ c.toNat = 95 := by
  simp only [isConstChar, Bool.or_eq_true, upper_iff, digit_iff, decide_eq_true_eq, char_eq, Char.reduceToNat,
    or_assoc]

theorem hexDigit_iff (c : Char) : isHexDigit c = true ↔
    (48 ≤ c.toNat ∧ c.toNat ≤ 57) ∨ (97 ≤ c.toNat ∧ c.toNat ≤ 102) ∨ (65 ≤ c.toNat ∧ c.toNat ≤ 70) := by
  simp only [isHexDigit, Bool.or_eq_true, Bool.and_eq_true, digit_iff, decide_eq_true_eq, char_le, Char.reduceToNat,
    or_assoc]

theorem octDigit_iff (c : Char) : isOctDigit c = true ↔ 48 ≤ c.toNat ∧ c.toNat ≤ 55 := by
  simp only [isOctDigit, Bool.and_eq_true, decide_eq_true_eq, char_le, Char.reduceToNat]

/-- Compare two character sets by code points. -/
local macro "charset" : tactic =>
  `(tactic| (funext c
             rw [Bool.eq_iff_iff]
             simp only [idStart_iff, idChar_iff, constStart_iff, constChar_iff, hexDigit_iff, octDigit_iff, digit_iff, inClass,
               List.any_cons, List.any_nil, Bool.or_false, Bool.or_eq_true, Bool.and_eq_true, decide_eq_true_eq, char_le,
               char_eq, Char.reduceToNat, Bool.false_or]
             try omega))

theorem cls_idStart : inClass ['_'] [('a', 'z'), ('A', 'Z')] = isIdStart := by charset
theorem cls_idChar : inClass ['_'] [('a', 'z'), ('A', 'Z'), ('0', '9')] = isIdChar := by charset
theorem cls_constStart : inClass ['_'] [('A', 'Z')] = isConstStart := by charset
theorem cls_constChar : inClass ['_'] [('A', 'Z'), ('0', '9')] = isConstChar := by charset
theorem cls_digit : inClass [] [('0', '9')] = Char.isDigit := by charset
theorem cls_hex : inClass [] [('0', '9'), ('a', 'f'), ('A', 'F')] = isHexDigit := by charset
theorem cls_oct : inClass [] [('0', '7')] = isOctDigit := by charset

/-! ## Identifiers -/

/-- The text does not go on with a character of the set. -/
def Stops (p : Char → Bool) (s : List Char) : Prop := ∀ c t, s = c :: t → p c = false

theorem stops_dropWhile (p : Char → Bool) (s : List Char) : Stops p (s.dropWhile p) := fun _ _ h => dropWhile_head h

theorem Stops.mono {p q : Char → Bool} {s : List Char} (h : Stops p s) (hpq : ∀ c, q c = true → p c = true) :
    Stops q s := by
  intro c t hs
  have := h c t hs
  cases hq : q c with
  | false => rfl
  | true => rw [hpq c hq] at this; cases this

theorem word_ok {a : List Char} {r : List (Char × Char)} {a' : List Char} {r' : List (Char × Char)} {run : Act}
    (hrun : ∀ env t l, run env t l = some (.str (text t), false)) {c : Char} {t s : List Char}
    (hc : inClass a r c = true) (ht : ∀ x ∈ t, inClass a' r' x = true) (hs : Stops (inClass a' r') s)
    (l : List Val) (b : Bool) :
    ev rules (.action (.seq [.cls a r, .star (.cls a' r')]) run) [] (C (c :: t ++ s) l b) =
      .ok (.str (String.ofList (c :: t))) [] (C s l b) := by
  obtain ⟨vs, hvs⟩ := star_cls (g := rules) a' r' [] l b (t ++ s) []
  rw [dropWhile_run ht hs] at hvs
  rw [ev_action, ev_seq, List.cons_append, seq_ok (cls_ok hc [] (t ++ s) l b), seq_ok (by rw [ev_star]; exact hvs)]
  simp only [seqLoop, actRes, hrun, Bool.or_false]
  rw [show (c :: (t ++ s)) = (c :: t) ++ s from rfl, slice_C, text_ok]

theorem word_fail {a : List Char} {r : List (Char × Char)} {a' : List Char} {r' : List (Char × Char)} {run : Act}
    {s : List Char} (hs : Stops (inClass a r) s) (l : List Val) (b : Bool) :
    ev rules (.action (.seq [.cls a r, .star (.cls a' r')]) run) [] (C s l b) = .fail (C s l b) := by
  rw [ev_action, ev_seq, seq_fail (cls_fail hs [] l b)]
  rfl

theorem toList_ofList {n : String} {c : Char} {t : List Char} (h : n.toList = c :: t) : n = String.ofList (c :: t) := by
  rw [← h, String.ofList_toList]

theorem ident_ok {n : String} {s : List Char} (hn : IsIdent n) (hs : Stops isIdChar s) (env : Env) (l : List Val)
    (b : Bool) : ev rules (.ref .Identifier) env (C (n.toList ++ s) l b) = .ok (.str n) env (C s l b) := by
  obtain ⟨c, t, hn, hc, ht⟩ := hn
  rw [toList_ofList hn]
  simp only [String.toList_ofList]
  refine ev_ref_ok (env' := []) (word_ok (fun _ _ _ => rfl) ?_ ?_ ?_ l b)
  · rw [cls_idStart]; exact hc
  · rw [cls_idChar]; exact ht
  · rw [cls_idChar]; exact hs

theorem ident_fail {s : List Char} (hs : Stops isIdStart s) (env : Env) (l : List Val) (b : Bool) :
    ev rules (.ref .Identifier) env (C s l b) = .fail (C s l b) :=
  ev_ref_fail (word_fail (by rw [cls_idStart]; exact hs) l b)

theorem const_ok {n : String} {s : List Char} (hn : IsConst n) (hs : Stops isConstChar s) (env : Env) (l : List Val)
    (b : Bool) : ev rules (.ref .ConstIdentifier) env (C (n.toList ++ s) l b) = .ok (.str n) env (C s l b) := by
  obtain ⟨c, t, hn, hc, ht⟩ := hn
  rw [toList_ofList hn]
  simp only [String.toList_ofList]
  refine ev_ref_ok (env' := []) (word_ok (fun _ _ _ => rfl) ?_ ?_ ?_ l b)
  · rw [cls_constStart]; exact hc
  · rw [cls_constChar]; exact ht
  · rw [cls_constChar]; exact hs

theorem const_fail {s : List Char} (hs : Stops isConstStart s) (env : Env) (l : List Val) (b : Bool) :
    ev rules (.ref .ConstIdentifier) env (C s l b) = .fail (C s l b) :=
  ev_ref_fail (word_fail (by rw [cls_constStart]; exact hs) l b)

/-- A text starts with an identifier, which may be cut off as long as possible, or it does not. -/
theorem ident_split (s : List Char) : Stops isIdStart s ∨
    ∃ n s', IsIdent n ∧ s = n.toList ++ s' ∧ Stops isIdChar s' := by
  cases s with
  | nil => left; rintro c t ⟨⟩
  | cons c t =>
    cases h : isIdStart c with
    | false => left; rintro c' t' ⟨⟩; exact h
    | true =>
      right
      refine ⟨String.ofList (c :: t.takeWhile isIdChar), t.dropWhile isIdChar,
        ⟨c, _, String.toList_ofList, h, takeWhile_all⟩, ?_, stops_dropWhile _ _⟩
      rw [String.toList_ofList, List.cons_append, List.takeWhile_append_dropWhile]

theorem const_split (s : List Char) : Stops isConstStart s ∨
    ∃ n s', IsConst n ∧ s = n.toList ++ s' ∧ Stops isConstChar s' := by
  cases s with
  | nil => left; rintro c t ⟨⟩
  | cons c t =>
    cases h : isConstStart c with
    | false => left; rintro c' t' ⟨⟩; exact h
    | true =>
      right
      refine ⟨String.ofList (c :: t.takeWhile isConstChar), t.dropWhile isConstChar,
        ⟨c, _, String.toList_ofList, h, takeWhile_all⟩, ?_, stops_dropWhile _ _⟩
      rw [String.toList_ofList, List.cons_append, List.takeWhile_append_dropWhile]

/-! ## Literals -/

theorem digits_eq {base : Nat} {cs : List Char} (h : ∀ c ∈ cs, digitVal c < base) : ∀ n,
    digits base cs n = some (cs.foldl (fun n c => n * base + digitVal c) n) := by
  induction cs with
  | nil => intro n; rfl
  | cons c cs ih =>
    intro n
    rw [digits, if_pos (h c (by simp)), ih (fun x hx => h x (by simp [hx]))]
    rfl

theorem digits_some {base : Nat} {cs : List Char} : ∀ {n m}, digits base cs n = some m →
    ∀ c ∈ cs, digitVal c < base := by
  induction cs with
  | nil => simp
  | cons c cs ih =>
    intro n m h x hx
    rw [digits] at h
    split at h
    · next hc =>
      simp only [List.mem_cons] at hx
      rcases hx with rfl | hx
      · exact hc
      · exact ih h x hx
    · cases h

theorem digitVal_hex {c : Char} (h : isHexDigit c = true) : digitVal c = digitValue c ∧ digitVal c < 16 := by
  rw [hexDigit_iff] at h
  unfold digitVal digitValue
  simp only [char_le, Char.reduceToNat, digit_iff, lower_iff]
  repeat' split
  all_goals omega

theorem digitVal_dec {c : Char} (h : c.isDigit = true) : digitVal c = digitValue c ∧ digitVal c < 10 := by
  rw [digit_iff] at h
  unfold digitVal digitValue
  simp only [char_le, Char.reduceToNat, digit_iff, lower_iff]
  repeat' split
  all_goals omega

theorem digitVal_oct {c : Char} (h : isOctDigit c = true) : digitVal c = digitValue c ∧ digitVal c < 8 := by
  rw [octDigit_iff] at h
  unfold digitVal digitValue
  simp only [char_le, Char.reduceToNat, digit_iff, lower_iff]
  repeat' split
  all_goals omega

theorem oct_of_digitVal {c : Char} (hd : c.isDigit = true) (h : digitVal c < 8) : isOctDigit c = true := by
  rw [digit_iff] at hd
  rw [octDigit_iff]
  unfold digitVal at h
  simp only [char_le, Char.reduceToNat] at h
  repeat' split at h
  all_goals omega

theorem foldl_digit {base : Nat} {cs : List Char} (h : ∀ c ∈ cs, digitVal c = digitValue c) : ∀ n,
    cs.foldl (fun n c => n * base + digitVal c) n = cs.foldl (fun n c => n * base + digitValue c) n := by
  induction cs with
  | nil => intro n; rfl
  | cons c cs ih =>
    intro n
    simp only [List.foldl_cons]
    rw [h c (by simp), ih (fun x hx => h x (by simp [hx]))]

theorem digits_number {base : Nat} {cs : List Char} (h : ∀ c ∈ cs, digitVal c = digitValue c ∧ digitVal c < base) :
    digits base cs 0 = some (number base cs) := by
  rw [digits_eq (fun c hc => (h c hc).2), foldl_digit (fun c hc => (h c hc).1)]
  rfl

/-- The last step of `strconv.ParseInt`: the range check. -/
def val63 (n : Nat) : Int × Bool := if n < 2 ^ 63 then ((n : Int), false) else (2 ^ 63 - 1, true)

/-- The first step: the value in the base told by the prefix. -/
def litValue : List Char → Option Nat
  | '0' :: 'x' :: c :: cs => digits 16 (c :: cs) 0
  | '0' :: cs => digits 8 cs 0
  | cs => digits 10 cs 0

theorem parseInt_eq (cs : List Char) : parseInt cs =
    match litValue cs with
    | none => (0, true)
    | some n => val63 n := rfl

theorem parseInt_hex {c : Char} {cs : List Char} (h : ∀ x ∈ c :: cs, isHexDigit x = true) :
    parseInt ('0' :: 'x' :: c :: cs) =
      val63 (number 16 (c :: cs)) := by
  simp only [parseInt]
  rw [digits_number (fun c hc => digitVal_hex (h c hc))]
  rfl

theorem parseInt_oct {cs : List Char} (h : ∀ x ∈ cs, isOctDigit x = true) :
    parseInt ('0' :: cs) =
      val63 (number 8 cs) := by
  have : parseInt ('0' :: cs) = match digits 8 cs 0 with
      | none => (0, true)
      | some n => val63 n := by
    cases cs with
    | nil => rfl
    | cons c cs =>
      by_cases hc : c = 'x'
      · subst hc
        have := h 'x' (by simp)
        simp [isOctDigit] at this
      · rw [parseInt_eq, litValue]
        rintro c' cs' h1
        cases h1
        exact hc rfl
  rw [this, digits_number (fun c hc => digitVal_oct (h c hc))]

theorem parseInt_dec {c : Char} {cs : List Char} (h0 : c ≠ '0') (h : ∀ x ∈ c :: cs, x.isDigit = true) :
    parseInt (c :: cs) =
      val63 (number 10 (c :: cs)) := by
  have : parseInt (c :: cs) = match digits 10 (c :: cs) 0 with
      | none => (0, true)
      | some n => val63 n := by
    rw [parseInt_eq, litValue]
    · rintro c' cs' h1
      cases h1
      exact h0 rfl
    · rintro cs' h1
      cases h1
      exact h0 rfl
  rw [this, digits_number (fun c hc => digitVal_dec (h c hc))]

theorem plus_cls_ok {a : List Char} {r : List (Char × Char)} {t s : List Char} (hne : t ≠ [])
    (ht : ∀ x ∈ t, inClass a r x = true) (hs : Stops (inClass a r) s) (env : Env) (l : List Val) (b : Bool) :
    ∃ v, ev rules (.plus (.cls a r)) env (C (t ++ s) l b) = .ok v env (C s l b) := by
  cases t with
  | nil => exact absurd rfl hne
  | cons c t =>
    obtain ⟨vs, hvs⟩ := star_cls (g := rules) a r env l b (t ++ s) [.bytes [.ok c]]
    rw [dropWhile_run (fun x hx => ht x (by simp [hx])) hs] at hvs
    exact ⟨_, by rw [ev_plus, List.cons_append, cls_ok (ht c (by simp))]; exact hvs⟩

theorem plus_cls_fail {a : List Char} {r : List (Char × Char)} {s : List Char} (hs : Stops (inClass a r) s) (env : Env)
    (l : List Val) (b : Bool) : ev rules (.plus (.cls a r)) env (C s l b) = .fail (C s l b) := by
  rw [ev_plus, cls_fail hs]

theorem hex_ok {t s : List Char} (hne : t ≠ []) (ht : ∀ x ∈ t, isHexDigit x = true) (hs : Stops isHexDigit s) (env : Env)
    (l : List Val) (b : Bool) :
    ∃ v, ev rules (.ref .HexLiteral) env (C ('0' :: 'x' :: t ++ s) l b) = .ok v env (C s l b) := by
  rw [← cls_hex] at ht hs
  obtain ⟨v, hv⟩ := plus_cls_ok hne ht hs [] l b
  refine ⟨.list [.bytes ("0x".toList.map Rune.ok), v], ev_ref_ok (env' := []) ?_⟩
  rw [show rules .HexLiteral = rHexLiteral from rfl, rHexLiteral, ev_seq,
    seq_ok (lit_at (t := "0x") (s₀ := '0' :: 'x' :: t ++ s) (s := t ++ s) rfl [] l b), seq_ok hv]
  rfl

theorem hex_fail {s : List Char} (hs : ∀ t, s = '0' :: 'x' :: t → Stops isHexDigit t) (env : Env)
    (l : List Val) (b : Bool) : ev rules (.ref .HexLiteral) env (C s l b) = .fail (C s l b) := by
  refine ev_ref_fail ?_
  rw [show rules .HexLiteral = rHexLiteral from rfl, rHexLiteral, ev_seq]
  by_cases h : "0x".toList <+: s
  · obtain ⟨t, rfl⟩ := h
    have := hs t rfl
    rw [← cls_hex] at this
    rw [seq_ok (lit_ok "0x" [] t l b), seq_fail (plus_cls_fail this [] l b)]
    rfl
  · rw [seq_fail (lit_fail h)]
    rfl

theorem oct_ok {t s : List Char} (hne : t ≠ []) (ht : ∀ x ∈ t, isOctDigit x = true) (hs : Stops isOctDigit s) (env : Env)
    (l : List Val) (b : Bool) :
    ∃ v, ev rules (.ref .OctalLiteral) env (C ('0' :: t ++ s) l b) = .ok v env (C s l b) := by
  rw [← cls_oct] at ht hs
  obtain ⟨v, hv⟩ := plus_cls_ok hne ht hs [] l b
  refine ⟨.list [.bytes ("0".toList.map Rune.ok), v], ev_ref_ok (env' := []) ?_⟩
  rw [show rules .OctalLiteral = rOctalLiteral from rfl, rOctalLiteral, ev_seq,
    seq_ok (lit_at (t := "0") (s₀ := '0' :: t ++ s) (s := t ++ s) rfl [] l b), seq_ok hv]
  rfl

theorem oct_fail {s : List Char} (hs : ∀ t, s = '0' :: t → Stops isOctDigit t) (env : Env)
    (l : List Val) (b : Bool) : ev rules (.ref .OctalLiteral) env (C s l b) = .fail (C s l b) := by
  refine ev_ref_fail ?_
  rw [show rules .OctalLiteral = rOctalLiteral from rfl, rOctalLiteral, ev_seq]
  by_cases h : "0".toList <+: s
  · obtain ⟨t, rfl⟩ := h
    have := hs t rfl
    rw [← cls_oct] at this
    rw [seq_ok (lit_ok "0" [] t l b), seq_fail (plus_cls_fail this [] l b)]
    rfl
  · rw [seq_fail (lit_fail h)]
    rfl

theorem dec_ok {t s : List Char} (hne : t ≠ []) (ht : ∀ x ∈ t, x.isDigit = true) (hs : Stops Char.isDigit s) (env : Env)
    (l : List Val) (b : Bool) :
    ∃ v, ev rules (.ref .DecimalLiteral) env (C (t ++ s) l b) = .ok v env (C s l b) := by
  rw [← cls_digit] at ht hs
  obtain ⟨v, hv⟩ := plus_cls_ok hne ht hs [] l b
  exact ⟨v, ev_ref_ok (env' := []) hv⟩

theorem dec_fail {s : List Char} (hs : Stops Char.isDigit s) (env : Env)
    (l : List Val) (b : Bool) : ev rules (.ref .DecimalLiteral) env (C s l b) = .fail (C s l b) := by
  rw [← cls_digit] at hs
  exact ev_ref_fail (plus_cls_fail hs [] l b)

/-- The action of a literal. -/
theorem intLit_act {t s : List Char} {v : Val} {env env' : Env} {l : List Val} {b : Bool}
    (h : choiceLoop (ev rules) [.ref .HexLiteral, .ref .OctalLiteral, .ref .DecimalLiteral] [] (C (t ++ s) l b) =
      .ok v env' (C s l b)) :
    ev rules (.ref .IntLiteral) env (C (t ++ s) l b) = .ok (.int (parseInt t).1) env (C s l (b || (parseInt t).2)) := by
  refine ev_ref_ok (env' := env') ?_
  rw [show rules .IntLiteral = rIntLiteral from rfl, rIntLiteral, ev_action, ev_choice, h]
  simp only [actRes, onIntLiteral1, slice_C, char_ok]
  rfl

theorem intLit_hex {t s : List Char} (hne : t ≠ []) (ht : ∀ x ∈ t, isHexDigit x = true) (hs : Stops isHexDigit s)
    (env : Env) (l : List Val) (b : Bool) :
    ev rules (.ref .IntLiteral) env (C ('0' :: 'x' :: t ++ s) l b) =
      .ok (.int (parseInt ('0' :: 'x' :: t)).1) env (C s l (b || (parseInt ('0' :: 'x' :: t)).2)) := by
  obtain ⟨v, hv⟩ := hex_ok hne ht hs [] l b
  exact intLit_act (choice_ok hv)

theorem not_hex_of_stops {t s : List Char} (ht : ∀ x ∈ t, x.isDigit = true) (hs : Stops isIdChar s) :
    ∀ u, t ++ s = '0' :: 'x' :: u → Stops isHexDigit u := by
  intro u hu
  exfalso
  match t, ht with
  | [], _ =>
    have := hs '0' ('x' :: u) hu
    simp [isIdChar] at this
  | [c], _ =>
    simp only [List.cons_append, List.nil_append, List.cons.injEq] at hu
    have := hs 'x' u hu.2
    simp [isIdChar] at this
  | c :: d :: t, ht =>
    simp only [List.cons_append, List.cons.injEq] at hu
    have := ht d (by simp)
    rw [hu.2.1] at this
    simp at this

/-- A literal of the specification, not followed by more letters or digits, is read as its value. -/
theorem intLit_ok {t s : List Char} {n : Nat} (h : IsLiteral t n) (hs : Stops isIdChar s) (env : Env) (l : List Val)
    (b : Bool) : ev rules (.ref .IntLiteral) env (C (t ++ s) l b) = .ok (.int n) env (C s l b) := by
  have sHex : Stops isHexDigit s := hs.mono (fun c hc => by rw [hexDigit_iff] at hc; rw [idChar_iff]; omega)
  have sOct : Stops isOctDigit s := hs.mono (fun c hc => by rw [octDigit_iff] at hc; rw [idChar_iff]; omega)
  have sDec : Stops Char.isDigit s := hs.mono (fun c hc => by rw [digit_iff] at hc; rw [idChar_iff]; omega)
  have octDig : ∀ c, isOctDigit c = true → c.isDigit = true := fun c hc => by
    rw [octDigit_iff] at hc; rw [digit_iff]; omega
  cases h with
  | zero =>
    have h1 := hex_fail (not_hex_of_stops (t := ['0']) (by simp) hs) [] l b
    have h2 := oct_fail (s := ['0'] ++ s) (by intro t ht; cases ht; exact sOct) [] l b
    obtain ⟨v, h3⟩ := dec_ok (t := ['0']) (by simp) (by simp) sDec [] l b
    rw [intLit_act (by rw [choice_fail h1, choice_fail h2, choice_ok h3])]
    simp [parseInt, digits]
  | dec c ds hc h0 hds hlt =>
    have hall : ∀ x ∈ c :: ds, x.isDigit = true := by
      intro x hx
      simp only [List.mem_cons] at hx
      rcases hx with rfl | hx
      · exact hc
      · exact hds x hx
    have h1 := hex_fail (not_hex_of_stops hall hs) [] l b
    have h2 := oct_fail (s := c :: ds ++ s) (by intro t ht; cases ht; exact absurd rfl h0) [] l b
    obtain ⟨v, h3⟩ := dec_ok (t := c :: ds) (by simp) hall sDec [] l b
    rw [intLit_act (by rw [choice_fail h1, choice_fail h2, choice_ok h3]), parseInt_dec h0 hall, val63, if_pos hlt]
    simp
  | oct ds hne hds hlt =>
    have hall : ∀ x ∈ '0' :: ds, x.isDigit = true := by
      intro x hx
      simp only [List.mem_cons] at hx
      rcases hx with rfl | hx
      · rfl
      · exact octDig x (hds x hx)
    have h1 := hex_fail (not_hex_of_stops hall hs) [] l b
    obtain ⟨v, h2⟩ := oct_ok hne hds sOct [] l b
    rw [intLit_act (by rw [choice_fail h1, choice_ok h2]), parseInt_oct hds, val63, if_pos hlt]
    simp
  | hex ds hne hds hlt =>
    rw [intLit_hex hne hds sHex]
    cases ds with
    | nil => exact absurd rfl hne
    | cons c ds =>
      rw [parseInt_hex hds, val63, if_pos hlt]
      simp

theorem intLit_fail {s : List Char} (hs : Stops Char.isDigit s) (env : Env) (l : List Val) (b : Bool) :
    ev rules (.ref .IntLiteral) env (C s l b) = .fail (C s l b) := by
  refine ev_ref_fail ?_
  rw [show rules .IntLiteral = rIntLiteral from rfl, rIntLiteral, ev_action, ev_choice,
    choice_fail (hex_fail ?_ _ _ _), choice_fail (oct_fail ?_ _ _ _), choice_fail (dec_fail hs _ _ _)]
  · rfl
  · rintro t rfl; have := hs '0' t rfl; simp at this
  · rintro t rfl; have := hs '0' _ rfl; simp at this

theorem split_at {p : Char → Bool} {c : Char} {t : List Char} (h : p c = true) : ∃ u s, c :: t = u ++ s ∧ u ≠ [] ∧
    (∀ x ∈ u, p x = true) ∧ Stops p s ∧ u.head? = some c :=
  ⟨(c :: t).takeWhile p, (c :: t).dropWhile p, (List.takeWhile_append_dropWhile).symm, by simp [h],
    takeWhile_all, stops_dropWhile _ _, by simp [h]⟩

/-- Where the rule matches, some text is cut off, and unless an error is recorded it is a literal of the
specification with the value returned. -/
theorem intLit_split (s : List Char) (env : Env) (l : List Val) (b : Bool) :
    Stops Char.isDigit s ∨ ∃ t s' k err, s = t ++ s' ∧
      ev rules (.ref .IntLiteral) env (C s l b) = .ok (.int k) env (C s' l (b || err)) ∧
      (err = false → ∃ n : Nat, k = n ∧ IsLiteral t n) := by
  cases s with
  | nil => left; rintro c t ⟨⟩
  | cons c t =>
    cases hd : c.isDigit with
    | false => left; rintro c' t' ⟨⟩; exact hd
    | true =>
      right
      by_cases hx : ∃ d u, c :: t = '0' :: 'x' :: d :: u ∧ isHexDigit d = true
      · obtain ⟨d, u, heq, hdd⟩ := hx
        obtain ⟨w, s', hw, hne, hall, hst, -⟩ := split_at (t := u) hdd
        refine ⟨'0' :: 'x' :: w, s', (parseInt ('0' :: 'x' :: w)).1, (parseInt ('0' :: 'x' :: w)).2,
          by rw [heq, hw]; rfl, ?_, ?_⟩
        · rw [heq, hw]; exact intLit_hex hne hall hst env l b
        · intro he
          cases w with
          | nil => exact absurd rfl hne
          | cons e w =>
            rw [parseInt_hex hall] at he ⊢
            simp only [val63] at he ⊢
            split at he
            · next hlt => rw [if_pos hlt]; exact ⟨_, rfl, .hex _ hne hall hlt⟩
            · cases he
      · have h1 : ev rules (.ref .HexLiteral) [] (C (c :: t) l b) = .fail (C (c :: t) l b) := by
          refine hex_fail ?_ [] l b
          intro u hu d u' hu'
          subst hu'
          cases hdd : isHexDigit d with
          | false => rfl
          | true => exact absurd ⟨d, u', hu, hdd⟩ hx
        by_cases ho : ∃ d u, c :: t = '0' :: d :: u ∧ isOctDigit d = true
        · obtain ⟨d, u, heq, hdd⟩ := ho
          obtain ⟨w, s', hw, hne, hall, hst, -⟩ := split_at (t := u) hdd
          obtain ⟨v, h2⟩ := oct_ok hne hall hst [] l b
          have heq' : c :: t = ('0' :: w) ++ s' := by rw [heq, hw]; rfl
          rw [heq'] at h1
          refine ⟨'0' :: w, s', (parseInt ('0' :: w)).1, (parseInt ('0' :: w)).2, heq', ?_, ?_⟩
          · rw [heq']
            exact intLit_act (by rw [choice_fail h1, choice_ok h2])
          · intro he
            rw [parseInt_oct hall] at he ⊢
            simp only [val63] at he ⊢
            split at he
            · next hlt => rw [if_pos hlt]; exact ⟨_, rfl, .oct _ hne hall hlt⟩
            · cases he
        · have h2 : ev rules (.ref .OctalLiteral) [] (C (c :: t) l b) = .fail (C (c :: t) l b) := by
            refine oct_fail ?_ [] l b
            intro u hu d u' hu'
            subst hu'
            cases hdd : isOctDigit d with
            | false => rfl
            | true => exact absurd ⟨d, u', hu, hdd⟩ ho
          obtain ⟨w, s', hw, hne, hall, hst, hhd⟩ := split_at (t := t) hd
          obtain ⟨v, h3⟩ := dec_ok hne hall hst [] l b
          rw [hw] at h1 h2
          refine ⟨w, s', (parseInt w).1, (parseInt w).2, hw, ?_, ?_⟩
          · rw [hw]
            exact intLit_act (by rw [choice_fail h1, choice_fail h2, choice_ok h3])
          · intro he
            cases w with
            | nil => exact absurd rfl hne
            | cons e w =>
              simp only [List.head?_cons, Option.some.injEq] at hhd
              subst hhd
              by_cases h0 : e = '0'
              · subst h0
                cases w with
                | nil => exact ⟨0, rfl, .zero⟩
                | cons d w =>
                  exfalso
                  have hdig : d.isDigit = true := hall d (by simp)
                  have hno : isOctDigit d = false := by
                    cases hdd : isOctDigit d with
                    | false => rfl
                    | true => exact absurd ⟨d, w ++ s', by rw [hw]; rfl, hdd⟩ ho
                  have hdx : d ≠ 'x' := by rintro rfl; simp at hdig
                  have hnone : digits 8 (d :: w) 0 = none := by
                    cases hdg : digits 8 (d :: w) 0 with
                    | none => rfl
                    | some m =>
                      have := oct_of_digitVal hdig (digits_some hdg d (by simp))
                      rw [this] at hno; cases hno
                  have : parseInt ('0' :: d :: w) = (0, true) := by
                    simp only [parseInt]
                    split
                    · next heq => split at heq
                                  · next hq => simp only [List.cons.injEq] at hq; exact absurd hq.2.1 hdx
                                  · rfl
                                  · rfl
                    · next heq => split at heq
                                  · next hq => simp only [List.cons.injEq] at hq; exact absurd hq.2.1 hdx
                                  · next hq => simp only [List.cons.injEq] at hq; obtain ⟨_, rfl⟩ := hq; rw [hnone] at heq; cases heq
                                  · next h1 h2 => exact absurd rfl (h2 _)
                  rw [this] at he
                  cases he
              · rw [parseInt_dec h0 hall] at he ⊢
                simp only [val63] at he ⊢
                split at he
                · next hlt =>
                  rw [if_pos hlt]
                  exact ⟨_, rfl, .dec _ _ (hall e (by simp)) h0 (fun x hx => hall x (by simp [hx])) hlt⟩
                · cases he

end Verif.Peg
