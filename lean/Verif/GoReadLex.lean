import Verif.GoRead
import Verif.GenText
/-!
# Lexical analysis of printed text

A printed line is a sequence of literal parts of format strings and of arguments (`Piece`).  `run` computes its
tokens without looking into the arguments; `run_scan` says that this is what scanning gives.
-/
namespace Verif.Go.Read
open Verif Verif.Go Verif.GenText

theorem scan_append (m : Mode) (semi : Bool) (a b : Text) :
    scan m semi (a ++ b) =
      ((scan m semi a).1 ++ (scan (scan m semi a).2.1 (scan m semi a).2.2 b).1,
        (scan (scan m semi a).2.1 (scan m semi a).2.2 b).2) := by
  induction a generalizing m semi with
  | nil => simp [scan]
  | cons c cs ih => simp [scan, ih]

/-- Characters that end any word or number. -/
def delim (dot : Bool) (c : Char) : Bool := !wordChar c && (dot || c ≠ '.')

/-- The text starts with a character that ends any word or number. -/
def delims (dot : Bool) : Text → Bool
  | c :: _ => delim dot c
  | [] => false

/-- Characters that never extend the operators arguments are printed after. -/
def opener (c : Char) : Bool := wordChar c || c = '(' || c = '*'

/-- The text starts with such a character. -/
def opens : Text → Bool
  | c :: _ => opener c
  | [] => false

/-- The text consists of the tokens `ts`, if a delimiter follows, and a newline after it is a semicolon. -/
def Lexes (dot : Bool) (t : Text) (ts : List Tok) : Prop :=
  ∀ (semi : Bool) (l : Text), delims dot l = true →
    scan .start semi (t ++ l) = (ts ++ (scan .start true l).1, (scan .start true l).2)

theorem Lexes.weaken {dot : Bool} {t : Text} {ts : List Tok} (h : Lexes true t ts) : Lexes dot t ts := by
  cases dot with
  | true => exact h
  | false =>
    intro semi l hl
    refine h semi l ?_
    cases l with
    | nil => simp [delims] at hl
    | cons c cs => simp [delims, delim] at hl ⊢; exact hl.1

/-- Modes in which an argument may follow. -/
def fresher : Mode → Bool
  | .start => true
  | .op w => w ∈ [['('], ['['], [':'], ['-'], ['*'], [']'], ['.'], [','], ['{']]
  | _ => false

theorem letter_word {c : Char} (h : letter c = true) : wordChar c = true := by
  simp only [letter, wordChar, Char.isAlphanum, Bool.or_eq_true] at h ⊢
  exact h.imp Or.inl id

theorem digit_word {c : Char} (h : c.isDigit = true) : wordChar c = true := by
  simp only [wordChar, Char.isAlphanum, Bool.or_eq_true] at h ⊢
  exact .inl (.inr h)

theorem ops_no_word : ∀ p ∈ operators, ∀ c ∈ p.1, wordChar c = false := by decide +kernel

theorem lookup_mem {α β : Type} [BEq α] [LawfulBEq α] {k : α} {v : β} : ∀ {l : List (α × β)},
    l.lookup k = some v → (k, v) ∈ l
  | [], h => by simp at h
  | (a, b) :: l, h => by
    rw [List.lookup_cons] at h
    split at h
    · rename_i hb
      have := eq_of_beq hb
      simp only [Option.some.injEq] at h
      simp [this, h]
    · exact List.mem_cons_of_mem _ (lookup_mem h)

theorem no_op {w : Text} {c : Char} (h : wordChar c = true) : operators.lookup (w ++ [c]) = none := by
  cases hl : operators.lookup (w ++ [c]) with
  | none => rfl
  | some o =>
    have := ops_no_word _ (lookup_mem hl) c (by simp)
    simp [h] at this

theorem slash_no_word {w : Text} {c d : Char} (h : wordChar c = true) (hd : wordChar d = false) : w ++ [c] ≠ ['/', d] := by
  intro hw
  have h1 := congrArg List.getLast? hw
  simp at h1
  rw [h1] at h
  simp [hd] at h

theorem step_fresh {m : Mode} {c : Char} (semi : Bool) (hm : fresher m = true) (hc : opener c = true) :
    step m semi c = next m semi c := by
  cases m with
  | start => simp [step, next, cut]
  | op w =>
    simp only [opener, Bool.or_eq_true, decide_eq_true_eq] at hc
    rcases hc with (hc | hc) | hc
    · simp [step, no_op hc, slash_no_word hc (show wordChar '/' = false from rfl),
        slash_no_word hc (show wordChar '*' = false from rfl)]
    · subst hc
      simp only [fresher, decide_eq_true_eq, List.mem_cons, List.not_mem_nil, or_false] at hm
      rcases hm with h | h | h | h | h | h | h | h | h <;> subst h <;> rfl
    · subst hc
      simp only [fresher, decide_eq_true_eq, List.mem_cons, List.not_mem_nil, or_false] at hm
      rcases hm with h | h | h | h | h | h | h | h | h <;> subst h <;> rfl
  | _ => simp [fresher] at hm

/-- Arguments after a literal part. -/
theorem scan_fresh {m : Mode} {semi : Bool} {t : Text} (hm : fresher m = true) (ht : opens t = true) (l : Text) :
    scan m semi (t ++ l) =
      ((cut m semi).1 ++ (scan .start (cut m semi).2 (t ++ l)).1, (scan .start (cut m semi).2 (t ++ l)).2) := by
  cases t with
  | nil => simp [opens] at ht
  | cons c cs =>
    simp only [List.cons_append, scan, step_fresh semi hm (by simpa [opens] using ht)]
    simp [next, step]

/-- Parts of a printed line. -/
inductive Piece where
  | lit (l : Text)
  | sym (dot : Bool) (t : Text) (ts : List Tok)

/-- The text. -/
def flat : List Piece → Text
  | [] => []
  | .lit l :: ps => l ++ flat ps
  | .sym _ t _ :: ps => t ++ flat ps

/-- Arguments are what they claim to be. -/
def Piece.OK : Piece → Prop
  | .lit _ => True
  | .sym d t ts => Lexes d t ts ∧ opens t = true

/-- Tokens of a line, without looking into arguments. `pend` is an argument that the next part has to
delimit. -/
def run : Option (Bool × List Tok) → Mode → Bool → List Piece → Option (List Tok × Mode × Bool)
  | none, m, semi, [] => some ([], m, semi)
  | some _, _, _, [] => none
  | none, m, semi, .lit l :: ps => do
    let p := scan m semi l
    let q ← run none p.2.1 p.2.2 ps
    some (p.1 ++ q.1, q.2)
  | some (d, ts), _, _, .lit l :: ps =>
    if delims d l then do
      let p := scan .start true l
      let q ← run none p.2.1 p.2.2 ps
      some (ts ++ (p.1 ++ q.1), q.2)
    else none
  | none, m, semi, .sym d _ ts :: ps =>
    if fresher m then do
      let q ← run (some (d, ts)) .start true ps
      some ((cut m semi).1 ++ q.1, q.2)
    else none
  | some _, _, _, .sym _ _ _ :: _ => none

theorem run_scan_aux : ∀ (ps : List Piece), (∀ p ∈ ps, p.OK) →
    (∀ m semi r, run none m semi ps = some r → scan m semi (flat ps) = r) ∧
    (∀ d t ts semi m' semi' r, Lexes d t ts → run (some (d, ts)) m' semi' ps = some r →
      scan .start semi (t ++ flat ps) = r)
  | [], _ => by
    constructor
    · intro m semi r h
      simp only [run, Option.some.injEq] at h
      simp [flat, scan, h]
    · intro d t ts semi m' semi' r hl h
      simp [run] at h
  | .lit l :: ps, hps => by
    obtain ⟨ih1, ih2⟩ := run_scan_aux ps (fun p hp => hps p (List.mem_cons_of_mem _ hp))
    constructor
    · intro m semi r h
      simp only [run, Option.bind_eq_bind, Option.bind_eq_some_iff] at h
      obtain ⟨q, hq, hr⟩ := h
      simp only [Option.some.injEq] at hr
      rw [flat, scan_append, ih1 _ _ _ hq, ← hr]
    · intro d t ts semi m' semi' r hl h
      simp only [run] at h
      split at h
      · rename_i hd
        simp only [Option.bind_eq_bind, Option.bind_eq_some_iff] at h
        obtain ⟨q, hq, hr⟩ := h
        simp only [Option.some.injEq] at hr
        have hd' : delims d (l ++ flat ps) = true := by
          cases l with
          | nil => simp [delims] at hd
          | cons c cs => simpa [delims] using hd
        rw [flat, hl semi _ hd', scan_append, ih1 _ _ _ hq, ← hr]
      · simp at h
  | .sym d' t' ts' :: ps, hps => by
    obtain ⟨ih1, ih2⟩ := run_scan_aux ps (fun p hp => hps p (List.mem_cons_of_mem _ hp))
    have hok := hps (.sym d' t' ts') (List.mem_cons_self ..)
    constructor
    · intro m semi r h
      simp only [run] at h
      split at h
      · rename_i hm
        simp only [Option.bind_eq_bind, Option.bind_eq_some_iff] at h
        obtain ⟨q, hq, hr⟩ := h
        simp only [Option.some.injEq] at hr
        rw [flat, scan_fresh hm hok.2, ih2 d' t' ts' _ _ _ _ hok.1 hq, ← hr]
      · simp at h
    · intro d t ts semi m' semi' r hl h
      simp [run] at h

/-- What `run` computes is what scanning gives. -/
theorem run_scan {ps : List Piece} {m : Mode} {semi : Bool} {r : List Tok × Mode × Bool} (hps : ∀ p ∈ ps, p.OK)
    (h : run none m semi ps = some r) : scan m semi (flat ps) = r := (run_scan_aux ps hps).1 m semi r h

/-! ## Arguments -/

/-- Identifiers of Go (in ASCII) that are not keywords. -/
def GoIdent (x : String) : Prop :=
  (∃ c cs, x.toList = c :: cs ∧ letter c = true ∧ ∀ d ∈ cs, wordChar d = true) ∧ keywords.lookup x.toList = none

theorem letter_not_digit {c : Char} (h : letter c = true) : c.isDigit = false := by
  simp only [letter, Char.isAlpha, Char.isUpper, Char.isLower, Bool.or_eq_true, Bool.and_eq_true, decide_eq_true_eq] at h
  simp only [Char.isDigit, Bool.and_eq_false_iff, decide_eq_false_iff_not]
  rcases h with (h | h) | h
  · right; intro h2; exact absurd (Nat.le_trans h.1 h2) (by decide)
  · right; intro h2; exact absurd (Nat.le_trans h.1 h2) (by decide)
  · subst h; right; decide

theorem fresh_letter {c : Char} (semi : Bool) (h : letter c = true) : fresh semi c = ([], .word [c], semi) := by
  have h1 : c ≠ '\n' := by rintro rfl; revert h; decide
  have h2 : c ≠ ' ' := by rintro rfl; revert h; decide
  have h3 : c ≠ '\t' := by rintro rfl; revert h; decide
  have h4 : c ≠ '\r' := by rintro rfl; revert h; decide
  simp [fresh, h1, h2, h3, h4, h]

theorem fresh_digit {c : Char} (semi : Bool) (h : c.isDigit = true) : fresh semi c = ([], .num [c], semi) := by
  have h1 : c ≠ '\n' := by rintro rfl; revert h; decide
  have h2 : c ≠ ' ' := by rintro rfl; revert h; decide
  have h3 : c ≠ '\t' := by rintro rfl; revert h; decide
  have h4 : c ≠ '\r' := by rintro rfl; revert h; decide
  have h5 : letter c = false := by
    cases hl : letter c with
    | false => rfl
    | true => have := letter_not_digit hl; simp [h] at this
  simp [fresh, h1, h2, h3, h4, h5, h]

theorem scan_word (semi : Bool) : ∀ (cs w l : Text), (∀ d ∈ cs, wordChar d = true) →
    scan (.word w) semi (cs ++ l) = scan (.word (w ++ cs)) semi l
  | [], w, l, _ => by simp
  | c :: cs, w, l, h => by
    have hc := h c (List.mem_cons_self ..)
    simp only [List.cons_append, scan, step, hc, if_true, List.nil_append]
    rw [scan_word semi cs _ l (fun d hd => h d (List.mem_cons_of_mem _ hd))]
    simp

/-- Identifiers. -/
theorem lex_ident {x : String} (h : GoIdent x) : Lexes true (lit x) [.id x] := by
  obtain ⟨⟨c, cs, hx, hc, hcs⟩, hk⟩ := h
  intro semi l hl
  cases l with
  | nil => simp [delims] at hl
  | cons d l =>
    simp only [delims, delim, Bool.true_or, Bool.and_true, Bool.not_eq_true'] at hl
    have hw : wordTok (c :: cs) = .id x := by
      rw [wordTok, ← hx, hk]
      simp
    simp only [lit, hx, List.cons_append, scan, step, fresh_letter _ hc, List.nil_append]
    rw [scan_word _ _ _ _ hcs]
    simp only [scan, step, hl, next, cut, List.singleton_append, hw, ends]
    simp

theorem opens_ident {x : String} (h : GoIdent x) : opens (lit x) = true := by
  obtain ⟨⟨c, cs, hx, hc, hcs⟩, hk⟩ := h
  simp [lit, hx, opens, opener, letter_word hc]

/-- Words that are not keywords, as an argument of a line. -/
abbrev word (x : String) : Piece := .sym true (lit x) [.id x]

theorem word_ok {x : String} (h : GoIdent x) : (word x).OK := ⟨lex_ident h, opens_ident h⟩

theorem scan_num (semi : Bool) : ∀ (cs w l : Text), (∀ d ∈ cs, d.isDigit = true) → w ≠ ['0'] → w ≠ [] →
    scan (.num w) semi (cs ++ l) = scan (.num (w ++ cs)) semi l
  | [], w, l, _, _, _ => by simp
  | c :: cs, w, l, h, hw, hw' => by
    have hc := h c (List.mem_cons_self ..)
    simp only [List.cons_append, scan, step, hc, if_true, List.nil_append, hw, if_false]
    rw [scan_num semi cs _ l (fun d hd => h d (List.mem_cons_of_mem _ hd))]
    · simp
    · intro he
      cases w with
      | nil => exact hw' rfl
      | cons a w => simp at he
    · simp

theorem digitChar_isDigit : ∀ d : Nat, d < 10 → (Nat.digitChar d).isDigit = true := by decide

theorem digitChar_val : ∀ d : Nat, d < 10 → (Nat.digitChar d).toNat - 48 = d := by decide

theorem digitChar_zero : ∀ d : Nat, d < 10 → Nat.digitChar d = '0' → d = 0 := by decide

theorem decimal_snoc (ds : Text) (c : Char) : decimal (ds ++ [c]) = decimal ds * 10 + (c.toNat - 48) := by
  simp [decimal]

theorem toDigits_spec (n : Nat) : (∀ c ∈ Nat.toDigits 10 n, c.isDigit = true) ∧ decimal (Nat.toDigits 10 n) = n ∧
    (∃ c cs, Nat.toDigits 10 n = c :: cs ∧ (c = '0' → cs = [] ∧ n = 0)) := by
  induction n using Nat.strongRecOn with
  | _ n ih =>
    by_cases hn : n < 10
    · rw [Nat.toDigits_of_lt_base hn]
      refine ⟨by simpa using digitChar_isDigit n hn, ?_, ?_⟩
      · have := digitChar_val n hn
        simp [decimal, this]
      · exact ⟨_, [], rfl, fun h => ⟨rfl, digitChar_zero n hn h⟩⟩
    · have hq : n / 10 < n := by omega
      obtain ⟨h1, h2, c, cs, h3, h4⟩ := ih (n / 10) hq
      have he : Nat.toDigits 10 n = Nat.toDigits 10 (n / 10) ++ [Nat.digitChar (n % 10)] := by
        rw [Nat.toDigits_of_base_le (by decide) (by omega)]
      have hm : n % 10 < 10 := by omega
      rw [he]
      refine ⟨?_, ?_, ?_⟩
      · intro d hd
        rcases List.mem_append.1 hd with hd | hd
        · exact h1 d hd
        · simp only [List.mem_singleton] at hd
          rw [hd]; exact digitChar_isDigit _ hm
      · rw [decimal_snoc, h2, digitChar_val _ hm]
        omega
      · rw [h3]
        refine ⟨c, cs ++ [Nat.digitChar (n % 10)], rfl, fun hc => ?_⟩
        have := (h4 hc).2
        omega

/-- Numbers. -/
theorem lex_nat (n : Nat) : Lexes false (itoa n) [.int n] := by
  obtain ⟨h1, h2, c, cs, h3, h4⟩ := toDigits_spec n
  intro semi l hl
  cases l with
  | nil => simp [delims] at hl
  | cons d l =>
    simp only [delims, delim, Bool.false_or, Bool.and_eq_true, Bool.not_eq_true', decide_eq_true_eq] at hl
    have hdd : d.isDigit = false := by
      cases hb : d.isDigit with
      | false => rfl
      | true => have := digit_word hb; simp [hl.1] at this
    have hdl : letter d = false := by
      cases hb : letter d with
      | false => rfl
      | true => have := letter_word hb; simp [hl.1] at this
    have hi : itoa (n : Int) = c :: cs := h3
    have hdec : decimal (c :: cs) = n := by rw [← h3]; exact h2
    rw [h3] at h1
    have hc := h1 c (List.mem_cons_self ..)
    simp only [hi, List.cons_append, scan, step, fresh_digit _ hc, List.nil_append]
    have hs : scan (.num [c]) semi (cs ++ d :: l) = scan (.num (c :: cs)) semi (d :: l) := by
      by_cases h0 : c = '0'
      · rw [(h4 h0).1]; rfl
      · rw [scan_num _ _ _ _ (fun d hd => h1 d (List.mem_cons_of_mem _ hd)) (by simpa using h0) (by simp)]
        rfl
    rw [hs]
    have hx : ¬ (d = 'x' ∨ d = 'X') := by
      rintro (rfl | rfl) <;> exact absurd hdl (by decide)
    simp only [scan, step, hdd, hdl, next, cut, List.singleton_append, hdec, hx, and_false]
    simp [hl.2]

theorem opens_nat (n : Nat) : opens (itoa n) = true := by
  obtain ⟨h1, h2, c, cs, h3, h4⟩ := toDigits_spec n
  have hi : itoa (n : Int) = c :: cs := h3
  rw [h3] at h1
  simp [hi, opens, opener, digit_word (h1 c (List.mem_cons_self ..))]

/-- Numbers, as an argument of a line. -/
abbrev num (n : Nat) : Piece := .sym false (itoa n) [.int n]

theorem num_ok (n : Nat) : (num n).OK := ⟨lex_nat n, opens_nat n⟩

/-- Arguments joined by literal text. -/
theorem Lexes.cat {d d' : Bool} {t t' l : Text} {ts ts' us : List Tok} {m : Mode} {s : Bool} (h : Lexes d t ts)
    (hl : delims d l = true) (hs : scan .start true l = (us, m, s)) (hm : fresher m = true) (h' : Lexes d' t' ts')
    (ho : opens t' = true) : Lexes d' (t ++ (l ++ t')) (ts ++ (us ++ ((cut m s).1 ++ ts'))) := by
  intro semi r hr
  have hd' : delims d (l ++ (t' ++ r)) = true := by
    cases l with
    | nil => simp [delims] at hl
    | cons c cs => simpa [delims] using hl
  rw [List.append_assoc, List.append_assoc, h semi _ hd', scan_append, hs]
  simp only
  rw [scan_fresh hm ho, h' _ _ hr]
  simp

theorem closers : ∀ p ∈ operators, ∀ c ∈ [')', ']'], p.1.head? = some c → p.1.length = 1 := by decide +kernel

theorem step_close {c : Char} (hc : c ∈ [')', ']']) (semi : Bool) (d : Char) : step (.op [c]) semi d = next (.op [c]) semi d := by
  have h : operators.lookup ([c] ++ [d]) = none := by
    cases hl : operators.lookup ([c] ++ [d]) with
    | none => rfl
    | some o => simpa using closers _ (lookup_mem hl) c hc
  have h1 : c ≠ '/' := by rintro rfl; simp at hc
  have h' : (operators.lookup [c, d]).isSome = false := by rw [show [c, d] = [c] ++ [d] from rfl, h]; rfl
  simp only [step, List.singleton_append, List.cons.injEq, h1, false_and, if_false, h']
  simp

/-- Closing brackets after an argument. -/
theorem Lexes.close {d d' : Bool} {t : Text} {ts : List Tok} (h : Lexes d t ts) : Lexes d' (t ++ [')']) (ts ++ [.op .rparen]) := by
  intro semi l hl
  cases l with
  | nil => simp [delims] at hl
  | cons c l =>
    have hd : delims d (')' :: c :: l) = true := by cases d <;> rfl
    rw [List.append_assoc, List.singleton_append, h semi _ hd]
    have hs : step .start true ')' = ([], .op [')'], true) := rfl
    simp only [scan, hs, step_close (show ')' ∈ [')', ']'] by simp)]
    have hc : cut (.op [')']) true = ([.op .rparen], true) := rfl
    simp [next, hc, step]

theorem Lexes.closeB {d d' : Bool} {t : Text} {ts : List Tok} (h : Lexes d t ts) : Lexes d' (t ++ [']']) (ts ++ [.op .rbrack]) := by
  intro semi l hl
  cases l with
  | nil => simp [delims] at hl
  | cons c l =>
    have hd : delims d (']' :: c :: l) = true := by cases d <;> rfl
    rw [List.append_assoc, List.singleton_append, h semi _ hd]
    have hs : step .start true ']' = ([], .op [']'], true) := rfl
    simp only [scan, hs, step_close (show ']' ∈ [')', ']'] by simp)]
    have hc : cut (.op [']']) true = ([.op .rbrack], true) := rfl
    simp [next, hc, step]

/-- An argument after literal text. -/
theorem Lexes.after {d : Bool} {t l : Text} {us ts : List Tok} {m : Mode} (h : Lexes d t ts) (ho : opens t = true)
    (hs : ∀ s, ∃ s', scan .start s l = (us, m, s')) (hm : fresher m = true) {vs : List Tok} (hc : ∀ s, (cut m s).1 = vs) :
    Lexes d (l ++ t) (us ++ (vs ++ ts)) := by
  intro semi r hr
  obtain ⟨s', hs⟩ := hs semi
  rw [List.append_assoc, scan_append, hs]
  simp only
  rw [scan_fresh hm ho, hc, h _ _ hr]
  simp

end Verif.Go.Read
