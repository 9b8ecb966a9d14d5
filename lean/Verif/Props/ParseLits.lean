import Verif.Props.ParseSpec
/-!
# Integer literals (C48)
-/
namespace Verif.Props
open Verif Verif.Ast Verif.Peg Verif.Syntax

/-- The words of a text: the longest runs of letters, digits and underscores outside comments, in order. -/
inductive Words : List Char → List (List Char) → Prop
  | nil : Words [] []
  | gap {s s' ws} : Gap s s' → s ≠ s' → Words s' ws → Words s ws
  | word {w s ws} : w ≠ [] → (∀ c ∈ w, isIdChar c = true) → (∀ c t, s = c :: t → isIdChar c = false) → Words s ws →
      Words (w ++ s) (w :: ws)
  | other {c s ws} : isIdChar c = false → (∀ s', Gap (c :: s) s' → s' = c :: s) → Words s ws → Words (c :: s) ws

/-- No gap starts where there is nothing to skip. -/
theorem gap_self {s s' : List Char} (h : Gap s s') (hs : skip s = s) : s' = s := by
  have h1 := skip_gap h
  rw [hs] at h1
  have h2 : s'.length ≤ s.length := by
    clear h1 hs
    induction h with
    | done => exact Nat.le_refl _
    | white c s s' _ _ ih => simp only [List.length_cons]; omega
    | block body s s' _ _ ih => simp only [List.length_cons, List.length_append]; omega
    | line body s s' _ _ _ ih => simp only [List.length_cons, List.length_append]; omega
  have h3 := skip_le s'
  have h4 : (skip s').length = s.length := by rw [← h1]
  have h5 : skip s' = s' := by
    have := (gap_skip s')
    cases hk : skip1 s' with
    | none => exact skip_none hk
    | some t =>
      have h6 := skip1_lt hk
      have h7 := skip_some hk
      have h8 := skip_le t
      rw [h7] at h4
      omega
  rw [← h5, ← h1]

theorem skip_lt {s : List Char} (h : skip s ≠ s) : (skip s).length < s.length := by
  cases hk : skip1 s with
  | none => exact absurd (skip_none hk) h
  | some t =>
    have h6 := skip1_lt hk
    rw [skip_some hk]
    have := skip_le t
    omega

/-- Every text has words. -/
theorem words_total (s : List Char) : ∃ ws, Words s ws := by
  induction hn : s.length using Nat.strongRecOn generalizing s with
  | _ n ih =>
    subst hn
    by_cases hk : skip s = s
    · cases s with
      | nil => exact ⟨[], .nil⟩
      | cons c s =>
        by_cases hc : isIdChar c = true
        · have hlt : ((c :: s).dropWhile isIdChar).length < (c :: s).length := by
            rw [List.dropWhile_cons_of_pos hc]
            have := (List.dropWhile_suffix (l := s) isIdChar).length_le
            simp only [List.length_cons]
            omega
          obtain ⟨ws, hw⟩ := ih _ hlt _ rfl
          refine ⟨(c :: s).takeWhile isIdChar :: ws, ?_⟩
          have := Words.word (w := (c :: s).takeWhile isIdChar) (by rw [List.takeWhile_cons_of_pos hc]; simp)
            (fun x hx => List.all_eq_true.1 List.all_takeWhile x hx) (stops_dropWhile isIdChar (c :: s)) hw
          rwa [List.takeWhile_append_dropWhile] at this
        · obtain ⟨ws, hw⟩ := ih s.length (by simp) s rfl
          exact ⟨ws, .other (by simpa using hc) (fun s' hg => gap_self hg hk) hw⟩
    · obtain ⟨ws, hw⟩ := ih _ (skip_lt hk) _ rfl
      exact ⟨ws, .gap (gap_skip s) (fun h => hk h.symm) hw⟩

/-- The words that start with a digit are literals. -/
def LitWords (s : List Char) : Prop := ∀ ws, Words s ws → ∀ w ∈ ws, ∀ c t, w = c :: t → c.isDigit = true → ∃ v, IsLiteral w v

theorem idChar_skip {c : Char} {s : List Char} (h : isIdChar c = true) : skip (c :: s) = c :: s :=
  skip_fresh (stops_cons (idChar_fresh c h))

theorem words_skip {s : List Char} {ws : List (List Char)} (h : Words s ws) : Words (skip s) ws := by
  induction h with
  | nil => rw [skip_none (by rfl)]; exact .nil
  | gap hg _ _ ih => rw [skip_gap hg]; exact ih
  | @word w s ws h1 h2 h3 h4 ih =>
    have : skip (w ++ s) = w ++ s := by
      cases w with
      | nil => exact absurd rfl h1
      | cons c w => exact idChar_skip (h2 c List.mem_cons_self)
    rw [this]
    exact .word h1 h2 h3 h4
  | @other c s ws h1 h2 h3 ih =>
    have : skip (c :: s) = c :: s := h2 _ (gap_skip _)
    rw [this]
    exact .other h1 h2 h3

theorem words_of_skip {s : List Char} {ws : List (List Char)} (h : Words (skip s) ws) : Words s ws := by
  by_cases hk : skip s = s
  · rwa [hk] at h
  · exact .gap (gap_skip s) (fun h => hk h.symm) h

theorem lw_gap {s s' : List Char} (hg : Gap s s') (h : LitWords s') : LitWords s := by
  intro ws hw
  have := words_skip hw
  rw [skip_gap hg] at this
  exact h ws (words_of_skip this)

/-- What follows a word. -/
theorem words_word {t s : List Char} {ws : List (List Char)} (ht : t ≠ []) (hid : ∀ c ∈ t, isIdChar c = true) (h : Words (t ++ s) ws) :
    ∃ r s1 ws', s = r ++ s1 ∧ (∀ c ∈ r, isIdChar c = true) ∧ Stops isIdChar s1 ∧ ws = (t ++ r) :: ws' ∧ Words s1 ws' := by
  cases t with
  | nil => exact absurd rfl ht
  | cons c t =>
    have hc := hid c List.mem_cons_self
    generalize hx : c :: t ++ s = x at h
    cases h with
    | nil => cases hx
    | gap hg hne hw =>
      subst hx
      exact absurd (gap_self hg (idChar_skip hc)).symm hne
    | @word w s1 ws' h1 h2 h3 h4 =>
      rcases List.append_eq_append_iff.1 hx with ⟨r, hr, hs⟩ | ⟨r, hr, hs⟩
      · refine ⟨r, s1, ws', hs, ?_, h3, by rw [hr], h4⟩
        intro y hy
        exact h2 y (by rw [hr]; exact List.mem_append_right _ hy)
      · cases r with
        | nil =>
          rw [List.append_nil] at hr
          rw [List.nil_append] at hs
          subst hs
          exact ⟨[], _, ws', rfl, by simp, h3, by rw [hr]; simp, h4⟩
        | cons y r =>
          have h5 := h3 y (r ++ s) (by rw [hs]; rfl)
          have h6 := hid y (by rw [hr]; simp)
          rw [h5] at h6
          cases h6
    | @other c' s1 ws' h1 h2 h3 =>
      simp only [List.cons_append, List.cons.injEq] at hx
      obtain ⟨rfl, _⟩ := hx
      rw [hc] at h1
      cases h1

theorem lw_word {t s : List Char} {c : Char} {u : List Char} (ht : t = c :: u) (hid : ∀ c ∈ t, isIdChar c = true)
    (hc : c.isDigit = false) (h : LitWords s) : LitWords (t ++ s) := by
  intro ws hw
  obtain ⟨r, s1, ws', rfl, hr, hs1, rfl, hw'⟩ := words_word (by rw [ht]; simp) hid hw
  have key : ∀ w ∈ ws', ∀ c t, w = c :: t → c.isDigit = true → ∃ v, IsLiteral w v := by
    cases r with
    | nil => exact h ws' hw'
    | cons y r =>
      intro w hw
      exact h _ (.word (by simp) hr hs1 hw') w (List.mem_cons_of_mem _ hw)
  intro w hw c' t' he hd
  rcases List.mem_cons.1 hw with rfl | hw
  · subst ht
    simp only [List.cons_append, List.cons.injEq] at he
    obtain ⟨rfl, _⟩ := he
    rw [hc] at hd
    cases hd
  · exact key w hw c' t' he hd

theorem octDigit_idChar {c : Char} (h : isOctDigit c = true) : isIdChar c = true := by
  unfold isOctDigit at h
  simp only [Bool.and_eq_true, decide_eq_true_eq] at h
  obtain ⟨h1, h2⟩ := h
  rw [char_le] at h1 h2
  simp only [Char.reduceToNat] at h1 h2
  rw [idChar_iff]
  omega

theorem digit_idChar {c : Char} (h : c.isDigit = true) : isIdChar c = true := by
  rw [digit_iff] at h
  rw [idChar_iff]
  omega

theorem hexDigit_idChar {c : Char} (h : isHexDigit c = true) : isIdChar c = true := by
  unfold isHexDigit at h
  simp only [Bool.or_eq_true, Bool.and_eq_true, decide_eq_true_eq, char_le, Char.reduceToNat, digit_iff] at h
  rw [idChar_iff]
  omega

theorem literal_idChar {t : List Char} {n : Nat} (h : IsLiteral t n) : t ≠ [] ∧ ∀ c ∈ t, isIdChar c = true := by
  cases h with
  | zero => exact ⟨by simp, by simp only [List.mem_singleton]; rintro c rfl; decide⟩
  | dec c ds h1 h2 h3 h4 =>
    refine ⟨by simp, fun x hx => ?_⟩
    rcases List.mem_cons.1 hx with rfl | hx
    · exact digit_idChar h1
    · exact digit_idChar (h3 x hx)
  | oct ds h1 h2 h3 =>
    refine ⟨by simp, fun x hx => ?_⟩
    rcases List.mem_cons.1 hx with rfl | hx
    · decide
    · exact octDigit_idChar (h2 x hx)
  | hex ds h1 h2 h3 =>
    refine ⟨by simp, fun x hx => ?_⟩
    rcases List.mem_cons.1 hx with rfl | hx
    · decide
    · rcases List.mem_cons.1 hx with rfl | hx
      · decide
      · exact hexDigit_idChar (h2 x hx)

theorem lw_lit {t s : List Char} {n : Nat} (ht : IsLiteral t n) (hs : Stops isIdChar s) (h : LitWords s) : LitWords (t ++ s) := by
  intro ws hw
  obtain ⟨h1, h2⟩ := literal_idChar ht
  obtain ⟨r, s1, ws', rfl, hr, hs1, rfl, hw'⟩ := words_word h1 h2 hw
  have : r = [] := by
    cases r with
    | nil => rfl
    | cons y r =>
      have h3 := hs y (r ++ s1) rfl
      rw [hr y List.mem_cons_self] at h3
      cases h3
  subst this
  rw [List.nil_append] at h
  intro w hw c' t' he hd
  rcases List.mem_cons.1 hw with rfl | hw
  · rw [List.append_nil]; exact ⟨n, ht⟩
  · exact h ws' hw' w hw c' t' he hd

theorem lw_punct {c : Char} {s : List Char} (h1 : isIdChar c = false) (h2 : isSkipStart c = false) (h : LitWords s) : LitWords (c :: s) := by
  intro ws hw
  have hk : skip (c :: s) = c :: s := skip_fresh (stops_cons h2)
  generalize hx : c :: s = x at hw
  cases hw with
  | nil => cases hx
  | gap hg hne hw => subst hx; exact absurd (gap_self hg hk).symm hne
  | @word w s1 ws' k1 k2 k3 k4 =>
    cases w with
    | nil => exact absurd rfl k1
    | cons y w =>
      simp only [List.cons_append, List.cons.injEq] at hx
      obtain ⟨rfl, _⟩ := hx
      rw [k2 c List.mem_cons_self] at h1
      cases h1
  | @other c' s1 ws' k1 k2 k3 =>
    cases hx
    exact h ws k3

theorem lw_nil : LitWords [] := by
  intro ws hw
  generalize hx : ([] : List Char) = x at hw
  cases hw with
  | nil => simp
  | gap hg hne hw => subst hx; exact absurd (gap_self hg (skip_none (by rfl))).symm hne
  | @word w s1 ws' k1 k2 k3 k4 =>
    cases w with
    | nil => exact absurd rfl k1
    | cons y w => cases hx
  | other => cases hx

/-! ### Pieces -/

/-- Pieces keep the words that start with a digit literals. -/
def Loose (ps : List Piece) : Prop := ∀ s s', Layout ps s s' → LitWords s' → LitWords s

/-- The same, if no word continues after them. -/
def Tight (ps : List Piece) : Prop := ∀ s s', Layout ps s s' → Stops isIdChar s' → LitWords s' → LitWords s

/-- Pieces that do not start with a word. -/
def Sep (ps : List Piece) : Prop := ∀ s s', Layout ps s s' → Stops isIdChar s

theorem Loose.tight {ps : List Piece} (h : Loose ps) : Tight ps := fun s s' hl _ hw => h s s' hl hw

theorem loose_nil : Loose [] := by rintro s s' rfl h; exact h

theorem loose_append {a b : List Piece} (ha : Loose a) (hb : Loose b) : Loose (a ++ b) := by
  intro s s' h hw
  obtain ⟨t, h1, h2⟩ := (layout_append a b s s').1 h
  exact ha _ _ h1 (hb _ _ h2 hw)

theorem tight_loose {a b : List Piece} (ha : Tight a) (hs : Sep b) (hb : Loose b) : Loose (a ++ b) := by
  intro s s' h hw
  obtain ⟨t, h1, h2⟩ := (layout_append a b s s').1 h
  exact ha _ _ h1 (hs _ _ h2) (hb _ _ h2 hw)

theorem tight_tight {a b : List Piece} (ha : Tight a) (hs : Sep b) (hb : Tight b) : Tight (a ++ b) := by
  intro s s' h hst hw
  obtain ⟨t, h1, h2⟩ := (layout_append a b s s').1 h
  exact ha _ _ h1 (hs _ _ h2) (hb _ _ h2 hst hw)

theorem loose_tight {a b : List Piece} (ha : Loose a) (hb : Tight b) : Tight (a ++ b) := by
  intro s s' h hst hw
  obtain ⟨t, h1, h2⟩ := (layout_append a b s s').1 h
  exact ha _ _ h1 (hb _ _ h2 hst hw)

theorem loose_cons {p : Piece} {ps : List Piece} (h : Loose [p]) (h1 : Loose ps) : Loose (p :: ps) := loose_append h h1

theorem loose_gap : Loose [.gap] := by
  rintro s s' ⟨_, h, rfl⟩ hw
  exact lw_gap h hw

theorem loose_gap1 : Loose [.gap1] := by
  rintro s s' ⟨_, h, rfl⟩ hw
  exact lw_gap h.1 hw

theorem loose_need (p : Prop) : Loose [.need p] := by
  rintro s s' ⟨_, ⟨_, rfl⟩, rfl⟩ hw
  exact hw

theorem digit_idStart {c : Char} (h : isIdStart c = true) : c.isDigit = false := by
  rw [Bool.eq_false_iff]
  intro hd
  rw [digit_iff] at hd
  rw [idStart_iff] at h
  omega

theorem digit_constStart {c : Char} (h : isConstStart c = true) : c.isDigit = false := by
  rw [Bool.eq_false_iff]
  intro hd
  rw [digit_iff] at hd
  rw [constStart_iff] at h
  omega

theorem loose_id (n : String) : Loose [.id n] := by
  rintro s s' ⟨_, ⟨hi, rfl, _⟩, rfl⟩ hw
  obtain ⟨c, cs, he, h1, _⟩ := id hi
  exact lw_word he (ident_chars hi) (digit_idStart h1) hw

theorem loose_cid (n : String) : Loose [.cid n] := by
  rintro s s' ⟨_, ⟨hi, rfl⟩, rfl⟩ hw
  obtain ⟨c, cs, he, h1, _⟩ := id hi
  exact lw_word he (const_chars hi) (digit_constStart h1) hw

theorem tight_int (v : Int) : Tight [.int v] := by
  rintro s s' ⟨_, ⟨t, n, hl, _, rfl⟩, rfl⟩ hs hw
  exact lw_lit hl hs hw

/-- A keyword. -/
theorem loose_word (t : String) (h : ∃ c u, t.toList = c :: u ∧ c.isDigit = false ∧ ∀ x ∈ c :: u, isIdChar x = true) : Loose [.tok t] := by
  obtain ⟨c, u, he, hd, hi⟩ := h
  rintro s s' ⟨_, rfl, rfl⟩ hw
  rw [he]
  exact lw_word rfl hi hd hw

/-- Punctuation. -/
theorem loose_punct (t : String) (h : ∀ x ∈ t.toList, isIdChar x = false ∧ isSkipStart x = false) : Loose [.tok t] := by
  rintro s s' ⟨_, rfl, rfl⟩ hw
  generalize t.toList = l at h
  induction l with
  | nil => exact hw
  | cons c l ih =>
    obtain ⟨h1, h2⟩ := h c List.mem_cons_self
    exact lw_punct h1 h2 (ih (fun x hx => h x (List.mem_cons_of_mem _ hx)))

theorem sep_tok {t : String} {ps : List Piece} (h : ∃ c u, t.toList = c :: u ∧ isIdChar c = false) : Sep (.tok t :: ps) := by
  obtain ⟨c, u, he, hc⟩ := h
  rintro s s' ⟨_, rfl, _⟩
  rw [he]
  exact stops_cons hc

theorem sep_gap {ps : List Piece} (h : Sep ps) : Sep (.gap :: ps) := by
  rintro s s' ⟨_, hg, hl⟩
  exact gap_word hg (h _ _ hl)

theorem sep_append {a b : List Piece} (h : Sep a) : Sep (a ++ b) := by
  intro s s' hl
  obtain ⟨t, h1, _⟩ := (layout_append a b s s').1 hl
  exact h _ _ h1

/-- Punctuation, decided. -/
macro "punct" : term => `(loose_punct _ (by decide))
/-- Keywords, decided. -/
macro "word" : term => `(loose_word _ ⟨_, _, rfl, by decide, by decide⟩)
/-- Starts with punctuation. -/
macro "sep" : term => `(sep_tok ⟨_, _, rfl, by decide⟩)

theorem tight_integer (i : Integer) : Tight (integer i) := by
  cases i with
  | constRef n => exact (loose_cid n).tight
  | literal v => exact tight_int v

theorem tight_range (r : IntegerRange) : Tight (range r) := by
  obtain ⟨lo, hi⟩ := r
  unfold range
  cases hi with
  | none => rw [List.append_nil]; exact tight_integer lo
  | some hi =>
    exact tight_tight (tight_integer lo) (sep_append (sep_gap sep))
      (loose_tight (loose_cons loose_gap (loose_cons punct loose_gap)) (tight_integer hi))

theorem tight_more {α : Type} {f : α → List Piece} (hf : ∀ a, Tight (f a)) : ∀ l, Tight (more f l) ∧ (l ≠ [] → Sep (more f l))
  | [] => ⟨loose_nil.tight, fun h => absurd rfl h⟩
  | a :: l => by
    have ih := tight_more hf l
    refine ⟨?_, fun _ => sep_append (sep_append (sep_gap sep))⟩
    have h1 : Loose [.gap, .tok ",", .gap] := loose_cons loose_gap (loose_cons punct loose_gap)
    cases l with
    | nil => simp only [more, List.append_nil]; exact loose_tight h1 (hf a)
    | cons b l =>
      rw [more, List.append_assoc]
      exact loose_tight h1 (tight_tight (hf a) (ih.2 (by simp)) ih.1)

theorem tight_commas {α : Type} {f : α → List Piece} (hf : ∀ a, Tight (f a)) (l : List α) : Tight (commas f l) := by
  cases l with
  | nil => exact (loose_need False).tight
  | cons a l =>
    cases l with
    | nil => simp only [commas, more, List.append_nil]; exact hf a
    | cons b l => exact tight_tight (hf a) ((tight_more hf _).2 (by simp)) (tight_more hf _).1

theorem tight_intList (l : IntegerList) : Tight (intList l) := tight_commas tight_range _

theorem loose_more {α : Type} {f : α → List Piece} (hf : ∀ a, Loose (f a)) : ∀ l, Loose (more f l)
  | [] => loose_nil
  | a :: l => loose_append (loose_append (loose_cons loose_gap (loose_cons punct loose_gap)) (hf a)) (loose_more hf l)

theorem loose_idList (l : List String) : Loose (idList l) := by
  cases l with
  | nil => exact loose_need False
  | cons a l => exact loose_append (loose_id a) (loose_more (fun n => loose_id n) l)

theorem loose_idRef (r : IDRef) : Loose (idRef r) := by
  unfold idRef
  split
  · exact loose_id _
  · exact loose_cons (loose_id _) (loose_cons punct (loose_id _))

theorem tight_length (l : LengthConstraint) : Tight (length l) := by
  cases l with
  | leftover i => exact loose_tight (a := [_]) punct (tight_integer i)
  | idRef r => exact (loose_idRef r).tight

theorem loose_with (l : List String) : Loose (withContext l) := by
  cases l with
  | nil => exact loose_nil
  | cons a l => exact loose_append (loose_cons loose_gap1 (loose_cons word (loose_cons loose_gap1 (loose_cons word loose_gap1)))) (loose_idList _)

theorem loose_width (w : Width) : Loose [.tok w.word] := by cases w <;> exact word

section
variable {ι : Type} {sp : ι → List Piece} (H : ∀ d, Loose (sp d))
include H

theorem loose_structRef (r : Ref ι) : Loose (r.spell sp) := by
  cases r with
  | name n => exact loose_cons word (loose_cons loose_gap1 (loose_id n))
  | decl d => exact H d

theorem loose_elem (e : Elem ι) : Loose (e.spell sp) := by
  cases e with
  | int w => exact loose_width w
  | char => exact word
  | ref r => exact loose_structRef H r

theorem loose_remainder (e : Elem ι) (n : String) : Loose (remainder sp e n) :=
  loose_append (loose_elem H e) (loose_cons loose_gap1 (loose_cons (loose_id n) (loose_cons loose_gap (loose_cons punct (loose_cons loose_gap punct)))))

theorem loose_array (e : Elem ι) (n : String) : Loose (e.spell sp ++ [.gap1, .id n, .gap, .tok "["]) :=
  loose_append (loose_elem H e) (loose_cons loose_gap1 (loose_cons (loose_id n) (loose_cons loose_gap punct)))

theorem loose_field (f : SField ι) : Loose (f.spell sp) := by
  cases f with
  | fixed b n k =>
    simp only [SField.spell]
    rw [List.append_assoc]
    exact loose_append (loose_array H b n) (tight_loose (tight_integer k) sep punct)
  | var b n l =>
    simp only [SField.spell, List.cons_append]
    refine loose_cons (loose_need _) ?_
    rw [List.append_assoc]
    exact loose_append (loose_array H b n) (tight_loose (tight_length l) sep punct)
  | int w n c =>
    cases c with
    | none => exact loose_cons (loose_width w) (loose_cons loose_gap (loose_id n))
    | some l =>
      simp only [SField.spell]
      rw [List.append_assoc]
      refine loose_append ?_ (tight_loose (tight_intList l) (sep_gap sep) (loose_cons loose_gap punct))
      exact loose_cons (loose_width w) (loose_cons loose_gap (loose_cons (loose_id n) (loose_cons loose_gap1 (loose_cons word
        (loose_cons loose_gap1 (loose_cons punct loose_gap))))))
  | str n => exact loose_cons word (loose_cons loose_gap1 (loose_id n))
  | struct r n => exact loose_append (loose_structRef H r) (loose_cons loose_gap1 (loose_id n))

theorem loose_fields : ∀ fs : List (SField ι), Loose (fieldsSpell sp fs)
  | [] => loose_nil
  | f :: fs => loose_append (loose_append (loose_field H f) (loose_cons loose_gap (loose_cons punct loose_gap))) (loose_fields fs)

theorem loose_body (b : Body ι) : Loose (b.spell sp) := by
  cases b with
  | empty => exact loose_cons punct loose_gap
  | fail => exact loose_cons word (loose_cons loose_gap (loose_cons punct loose_gap))
  | ignore => exact loose_cons word (loose_cons loose_gap (loose_cons punct loose_gap))
  | fields fs e =>
    refine loose_append (loose_fields H fs) ?_
    cases e with
    | none => exact loose_nil
    | some e =>
      refine loose_append ?_ loose_gap
      cases e with
      | dots => exact loose_cons punct (loose_cons loose_gap punct)
      | rest b n => exact loose_append (loose_remainder H b n) (loose_cons loose_gap punct)

theorem loose_case (c : SCase ι) : Loose (c.spell sp) := by
  obtain ⟨cc, b⟩ := c
  simp only [SCase.spell]
  refine loose_append ?_ (loose_body H b)
  have hc : Loose [.gap, .tok ":", .gap] := loose_cons loose_gap (loose_cons punct loose_gap)
  cases cc with
  | none => exact loose_append word hc
  | some l => exact tight_loose (tight_intList l) (sep_gap sep) hc

theorem loose_cases : ∀ cs : List (SCase ι), Loose (casesSpell sp cs)
  | [] => loose_nil
  | c :: cs => loose_append (loose_case H c) (loose_cases cs)

omit H in
theorem loose_ptr : Loose [.tok "@ptr"] := by
  rintro s s' ⟨_, rfl, rfl⟩ hw
  exact lw_punct (c := '@') (by decide) (by decide) (lw_word (t := "ptr".toList) rfl (by decide) (by decide) hw)

theorem loose_member (m : SMember ι) : Loose (m.spell sp) := by
  cases m with
  | field f => exact loose_field H f
  | ptr n => exact loose_cons loose_ptr (loose_cons loose_gap1 (loose_id n))
  | union n t l cs =>
    simp only [SMember.spell]
    have h1 : Loose ([.tok "union", .gap1, .id n, .gap, .tok "["] ++ idRef t ++ [.tok "]", .gap]) :=
      loose_append (loose_append (loose_cons word (loose_cons loose_gap1 (loose_cons (loose_id n) (loose_cons loose_gap punct))))
        (loose_idRef t)) (loose_cons punct loose_gap)
    have h2 : Loose [.tok "{", .gap] := loose_cons punct loose_gap
    refine loose_append (loose_append ?_ (loose_cases H cs)) punct
    cases l with
    | none => simp only [List.append_nil]; exact loose_append h1 h2
    | some l =>
      simp only
      rw [List.append_assoc]
      refine loose_append h1 ?_
      rw [List.append_assoc, List.append_assoc]
      refine loose_append (loose_cons word (loose_cons loose_gap1 (loose_cons word loose_gap1))) ?_
      exact tight_loose (tight_length l) (sep_gap sep) (loose_cons loose_gap h2)

theorem loose_members : ∀ ms : List (SMember ι), Loose (membersSpell sp ms)
  | [] => loose_nil
  | m :: ms => loose_append (loose_append (loose_member H m) (loose_cons loose_gap (loose_cons punct loose_gap))) (loose_members ms)

theorem loose_struct (d : SStruct ι) : Loose (d.spell sp) := by
  obtain ⟨n, cs, ms, e⟩ := d
  simp only [SStruct.spell]
  refine loose_append (loose_append (loose_append (loose_append (loose_append (loose_cons word (loose_cons loose_gap1 (loose_id n)))
    (loose_with cs)) (loose_cons loose_gap (loose_cons punct loose_gap))) (loose_members H ms)) ?_) punct
  cases e with
  | none => exact loose_nil
  | some e =>
    cases e with
    | eos => exact loose_cons word (loose_cons loose_gap (loose_cons punct loose_gap))
    | rest b n => exact loose_append (loose_remainder H b n) (loose_cons loose_gap (loose_cons punct loose_gap))

end

theorem loose_tree : ∀ k (t : Tree k), Loose (Tree.spell k t)
  | 0, t => nomatch t
  | k + 1, t => loose_struct (loose_tree k) t

theorem loose_context : ∀ fs : List (Width × String), Loose (contextSpell fs)
  | [] => loose_nil
  | (w, n) :: fs => loose_append (loose_cons (loose_width w) (loose_cons loose_gap1 (loose_cons (loose_id n) (loose_cons loose_gap
      (loose_cons punct loose_gap))))) (loose_context fs)

theorem loose_semi (b : Bool) : Loose (semicolon b) := by
  cases b with
  | false => exact loose_nil
  | true => exact loose_cons loose_gap punct

theorem loose_decl {k : Nat} (d : Decl (Tree k)) : Loose d.spell := by
  cases d with
  | const n v =>
    exact loose_append (a := [.tok "const", .gap1, .cid n, .gap, .tok "=", .gap])
      (loose_cons word (loose_cons loose_gap1 (loose_cons (loose_cid n) (loose_cons loose_gap (loose_cons punct loose_gap)))))
      (tight_loose (a := [.int v]) (tight_int v) (sep_gap sep) (loose_cons loose_gap punct))
  | context n fs semi =>
    exact loose_append (loose_append (loose_append (loose_cons word (loose_cons loose_gap1 (loose_cons (loose_id n) (loose_cons loose_gap1
      (loose_cons punct loose_gap))))) (loose_context fs)) punct) (loose_semi semi)
  | struct s semi => exact loose_append (loose_struct (loose_tree k) s) (loose_semi semi)
  | extern n l =>
    exact loose_append (loose_append (loose_cons word (loose_cons loose_gap1 (loose_cons word (loose_cons loose_gap1 (loose_id n)))))
      (loose_with l)) (loose_cons loose_gap punct)
  | pragma n l =>
    exact loose_append (loose_append (loose_cons word (loose_cons loose_gap1 (loose_cons (loose_id n) loose_gap1)))
      (loose_idList l)) (loose_cons loose_gap punct)

theorem loose_decls {k : Nat} : ∀ ds : List (Decl (Tree k)), Loose (declsSpell ds)
  | [] => loose_nil
  | d :: ds => loose_append (loose_append (loose_decl d) loose_gap) (loose_decls ds)

theorem writes_literals {k : Nat} {ds : List (Decl (Tree k))} {s : List Char} (h : Writes ds s) : LitWords s :=
  (loose_cons loose_gap (loose_decls ds)) s [] h lw_nil

theorem utf8_inj {x y : List Char} (h : utf8 x = utf8 y) : x = y := by
  have := congrArg decode h
  rw [decode_utf8, decode_utf8] at this
  exact List.map_inj_right (fun a b h => Rune.ok.inj h) |>.1 this

/-- **C48, values.** A literal denotes its value, in decimal, octal and hexadecimal: a constant declared by the literal has it.
The values literals have anywhere else in a file are given by `C56_language`. -/
theorem C48_value {n : String} (hn : IsConst n) {t : List Char} {v : Nat} (ht : IsLiteral t v) :
    Parses (utf8 ("const ".toList ++ (n.toList ++ (" = ".toList ++ (t ++ [';']))))) ⟨[⟨n, v⟩], [], [], []⟩ := by
  have hw : Writes (k := 0) [.const n v] ("const ".toList ++ (n.toList ++ (" = ".toList ++ (t ++ [';'])))) := by
    refine lay_gap (lay_tok (s1 := ' ' :: (n.toList ++ (" = ".toList ++ (t ++ [';'])))) rfl (lay_space (by simp) (lay_cid hn ?_)))
    refine lay_white (c := ' ') (by simp) (lay_tok (s1 := ' ' :: (t ++ [';'])) rfl (lay_white (by simp) ?_))
    exact ⟨[';'], ⟨t, v, ht, rfl, rfl⟩, lay_gap (lay_tok (s1 := []) rfl (lay_gap (lay_nil _)))⟩
  exact parses_writes hw

/-- **C48, errors.** A text with a word that starts with a digit and is not a literal of the language, anywhere outside
comments, is rejected. -/
theorem C48_reject {s : List Char} {ws : List (List Char)} (hs : Words s ws) {c : Char} {t : List Char} (hw : c :: t ∈ ws)
    (hc : c.isDigit = true) (hl : ¬ ∃ v, IsLiteral (c :: t) v) : Refuses (utf8 s) := by
  rw [refuses_iff]
  rintro ⟨f, hf⟩
  obtain ⟨s', he, k, ds, h, rfl⟩ := C56_language.1 hf
  obtain rfl := utf8_inj he
  exact hl (writes_literals h ws hs _ hw c t rfl hc)

/-- Decimal literals from 2^63 on are not in the language. -/
theorem C48_decimal_large {c : Char} {ds : List Char} (h0 : c ≠ '0') (h : 2 ^ 63 ≤ number 10 (c :: ds)) : ¬ ∃ v, IsLiteral (c :: ds) v := by
  rintro ⟨v, hv⟩
  cases hv with
  | zero => exact h0 rfl
  | dec => omega
  | oct => exact h0 rfl
  | hex => exact h0 rfl

/-- Hexadecimal literals from 2^63 on are not in the language. -/
theorem C48_hex_large {ds : List Char} (h : 2 ^ 63 ≤ number 16 ds) : ¬ ∃ v, IsLiteral ('0' :: 'x' :: ds) v := by
  rintro ⟨v, hv⟩
  generalize hx : '0' :: 'x' :: ds = x at hv
  cases hv with
  | zero => cases hx
  | dec c ds' h1 h2 h3 h4 => cases hx; exact h2 rfl
  | oct ds' h1 h2 h3 =>
    cases hx
    have := h2 'x' List.mem_cons_self
    revert this
    decide
  | hex ds' h1 h2 h3 => cases hx; omega

/-- Octal literals from 2^63 on are not in the language. -/
theorem C48_octal_large {ds : List Char} (ho : ∀ x ∈ ds, x ≠ 'x') (h : 2 ^ 63 ≤ number 8 ds) : ¬ ∃ v, IsLiteral ('0' :: ds) v := by
  rintro ⟨v, hv⟩
  generalize hx : '0' :: ds = x at hv
  cases hv with
  | zero => cases hx; revert h; decide
  | dec c ds' h1 h2 h3 h4 => cases hx; exact h2 rfl
  | oct ds' h1 h2 h3 => cases hx; omega
  | hex ds' h1 h2 h3 => cases hx; exact ho 'x' List.mem_cons_self rfl

/-- Numbers with a leading zero and a digit 8 or 9 are not in the language. -/
theorem C48_octal_digit {ds : List Char} (hd : ∀ x ∈ ds, x.isDigit = true) (h : '8' ∈ ds ∨ '9' ∈ ds) : ¬ ∃ v, IsLiteral ('0' :: ds) v := by
  rintro ⟨v, hv⟩
  generalize hx : '0' :: ds = x at hv
  cases hv with
  | zero => cases hx; simp at h
  | dec c ds' h1 h2 h3 h4 => cases hx; exact h2 rfl
  | oct ds' h1 h2 h3 =>
    cases hx
    rcases h with h | h
    · exact absurd (h2 _ h) (by decide)
    · exact absurd (h2 _ h) (by decide)
  | hex ds' h1 h2 h3 => cases hx; exact absurd (hd 'x' List.mem_cons_self) (by decide)

/-! The largest literal, in all three bases; the first one too large; an octal one with a wrong digit. -/

theorem exDec : IsLiteral "9223372036854775807".toList (2 ^ 63 - 1) := by
  have := IsLiteral.dec '9' "223372036854775807".toList (by decide) (by decide) (by decide) (by decide +kernel)
  rw [show number 10 ('9' :: "223372036854775807".toList) = 2 ^ 63 - 1 by decide +kernel] at this
  rwa [show '9' :: "223372036854775807".toList = "9223372036854775807".toList by decide +kernel] at this

theorem exHex : IsLiteral "0x7fFFffffFFFFffff".toList (2 ^ 63 - 1) := by
  have := IsLiteral.hex "7fFFffffFFFFffff".toList (by decide) (by decide) (by decide +kernel)
  rw [show number 16 "7fFFffffFFFFffff".toList = 2 ^ 63 - 1 by decide +kernel] at this
  rwa [show '0' :: 'x' :: "7fFFffffFFFFffff".toList = "0x7fFFffffFFFFffff".toList by decide +kernel] at this

theorem exOct : IsLiteral "0777".toList 511 := by
  have := IsLiteral.oct "777".toList (by decide) (by decide) (by decide +kernel)
  rw [show number 8 "777".toList = 511 by decide +kernel] at this
  rwa [show '0' :: "777".toList = "0777".toList by decide +kernel] at this

theorem exConstA : IsConst "A" := ⟨'A', [], rfl, by decide, by decide⟩

example : Parses (utf8 "const A = 9223372036854775807;".toList) ⟨[⟨"A", 2 ^ 63 - 1⟩], [], [], []⟩ := by
  have := C48_value exConstA exDec
  rwa [show "const ".toList ++ ("A".toList ++ (" = ".toList ++ ("9223372036854775807".toList ++ [';']))) =
    "const A = 9223372036854775807;".toList by decide +kernel] at this

example : Parses (utf8 "const A = 0x7fFFffffFFFFffff;".toList) ⟨[⟨"A", 2 ^ 63 - 1⟩], [], [], []⟩ := by
  have := C48_value exConstA exHex
  rwa [show "const ".toList ++ ("A".toList ++ (" = ".toList ++ ("0x7fFFffffFFFFffff".toList ++ [';']))) =
    "const A = 0x7fFFffffFFFFffff;".toList by decide +kernel] at this

example : Parses (utf8 "const A = 0777;".toList) ⟨[⟨"A", 511⟩], [], [], []⟩ := by
  have := C48_value exConstA exOct
  rwa [show "const ".toList ++ ("A".toList ++ (" = ".toList ++ ("0777".toList ++ [';']))) =
    "const A = 0777;".toList by decide +kernel] at this

/-- The size of an array inside a struct. -/
example : Refuses (utf8 "struct a{u8 x[9223372036854775808];}".toList) := by
  obtain ⟨ws, hw⟩ := words_total ";}".toList
  have h1 := Words.other (c := ']') (by decide) (fun s' hg => gap_self hg (by decide +kernel)) hw
  have h2 := Words.word (w := "9223372036854775808".toList) (by decide) (by decide) (stops_cons (by decide)) h1
  have h3 := Words.other (c := '[') (by decide) (fun s' hg => gap_self hg (by decide +kernel)) h2
  have h4 := Words.word (w := "x".toList) (by decide) (by decide) (stops_cons (by decide)) h3
  have h5 := Words.gap (.white ' ' _ _ (by simp) (.done _)) (by simp) h4
  have h6 := Words.word (w := "u8".toList) (by decide) (by decide) (stops_cons (by decide)) h5
  have h7 := Words.other (c := '{') (by decide) (fun s' hg => gap_self hg (by decide +kernel)) h6
  have h8 := Words.word (w := "a".toList) (by decide) (by decide) (stops_cons (by decide)) h7
  have h9 := Words.gap (.white ' ' _ _ (by simp) (.done _)) (by simp) h8
  have h10 := Words.word (w := "struct".toList) (by decide) (by decide) (stops_cons (by decide)) h9
  have e : '9' :: "223372036854775808".toList = "9223372036854775808".toList := by decide +kernel
  have := C48_reject h10 (c := '9') (t := "223372036854775808".toList) (by rw [e]; simp) (by decide)
    (C48_decimal_large (by decide) (by decide +kernel))
  rwa [show "struct".toList ++ ' ' :: ("a".toList ++ '{' :: ("u8".toList ++ ' ' :: ("x".toList ++ '[' :: ("9223372036854775808".toList ++
    ']' :: ";}".toList)))) = "struct a{u8 x[9223372036854775808];}".toList by decide +kernel] at this

example : ¬ ∃ v, IsLiteral ('0' :: "8".toList) v := C48_octal_digit (by decide) (Or.inl (by decide))
example : ¬ ∃ v, IsLiteral ('0' :: 'x' :: "8000000000000000".toList) v := C48_hex_large (by decide +kernel)
example : ¬ ∃ v, IsLiteral ('0' :: "1000000000000000000000".toList) v := C48_octal_large (by decide) (by decide +kernel)

end Verif.Props
