import Verif.PegCost
/-!
# C65: the parser's work grows exponentially with the nesting of structs declared in place
-/
namespace Verif.Props
open Verif Verif.Ast Verif.Syntax Verif.Peg

/-- The characters of a string, as a list that the kernel need not decode. -/
local syntax "chars!" str : term
local macro_rules
  | `(chars! $s) => do
    let cs : Lean.TSyntaxArray `term := s.getString.toList.toArray.map fun c => Lean.Syntax.mkCharLit c
    `([$cs,*])

/-- The calls of `parseExpr` that parsing these runes makes: `parse` (gen-parser.go:3716-3791) calls `parseRule` for
the first rule, which calls `parseExpr` for its expression (3793-3820). -/
def ExprCnt (rs : List Rune) (k : Nat) : Prop :=
  ∃ N, ∀ fuel, N ≤ fuel → countExpr rules fuel (rules .File) [] ⟨rs, [], headBad rs⟩ = k

theorem file_finishes (rs : List Rune) : ∃ N, parseExpr rules N (rules .File) [] ⟨rs, [], headBad rs⟩ ≠ .timeout := by
  have h := ev_ref_finishes .File [] ⟨rs, [], headBad rs⟩
  have h2 : ev rules (rules .File) [] ⟨rs, [], headBad rs⟩ ≠ .timeout := by
    intro hc
    rw [ev_ref, hc] at h
    exact h rfl
  obtain ⟨N, hN⟩ := ev_eventually rules (rules .File) [] ⟨rs, [], headBad rs⟩
  exact ⟨N, by rw [hN N (Nat.le_refl _)]; exact h2⟩

/-- Every parse, successful or not, makes a certain number of calls. -/
theorem C65_counted (rs : List Rune) : ∃ k, ExprCnt rs k ∧ ∀ k', ExprCnt rs k' → k' = k := by
  obtain ⟨N, hN⟩ := file_finishes rs
  refine ⟨countExpr rules N (rules .File) [] ⟨rs, [], headBad rs⟩, ⟨N, fun fuel hf => countExpr_mono rules N fuel hf _ _ _ hN⟩, ?_⟩
  rintro k' ⟨N', h'⟩
  rw [← h' (max N N') (by omega), countExpr_mono rules N (max N N') (by omega) _ _ _ hN]

/-- Every text that declarations can be written as takes at least the work they ask for: each struct once, those
declared in place as often as the struct around them times the number of rules that start with an element type and
are tried, up to the one that matches. -/
theorem C65_work {k : Nat} {ds : List (Decl (Tree k))} {s : List Char} (h : Writes ds s) {n : Nat} (hn : ExprCnt (s.map Rune.ok) n) :
    (ds.map Decl.work).sum ≤ n := by
  obtain ⟨N, hN⟩ := hn
  obtain ⟨M, hM⟩ := file_finishes (s.map Rune.ok)
  have hs : (⟨s.map Rune.ok, [], headBad (s.map Rune.ok)⟩ : St) = C s [] false := by simp [C]
  have h1 := hN (max N M) (by omega)
  have h2 : parseExpr rules (max N M) (rules .File) [] ⟨s.map Rune.ok, [], headBad (s.map Rune.ok)⟩ ≠ .timeout := by
    rw [parseExpr_mono rules M (max N M) (by omega) _ _ _ hM]
    exact hM
  rw [hs] at h1 h2
  rw [← h1]
  exact file_least h [] [] false _ h2

/-! ## Nested structs -/

/-- A struct around another one. -/
def around {ι : Type} : Bool → ι → SStruct ι
  | true, d => ⟨"s", [], [], some (.rest (.ref (.decl d)) "x")⟩
  | false, d => ⟨"s", [], [.field (.struct (.decl d) "x")], none⟩

/-- Structs nested in each other: as members, or as elements of arrays without length. -/
def nested (rest : Bool) : (n : Nat) → Tree (n + 1)
  | 0 => (⟨"s", [], [], none⟩ : SStruct (Tree 0))
  | n + 1 => (around rest (nested rest n) : SStruct (Tree (n + 1)))

/-- Their text: `struct s{struct s{struct s{} x;} x;}`, or `struct s{struct s{struct s{} x[];} x[];}`. -/
def nestedText (rest : Bool) : Nat → List Char
  | 0 => chars! "struct s{}"
  | n + 1 => chars! "struct s{" ++ nestedText rest n ++ (if rest then chars! " x[];}" else chars! " x;}")

theorem nestedText_length (rest : Bool) (n : Nat) : (nestedText rest n).length ≤ 15 * n + 10 := by
  induction n with
  | zero => cases rest <;> decide
  | succ n ih =>
    cases rest <;> simp [nestedText] <;> omega

theorem nested_work (rest : Bool) (n : Nat) : (if rest then 4 else 3) ^ n ≤ Tree.work (n + 1) (nested rest n) := by
  induction n with
  | zero => cases rest <;> decide
  | succ n ih =>
    cases rest with
    | false =>
      have : Tree.work (n + 2) (nested false (n + 1)) = 1 + 3 * Tree.work (n + 1) (nested false n) := by
        simp [Tree.work, nested, around, SStruct.work, SMember.work, SField.work, Ref.work]
      simp only [Bool.false_eq_true, if_false] at ih ⊢
      rw [this, Nat.pow_succ]
      omega
    | true =>
      have : Tree.work (n + 2) (nested true (n + 1)) = 1 + 4 * Tree.work (n + 1) (nested true n) := by
        simp [Tree.work, nested, around, SStruct.work, Ending.work, Elem.work, Ref.work]
      simp only [if_true] at ih ⊢
      rw [this, Nat.pow_succ]
      omega

theorem ident_x : IsIdent "x" := ⟨'x', [], rfl, rfl, by simp⟩
theorem ident_s : IsIdent "s" := ⟨'s', [], rfl, rfl, by simp⟩

theorem nested_layout (rest : Bool) (n : Nat) : ∀ t, Layout (Tree.spell (n + 1) (nested rest n)) (nestedText rest n ++ t) t := by
  induction n with
  | zero =>
    intro t
    simp only [Tree.spell, nested, SStruct.spell, withContext, membersSpell, List.append_nil, List.cons_append,
      List.nil_append]
    refine ⟨chars! " s{}" ++ t, rfl, chars! "s{}" ++ t, ⟨.white ' ' _ _ (by simp) (.done _), by simp⟩,
      chars! "{}" ++ t, ⟨ident_s, rfl, ?_⟩, chars! "{}" ++ t, .done _, '}' :: t, rfl, '}' :: t, .done _, t, rfl, rfl⟩
    rintro c u ⟨⟩; rfl
  | succ n ih =>
    intro t
    cases rest with
    | false =>
      simp only [nestedText, List.append_assoc, if_false, Bool.false_eq_true]
      rw [Tree.spell, nested]
      simp only [around, SStruct.spell, withContext, membersSpell, SMember.spell, SField.spell, Ref.spell,
        List.append_nil, List.append_assoc]
      refine ⟨chars! " s{" ++ (nestedText false n ++ (chars! " x;}" ++ t)), rfl, chars! "s{" ++ (nestedText false n ++ (chars! " x;}" ++ t)),
        ⟨.white ' ' _ _ (by simp) (.done _), by simp⟩, '{' :: (nestedText false n ++ (chars! " x;}" ++ t)), ⟨ident_s, rfl, ?_⟩,
        '{' :: (nestedText false n ++ (chars! " x;}" ++ t)), .done _, nestedText false n ++ (chars! " x;}" ++ t), rfl, _, .done _, ?_⟩
      · rintro c u ⟨⟩; rfl
      · refine (layout_append (Tree.spell (n + 1) _) _ _ _).mpr ?_
        refine ⟨chars! " x;}" ++ t, ih _, chars! "x;}" ++ t, ⟨.white ' ' _ _ (by simp) (.done _), by simp⟩, chars! ";}" ++ t,
          ⟨ident_x, rfl, ?_⟩, chars! ";}" ++ t, .done _, chars! "}" ++ t, rfl, chars! "}" ++ t, .done _, t, rfl, rfl⟩
        rintro c u ⟨⟩; rfl
    | true =>
      simp only [nestedText, List.append_assoc, if_true]
      rw [Tree.spell, nested]
      simp only [around, SStruct.spell, withContext, membersSpell, Ending.spell, remainder, Elem.spell, Ref.spell,
        List.append_nil, List.append_assoc]
      refine ⟨chars! " s{" ++ (nestedText true n ++ (chars! " x[];}" ++ t)), rfl, chars! "s{" ++ (nestedText true n ++ (chars! " x[];}" ++ t)),
        ⟨.white ' ' _ _ (by simp) (.done _), by simp⟩, '{' :: (nestedText true n ++ (chars! " x[];}" ++ t)), ⟨ident_s, rfl, ?_⟩,
        '{' :: (nestedText true n ++ (chars! " x[];}" ++ t)), .done _, nestedText true n ++ (chars! " x[];}" ++ t), rfl, _, .done _, ?_⟩
      · rintro c u ⟨⟩; rfl
      · refine (layout_append (Tree.spell (n + 1) _) _ _ _).mpr ?_
        refine ⟨chars! " x[];}" ++ t, ih _, chars! "x[];}" ++ t, ⟨.white ' ' _ _ (by simp) (.done _), by simp⟩, chars! "[];}" ++ t,
          ⟨ident_x, rfl, ?_⟩, chars! "[];}" ++ t, .done _, chars! "];}" ++ t, rfl, chars! "];}" ++ t, .done _, chars! ";}" ++ t, rfl,
          chars! ";}" ++ t, .done _, chars! "}" ++ t, rfl, chars! "}" ++ t, .done _, t, rfl, rfl⟩
        rintro c u ⟨⟩; rfl

/-- The text is a way to write the structs. -/
theorem nested_writes (rest : Bool) (n : Nat) : Writes [Decl.struct (nested rest n) false] (nestedText rest n) := by
  refine ⟨nestedText rest n, .done _, ?_⟩
  have := nested_layout rest n []
  rw [List.append_nil] at this
  simp only [declsSpell, Decl.spell, semicolon, List.append_nil, if_false, Bool.false_eq_true]
  rw [layout_append]
  exact ⟨[], this, [], .done _, rfl⟩

/-- There are texts, one of at most `15 n + 10` characters for each `n`, that parse without errors, to structs nested
in each other, and take `3 ^ n` calls, as members, or `4 ^ n` calls, as elements of arrays without length. -/
theorem C65_exponential (rest : Bool) (n : Nat) : ∃ s : List Char, s.length ≤ 15 * n + 10 ∧
    outcome (s.map Rune.ok) = .ok (denote [Decl.struct (ι := Tree n) (nested rest n) false]) ∧
    ∀ k, ExprCnt (s.map Rune.ok) k → (if rest then 4 else 3) ^ n ≤ k := by
  refine ⟨nestedText rest n, nestedText_length rest n, outcome_complete (nested_writes rest n), fun k hk => ?_⟩
  have h1 := C65_work (nested_writes rest n) hk
  have h2 := nested_work rest n
  simp only [List.map_cons, List.map_nil, List.sum_cons, List.sum_nil, Decl.work] at h1
  exact Nat.le_trans h2 (by simpa only [Tree.work, Nat.add_zero] using h1)

/-! ## Examples -/

/-- Whether the parse finishes with this fuel, and its calls. -/
def countOf (fuel : Nat) (s : List Char) : Option Nat :=
  match parseExpr rules fuel (rules .File) [] ⟨s.map Rune.ok, [], headBad (s.map Rune.ok)⟩ with
  | .timeout => none
  | _ => some (countExpr rules fuel (rules .File) [] ⟨s.map Rune.ok, [], headBad (s.map Rune.ok)⟩)

theorem countOf_spec {fuel : Nat} {s : List Char} {k : Nat} (h : countOf fuel s = some k) : ExprCnt (s.map Rune.ok) k := by
  unfold countOf at h
  split at h
  · cases h
  · rename_i hne
    injection h with h
    exact ⟨fuel, fun f hf => by rw [countExpr_mono rules fuel f hf _ _ _ (fun hc => hne hc), h]⟩

/-- The counts themselves: 457 calls for a struct without members, 1588 and 4981 for two and three nested ones;
each is three times the one before, and 217. -/
example : ExprCnt ((nestedText false 0).map Rune.ok) 457 := countOf_spec (fuel := 200) (by decide +kernel)
example : ExprCnt ((nestedText false 1).map Rune.ok) 1588 := countOf_spec (fuel := 200) (by decide +kernel)
example : ExprCnt ((nestedText false 2).map Rune.ok) 4981 := countOf_spec (fuel := 200) (by decide +kernel)

/-- For arrays without length each is four times the one before, and 39. -/
example : ExprCnt ((nestedText true 1).map Rune.ok) 1867 := countOf_spec (fuel := 200) (by decide +kernel)
example : ExprCnt ((nestedText true 2).map Rune.ok) 7507 := countOf_spec (fuel := 200) (by decide +kernel)

/-- The same structs one after the other: calls add up, they do not multiply. -/
example : ExprCnt ((chars! "struct a{}struct b{struct a x;}struct c{struct b x;}").map Rune.ok) 2335 :=
  countOf_spec (fuel := 200) (by decide +kernel)

/-- The hypothesis of `C65_work` with a union: 1 + (1·(2·1) + 3·1) + 4·1 calls at least are asked for. -/
def mixed : SStruct (Tree 1) :=
  ⟨"m", [], [.field (.int .w8 "t" none), .union "u" ⟨"", "t"⟩ none
    [⟨some ⟨[⟨.literal 1, none⟩]⟩, .fields [.var (.ref (.decl (nested false 0))) "a" (.idRef ⟨"", "t"⟩), .struct (.decl (nested false 0)) "b"] none⟩]],
    some (.rest (.ref (.decl (nested false 0))) "r")⟩

example : Decl.work (k := 1) (.struct mixed false) = 10 := by decide

end Verif.Props
