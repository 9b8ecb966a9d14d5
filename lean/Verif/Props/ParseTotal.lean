import Verif.PegTyped
/-!
# Every source text is decided (C49)
-/
namespace Verif.Props
open Verif Verif.Ast Verif.Peg

/-- **C49.** Every sequence of bytes, valid UTF-8 or not, is parsed in finitely many steps to one definite outcome: a
file, or one of the two errors (no match; errors recorded on the way). No bound on nested calls beyond some number
changes it, and no action panics. -/
theorem C49_decided (b : List UInt8) : ∃ N r, (∀ fuel, N ≤ fuel → parseBytes fuel b = some r) ∧
    ((∃ f, r = .ok f) ∨ r = .err "errors" ∨ r = .err "no match") := by
  obtain ⟨N, hN⟩ := parseRunes_outcome (decode b)
  exact ⟨N, _, hN, outcome_cases (decode b)⟩

/-- The outcome does not depend on the bound: a bound that suffices gives the same result as any other. -/
theorem C49_deterministic {b : List UInt8} {m n : Nat} {r r' : Res File}
    (h : parseBytes m b = some r) (h' : parseBytes n b = some r') : r = r' := by
  obtain ⟨N, hN⟩ := parseRunes_outcome (decode b)
  have key : ∀ {k r}, parseBytes k b = some r → parseBytes (max k N) b = some r := by
    intro k r hk
    unfold parseBytes parseRunes at hk ⊢
    rw [parseExpr_mono rules k (max k N) (by omega) (.ref .File)]
    · exact hk
    · intro hc
      rw [hc] at hk
      cases hk
  have h1 := (hN (max m N) (by omega)).symm.trans (key h)
  have h2 := (hN (max n N) (by omega)).symm.trans (key h')
  exact Option.some.inj (h1.symm.trans h2)

/-! Each of the three outcomes occurs. -/

example : parseBytes 40 "const A = 7;".toUTF8.toList = some (.ok ⟨[⟨"A", 7⟩], [], [], []⟩) := by decide +kernel
example : parseBytes 40 "const A = 08;".toUTF8.toList = some (.err "errors") := by decide +kernel
example : parseBytes 40 "const A = ;".toUTF8.toList = some (.err "no match") := by decide +kernel
example : parseBytes 40 ("const A = 7; //".toUTF8.toList ++ [0xFF]) = some (.err "errors") := by decide +kernel

end Verif.Props
