import Verif.Props.Intervals
/-!
# What `Subtract` computes, in all cases (C04)
-/
namespace Verif.Props
open Verif Verif.Intervals

/-- Disjoint intervals hold a number at most once. -/
theorem countP_le_one : ∀ {is : List Interval}, (∀ i ∈ is, i.Valid) → is.Pairwise (fun a b => a.hi < b.lo) → ∀ x,
    is.countP (·.contains x) ≤ 1 := by
  intro is
  induction is with
  | nil => intro _ _ x; simp
  | cons i is ih =>
    intro hv hp x
    have hp := List.pairwise_cons.1 hp
    have ih := ih (fun j hj => hv j (List.mem_cons_of_mem _ hj)) hp.2 x
    rw [List.countP_cons]
    by_cases hx : i.contains x = true
    · have h0 : is.countP (·.contains x) = 0 := by
        rw [List.countP_eq_zero]
        intro j hj hjx
        have := hp.1 j hj
        simp only [Interval.contains, Bool.and_eq_true, decide_eq_true_eq] at hx hjx
        exact absurd (UInt64.lt_of_lt_of_le this hjx.1) (UInt64.not_lt.2 hx.2)
      rw [h0]; simp [hx]
    · simp [hx, ih]

/-- **C04, exactly.** `Subtract` returns the difference of the sets, except that it returns the empty set when there is nothing to subtract. -/
theorem C04_subtract_exact (s other : Set) (hs : Canonical s.intervals) (ho : Canonical other.intervals) :
    ∃ d, s.subtract other = .ok d ∧ Canonical d.intervals ∧
      ∀ x, d.contains x = true ↔ (other.intervals ≠ [] ∧ s.contains x = true ∧ other.contains x = false) := by
  by_cases hne : other.intervals = []
  · obtain ⟨hs1, hs2⟩ := (canonical_iff _).1 hs
    obtain ⟨r, hr, hcr, h1, h2, _⟩ := thresholds_spec 2 (by omega) [s.intervals, []] (by
      intro i hi
      simp only [List.flatten_cons, List.flatten_nil, List.append_nil] at hi
      exact hs1 i hi)
    refine ⟨⟨r⟩, ?_, (canonical_iff _).2 ⟨h1, h2⟩, fun x => ?_⟩
    · simp [Set.subtract, complement, hne, complementFrom, hr]
    · have := countP_le_one hs1 hs2 x
      simp only [hne, ne_eq, not_true, false_and, iff_false]
      intro hx
      have := (hcr x).1 hx
      simp only [List.flatten_cons, List.flatten_nil, List.append_nil] at this
      omega
  · obtain ⟨d, h1, h2, h3⟩ := C04_subtract_partial s other hs ho hne
    exact ⟨d, h1, h2, fun x => by rw [h3 x]; simp [hne]⟩

example : ∃ d, Set.subtract ⟨[⟨3, 9⟩]⟩ ⟨[⟨5, 6⟩]⟩ = .ok d ∧ d.contains 4 = true ∧ d.contains 5 = false := by
  obtain ⟨d, h1, _, h3⟩ := C04_subtract_exact ⟨[⟨3, 9⟩]⟩ ⟨[⟨5, 6⟩]⟩ ⟨by decide +kernel, by decide +kernel⟩ ⟨by decide +kernel, by decide +kernel⟩
  refine ⟨d, h1, (h3 4).2 ⟨by simp, by decide +kernel, by decide +kernel⟩, ?_⟩
  rw [← Bool.not_eq_true, h3 5]
  rintro ⟨_, _, h⟩
  exact absurd h (by decide +kernel)

end Verif.Props
