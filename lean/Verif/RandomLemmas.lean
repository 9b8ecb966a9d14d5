import Verif.IntervalsLemmas
import Mathlib.Data.Finset.Card
import Mathlib.Data.Finset.Range
/-!
# Helper lemmas for random selection
-/
namespace Verif.Intervals
open Verif

/-- Number of integers covered by a list of disjoint intervals, as an unbounded natural number. -/
def card : List Interval → Nat
  | [] => 0
  | i :: is => (i.hi.toNat - i.lo.toNat + 1) + card is

theorem size_toNat {i : Interval} (hv : i.Valid) (hn : i.hi.toNat - i.lo.toNat + 1 < 2 ^ 64) :
    i.size.toNat = i.hi.toNat - i.lo.toNat + 1 := by
  have hv := UInt64.le_iff_toNat_le.1 hv
  have h1 : (1 : UInt64).toNat = 1 := rfl
  rw [Interval.size, UInt64.toNat_add, UInt64.toNat_sub_of_le _ _ (UInt64.le_iff_toNat_le.2 hv), h1,
    Nat.mod_eq_of_lt hn]

theorem card_le (is : List Interval) : ∀ (b : Nat), (∀ i ∈ is, i.Valid) →
    is.Pairwise (fun a b => a.hi < b.lo) → (∀ i ∈ is, b ≤ i.lo.toNat) → b ≤ 2 ^ 64 →
    card is + b ≤ 2 ^ 64 := by
  induction is with
  | nil => intro b _ _ _ hb; simpa [card] using hb
  | cons i is ih =>
    intro b hv hp hb _
    have hp' := List.pairwise_cons.1 hp
    have hi := UInt64.le_iff_toNat_le.1 (hv i List.mem_cons_self)
    have hbi := hb i List.mem_cons_self
    have := i.hi.toNat_lt
    have := ih (i.hi.toNat + 1) (fun j hj => hv j (List.mem_cons_of_mem _ hj)) hp'.2
      (fun j hj => by have := UInt64.lt_iff_toNat_lt.1 (hp'.1 j hj); omega) (by omega)
    simp only [card]; omega

theorem total_toNat (is : List Interval) : ∀ (c : UInt64), (∀ i ∈ is, i.Valid) →
    c.toNat + card is < 2 ^ 64 → (total c is).toNat = c.toNat + card is := by
  induction is with
  | nil => intro c _ _; simp [total, card]
  | cons i is ih =>
    intro c hv hc
    simp only [card] at hc
    have hs := size_toNat (hv i List.mem_cons_self) (by omega)
    have hadd : (c + i.size).toNat = c.toNat + (i.hi.toNat - i.lo.toNat + 1) := by
      rw [UInt64.toNat_add, hs, Nat.mod_eq_of_lt (by omega)]
    have := ih (c + i.size) (fun j hj => hv j (List.mem_cons_of_mem _ hj)) (by omega)
    simp only [total, card]; omega

/-- The value picked by the first matching step: offset `r - c` into the interval. -/
theorem step_value {i : Interval} {c r : UInt64} (hv : i.Valid)
    (hc : c.toNat + (i.hi.toNat - i.lo.toNat + 1) < 2 ^ 64) (h1 : c.toNat ≤ r.toNat)
    (h2 : r.toNat < c.toNat + (i.hi.toNat - i.lo.toNat + 1)) (hlo : c.toNat ≤ i.lo.toNat) :
    (r + (i.hi - (c + i.size) + 1)).toNat = r.toNat - c.toNat + i.lo.toNat := by
  have hs := size_toNat hv (by omega)
  have hv := UInt64.le_iff_toNat_le.1 hv
  have hadd : (c + i.size).toNat = c.toNat + (i.hi.toNat - i.lo.toNat + 1) := by
    rw [UInt64.toNat_add, hs, Nat.mod_eq_of_lt (by omega)]
  have e1 : (1 : UInt64).toNat = 1 := rfl
  rw [UInt64.toNat_add, UInt64.toNat_add, UInt64.toNat_sub, hadd, e1]
  have := i.hi.toNat_lt
  have := i.lo.toNat_lt
  omega

theorem pick_spec (is : List Interval) : ∀ (c : UInt64), (∀ i ∈ is, i.Valid) →
    is.Pairwise (fun a b => a.hi < b.lo) → (∀ i ∈ is, c.toNat ≤ i.lo.toNat) →
    c.toNat + card is < 2 ^ 64 →
    (∀ r : UInt64, c.toNat ≤ r.toNat → r.toNat < c.toNat + card is →
      ∃ v, pickStep r (mkSteps c is) = .ok v ∧ is.any (·.contains v) = true) ∧
    (∀ x : UInt64, is.any (·.contains x) = true →
      ∃ r : UInt64, c.toNat ≤ r.toNat ∧ r.toNat < c.toNat + card is ∧
        pickStep r (mkSteps c is) = .ok x) ∧
    (∀ r r' v v' : UInt64, c.toNat ≤ r.toNat → r.toNat < r'.toNat → r'.toNat < c.toNat + card is →
      pickStep r (mkSteps c is) = .ok v → pickStep r' (mkSteps c is) = .ok v' → v < v') := by
  induction is with
  | nil =>
    intro c _ _ _ _
    simp only [card]
    refine ⟨fun r h1 h2 => by omega, fun x h => by simp at h, fun r r' v v' h1 h2 h3 => by omega⟩
  | cons i is ih =>
    intro c hv hp hlo hc
    have hp' := List.pairwise_cons.1 hp
    simp only [card] at hc ⊢
    have hvi := hv i List.mem_cons_self
    have hi := UInt64.le_iff_toNat_le.1 hvi
    have hci := hlo i List.mem_cons_self
    have hs := size_toNat hvi (by omega)
    have hadd : (c + i.size).toNat = c.toNat + (i.hi.toNat - i.lo.toNat + 1) := by
      rw [UInt64.toNat_add, hs, Nat.mod_eq_of_lt (by omega)]
    obtain ⟨ih1, ih2, ih3⟩ := ih (c + i.size) (fun j hj => hv j (List.mem_cons_of_mem _ hj)) hp'.2
      (fun j hj => by have := UInt64.lt_iff_toNat_lt.1 (hp'.1 j hj); omega) (by omega)
    have hpick : ∀ r : UInt64, pickStep r (mkSteps c (i :: is)) =
        if r.toNat < c.toNat + (i.hi.toNat - i.lo.toNat + 1)
        then .ok (r + (i.hi - (c + i.size) + 1))
        else pickStep r (mkSteps (c + i.size) is) := by
      intro r
      simp only [mkSteps, pickStep, UInt64.lt_iff_toNat_lt, hadd]
    refine ⟨?_, ?_, ?_⟩
    · intro r h1 h2
      rw [hpick]
      by_cases h : r.toNat < c.toNat + (i.hi.toNat - i.lo.toNat + 1)
      · rw [if_pos h]
        refine ⟨_, rfl, ?_⟩
        have hval := step_value hvi (by omega) h1 h hci
        rw [List.any_cons, (Interval.contains_iff _ _).2 (by omega)]; rfl
      · rw [if_neg h]
        obtain ⟨v, e, m⟩ := ih1 r (by omega) (by omega)
        exact ⟨v, e, by simp [m]⟩
    · intro x hx
      rw [List.any_cons, Bool.or_eq_true] at hx
      have hxlt := x.toNat_lt
      rcases hx with hx | hx
      · have hxi := (Interval.contains_iff _ _).1 hx
        have hr : (UInt64.ofNat (x.toNat - i.lo.toNat + c.toNat)).toNat
            = x.toNat - i.lo.toNat + c.toNat := by
          rw [UInt64.toNat_ofNat_of_lt']
          show _ < 2 ^ 64
          omega
        refine ⟨UInt64.ofNat (x.toNat - i.lo.toNat + c.toNat), by omega, by omega, ?_⟩
        rw [hpick, if_pos (by omega)]
        have hval := step_value (r := UInt64.ofNat (x.toNat - i.lo.toNat + c.toNat)) hvi
          (by omega) (by omega) (by omega) hci
        congr 1
        apply UInt64.toNat_inj.1
        omega
      · obtain ⟨r, h1, h2, h3⟩ := ih2 x hx
        refine ⟨r, by omega, by omega, ?_⟩
        rw [hpick, if_neg (by omega), h3]
    · intro r r' v v' h1 h2 h3 e1 e2
      rw [hpick] at e1 e2
      by_cases h : r'.toNat < c.toNat + (i.hi.toNat - i.lo.toNat + 1)
      · rw [if_pos (by omega)] at e1
        rw [if_pos h] at e2
        have a1 := step_value (r := r) hvi (by omega) h1 (by omega) hci
        have a2 := step_value (r := r') hvi (by omega) (by omega) (by omega) hci
        cases e1; cases e2
        rw [UInt64.lt_iff_toNat_lt]; omega
      · rw [if_neg h] at e2
        by_cases h' : r.toNat < c.toNat + (i.hi.toNat - i.lo.toNat + 1)
        · rw [if_pos h'] at e1
          have a1 := step_value (r := r) hvi (by omega) h1 (by omega) hci
          obtain ⟨w, b1, b2⟩ := ih1 r' (by omega) (by omega)
          rw [b1] at e2
          cases e1; cases e2
          rw [List.any_eq_true] at b2
          obtain ⟨j, hj, hjw⟩ := b2
          have := (Interval.contains_iff _ _).1 hjw
          have := UInt64.lt_iff_toNat_lt.1 (hp'.1 j hj)
          rw [UInt64.lt_iff_toNat_lt]; omega
        · rw [if_neg h'] at e1
          exact ih3 r r' v v' (by omega) h2 (by omega) e1 e2

/-! ## The mask -/

theorem shift1 (m : UInt64) : (m >>> 1).toNat = m.toNat / 2 := by
  rw [UInt64.toNat_shiftRight]; simp [Nat.shiftRight_eq_div_pow]

theorem shrinkMask_spec (k : Nat) : ∀ (j : Nat) (m n : UInt64), j ≤ k → m.toNat = 2 ^ j - 1 →
    (j = 64 ∨ n.toNat < 2 ^ (j + 1) - 1) → j ≤ 64 →
    ∃ j' ≤ 64, (shrinkMask k m n).toNat = 2 ^ j' - 1 ∧ (shrinkMask k m n).toNat ≤ n.toNat ∧
      (j' = 64 ∨ n.toNat < 2 ^ (j' + 1) - 1) := by
  induction k with
  | zero =>
    intro j m n hj hm hn _
    have : j = 0 := by omega
    subst this
    refine ⟨0, by omega, ?_, ?_, hn⟩ <;> simp [shrinkMask, hm]
  | succ k ih =>
    intro j m n hj hm hn hj64
    unfold shrinkMask
    by_cases h : m > n
    · rw [if_pos h]
      have h := UInt64.lt_iff_toNat_lt.1 h
      cases j with
      | zero => simp at hm; omega
      | succ j =>
        have hp : 2 ^ (j + 1) = 2 * 2 ^ j := by rw [Nat.pow_succ]; omega
        have : 1 ≤ 2 ^ j := Nat.one_le_two_pow
        exact ih j (m >>> 1) n (by omega) (by rw [shift1, hm]; omega) (by right; omega) (by omega)
    · rw [if_neg h]
      have h : ¬ n.toNat < m.toNat := fun hh => h (UInt64.lt_iff_toNat_lt.2 hh)
      exact ⟨j, hj64, hm, by omega, hn⟩

theorem shl1or1 (m : UInt64) : ((m <<< 1) ||| 1).toNat = 2 * (m.toNat % 2 ^ 63) + 1 := by
  have h1 : (1 : UInt64).toNat = 1 := rfl
  have h2 := Nat.two_pow_add_eq_or_of_lt (i := 1) (b := 1) (by omega) (m.toNat % 2 ^ 63)
  rw [UInt64.toNat_or, UInt64.toNat_shiftLeft, h1]
  simp only [Nat.shiftLeft_eq] at *
  have h3 : m.toNat * 2 ^ (1 % 64) % 2 ^ 64 = 2 ^ 1 * (m.toNat % 2 ^ 63) := by
    rw [show (1 % 64 : Nat) = 1 from rfl]; omega
  rw [h3, ← h2]

theorem randMask_spec (n : UInt64) :
    ∃ k, 1 ≤ k ∧ k ≤ 64 ∧ (randMask n).toNat = 2 ^ k - 1 ∧ n.toNat ≤ (randMask n).toNat ∧
      (randMask n).toNat ≤ 2 * n.toNat + 1 := by
  have hn := n.toNat_lt
  obtain ⟨j, hj, h1, h2, h3⟩ := shrinkMask_spec 64 64 0xFFFFFFFFFFFFFFFF n (by omega) rfl (by left; rfl)
    (by omega)
  unfold randMask
  rw [shl1or1]
  generalize shrinkMask 64 0xFFFFFFFFFFFFFFFF n = m at *
  by_cases hj64 : j = 64
  · subst hj64
    exact ⟨64, by omega, by omega, by omega, by omega, by omega⟩
  · have h3 := h3.resolve_left hj64
    have hp : 2 ^ (j + 1) = 2 * 2 ^ j := by rw [Nat.pow_succ]; omega
    have : 1 ≤ 2 ^ j := Nat.one_le_two_pow
    have : 2 ^ j ≤ 2 ^ 63 := Nat.pow_le_pow_right (by omega) (by omega)
    exact ⟨j + 1, by omega, by omega, by omega, by omega, by omega⟩

theorem and_randMask (n w : UInt64) :
    (w &&& randMask n).toNat = w.toNat % ((randMask n).toNat + 1) := by
  obtain ⟨k, hk, _, h, _⟩ := randMask_spec n
  have : 1 ≤ 2 ^ k := Nat.one_le_two_pow
  rw [UInt64.toNat_and, h, Nat.and_two_pow_sub_one_eq_mod]
  congr 1; omega

theorem randMask_dvd (n : UInt64) : ((randMask n).toNat + 1) ∣ 2 ^ 64 := by
  obtain ⟨k, hk, hk', h, _⟩ := randMask_spec n
  have : 1 ≤ 2 ^ k := Nat.one_le_two_pow
  rw [h, Nat.sub_add_cancel this]
  exact Nat.pow_dvd_pow _ hk'

theorem count_residue (d r : Nat) (hr : r < d) (q : Nat) :
    ((Finset.range (d * q)).filter (fun w => w % d = r)).card = q := by
  induction q with
  | zero => simp
  | succ q ih =>
    have hsplit : (Finset.range (d * (q + 1))).filter (fun w => w % d = r) =
        insert (d * q + r) ((Finset.range (d * q)).filter (fun w => w % d = r)) := by
      ext w
      simp only [Finset.mem_filter, Finset.mem_range, Finset.mem_insert]
      rw [Nat.mul_succ]
      constructor
      · rintro ⟨h1, h2⟩
        by_cases h : w < d * q
        · right; exact ⟨h, h2⟩
        · left
          obtain ⟨e, rfl⟩ : ∃ e, w = d * q + e := ⟨w - d * q, by omega⟩
          have : e < d := by omega
          rw [Nat.mul_add_mod, Nat.mod_eq_of_lt this] at h2
          omega
      · rintro (rfl | ⟨h1, h2⟩)
        · exact ⟨by omega, by rw [Nat.mul_add_mod, Nat.mod_eq_of_lt hr]⟩
        · exact ⟨by omega, h2⟩
    rw [hsplit, Finset.card_insert_of_notMem, ih]
    simp

end Verif.Intervals
