import Verif.RandomLemmas
/-!
# Properties C01–C08: interval sets and random selection
-/
namespace Verif.Props
open Verif Verif.Intervals

/-! ## Specification vocabulary (independent of the model's helpers) -/

/-- The integers an interval stands for, mathematically. -/
def InIv (i : Interval) (x : UInt64) : Prop := i.lo.toNat ≤ x.toNat ∧ x.toNat ≤ i.hi.toNat

/-- The integers a list of intervals stands for. -/
def InAny (is : List Interval) (x : UInt64) : Prop := ∃ i ∈ is, InIv i x

/-- Canonical form: valid, increasing and pairwise disjoint. -/
def Canonical (is : List Interval) : Prop :=
  (∀ i ∈ is, i.lo ≤ i.hi) ∧ is.Pairwise (fun a b => a.hi.toNat < b.lo.toNat)

theorem any_iff (is : List Interval) (x : UInt64) :
    is.any (·.contains x) = true ↔ InAny is x := by
  simp only [List.any_eq_true, Interval.contains_iff, InAny, InIv]

theorem canonical_iff (is : List Interval) :
    Canonical is ↔ (∀ i ∈ is, i.Valid) ∧ is.Pairwise (fun a b => a.hi < b.lo) := by
  simp only [Canonical, Interval.Valid, UInt64.lt_iff_toNat_lt]

/-! ## C01 -/

/-- C01: building a set never panics and its membership test is membership in some given interval. -/
theorem C01_newSet_contains (is : List Interval) (hv : ∀ i ∈ is, i.lo ≤ i.hi) :
    ∃ s, newSet is = .ok s ∧ ∀ x, s.contains x = true ↔ InAny is x := by
  obtain ⟨r, hr, hc, _⟩ := thresholds_spec 1 (by omega) [is] (by simpa [Interval.Valid] using hv)
  refine ⟨⟨r⟩, by simp [newSet, simplify, hr], fun x => ?_⟩
  rw [Set.contains, hc x, ← any_iff]
  simp only [List.flatten_cons, List.flatten_nil, List.append_nil]
  rw [List.any_eq_true, ← List.countP_pos_iff]; omega

example : ∃ s, newSet [⟨5, 10⟩, ⟨8, 20⟩, ⟨0, 0⟩] = .ok s ∧ s.contains 15 = true ∧
    s.contains 3 = false := ⟨⟨[⟨0, 0⟩, ⟨5, 20⟩]⟩, by decide +kernel, by decide +kernel, by decide +kernel⟩

example : ∀ i ∈ [(⟨5, 10⟩ : Interval), ⟨8, 20⟩, ⟨0, 0⟩], i.lo ≤ i.hi := by decide +kernel

/-! ## C02 -/

/-- C02: `Simplify` returns a canonical list covering the same integers with no more intervals. -/
theorem C02_simplify_canonical (is : List Interval) (hv : ∀ i ∈ is, i.lo ≤ i.hi) :
    ∃ r, simplify is = .ok r ∧ Canonical r ∧ (∀ x, InAny r x ↔ InAny is x) ∧
      r.length ≤ is.length := by
  obtain ⟨r, hr, hc, h1, h2, h3⟩ := thresholds_spec 1 (by omega) [is] (by simpa [Interval.Valid] using hv)
  refine ⟨r, hr, (canonical_iff r).2 ⟨h1, h2⟩, fun x => ?_, by simpa using h3⟩
  rw [← any_iff, ← any_iff, hc x]
  simp only [List.flatten_cons, List.flatten_nil, List.append_nil]
  rw [List.any_eq_true, ← List.countP_pos_iff]; omega

/-- C02: simplifying a canonical list changes nothing; in particular `Simplify` is idempotent. -/
theorem C02_simplify_canonical_fix (r : List Interval) (h : Canonical r) : simplify r = .ok r := by
  obtain ⟨h1, h2⟩ := (canonical_iff r).1 h
  unfold simplify thresholds
  simp only [List.flatMap_cons, List.flatMap_nil, List.append_nil]
  rw [sortEdges_of_sorted r h1 h2, sweep_fix r h1]

theorem C02_simplify_idempotent (is r : List Interval) (hv : ∀ i ∈ is, i.lo ≤ i.hi)
    (h : simplify is = .ok r) : simplify r = .ok r := by
  obtain ⟨r', hr, hc, _⟩ := C02_simplify_canonical is hv
  rw [hr] at h; cases h
  exact C02_simplify_canonical_fix r hc

/-- C02: the result does not depend on the order of the input. -/
theorem C02_simplify_order (is js : List Interval) (h : is.Perm js) : simplify is = simplify js := by
  unfold simplify thresholds
  simp only [List.flatMap_cons, List.flatMap_nil, List.append_nil]
  rw [sortEdges_congr (es := intervaledges js)]
  induction h with
  | nil => exact List.Perm.refl _
  | cons i _ ih => simpa [intervaledges] using ih
  | swap i j l =>
    simp only [intervaledges]
    exact (List.perm_append_comm (α := Edge) (l₁ := [⟨j.lo, 1⟩, ⟨j.hi, -1⟩])
      (l₂ := [⟨i.lo, 1⟩, ⟨i.hi, -1⟩])).append_right (intervaledges l)
  | trans _ _ h1 h2 => exact h1.trans h2

example : List.Perm (α := Interval) [⟨5, 10⟩, ⟨8, 20⟩, ⟨30, 30⟩] [⟨30, 30⟩, ⟨5, 10⟩, ⟨8, 20⟩] := by
  decide +kernel
example : simplify [⟨5, 10⟩, ⟨8, 20⟩, ⟨30, 30⟩] = .ok [⟨5, 20⟩, ⟨30, 30⟩] := by decide +kernel
example : Canonical [⟨5, 20⟩, ⟨30, 30⟩] := by
  refine ⟨by decide +kernel, by decide +kernel⟩

/-- C02 (negation): "in a minimal way" (intervals.go:78-79) is false: adjacent intervals are kept
apart although one interval covers the same integers. -/
theorem C02_simplify_not_minimal :
    ∃ is r r' : List Interval, (∀ i ∈ is, i.lo ≤ i.hi) ∧ simplify is = .ok r ∧
      (∀ x, InAny r' x ↔ InAny is x) ∧ r'.length < r.length := by
  refine ⟨[⟨5, 10⟩, ⟨11, 15⟩], [⟨5, 10⟩, ⟨11, 15⟩], [⟨5, 15⟩], by decide +kernel, by decide +kernel, ?_,
    by decide⟩
  intro x
  simp only [InAny, InIv, List.mem_cons, List.not_mem_nil, or_false, exists_eq_left]
  constructor
  · rintro ⟨h1, h2⟩
    by_cases h : x.toNat ≤ 10
    · exact ⟨⟨5, 10⟩, Or.inl rfl, h1, h⟩
    · refine ⟨⟨11, 15⟩, Or.inr rfl, ?_, h2⟩
      show 11 ≤ x.toNat; omega
  · rintro ⟨i, rfl | rfl, h1, h2⟩
    · refine ⟨h1, ?_⟩
      have : x.toNat ≤ 10 := h2
      show x.toNat ≤ 15; omega
    · refine ⟨?_, h2⟩
      have : 11 ≤ x.toNat := h1
      show 5 ≤ x.toNat; omega

/-! ## C03 -/

/-- C03: `Overlaps` is true exactly when two different entries share an integer. -/
theorem C03_overlaps_iff (is : List Interval) (hv : ∀ i ∈ is, i.lo ≤ i.hi) :
    ∃ b, overlaps is = .ok b ∧
      (b = true ↔ ∃ x : UInt64, ∃ j k : Nat, ∃ a c : Interval, j < k ∧ is[j]? = some a ∧
        is[k]? = some c ∧ InIv a x ∧ InIv c x) := by
  obtain ⟨r, hr, hc, h1, h2, h3⟩ := thresholds_spec 2 (by omega) [is] (by simpa [Interval.Valid] using hv)
  refine ⟨decide (r.length > 0), by simp [overlaps, hr], ?_⟩
  simp only [List.flatten_cons, List.flatten_nil, List.append_nil] at hc
  have key : ∀ (x : UInt64), 2 ≤ is.countP (·.contains x) ↔ ∃ j k : Nat, ∃ a c : Interval, j < k ∧
      is[j]? = some a ∧ is[k]? = some c ∧ InIv a x ∧ InIv c x := by
    intro x
    clear hc h1 h2 h3 hr r hv
    induction is with
    | nil => simp
    | cons i is ih =>
      rw [List.countP_cons]
      by_cases hi : i.contains x = true
      · rw [if_pos hi]
        constructor
        · intro h
          have : 0 < is.countP (·.contains x) := by omega
          obtain ⟨c, hc, hcx⟩ := List.countP_pos_iff.1 this
          obtain ⟨k, hk⟩ := List.mem_iff_getElem?.1 hc
          exact ⟨0, k + 1, i, c, by omega, rfl, by simpa using hk,
            (Interval.contains_iff _ _).1 hi, (Interval.contains_iff _ _).1 hcx⟩
        · rintro ⟨j, k, a, c, hjk, hj, hk, ha, hcx⟩
          cases k with
          | zero => omega
          | succ k =>
            have : c ∈ is := List.mem_iff_getElem?.2 ⟨k, by simpa using hk⟩
            have : 0 < is.countP (·.contains x) :=
              List.countP_pos_iff.2 ⟨c, this, (Interval.contains_iff _ _).2 hcx⟩
            omega
      · rw [if_neg hi, Nat.add_zero, ih]
        constructor
        · rintro ⟨j, k, a, c, hjk, hj, hk, h⟩
          exact ⟨j + 1, k + 1, a, c, by omega, by simpa using hj, by simpa using hk, h⟩
        · rintro ⟨j, k, a, c, hjk, hj, hk, ha, hcx⟩
          cases k with
          | zero => omega
          | succ k =>
            cases j with
            | zero =>
              simp at hj
              subst hj
              exact absurd ((Interval.contains_iff _ _).2 ha) hi
            | succ j =>
              exact ⟨j, k, a, c, by omega, by simpa using hj, by simpa using hk, ha, hcx⟩
  rw [decide_eq_true_eq]
  constructor
  · intro h
    obtain ⟨i, hi⟩ := List.exists_mem_of_length_pos h
    have hx : r.any (·.contains i.lo) = true :=
      List.any_eq_true.2 ⟨i, hi, (Interval.contains_iff _ _).2
        ⟨Nat.le_refl _, UInt64.le_iff_toNat_le.1 (h1 i hi)⟩⟩
    rw [hc] at hx
    exact ⟨i.lo, (key _).1 (by omega)⟩
  · rintro ⟨x, h⟩
    have h := (key x).2 h
    have : r.any (·.contains x) = true := (hc x).2 (by omega)
    obtain ⟨i, hi, _⟩ := List.any_eq_true.1 this
    exact List.length_pos_of_mem hi

example : overlaps [⟨5, 10⟩, ⟨10, 20⟩] = .ok true := by decide +kernel
example : overlaps [⟨5, 10⟩, ⟨11, 20⟩] = .ok false := by decide +kernel

/-! ## C04 -/

/-- C04 (partial): subtraction is set difference when the subtracted set is non-empty.
Missing: the empty `other`, for which the claim is false (`C04_subtract_empty_wrong`). Every set the
package builds is canonical (`C02_simplify_canonical`, and this theorem's own conclusion). -/
theorem C04_subtract_partial (s other : Set) (hs : Canonical s.intervals)
    (ho : Canonical other.intervals) (hne : other.intervals ≠ []) :
    ∃ d, s.subtract other = .ok d ∧ Canonical d.intervals ∧
      ∀ x, d.contains x = true ↔ (s.contains x = true ∧ other.contains x = false) := by
  obtain ⟨hs1, hs2⟩ := (canonical_iff _).1 hs
  obtain ⟨ho1, ho2⟩ := (canonical_iff _).1 ho
  obtain ⟨c, hc, hcov, hcv⟩ := complementFrom_spec other.intervals 0 ho1 ho2 (by simp)
    (fun h => absurd h hne)
  obtain ⟨r, hr, hcr, h1, h2, hl⟩ := thresholds_spec 2 (by omega) [s.intervals, c] (by
    intro i hi
    simp only [List.flatten_cons, List.flatten_nil, List.append_nil, List.mem_append] at hi
    exact hi.elim (hs1 i) (hcv i))
  refine ⟨⟨r⟩, by simp [Set.subtract, complement, hc, hr], (canonical_iff _).2 ⟨h1, h2⟩, fun x => ?_⟩
  have hone : s.intervals.countP (·.contains x) = if s.contains x then 1 else 0 := by
    unfold Set.contains
    generalize s.intervals = is at *
    clear hcr hr hs hl
    induction is with
    | nil => rfl
    | cons i is ih =>
      have hp := List.pairwise_cons.1 hs2
      have ih := ih (fun j hj => hs1 j (List.mem_cons_of_mem _ hj)) hp.2
      rw [List.countP_cons, ih, List.any_cons]
      by_cases hi : i.contains x = true
      · have : is.any (·.contains x) = false := by
          rw [List.any_eq_false]
          intro j hj hjx
          have a := UInt64.lt_iff_toNat_lt.1 (hp.1 j hj)
          have b := (Interval.contains_iff _ _).1 hi
          have d := (Interval.contains_iff _ _).1 hjx
          omega
        simp [hi, this]
      · simp [hi]
  show r.any (·.contains x) = true ↔ _
  rw [hcr x]
  simp only [List.flatten_cons, List.flatten_nil, List.append_nil, List.countP_append]
  rw [hone, hcov x]
  show _ ↔ (_ ∧ other.intervals.any (·.contains x) = false)
  have e0 : (0 : UInt64).toNat = 0 := rfl
  rw [e0]
  cases s.contains x <;> cases other.intervals.any (·.contains x) <;> simp

example : (⟨[⟨0, 255⟩]⟩ : Set).subtract ⟨[⟨0, 4⟩, ⟨7, 7⟩]⟩ = .ok ⟨[⟨5, 6⟩, ⟨8, 255⟩]⟩ := by
  decide +kernel
example : Canonical [⟨0, 4⟩, ⟨7, 7⟩] := ⟨by decide +kernel, by decide +kernel⟩

/-- C04 (negation): subtracting the empty set wrongly empties the set. -/
theorem C04_subtract_empty_wrong :
    ∃ s other d : Set, Canonical s.intervals ∧ Canonical other.intervals ∧
      s.subtract other = .ok d ∧
      ∃ x, s.contains x = true ∧ other.contains x = false ∧ d.contains x = false :=
  ⟨⟨[⟨3, 9⟩]⟩, ⟨[]⟩, ⟨[]⟩, ⟨by decide +kernel, by decide +kernel⟩, ⟨by simp, by simp⟩,
    by decide +kernel, 5, by decide +kernel, by decide +kernel, by decide +kernel⟩

/-! ## C05 -/

/-- C05: the set of an `n`-bit integer type is exactly `{x | x < 2^n}`. -/
theorem C05_intType (n : Nat) (hn : n ≤ 64) :
    ∃ s, intType n = .ok s ∧ Canonical s.intervals ∧ ∀ x, s.contains x = true ↔ x.toNat < 2 ^ n := by
  have hpow : 1 ≤ 2 ^ n := Nat.one_le_two_pow
  have hb : (goShl1 n - 1).toNat = 2 ^ n - 1 := by
    unfold goShl1
    by_cases h : n < 64
    · rw [if_pos h]
      have h2 : 2 ^ n < 2 ^ 64 := Nat.pow_lt_pow_right (by omega) h
      have e : (UInt64.ofNat (2 ^ n)).toNat = 2 ^ n := UInt64.toNat_ofNat_of_lt' h2
      rw [UInt64.toNat_sub_of_le _ _ (by rw [UInt64.le_iff_toNat_le, e]; exact hpow), e]; rfl
    · have : n = 64 := by omega
      subst this; rfl
  have hbits : bits n = .ok ⟨0, goShl1 n - 1⟩ := range_ok (Nat.zero_le _)
  obtain ⟨r, hr, hcan, hcov, _⟩ := C02_simplify_canonical [⟨0, goShl1 n - 1⟩] (by
    intro i hi
    rw [List.mem_singleton.1 hi]
    exact UInt64.le_iff_toNat_le.2 (Nat.zero_le _))
  refine ⟨⟨r⟩, by simp [intType, newSet, hbits, hr], hcan, fun x => ?_⟩
  show r.any (·.contains x) = true ↔ _
  rw [any_iff, hcov x]
  simp only [InAny, InIv, List.mem_singleton, exists_eq_left, hb]
  have : (0 : UInt64).toNat = 0 := rfl
  omega

example : intType 16 = .ok ⟨[⟨0, 65535⟩]⟩ := by decide +kernel

/-! ## C06–C08 -/

/-- A set does not cover all 64-bit integers. -/
def NotFull (s : Set) : Prop := ∃ x, s.contains x = false

theorem card_lt_of_notFull (s : Set) (h : Canonical s.intervals) (hf : NotFull s) :
    card s.intervals < 2 ^ 64 := by
  obtain ⟨h1, h2⟩ := (canonical_iff _).1 h
  obtain ⟨x, hx⟩ := hf
  unfold Set.contains at hx
  generalize s.intervals = is at *
  -- strengthen: from any lower bound b ≤ x
  have key : ∀ (is : List Interval) (b : Nat), (∀ i ∈ is, i.Valid) →
      is.Pairwise (fun a b => a.hi < b.lo) → (∀ i ∈ is, b ≤ i.lo.toNat) → b ≤ x.toNat →
      is.any (·.contains x) = false → card is + b < 2 ^ 64 := by
    intro is
    induction is with
    | nil =>
      intro b _ _ _ hb _
      have := x.toNat_lt
      simp only [card]; omega
    | cons i is ih =>
      intro b hv hp hlo hb hx
      have hp' := List.pairwise_cons.1 hp
      have hi := UInt64.le_iff_toNat_le.1 (hv i List.mem_cons_self)
      have hbi := hlo i List.mem_cons_self
      have hlt := i.hi.toNat_lt
      rw [List.any_cons, Bool.or_eq_false_iff] at hx
      have hnc : ¬ (i.lo.toNat ≤ x.toNat ∧ x.toNat ≤ i.hi.toNat) := by
        rw [← Interval.contains_iff]; simp [hx.1]
      simp only [card]
      by_cases c : x.toNat < i.lo.toNat
      · have := card_le is (i.hi.toNat + 1) (fun j hj => hv j (List.mem_cons_of_mem _ hj)) hp'.2
          (fun j hj => by have := UInt64.lt_iff_toNat_lt.1 (hp'.1 j hj); omega) (by omega)
        omega
      · have := ih (i.hi.toNat + 1) (fun j hj => hv j (List.mem_cons_of_mem _ hj)) hp'.2
          (fun j hj => by have := UInt64.lt_iff_toNat_lt.1 (hp'.1 j hj); omega) (by omega) hx.2
        omega
  have := key is 0 h1 h2 (by simp) (by omega) hx
  omega

theorem randLoop_lt (R : RandSrc) (n m : UInt64) (fuel : Nat) (st : R.σ) (r : UInt64) (st' : R.σ)
    (h : randLoop R n m fuel st = some (r, st')) : r < n := by
  induction fuel generalizing st with
  | zero => simp [randLoop] at h
  | succ k ih =>
    simp only [randLoop] at h
    split at h
    · rename_i hlt
      simp only [Option.some.injEq, Prod.mk.injEq] at h
      rw [← h.1]; exact hlt
    · exact ih _ h

/-- C06: whatever the random source does, a value returned for a non-empty set is in the set, and no
panic happens. -/
theorem C06_random_mem (R : RandSrc) (s : Set) (h : Canonical s.intervals) (hne : s.intervals ≠ [])
    (fuel : Nat) (st st' : R.σ) (o : Res UInt64) (hr : s.random R fuel st = some (o, st')) :
    ∃ v, o = .ok v ∧ s.contains v = true := by
  obtain ⟨h1, h2⟩ := (canonical_iff _).1 h
  unfold Set.random at hr
  rw [if_neg (by simpa using hne)] at hr
  have hcard := card_le s.intervals 0 h1 h2 (by simp) (by omega)
  split at hr
  · simp at hr
  · rename_i r st'' hl
    simp only [Option.some.injEq, Prod.mk.injEq] at hr
    have hlt := UInt64.lt_iff_toNat_lt.1 (randLoop_lt R _ _ _ _ _ _ hl)
    have e0 : (0 : UInt64).toNat = 0 := rfl
    by_cases hfull : card s.intervals < 2 ^ 64
    · have ht := total_toNat s.intervals 0 h1 (by rw [e0]; omega)
      obtain ⟨a, _, _⟩ := pick_spec s.intervals 0 h1 h2 (by simp) (by rw [e0]; omega)
      obtain ⟨v, e, m⟩ := a r (by rw [e0]; omega) (by omega)
      exact ⟨v, by rw [← hr.1, e], m⟩
    · -- the total wrapped to zero, so no draw was accepted
      exfalso
      have ht : (total 0 s.intervals).toNat = 0 := by
        have gen : ∀ (is : List Interval) (c : UInt64), (∀ i ∈ is, i.Valid) →
            (total c is).toNat = (c.toNat + card is) % 2 ^ 64 := by
          intro is
          induction is with
          | nil => intro c _; have := c.toNat_lt; simp only [total, card]; omega
          | cons i is ih =>
            intro c hv
            have hi := UInt64.le_iff_toNat_le.1 (hv i List.mem_cons_self)
            have e1 : (1 : UInt64).toNat = 1 := rfl
            simp only [total, card]
            rw [ih _ (fun j hj => hv j (List.mem_cons_of_mem _ hj)), UInt64.toNat_add, Interval.size,
              UInt64.toNat_add, UInt64.toNat_sub_of_le _ _ (UInt64.le_iff_toNat_le.2 hi), e1]
            omega
        rw [gen _ _ h1, e0]; omega
      omega

/-- C07: the accepted draws `r < n` correspond one to one, in increasing order, to the elements of the
set: every element is the result of exactly one draw. `n` is the number the code draws below. -/
theorem C07_random_bijection (s : Set) (h : Canonical s.intervals) (hf : NotFull s) :
    (∀ r < total 0 s.intervals, ∃ v, pickStep r (mkSteps 0 s.intervals) = .ok v ∧
      s.contains v = true) ∧
    (∀ x, s.contains x = true →
      ∃! r, r < total 0 s.intervals ∧ pickStep r (mkSteps 0 s.intervals) = .ok x) := by
  obtain ⟨h1, h2⟩ := (canonical_iff _).1 h
  have hc := card_lt_of_notFull s h hf
  have e0 : (0 : UInt64).toNat = 0 := rfl
  have ht := total_toNat s.intervals 0 h1 (by rw [e0]; omega)
  obtain ⟨a, b, m⟩ := pick_spec s.intervals 0 h1 h2 (by simp) (by rw [e0]; omega)
  refine ⟨fun r hr => a r (by rw [e0]; omega)
    (by have := UInt64.lt_iff_toNat_lt.1 hr; omega), fun x hx => ?_⟩
  obtain ⟨r, r1, r2, r3⟩ := b x hx
  refine ⟨r, ⟨UInt64.lt_iff_toNat_lt.2 (by omega), r3⟩, ?_⟩
  rintro r' ⟨hr', hx'⟩
  have hr' := UInt64.lt_iff_toNat_lt.1 hr'
  apply UInt64.toNat_inj.1
  rcases Nat.lt_trichotomy r'.toNat r.toNat with hlt | heq | hgt
  · have := m r' r x x (by rw [e0]; omega) hlt (by omega) hx' r3
    exact absurd this (by simp)
  · exact heq
  · have := m r r' x x (by omega) hgt (by omega) r3 hx'
    exact absurd this (by simp)

/-- C07: a single uniform 64-bit word is equally likely to give each candidate draw: exactly `q`
words give each `r < n`, where `q > 0` depends only on `n`. -/
theorem C07_draw_uniform (n : UInt64) :
    ∃ q, 0 < q ∧ ∀ r < n, ((Finset.range (2 ^ 64)).filter
      (fun w => (UInt64.ofNat w &&& randMask n) = r)).card = q := by
  obtain ⟨q, hq⟩ := randMask_dvd n
  refine ⟨q, Nat.pos_of_ne_zero (fun h => by subst h; simp at hq), fun r hr => ?_⟩
  obtain ⟨k, _, _, hk, hle, _⟩ := randMask_spec n
  have hr := UInt64.lt_iff_toNat_lt.1 hr
  generalize hN : 2 ^ 64 = N at hq ⊢
  rw [← count_residue ((randMask n).toNat + 1) r.toNat (by omega) q, ← hq]
  congr 1
  apply Finset.filter_congr
  intro w hw
  have hw : w < 2 ^ 64 := by rw [hN]; exact Finset.mem_range.1 hw
  rw [← UInt64.toNat_inj, and_randMask, UInt64.toNat_ofNat_of_lt' hw]

/-- C07: the two 63-bit draws give every 64-bit word, with the 31 low bits of the first and 31 high
bits of the second discarded (so uniform 63-bit draws give uniform words). -/
theorem C07_word_of_draws (R : RandSrc) (st : R.σ) :
    (randuint64 R st).1.toNat =
      (R.int63 st).1.toNat / 2 ^ 31 + 2 ^ 32 * ((R.int63 (R.int63 st).2).1.toNat % 2 ^ 32) := by
  have ha := R.int63_lt st
  simp only [randuint64]
  generalize (R.int63 st).1 = a at *
  generalize (R.int63 (R.int63 st).2).1 = b
  have h31 : (31 : UInt64).toNat = 31 := rfl
  have h32 : (32 : UInt64).toNat = 32 := rfl
  rw [UInt64.toNat_or, UInt64.toNat_shiftRight, UInt64.toNat_shiftLeft, h31, h32]
  simp only [Nat.shiftLeft_eq, Nat.shiftRight_eq_div_pow]
  rw [show (31 % 64 : Nat) = 31 from rfl, show (32 % 64 : Nat) = 32 from rfl]
  have h1 : b.toNat * 2 ^ 32 % 2 ^ 64 = 2 ^ 32 * (b.toNat % 2 ^ 32) := by omega
  have h2 : a.toNat / 2 ^ 31 < 2 ^ 32 := by omega
  rw [h1, Nat.or_comm, ← Nat.two_pow_add_eq_or_of_lt h2]; omega

/-- State of the source after `k` words. -/
def wordState (R : RandSrc) (st : R.σ) : Nat → R.σ
  | 0 => st
  | k + 1 => (randuint64 R (wordState R st k)).2

theorem wordState_succ (R : RandSrc) (st : R.σ) (k : Nat) :
    wordState R (randuint64 R st).2 k = wordState R st (k + 1) := by
  induction k with
  | zero => rfl
  | succ k ih => rw [wordState, ih]; rfl

/-- C08 (partial): for a non-empty set that is not the full 64-bit set, `Random` returns by the time the
source offers any word smaller than the number of elements (in particular the word 0). At least one
in four words is accepted. Missing: the full set, where it never returns (`C08_random_full_hangs`). -/
theorem C08_random_terminates_partial (R : RandSrc) (s : Set) (h : Canonical s.intervals)
    (hne : s.intervals ≠ []) (hf : NotFull s) (st : R.σ) (k : Nat)
    (hk : (randuint64 R (wordState R st k)).1.toNat < card s.intervals) :
    ∃ o st', s.random R (k + 1) st = some (o, st') := by
  obtain ⟨h1, h2⟩ := (canonical_iff _).1 h
  have hc := card_lt_of_notFull s h hf
  have e0 : (0 : UInt64).toNat = 0 := rfl
  have ht := total_toNat s.intervals 0 h1 (by rw [e0]; omega)
  obtain ⟨k', _, _, hk', hle, _⟩ := randMask_spec (total 0 s.intervals)
  unfold Set.random
  rw [if_neg (by simpa using hne)]
  have key : ∃ p, randuint64n R (total 0 s.intervals) (k + 1) st = some p := by
    unfold randuint64n
    clear h1 h2 hne h
    induction k generalizing st with
    | zero =>
      simp only [randLoop]
      rw [if_pos]
      · exact ⟨_, rfl⟩
      · rw [UInt64.lt_iff_toNat_lt, and_randMask, Nat.mod_eq_of_lt] <;>
          (simp only [wordState] at hk; omega)
    | succ k ih =>
      rw [randLoop]
      simp only []
      split
      · exact ⟨_, rfl⟩
      · exact ih _ (by rw [wordState_succ]; exact hk)
  obtain ⟨⟨r, st'⟩, hp⟩ := key
  exact ⟨_, _, by rw [hp]⟩

/-- C08: the number of candidate values is at most four times the number of elements, so each uniform
word is accepted with probability at least 1/4. -/
theorem C08_acceptance (n : UInt64) (hn : 0 < n.toNat) : (randMask n).toNat + 1 ≤ 4 * n.toNat := by
  obtain ⟨k, _, _, _, _, h⟩ := randMask_spec n
  omega

/-- C08 (negation): on the set of all 64-bit integers `Random` never returns, for any source and any
number of draws (a `u64` tag with only a default case reaches this, tv/generator.go:296). -/
theorem C08_random_full_hangs (R : RandSrc) (s : Set) (hs : intType 64 = .ok s) (fuel : Nat)
    (st : R.σ) : s.random R fuel st = none := by
  have : intType 64 = .ok ⟨[⟨0, 0xFFFFFFFFFFFFFFFF⟩]⟩ := by decide +kernel
  rw [this] at hs
  cases hs
  have h0 : total 0 [⟨0, 0xFFFFFFFFFFFFFFFF⟩] = 0 := by decide +kernel
  have key : ∀ m fuel (st : R.σ), randLoop R 0 m fuel st = none := by
    intro m fuel
    induction fuel with
    | zero => intro st; rfl
    | succ k ih =>
      intro st
      simp only [randLoop]
      rw [if_neg (by simp), ih]
  simp [Set.random, randuint64n, h0, key]

/-- A concrete source (a counter) used in the examples. -/
def counterSrc : RandSrc where
  σ := Nat
  int63 := fun s => (UInt64.ofNat (s % 2 ^ 63), s + 1)
  intn := fun n s => (s % n, s + 1)
  read := fun n s => ((List.range n).map (fun i => UInt8.ofNat (s + i)), s + 1)
  int63_lt := fun s => by
    have : s % 2 ^ 63 < 2 ^ 63 := Nat.mod_lt _ (by decide)
    show (UInt64.ofNat (s % 2 ^ 63)).toNat < 2 ^ 63
    rw [UInt64.toNat_ofNat_of_lt' (by show _ < 2 ^ 64; omega)]; exact this
  intn_lt := fun n s h => Nat.mod_lt _ h
  read_length := fun n s => by simp

example : NotFull ⟨[⟨5, 6⟩, ⟨8, 255⟩]⟩ := ⟨7, by decide +kernel⟩
example : ((⟨[⟨5, 6⟩, ⟨8, 255⟩]⟩ : Set).random counterSrc 3 (0 : Nat)).map (·.1) = some (.ok 5) := by
  decide +kernel
example : (randuint64 counterSrc (wordState counterSrc (0 : Nat) 0)).1.toNat = 4294967296 := by
  decide +kernel
example : (randuint64 counterSrc (wordState counterSrc (0 : Nat) 0)).1.toNat
    < card [⟨5, 6⟩, ⟨8, 0xFFFFFFFFFFFFFFF⟩] := by
  decide +kernel

end Verif.Props
