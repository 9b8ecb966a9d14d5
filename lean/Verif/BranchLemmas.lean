import Verif.InspectLemmas
import Verif.Props.Intervals
import Verif.Spec
/-!
# Helper lemmas for integer lists and union branches
-/
namespace Verif.Inspect
open Verif Verif.Ast Verif.Intervals Verif.Spec Verif.Props

theorem integer_eq (r : Resolver) (i : Integer) :
    r.integer i = match ival r.constant i with | some v => .ok v | none => .err "constant undefined" := by
  cases i with
  | constRef n => simp only [Resolver.integer, ival]; cases r.constant n <;> rfl
  | literal v => rfl

theorem castU64_toNat (x : Int) (h0 : 0 ≤ x) (h1 : x < 2 ^ 64) : ((Resolver.castU64 x).toNat : Int) = x := by
  unfold Resolver.castU64
  have : (x % 2 ^ 64) = x := Int.emod_eq_of_lt h0 h1
  rw [this, UInt64.toNat_ofNat_of_lt']
  · omega
  · show x.toNat < 2 ^ 64; omega

/-- Outcome of resolving one range entry. -/
def entry (r : Resolver) (rng : IntegerRange) : Res Interval := do
  let lo ← r.integer rng.low
  match rng.high with
  | none => single (Resolver.castU64 lo)
  | some h => do
    let hi ← r.integer h
    range (Resolver.castU64 lo) (Resolver.castU64 hi)

theorem rangeIntervals_cons (r : Resolver) (rng : IntegerRange) (rest : List IntegerRange) :
    r.rangeIntervals (rng :: rest) = (do
      let i ← entry r rng
      let is ← r.rangeIntervals rest
      .ok (i :: is)) := by
  rw [Resolver.rangeIntervals, entry]
  cases r.integer rng.low with
  | ok lo =>
    simp only [Res.ok_bind]
    cases rng.high with
    | none => rfl
    | some h =>
      simp only
      cases r.integer h <;> rfl
  | err m => rfl
  | panic m => rfl

/-- Non-negative 63-bit values, wherever defined. -/
def Nonneg (K : String → Option Int) (rs : List IntegerRange) : Prop :=
  ∀ r ∈ rs, ∀ v, (ival K r.low = some v ∨ ∃ h, r.high = some h ∧ ival K h = some v) → 0 ≤ v ∧ v < 2 ^ 63

theorem entry_spec (r : Resolver) (rng : IntegerRange) (hn : Nonneg r.constant [rng]) :
    (bounds r.constant rng = none → entry r rng = .err "constant undefined") ∧
    (∀ lo hi, bounds r.constant rng = some (lo, hi) → lo ≤ hi →
      ∃ i, entry r rng = .ok i ∧ (i.lo.toNat : Int) = lo ∧ (i.hi.toNat : Int) = hi) ∧
    (∀ lo hi, bounds r.constant rng = some (lo, hi) → hi < lo → entry r rng = .panic "bad range") := by
  have hn := hn rng List.mem_cons_self
  unfold entry bounds
  rw [integer_eq]
  cases hlo : ival r.constant rng.low with
  | none => simp
  | some lo =>
    have h1 := hn lo (Or.inl hlo)
    have c1 := castU64_toNat lo h1.1 (by omega)
    simp only [Res.ok_bind]
    cases hh : rng.high with
    | none =>
      refine ⟨by simp, ?_, ?_⟩
      · intro lo' hi' he hle
        simp only [Option.some.injEq, Prod.mk.injEq] at he
        refine ⟨⟨Resolver.castU64 lo, Resolver.castU64 lo⟩, range_ok (Nat.le_refl _), ?_, ?_⟩ <;>
          simp only <;> omega
      · intro lo' hi' he hlt
        simp only [Option.some.injEq, Prod.mk.injEq] at he
        omega
    | some h =>
      simp only [integer_eq]
      cases hhi : ival r.constant h with
      | none => simp
      | some hi =>
        have h2 := hn hi (Or.inr ⟨h, hh, hhi⟩)
        have c2 := castU64_toNat hi h2.1 (by omega)
        refine ⟨by simp, ?_, ?_⟩
        · intro lo' hi' he hle
          simp only [Option.map_some, Option.some.injEq, Prod.mk.injEq] at he
          refine ⟨⟨Resolver.castU64 lo, Resolver.castU64 hi⟩, range_ok (by omega), ?_, ?_⟩ <;>
            simp only <;> omega
        · intro lo' hi' he hlt
          simp only [Option.map_some, Option.some.injEq, Prod.mk.injEq] at he
          simp only [Res.ok_bind, range]
          rw [if_pos]
          rw [UInt64.lt_iff_toNat_lt]; omega

/-- The interval matches the entry's denotation. -/
def Matches (K : String → Option Int) (rng : IntegerRange) (i : Interval) : Prop :=
  bounds K rng = some ((i.lo.toNat : Int), (i.hi.toNat : Int)) ∧ i.Valid

theorem nonneg_tail {K r rs} (h : Nonneg K (r :: rs)) : Nonneg K [r] ∧ Nonneg K rs :=
  ⟨fun x hx => h x (by rw [List.mem_singleton.1 hx]; exact List.mem_cons_self),
    fun x hx => h x (List.mem_cons_of_mem _ hx)⟩

theorem rangeIntervals_ok (r : Resolver) (rs : List IntegerRange) (is : List Interval)
    (hn : Nonneg r.constant rs) (h : r.rangeIntervals rs = .ok is) :
    List.Forall₂ (Matches r.constant) rs is := by
  induction rs generalizing is with
  | nil =>
    simp [Resolver.rangeIntervals] at h
    subst h; exact List.Forall₂.nil
  | cons rng rs ih =>
    obtain ⟨hn1, hn2⟩ := nonneg_tail hn
    rw [rangeIntervals_cons] at h
    obtain ⟨i, hi, h⟩ := Res.bind_eq_ok.1 h
    obtain ⟨is', his', h⟩ := Res.bind_eq_ok.1 h
    cases h
    refine List.Forall₂.cons ?_ (ih _ hn2 his')
    obtain ⟨s1, s2, s3⟩ := entry_spec r rng hn1
    cases hb : bounds r.constant rng with
    | none => rw [s1 hb] at hi; cases hi
    | some p =>
      obtain ⟨lo, hi'⟩ := p
      by_cases hle : lo ≤ hi'
      · obtain ⟨j, e1, e2, e3⟩ := s2 lo hi' hb hle
        rw [e1] at hi; cases hi
        refine ⟨by rw [hb, e2, e3], UInt64.le_iff_toNat_le.2 (by omega)⟩
      · rw [s3 lo hi' hb (by omega)] at hi; cases hi

theorem rangeIntervals_exists (r : Resolver) (rs : List IntegerRange) (hn : Nonneg r.constant rs)
    (h : ∀ rng ∈ rs, ∃ lo hi, bounds r.constant rng = some (lo, hi) ∧ lo ≤ hi) :
    ∃ is, r.rangeIntervals rs = .ok is := by
  induction rs with
  | nil => exact ⟨[], rfl⟩
  | cons rng rs ih =>
    obtain ⟨hn1, hn2⟩ := nonneg_tail hn
    obtain ⟨is, his⟩ := ih hn2 (fun x hx => h x (List.mem_cons_of_mem _ hx))
    obtain ⟨lo, hi, hb, hle⟩ := h rng List.mem_cons_self
    obtain ⟨i, e1, _⟩ := (entry_spec r rng hn1).2.1 lo hi hb hle
    exact ⟨i :: is, by simp [rangeIntervals_cons, e1, his]⟩

theorem rangeHas_of_matches {K rng i} (h : Matches K rng i) (x : UInt64) :
    rangeHas K x.toNat rng = true ↔ InIv i x := by
  unfold rangeHas InIv
  rw [h.1]
  simp

theorem forall₂_any {K : String → Option Int} {rs : List IntegerRange} {is : List Interval}
    (h : List.Forall₂ (Matches K) rs is) (x : UInt64) :
    (∃ rng ∈ rs, rangeHas K x.toNat rng = true) ↔ InAny is x := by
  unfold InAny
  induction h with
  | nil => simp
  | cons hm _ ih => simp only [List.mem_cons, exists_eq_or_imp, ih, rangeHas_of_matches hm x]

theorem forall₂_valid {K : String → Option Int} {rs : List IntegerRange} {is : List Interval}
    (h : List.Forall₂ (Matches K) rs is) : ∀ i ∈ is, i.lo ≤ i.hi := by
  induction h with
  | nil => simp
  | cons hm _ ih =>
    intro i hi
    rcases List.mem_cons.1 hi with rfl | hi
    · exact hm.2
    · exact ih i hi

theorem forall₂_get {K : String → Option Int} {rs : List IntegerRange} {is : List Interval}
    (h : List.Forall₂ (Matches K) rs is) (j : Nat) :
    (∀ a, is[j]? = some a → ∃ rng, rs[j]? = some rng ∧ Matches K rng a) ∧
    (∀ rng, rs[j]? = some rng → ∃ a, is[j]? = some a ∧ Matches K rng a) := by
  induction h generalizing j with
  | nil => simp
  | cons hm _ ih =>
    cases j with
    | zero => simp [hm]
    | succ j => simpa using ih j

theorem intervals_canonical {r : Resolver} {l : IntegerList} {s : Set}
    (hn : Nonneg r.constant l.ranges) (h : r.intervals l = .ok s) :
    Canonical s.intervals ∧ (l.ranges ≠ [] → s.intervals ≠ []) ∧
      ∀ x : UInt64, s.contains x = true ↔ listHas r.constant l x.toNat = true := by
  unfold Resolver.intervals at h
  obtain ⟨is, his, h⟩ := Res.bind_eq_ok.1 h
  obtain ⟨b, hb, h⟩ := Res.bind_eq_ok.1 h
  have hm := rangeIntervals_ok r _ _ hn his
  cases b with
  | true => simp at h
  | false =>
    simp only [Bool.false_eq_true, if_false] at h
    obtain ⟨rr, h1, h2, h3, h4⟩ := C02_simplify_canonical is (forall₂_valid hm)
    have : s = ⟨rr⟩ := by
      simp [newSet, h1] at h; exact h.symm
    subst this
    refine ⟨h2, ?_, ?_⟩
    · intro hne he
      generalize l.ranges = rs at hm hne
      cases hm with
      | nil => exact hne rfl
      | @cons rng i rs' is' hm _ =>
        have : InAny rr i.lo := (h3 i.lo).2 ⟨i, List.mem_cons_self, Nat.le_refl _,
          UInt64.le_iff_toNat_le.1 hm.2⟩
        have he : rr = [] := he
        subst he
        obtain ⟨j, hj, _⟩ := this
        simp at hj
    · intro x
      show rr.any (·.contains x) = true ↔ _
      rw [any_iff, h3 x, ← forall₂_any hm x, listHas, List.any_eq_true]

/-- Invariant of the branch loop. -/
theorem branchLoop_spec (r : Resolver) (n : Nat) (cs : List UnionCase) :
    ∀ (dset : Set) (dcase : Option UnionCase) (pre : List UnionCase) bs dset' dcase',
    (∀ c ∈ cs, ∀ l, c.case = some l → l.ranges ≠ [] ∧ Nonneg r.constant l.ranges) →
    Canonical dset.intervals →
    (∀ x : UInt64, dset.contains x = true ↔ (x.toNat < 2 ^ n ∧ ∀ c ∈ pre, caseHas r.constant x.toNat c = false)) →
    branchLoop r dset dcase cs = .ok (bs, dset', dcase') →
    Canonical dset'.intervals ∧
    (∀ x : UInt64, dset'.contains x = true ↔
      (x.toNat < 2 ^ n ∧ ∀ c ∈ pre ++ cs, caseHas r.constant x.toNat c = false)) ∧
    dcase' = (cs.reverse.find? (fun c => c.case.isNone)).or dcase ∧
    (∀ x : UInt64, (bs.find? (fun b => b.set.contains x)).map (·.case) =
      cs.find? (caseHas r.constant x.toNat)) ∧
    (∀ b ∈ bs, b.case ∈ cs ∧ Canonical b.set.intervals ∧
      ∀ x : UInt64, b.set.contains x = true ↔ caseHas r.constant x.toNat b.case = true) ∧
    bs.map (·.case) = cs.filter (fun c => c.case.isSome) := by
  induction cs with
  | nil =>
    intro dset dcase pre bs dset' dcase' _ hd hdc h
    simp only [branchLoop, Res.ok.injEq, Prod.mk.injEq] at h
    obtain ⟨rfl, rfl, rfl⟩ := h
    refine ⟨hd, ?_, by simp, by simp, by simp, by simp⟩
    simpa using hdc
  | cons c cs ih =>
    intro dset dcase pre bs dset' dcase' hne hd hdc h
    have hne' : ∀ c ∈ cs, ∀ l, c.case = some l → l.ranges ≠ [] ∧ Nonneg r.constant l.ranges :=
      fun c hc => hne c (List.mem_cons_of_mem _ hc)
    unfold branchLoop at h
    cases hc : c.case with
    | none =>
      rw [hc] at h
      simp only at h
      have hch : ∀ x, caseHas r.constant x c = false := fun x => by simp [caseHas, hc]
      obtain ⟨a1, a2, a3, a4, a5, a6⟩ := ih dset (some c) (pre ++ [c]) bs dset' dcase' hne' hd (by
        intro x; rw [hdc x]
        simp only [List.mem_append, List.mem_singleton]
        constructor
        · rintro ⟨h1, h2⟩
          exact ⟨h1, fun d hd => hd.elim (h2 d) (fun e => by rw [e]; exact hch _)⟩
        · rintro ⟨h1, h2⟩
          exact ⟨h1, fun d hd => h2 d (Or.inl hd)⟩) h
      refine ⟨a1, ?_, ?_, ?_, ?_, ?_⟩
      · intro x; rw [a2 x]; simp
      · rw [a3, List.reverse_cons, List.find?_append]
        simp [hc]
      · intro x; rw [a4 x, List.find?_cons, hch]
      · intro b hb
        obtain ⟨m, rest⟩ := a5 b hb
        exact ⟨List.mem_cons_of_mem _ m, rest⟩
      · simp [a6, hc]
    | some l =>
      rw [hc] at h
      simp only at h
      obtain ⟨s, hs, h⟩ := Res.bind_eq_ok.1 h
      obtain ⟨d1, hd1, h⟩ := Res.bind_eq_ok.1 h
      obtain ⟨⟨bs', d2, dc2⟩, hrec, h⟩ := Res.bind_eq_ok.1 h
      simp only [Res.ok.injEq, Prod.mk.injEq] at h
      obtain ⟨rfl, rfl, rfl⟩ := h
      obtain ⟨hl1, hl2⟩ := hne c List.mem_cons_self l hc
      obtain ⟨sc, sne, smem⟩ := intervals_canonical hl2 hs
      have hch : ∀ x : UInt64, caseHas r.constant x.toNat c = s.contains x := fun x => by
        have := smem x
        simp only [caseHas, hc]
        cases h1 : s.contains x <;> cases h2 : listHas r.constant l x.toNat <;> simp_all
      obtain ⟨d1', hd1', dcan, dmem⟩ := C04_subtract_partial dset s hd sc (sne hl1)
      rw [hd1] at hd1'; cases hd1'
      obtain ⟨a1, a2, a3, a4, a5, a6⟩ := ih d1 dcase (pre ++ [c]) bs' d2 dc2 hne' dcan (by
        intro x; rw [dmem x, hdc x]
        simp only [List.mem_append, List.mem_singleton]
        constructor
        · rintro ⟨⟨h1, h2⟩, h3⟩
          exact ⟨h1, fun d hd => hd.elim (h2 d) (fun e => by rw [e, hch, h3])⟩
        · rintro ⟨h1, h2⟩
          exact ⟨⟨h1, fun d hd => h2 d (Or.inl hd)⟩, by rw [← hch]; exact h2 c (Or.inr rfl)⟩) hrec
      refine ⟨a1, ?_, ?_, ?_, ?_, ?_⟩
      · intro x; rw [a2 x]; simp
      · rw [a3, List.reverse_cons, List.find?_append]
        simp [hc]
      · intro x
        rw [List.find?_cons, List.find?_cons, hch x]
        simp only
        cases s.contains x with
        | true => rfl
        | false => exact a4 x
      · intro b hb
        rcases List.mem_cons.1 hb with rfl | hb
        · exact ⟨List.mem_cons_self, sc, fun x => by rw [hch x]⟩
        · obtain ⟨m, rest⟩ := a5 b hb
          exact ⟨List.mem_cons_of_mem _ m, rest⟩
      · simp [a6, hc]

end Verif.Inspect
