import Verif.Intervals
/-!
# Helper lemmas for the interval model
-/
namespace Verif.Intervals
open Verif

/-! ## The edge order -/

theorem Edge.less_iff (a b : Edge) :
    Edge.less a b = true ↔ a.x.toNat < b.x.toNat ∨ (a.x.toNat = b.x.toNat ∧ b.d < a.d) := by
  simp [Edge.less, UInt64.lt_iff_toNat_lt, ← UInt64.toNat_inj]

theorem Edge.le_iff (a b : Edge) :
    Edge.le a b = true ↔ a.x.toNat < b.x.toNat ∨ (a.x.toNat = b.x.toNat ∧ b.d ≤ a.d) := by
  have h := Edge.less_iff b a
  unfold Edge.le
  cases hb : Edge.less b a
  · have : ¬ _ := fun hc => by rw [h.2 hc] at hb; exact absurd hb (by simp)
    simp; omega
  · have := h.1 hb
    simp; omega

theorem Edge.le_trans (a b c : Edge) (h1 : Edge.le a b = true) (h2 : Edge.le b c = true) :
    Edge.le a c = true := by
  rw [Edge.le_iff] at *; omega

theorem Edge.le_total (a b : Edge) : (Edge.le a b || Edge.le b a) = true := by
  rw [Bool.or_eq_true, Edge.le_iff, Edge.le_iff]; omega

theorem Edge.le_antisymm {a b : Edge} (h1 : Edge.le a b = true) (h2 : Edge.le b a = true) : a = b := by
  rw [Edge.le_iff] at *
  obtain ⟨ax, ad⟩ := a
  obtain ⟨bx, bd⟩ := b
  simp only [Edge.mk.injEq] at *
  exact ⟨UInt64.toNat_inj.1 (by omega), by omega⟩

theorem insertEdge_perm (e : Edge) (es : List Edge) : (insertEdge e es).Perm (e :: es) := by
  induction es with
  | nil => exact List.Perm.refl _
  | cons f fs ih =>
    unfold insertEdge
    split
    · exact List.Perm.refl _
    · exact (ih.cons f).trans (List.Perm.swap e f fs)

theorem insertEdge_sorted (e : Edge) (es : List Edge)
    (h : es.Pairwise (fun a b => Edge.le a b = true)) :
    (insertEdge e es).Pairwise (fun a b => Edge.le a b = true) := by
  induction es with
  | nil => simp [insertEdge]
  | cons f fs ih =>
    have h' := List.pairwise_cons.1 h
    unfold insertEdge
    split
    · rename_i hle
      refine List.pairwise_cons.2 ⟨?_, h⟩
      intro g hg
      rcases List.mem_cons.1 hg with rfl | hg
      · exact hle
      · exact Edge.le_trans _ _ _ hle (h'.1 g hg)
    · rename_i hle
      refine List.pairwise_cons.2 ⟨?_, ih h'.2⟩
      intro g hg
      rcases List.mem_cons.1 ((insertEdge_perm e fs).mem_iff.1 hg) with rfl | hg
      · have := Edge.le_total g f
        simpa [hle] using this
      · exact h'.1 g hg

theorem sortEdges_perm (es : List Edge) : (sortEdges es).Perm es := by
  induction es with
  | nil => exact List.Perm.refl _
  | cons e es ih => exact (insertEdge_perm e _).trans (ih.cons e)

theorem sortEdges_sorted (es : List Edge) :
    (sortEdges es).Pairwise (fun a b => Edge.le a b = true) := by
  induction es with
  | nil => simp [sortEdges]
  | cons e es ih => exact insertEdge_sorted e _ ih

/-- Any sorted rearrangement is the one the model uses, so an unstable sort is covered. -/
theorem sortEdges_unique {es es' : List Edge} (hp : es'.Perm es)
    (hs : es'.Pairwise (fun a b => Edge.le a b = true)) : es' = sortEdges es :=
  List.Perm.eq_of_pairwise (fun _ _ _ _ => Edge.le_antisymm) hs (sortEdges_sorted es)
    (hp.trans (sortEdges_perm es).symm)

theorem sortEdges_congr {es es' : List Edge} (hp : es'.Perm es) : sortEdges es' = sortEdges es :=
  sortEdges_unique ((sortEdges_perm es').trans hp) (sortEdges_sorted es')

/-! ## The sweep -/

/-- Point `x` (taken after the opening and before the closing edges at `x`) precedes edge `e`. -/
def Prec (x : UInt64) (e : Edge) : Prop := x.toNat < e.x.toNat ∨ (x.toNat = e.x.toNat ∧ e.d = -1)

instance (x : UInt64) (e : Edge) : Decidable (Prec x e) := by unfold Prec; infer_instance

/-- Contribution of edge `e` to the level at point `x`. -/
def contrib (x : UInt64) (e : Edge) : Int := if Prec x e then 0 else e.d

/-- Level at `x` starting from `n`. -/
def lvl (x : UInt64) (n : Int) (es : List Edge) : Int := n + (es.map (contrib x)).sum

def IsEdge (e : Edge) : Prop := e.d = 1 ∨ e.d = -1

theorem prec_mono {x : UInt64} {e f : Edge} (hf : IsEdge f) (h : Prec x e)
    (hle : Edge.le e f = true) : Prec x f := by
  rw [Edge.le_iff] at hle
  unfold Prec IsEdge at *; omega

theorem lvl_nil (x n) : lvl x n [] = n := by simp [lvl]
theorem lvl_cons (x n e es) : lvl x n (e :: es) = lvl x (n + contrib x e) es := by
  simp [lvl]; omega

theorem lvl_prec {x n es} (h : ∀ e ∈ es, Prec x e) : lvl x n es = n := by
  induction es generalizing n with
  | nil => exact lvl_nil ..
  | cons e es ih =>
    rw [lvl_cons, ih (fun f hf => h f (List.mem_cons_of_mem _ hf))]
    simp [contrib, h e List.mem_cons_self]

theorem range_ok {l h : UInt64} (hle : l.toNat ≤ h.toNat) : range l h = .ok ⟨l, h⟩ := by
  unfold range
  rw [if_neg (by rw [UInt64.lt_iff_toNat_lt]; omega)]

theorem Interval.contains_iff (i : Interval) (x : UInt64) :
    i.contains x = true ↔ i.lo.toNat ≤ x.toNat ∧ x.toNat ≤ i.hi.toNat := by
  simp [Interval.contains, UInt64.le_iff_toNat_le]

/-- Hypotheses maintained by the sweep loop. -/
structure SweepInv (t : Int) (es : List Edge) (n : Int) (inside : Bool) (start : UInt64) : Prop where
  sorted : es.Pairwise (fun a b => Edge.le a b = true)
  edges : ∀ e ∈ es, IsEdge e
  inside_iff : inside = true ↔ t ≤ n
  start_le : inside = true → ∀ e ∈ es, start.toNat ≤ e.x.toNat

theorem sweep_spec (t : Int) (es : List Edge) : ∀ (n : Int) (inside : Bool) (start : UInt64),
    SweepInv t es n inside start → n + (es.map (·.d)).sum < t →
    ∃ r, sweep t es n inside start = .ok r ∧
      (∀ x, (r.any (·.contains x) = true ↔
        (t ≤ lvl x n es ∧ (inside = true → (∀ e ∈ es, Prec x e) → start.toNat ≤ x.toNat)))) ∧
      (∀ i ∈ r, i.Valid) ∧
      r.Pairwise (fun a b => a.hi < b.lo) ∧
      (∀ i ∈ r, (inside = true → start.toNat ≤ i.lo.toNat) ∧
        ∀ y : Nat, (inside = false ∧ ∀ e ∈ es, y < e.x.toNat ∨ (y = e.x.toNat ∧ e.d = -1)) →
          y < i.lo.toNat) ∧
      r.length ≤ (es.filter (fun e => e.d = -1)).length := by
  induction es with
  | nil =>
    intro n inside start hinv hfin
    simp at hfin
    refine ⟨[], rfl, ?_, by simp, by simp, by simp, by simp⟩
    intro x
    simp [lvl_nil]
    intro h; omega
  | cons e es ih =>
    intro n inside start hinv hfin
    obtain ⟨hsort, hedge, hin, hst⟩ := hinv
    have hsort' := (List.pairwise_cons.1 hsort)
    have he : IsEdge e := hedge e List.mem_cons_self
    have hes : ∀ f ∈ es, IsEdge f := fun f hf => hedge f (List.mem_cons_of_mem _ hf)
    have hxle : ∀ f ∈ es, e.x.toNat ≤ f.x.toNat := fun f hf => by
      have := (Edge.le_iff _ _).1 (hsort'.1 f hf); omega
    have hfin' : (n + e.d) + (es.map (·.d)).sum < t := by
      simp at hfin; omega
    have hpall : ∀ x, Prec x e → ∀ f ∈ e :: es, Prec x f := by
      intro x hp f hf
      rcases List.mem_cons.1 hf with rfl | hf
      · exact hp
      · exact prec_mono (hes f hf) hp (hsort'.1 f hf)
    have hpall' : ∀ x, Prec x e → ∀ f ∈ es, Prec x f := fun x hp f hf =>
      hpall x hp f (List.mem_cons_of_mem _ hf)
    have hlv : ∀ x, ¬ Prec x e → lvl x n (e :: es) = lvl x (n + e.d) es := by
      intro x hp; rw [lvl_cons]; simp [contrib, hp]
    have hnp : ∀ x, ¬ Prec x e → e.x.toNat ≤ x.toNat := by
      intro x hp; unfold Prec at hp; omega
    unfold IsEdge at he
    unfold sweep
    simp only []
    by_cases hA : inside = false ∧ n + e.d ≥ t
    · obtain ⟨hA1, hA2⟩ := hA
      subst hA1
      simp only [Bool.not_false, Bool.true_and, decide_eq_true_eq, hA2, if_true]
      have hn : ¬ t ≤ n := fun h => by simp [h] at hin
      have hd : e.d = 1 := by omega
      obtain ⟨r, hr, hc, hv, hp, hb, hl⟩ := ih (n + e.d) true e.x
        ⟨hsort'.2, hes, by simp [hA2], fun _ => hxle⟩ hfin'
      refine ⟨r, hr, ?_, hv, hp, ?_, ?_⟩
      · intro x
        rw [hc x]
        by_cases hpx : Prec x e
        · have h1 : lvl x n (e :: es) = n := lvl_prec (hpall x hpx)
          rw [h1]
          constructor
          · rintro ⟨_, h2⟩
            have := h2 rfl (hpall' x hpx)
            unfold Prec at hpx; omega
          · rintro ⟨h, _⟩; exact absurd h hn
        · rw [hlv x hpx]
          have := hnp x hpx
          constructor
          · rintro ⟨h, _⟩; exact ⟨h, by simp⟩
          · rintro ⟨h, _⟩; exact ⟨h, fun _ _ => this⟩
      · intro i hi
        refine ⟨by simp, ?_⟩
        rintro y ⟨_, hy⟩
        have h1 := (hb i hi).1 rfl
        have h2 := hy e List.mem_cons_self
        omega
      · simp [hd]; omega
    · have hA' : (!inside && decide (n + e.d ≥ t)) = false := by
        cases inside <;> simp_all
      simp only [hA', Bool.false_eq_true, if_false]
      by_cases hB : inside = true ∧ n + e.d < t
      · obtain ⟨hB1, hB2⟩ := hB
        subst hB1
        simp only [Bool.true_and, decide_eq_true_eq, hB2, if_true]
        have hn : t ≤ n := hin.1 rfl
        have hd : e.d = -1 := by omega
        have hse := hst rfl e List.mem_cons_self
        obtain ⟨r, hr, hc, hv, hp, hb, hl⟩ := ih (n + e.d) false start
          ⟨hsort'.2, hes, by simp; omega, by simp⟩ hfin'
        refine ⟨⟨start, e.x⟩ :: r, ?_, ?_, ?_, ?_, ?_, ?_⟩
        · rw [range_ok hse, hr]; rfl
        · intro x
          rw [List.any_cons, Bool.or_eq_true, hc x, Interval.contains_iff]
          simp only
          by_cases hpx : Prec x e
          · have h1 : lvl x n (e :: es) = n := lvl_prec (hpall x hpx)
            have h2 : lvl x (n + e.d) es = n + e.d := lvl_prec (hpall' x hpx)
            rw [h1, h2]
            constructor
            · rintro (⟨h, _⟩ | ⟨h, _⟩)
              · exact ⟨hn, fun _ _ => h⟩
              · omega
            · rintro ⟨_, h⟩
              left
              refine ⟨h trivial (hpall x hpx), ?_⟩
              unfold Prec at hpx; omega
          · rw [hlv x hpx]
            have := hnp x hpx
            constructor
            · rintro (⟨h1, h2⟩ | ⟨h, _⟩)
              · exfalso; apply hpx; unfold Prec; omega
              · exact ⟨h, fun _ _ => by omega⟩
            · rintro ⟨h, _⟩; right; exact ⟨h, by simp⟩
        · intro i hi
          rcases List.mem_cons.1 hi with rfl | hi
          · exact UInt64.le_iff_toNat_le.2 hse
          · exact hv i hi
        · refine List.pairwise_cons.2 ⟨?_, hp⟩
          intro i hi
          rw [UInt64.lt_iff_toNat_lt]
          apply (hb i hi).2
          refine ⟨rfl, fun f hf => ?_⟩
          have h1 := (Edge.le_iff _ _).1 (hsort'.1 f hf)
          have h2 := hes f hf
          unfold IsEdge at h2
          simp only
          omega
        · intro i hi
          refine ⟨fun _ => ?_, by simp⟩
          rcases List.mem_cons.1 hi with rfl | hi
          · exact Nat.le_refl _
          · have := (hb i hi).2 e.x.toNat ⟨rfl, fun f hf => by
              have h1 := (Edge.le_iff _ _).1 (hsort'.1 f hf)
              have h2 := hes f hf
              unfold IsEdge at h2
              omega⟩
            omega
        · simp [hd]; omega
      · have hB' : (inside && decide (n + e.d < t)) = false := by
          cases inside <;> simp_all
        simp only [hB', Bool.false_eq_true, if_false]
        have hin' : inside = true ↔ t ≤ n + e.d := by
          cases inside
          · simp at hA ⊢; omega
          · simp at hB ⊢; omega
        obtain ⟨r, hr, hc, hv, hp, hb, hl⟩ := ih (n + e.d) inside start
          ⟨hsort'.2, hes, hin', fun h f hf => hst h f (List.mem_cons_of_mem _ hf)⟩ hfin'
        refine ⟨r, hr, ?_, hv, hp, ?_, ?_⟩
        · intro x
          rw [hc x]
          by_cases hpx : Prec x e
          · have h1 : lvl x n (e :: es) = n := lvl_prec (hpall x hpx)
            have h2 : lvl x (n + e.d) es = n + e.d := lvl_prec (hpall' x hpx)
            rw [h1, h2]
            have := hpall x hpx
            have h' := hpall' x hpx
            rw [← hin, ← hin']
            constructor
            · rintro ⟨a, b⟩; exact ⟨a, fun c _ => b c h'⟩
            · rintro ⟨a, b⟩; exact ⟨a, fun c _ => b c this⟩
          · rw [hlv x hpx]
            have hx := hnp x hpx
            constructor
            · rintro ⟨a, _⟩
              exact ⟨a, fun c _ => by have := hst c e List.mem_cons_self; omega⟩
            · rintro ⟨a, _⟩
              exact ⟨a, fun c _ => by have := hst c e List.mem_cons_self; omega⟩
        · intro i hi
          refine ⟨(hb i hi).1, ?_⟩
          rintro y ⟨h1, h2⟩
          exact (hb i hi).2 y ⟨h1, fun f hf => h2 f (List.mem_cons_of_mem _ hf)⟩
        · by_cases hd : e.d = -1
          · simp [hd]; omega
          · simp [hd]; exact hl

/-! ## From edges to interval counts -/

theorem intervaledges_isEdge (is : List Interval) : ∀ e ∈ intervaledges is, IsEdge e := by
  induction is with
  | nil => simp [intervaledges]
  | cons i is ih =>
    intro e he
    simp only [intervaledges, List.mem_cons] at he
    rcases he with rfl | rfl | he
    · left; rfl
    · right; rfl
    · exact ih e he

theorem intervaledges_sum (is : List Interval) : ((intervaledges is).map (·.d)).sum = 0 := by
  induction is with
  | nil => rfl
  | cons i is ih => simp [intervaledges, ih]

theorem intervaledges_append (a b : List Interval) :
    intervaledges (a ++ b) = intervaledges a ++ intervaledges b := by
  induction a with
  | nil => rfl
  | cons i is ih => simp [intervaledges, ih]

theorem flatMap_intervaledges (iss : List (List Interval)) :
    iss.flatMap intervaledges = intervaledges iss.flatten := by
  induction iss with
  | nil => rfl
  | cons i is ih => simp [intervaledges_append, ih]

theorem intervaledges_closing (is : List Interval) :
    ((intervaledges is).filter (fun e => e.d = -1)).length = is.length := by
  induction is with
  | nil => rfl
  | cons i is ih => simpa [intervaledges] using ih

theorem lvl_intervaledges (x : UInt64) (is : List Interval) (hv : ∀ i ∈ is, i.Valid) :
    lvl x 0 (intervaledges is) = (is.countP (·.contains x) : Nat) := by
  induction is with
  | nil => simp [intervaledges, lvl_nil]
  | cons i is ih =>
    have hi := hv i List.mem_cons_self
    have ih := ih (fun j hj => hv j (List.mem_cons_of_mem _ hj))
    unfold lvl at *
    simp only [intervaledges, List.map_cons, List.sum_cons, List.countP_cons]
    have h1 : contrib x ⟨i.lo, 1⟩ + contrib x ⟨i.hi, -1⟩ = if i.contains x then 1 else 0 := by
      have hc := Interval.contains_iff i x
      have hi := UInt64.le_iff_toNat_le.1 hi
      unfold contrib Prec
      simp only [and_true, show ¬ ((1 : Int) = -1) by decide, and_false, or_false]
      by_cases hcx : i.contains x = true
      · have := hc.1 hcx
        rw [if_neg (by omega), if_pos (by omega), if_pos hcx]; rfl
      · have : ¬ _ := fun h => hcx (hc.2 h)
        rw [if_neg hcx]
        split <;> split <;> omega
    split at h1 <;> simp_all <;> omega

theorem sum_perm {a b : List Int} (h : a.Perm b) : a.sum = b.sum := by
  induction h with
  | nil => rfl
  | cons x _ ih => simp [ih]
  | swap x y l => simp; omega
  | trans _ _ h1 h2 => exact h1.trans h2

theorem lvl_perm {x n} {es es' : List Edge} (h : es.Perm es') : lvl x n es = lvl x n es' := by
  unfold lvl
  rw [sum_perm (h.map _)]

/-- What `thresholds` computes: the points covered at least `t` times, as a sorted list of disjoint
valid intervals; it never panics. -/
theorem thresholds_spec (t : Int) (ht : 1 ≤ t) (iss : List (List Interval))
    (hv : ∀ i ∈ iss.flatten, i.Valid) :
    ∃ r, thresholds t iss = .ok r ∧
      (∀ x, r.any (·.contains x) = true ↔ t ≤ (iss.flatten.countP (·.contains x) : Nat)) ∧
      (∀ i ∈ r, i.Valid) ∧ r.Pairwise (fun a b => a.hi < b.lo) ∧
      r.length ≤ iss.flatten.length := by
  unfold thresholds
  rw [flatMap_intervaledges]
  generalize iss.flatten = is at *
  have hp := sortEdges_perm (intervaledges is)
  obtain ⟨r, hr, hc, hv', hpw, _, hl⟩ := sweep_spec t (sortEdges (intervaledges is)) 0 false 0
    ⟨sortEdges_sorted _, fun e he => intervaledges_isEdge is e (hp.mem_iff.1 he), by simp; omega,
      by simp⟩
    (by rw [sum_perm (hp.map _), intervaledges_sum]; omega)
  refine ⟨r, hr, ?_, hv', hpw, ?_⟩
  · intro x
    rw [hc x, lvl_perm hp, lvl_intervaledges x is hv]
    simp
  · rw [(hp.filter _).length_eq, intervaledges_closing] at hl
    exact hl

theorem edges_above (h : UInt64) (is : List Interval) (h1 : ∀ j ∈ is, h < j.lo)
    (hv : ∀ j ∈ is, j.Valid) : ∀ e ∈ intervaledges is, h.toNat < e.x.toNat := by
  induction is with
  | nil => simp [intervaledges]
  | cons j js ih =>
    intro e he
    have a := UInt64.lt_iff_toNat_lt.1 (h1 j List.mem_cons_self)
    have b := UInt64.le_iff_toNat_le.1 (hv j List.mem_cons_self)
    simp only [intervaledges, List.mem_cons] at he
    rcases he with rfl | rfl | he
    · exact a
    · simp only; omega
    · exact ih (fun k hk => h1 k (List.mem_cons_of_mem _ hk))
        (fun k hk => hv k (List.mem_cons_of_mem _ hk)) e he

/-- The edges of a sorted disjoint list are already sorted. -/
theorem sortEdges_of_sorted (r : List Interval) (hv : ∀ i ∈ r, i.Valid)
    (hp : r.Pairwise (fun a b => a.hi < b.lo)) : sortEdges (intervaledges r) = intervaledges r := by
  symm
  apply sortEdges_unique (List.Perm.refl _)
  induction r with
  | nil => simp [intervaledges]
  | cons i is ih =>
    have h := List.pairwise_cons.1 hp
    have hi := UInt64.le_iff_toNat_le.1 (hv i List.mem_cons_self)
    have ih := ih (fun j hj => hv j (List.mem_cons_of_mem _ hj)) h.2
    have key := edges_above i.hi is h.1 (fun j hj => hv j (List.mem_cons_of_mem _ hj))
    rw [intervaledges, List.pairwise_cons, List.pairwise_cons]
    simp only [List.mem_cons, Edge.le_iff]
    refine ⟨?_, ?_, by simpa only [Edge.le_iff] using ih⟩
    · rintro e (rfl | he)
      · simp only; omega
      · have := key e he; omega
    · intro e he
      have := key e he; omega

theorem sweep_fix (r : List Interval) (hv : ∀ i ∈ r, i.Valid) (s : UInt64) :
    sweep 1 (intervaledges r) 0 false s = .ok r := by
  induction r generalizing s with
  | nil => rfl
  | cons i is ih =>
    have hi := UInt64.le_iff_toNat_le.1 (hv i List.mem_cons_self)
    have ih := ih (fun j hj => hv j (List.mem_cons_of_mem _ hj)) i.lo
    simp [intervaledges, sweep, range_ok hi, ih]

/-! ## Complement -/

theorem toNat_max : (maxU64).toNat = 2 ^ 64 - 1 := rfl

theorem complementFrom_spec (is : List Interval) : ∀ (s : UInt64),
    (∀ i ∈ is, i.Valid) → is.Pairwise (fun a b => a.hi < b.lo) →
    (∀ i ∈ is, s.toNat ≤ i.lo.toNat) → (is = [] → s ≠ 0) →
    ∃ r, complementFrom s is = .ok r ∧
      (∀ x : UInt64, r.countP (·.contains x) =
        if s.toNat ≤ x.toNat ∧ is.any (·.contains x) = false then 1 else 0) ∧
      (∀ i ∈ r, i.Valid) := by
  induction is with
  | nil =>
    intro s _ _ _ hs
    have h0 : s ≠ 0 := hs rfl
    have hle : s.toNat ≤ maxU64.toNat := by rw [toNat_max]; have := s.toNat_lt; omega
    refine ⟨[⟨s, maxU64⟩], ?_, ?_, ?_⟩
    · simp [complementFrom, h0, openRight, range_ok hle]
    · intro x
      have hx := x.toNat_lt
      have hc := Interval.contains_iff ⟨s, maxU64⟩ x
      simp only [toNat_max] at hc
      simp only [List.countP_cons, List.countP_nil, List.any_nil, and_true, Nat.zero_add]
      by_cases h : s.toNat ≤ x.toNat
      · rw [if_pos (hc.2 ⟨h, by omega⟩), if_pos h]
      · rw [if_neg (fun hh => h (hc.1 hh).1), if_neg h]
    · intro i hi
      rw [List.mem_singleton.1 hi]
      exact UInt64.le_iff_toNat_le.2 hle
  | cons i is ih =>
    intro s hv hp hlo hs
    have hp' := List.pairwise_cons.1 hp
    have hi := UInt64.le_iff_toNat_le.1 (hv i List.mem_cons_self)
    have hsi := hlo i List.mem_cons_self
    have hhi := i.hi.toNat_lt
    have key : ∃ r, complementFrom (i.hi + 1) is = .ok r ∧
      (∀ x : UInt64, r.countP (·.contains x) =
        if i.hi.toNat < x.toNat ∧ is.any (·.contains x) = false then 1 else 0) ∧
      (∀ i ∈ r, i.Valid) := by
      by_cases hw : i.hi.toNat = 2 ^ 64 - 1
      · -- nothing can follow an interval ending at the maximum
        have : is = [] := by
          cases is with
          | nil => rfl
          | cons j js =>
            have := UInt64.lt_iff_toNat_lt.1 (hp'.1 j List.mem_cons_self)
            have := j.lo.toNat_lt
            omega
        subst this
        refine ⟨[], ?_, ?_, by simp⟩
        · have : i.hi + 1 = 0 := by
            apply UInt64.toNat_inj.1
            rw [UInt64.toNat_add, hw]; rfl
          simp [complementFrom, this]
        · intro x
          have := x.toNat_lt
          rw [if_neg (by omega)]; rfl
      · have hadd : (i.hi + 1).toNat = i.hi.toNat + 1 := by
          rw [UInt64.toNat_add]
          have : (1 : UInt64).toNat = 1 := rfl
          rw [this, Nat.mod_eq_of_lt (by omega)]
        obtain ⟨r, h1, h2, h3⟩ := ih (i.hi + 1) (fun j hj => hv j (List.mem_cons_of_mem _ hj)) hp'.2
          (fun j hj => by
            have := UInt64.lt_iff_toNat_lt.1 (hp'.1 j hj)
            omega)
          (fun _ h => by rw [h] at hadd; simp at hadd)
        refine ⟨r, h1, ?_, h3⟩
        intro x
        rw [h2 x, hadd]; rfl
    obtain ⟨r, h1, h2, h3⟩ := key
    have hany : ∀ x : UInt64, x.toNat ≤ i.hi.toNat → is.any (·.contains x) = false := by
      intro x hx
      rw [List.any_eq_false]
      intro j hj hc
      have a := UInt64.lt_iff_toNat_lt.1 (hp'.1 j hj)
      have b := (Interval.contains_iff j x).1 hc
      omega
    by_cases hgt : s.toNat < i.lo.toNat
    · have hsub : (i.lo - 1).toNat = i.lo.toNat - 1 := by
        rw [UInt64.toNat_sub_of_le _ _ (by rw [UInt64.le_iff_toNat_le]; show 1 ≤ _; omega)]; rfl
      refine ⟨⟨s, i.lo - 1⟩ :: r, ?_, ?_, ?_⟩
      · have : i.lo > s := UInt64.lt_iff_toNat_lt.2 hgt
        simp [complementFrom, this, range_ok (l := s) (h := i.lo - 1) (by omega), h1]
      · intro x
        rw [List.countP_cons, h2 x, List.any_cons]
        have hc := Interval.contains_iff ⟨s, i.lo - 1⟩ x
        simp only [hsub] at hc
        have hci := Interval.contains_iff i x
        by_cases c1 : x.toNat < i.lo.toNat
        · have e1 : i.contains x = false := by
            cases h : i.contains x
            · rfl
            · have := hci.1 h; omega
          rw [if_neg (by omega), e1, hany x (by omega)]
          by_cases c2 : s.toNat ≤ x.toNat
          · rw [if_pos (hc.2 (by omega)), if_pos (by simp [c2])]
          · rw [if_neg (fun h => by have := hc.1 h; omega), if_neg (by simp [c2])]
        · have e0 : (⟨s, i.lo - 1⟩ : Interval).contains x = false := by
            cases h : (⟨s, i.lo - 1⟩ : Interval).contains x
            · rfl
            · have := hc.1 h; omega
          rw [e0]
          by_cases c3 : x.toNat ≤ i.hi.toNat
          · rw [if_neg (by omega), hci.2 (by omega)]; simp
          · have e1 : i.contains x = false := by
              cases h : i.contains x
              · rfl
              · have := hci.1 h; omega
            have a1 : i.hi.toNat < x.toNat := by omega
            have a2 : s.toNat ≤ x.toNat := by omega
            simp [e1, a1, a2]
      · intro j hj
        rcases List.mem_cons.1 hj with rfl | hj
        · exact UInt64.le_iff_toNat_le.2 (by simp only; omega)
        · exact h3 j hj
    · refine ⟨r, ?_, ?_, h3⟩
      · have : ¬ i.lo > s := fun h => hgt (UInt64.lt_iff_toNat_lt.1 h)
        simp [complementFrom, this, h1]
      · intro x
        rw [h2 x, List.any_cons]
        have hci := Interval.contains_iff i x
        by_cases c3 : x.toNat ≤ i.hi.toNat
        · by_cases c4 : s.toNat ≤ x.toNat
          · rw [if_neg (by omega), hci.2 (by omega), if_neg (by simp)]
          · rw [if_neg (by omega), if_neg (by simp [c4])]
        · have e1 : i.contains x = false := by
            cases h : i.contains x
            · rfl
            · have := hci.1 h; omega
          have a1 : i.hi.toNat < x.toNat := by omega
          have a2 : s.toNat ≤ x.toNat := by omega
          simp [e1, a1, a2]

end Verif.Intervals
