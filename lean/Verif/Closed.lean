import Verif.Complete
/-!
# Formats without to-the-end constructs
-/
set_option linter.unusedVariables false
namespace Verif.Wire
open Verif.Ast Verif.Go Verif.Spec Verif.Refine

/-! ## Specification -/

/-- An element type whose extent does not depend on what follows; `C` are the structs of that kind. -/
def BaseClosed (C : String → Prop) : Base → Prop
  | .int _ => True
  | .char => True
  | .struct n => C n

/-- A field type whose extent does not depend on what follows: no array to the end, none up to a distance
from the end. -/
def TyClosed (C : String → Prop) : Ty → Prop
  | .base b => BaseClosed C b
  | .ptr => True
  | .nulterm => True
  | .fixedArray b _ => BaseClosed C b
  | .varArray b (some (.idRef _)) => BaseClosed C b
  | .varArray _ (some (.leftover _)) => False
  | .varArray _ none => False

/-- A leaf whose extent does not depend on what follows: neither `eos` nor `ignore`. -/
def LeafClosed (C : String → Prop) : Leaf → Prop
  | .field f => TyClosed C f.type
  | .eos => False
  | .ignore => False
  | .fail => True

/-- The union contains no `@ptr`. -/
def NoPtr (u : UnionMember) : Prop := ∀ c ∈ u.cases, ∀ f ∈ leafFields c.members, f.type ≠ .ptr

/-- A member whose extent does not depend on what follows. Anything may be inside a union with a length
given by a field, except `@ptr`, which there is computed from the length of the whole input. -/
def MemberClosed (C : String → Prop) : Member → Prop
  | .leaf l => LeafClosed C l
  | .union u =>
    match u.length with
    | none => ∀ c ∈ u.cases, ∀ l ∈ c.members, LeafClosed C l
    | some (.idRef _) => NoPtr u
    | some (.leftover _) => False

/-- `C` are structs defined in the format without to-the-end constructs, nested ones included. -/
def Closed (Γ : Fmt) (C : String → Prop) : Prop :=
  ∀ n, C n → ∃ s, Γ.structs n = some s ∧ s.extern = false ∧ ∀ m ∈ s.ms, MemberClosed C m

instance (u : UnionMember) : Decidable (NoPtr u) := by unfold NoPtr; infer_instance

instance {C : String → Prop} [DecidablePred C] : (b : Base) → Decidable (BaseClosed C b)
  | .int _ => .isTrue trivial
  | .char => .isTrue trivial
  | .struct n => inferInstanceAs (Decidable (C n))

instance {C : String → Prop} [DecidablePred C] : (t : Ty) → Decidable (TyClosed C t)
  | .base b => inferInstanceAs (Decidable (BaseClosed C b))
  | .ptr => .isTrue trivial
  | .nulterm => .isTrue trivial
  | .fixedArray b _ => inferInstanceAs (Decidable (BaseClosed C b))
  | .varArray b (some (.idRef _)) => inferInstanceAs (Decidable (BaseClosed C b))
  | .varArray _ (some (.leftover _)) => .isFalse id
  | .varArray _ none => .isFalse id

instance {C : String → Prop} [DecidablePred C] : (l : Leaf) → Decidable (LeafClosed C l)
  | .field f => inferInstanceAs (Decidable (TyClosed C f.type))
  | .eos => .isFalse id
  | .ignore => .isFalse id
  | .fail => .isTrue trivial

instance {C : String → Prop} [DecidablePred C] : (m : Member) → Decidable (MemberClosed C m)
  | .leaf l => inferInstanceAs (Decidable (LeafClosed C l))
  | .union ⟨_, _, none, cs⟩ => inferInstanceAs (Decidable (∀ c ∈ cs, ∀ l ∈ c.members, LeafClosed C l))
  | .union ⟨a, b, some (.idRef r), cs⟩ => inferInstanceAs (Decidable (NoPtr ⟨a, b, some (.idRef r), cs⟩))
  | .union ⟨_, _, some (.leftover _), _⟩ => .isFalse id

variable {Γ : Fmt} {A L : Nat} {S : SDec} {ctx : Ctx} {D : Nat} {s : Struct} {C : String → Prop}

/-! ## No dependence on the length of the input -/

theorem decLeaves_noptr {D D' : Nat} : ∀ {ls : List Leaf} {o : Fields} {w : Bytes},
    (∀ f ∈ leafFields ls, f.type ≠ .ptr) → decLeaves Γ A S L ctx D ls o w = decLeaves Γ A S L ctx D' ls o w := by
  intro ls
  induction ls with
  | nil => intro o w _; rfl
  | cons l ls ih =>
    intro o w h
    have hl : decLeaf Γ A S L ctx D o w l = decLeaf Γ A S L ctx D' o w l := by
      cases l with
      | field f =>
        obtain ⟨f, t⟩ := f
        have := h ⟨f, t⟩ (by simp [leafFields])
        cases t with
        | ptr => exact absurd rfl this
        | varArray b c => rcases c with _ | (_ | _) <;> rfl
        | _ => rfl
      | eos => rfl
      | ignore => rfl
      | fail => rfl
    have hls := fun {o w} => ih (o := o) (w := w) (fun f hf => h f (by
      simp only [leafFields, List.filterMap_cons] at hf ⊢
      split
      · exact hf
      · exact List.mem_cons_of_mem _ hf))
    simp only [decLeaves, hl, hls]

theorem decCases_noptr {D D' : Nat} {u : UnionMember} (hu : NoPtr u) {o : Fields} {w : Bytes} :
    decCases Γ A S L ctx D u o w = decCases Γ A S L ctx D' u o w := by
  unfold decCases
  split
  · rfl
  · split
    · rename_i c hc
      exact decLeaves_noptr (hu c (selectCase_mem hc))
    · rfl

/-! ## Extending the input -/

/-- Nested structs are stable under extending the input. -/
def ExtS (C : String → Prop) (S : SDec) : Prop := ∀ n, C n → ∀ w v r x, S n w = .ok (v, r) → S n (w ++ x) = .ok (v, r ++ x)

theorem decInt_ext {t : IntType} {w r x : Bytes} {v : Val} (h : decInt Γ t w = .ok (v, r)) :
    decInt Γ t (w ++ x) = .ok (v, r ++ x) := by
  unfold decInt at h ⊢
  split at h
  · cases h
  · rename_i hl
    have h1 : (w ++ x).take (t.size / 8) = w.take (t.size / 8) := List.take_append_of_le_length (by omega)
    have h2 : (w ++ x).drop (t.size / 8) = w.drop (t.size / 8) ++ x := List.drop_append_of_le_length (by omega)
    rw [if_neg (by simp only [List.length_append]; omega), h1, h2]
    split at h
    · cases h; rfl
    · rename_i l hc
      split at h
      · rename_i hh; cases h; rw [if_pos hh]
      · cases h

theorem decBase_ext (hS : ExtS C S) {b : Base} (hb : BaseClosed C b) {w r x : Bytes} {v : Val}
    (h : decBase Γ S b w = .ok (v, r)) : decBase Γ S b (w ++ x) = .ok (v, r ++ x) := by
  cases b with
  | int t => exact decInt_ext h
  | char => exact decInt_ext (Γ := Γ) h
  | struct n => exact hS n hb _ _ _ _ h

theorem decCount_ext (hS : ExtS C S) {b : Base} (hb : BaseClosed C b) {n : Int} {x : Bytes} : ∀ {k : Nat} {idx : Int} {acc vs : List Val}
    {w r : Bytes}, decCount (decBase Γ S b) n k idx acc w = .ok (vs, r) →
    decCount (decBase Γ S b) n k idx acc (w ++ x) = .ok (vs, r ++ x) := by
  intro k
  induction k with
  | zero => intro idx acc vs w r h; cases h
  | succ k ih =>
    intro idx acc vs w r h
    simp only [decCount] at h ⊢
    split at h
    · rename_i hi
      rw [if_pos hi]
      obtain ⟨⟨v, w'⟩, h1, h2⟩ := DOut.bind_eq_ok.1 h
      rw [decBase_ext hS hb h1]
      exact ih h2
    · rename_i hi
      rw [if_neg hi]
      cases h; rfl

theorem indexByte0_ext {w x : Bytes} (h : ¬ indexByte0 w < 0) : indexByte0 (w ++ x) = indexByte0 w := by
  obtain ⟨h1, h2⟩ := indexByte0_spec h
  have key : ∀ y, indexByte0 (w.take (indexByte0 w).toNat ++ 0 :: y) = (w.take (indexByte0 w).toNat).length :=
    fun y => indexByte0_append y h2
  have e1 := key (w.drop ((indexByte0 w).toNat + 1))
  have e2 := key (w.drop ((indexByte0 w).toNat + 1) ++ x)
  rw [← h1] at e1
  rw [e1, ← e2]
  congr 1
  conv => lhs; rw [h1]
  simp

theorem decTy_ext (hS : ExtS C S) {t : Ty} (ht : TyClosed C t) {o : Fields} {w r x : Bytes} {v : Val} (hw : w.length ≤ D)
    (h : decTy Γ A S L ctx D o w t = .ok (v, r)) : decTy Γ A S L ctx (D + x.length) o (w ++ x) t = .ok (v, r ++ x) := by
  cases t with
  | base b => exact decBase_ext hS ht h
  | ptr =>
    cases h
    simp only [decTy, List.length_append, DOut.ok.injEq, Prod.mk.injEq, and_true, Val.num.injEq]
    push_cast; omega
  | nulterm =>
    simp only [decTy] at h ⊢
    split at h
    · cases h
    · rename_i hi
      cases h
      obtain ⟨h1, _⟩ := indexByte0_spec hi
      have hlen := congrArg List.length h1
      simp only [List.length_append, List.length_take, List.length_cons, List.length_drop] at hlen
      rw [indexByte0_ext hi, if_neg hi, List.take_append_of_le_length (by omega), List.drop_append_of_le_length (by omega)]
  | fixedArray b n =>
    simp only [decTy] at h ⊢
    split at h
    · cases h
    · obtain ⟨⟨vs, w'⟩, h1, h2⟩ := DOut.bind_eq_ok.1 h
      cases h2
      rw [decCount_ext hS ht h1]; rfl
  | varArray b c =>
    rcases c with _ | (_ | _)
    · exact ht.elim
    · exact ht.elim
    · simp only [decTy] at h ⊢
      split at h
      · cases h
      · split at h
        · cases h
        · rename_i hn
          rw [if_neg hn]
          obtain ⟨⟨vs, w'⟩, h1, h2⟩ := DOut.bind_eq_ok.1 h
          cases h2
          rw [decCount_ext hS ht h1]; rfl

theorem decLeaf_ext (hS : ExtS C S) {l : Leaf} (hl : LeafClosed C l) {o o' : Fields} {w r x : Bytes} (hw : w.length ≤ D)
    (h : decLeaf Γ A S L ctx D o w l = .ok (o', r)) : decLeaf Γ A S L ctx (D + x.length) o (w ++ x) l = .ok (o', r ++ x) := by
  cases l with
  | field f =>
    simp only [decLeaf] at h ⊢
    obtain ⟨⟨v, w'⟩, h1, h2⟩ := DOut.bind_eq_ok.1 h
    cases h2
    rw [decTy_ext hS hl hw h1]; rfl
  | eos => exact hl.elim
  | ignore => exact hl.elim
  | fail => cases h

theorem decLeaves_ext (hS : ExtS C S) (hsuf : S.Suffix) : ∀ {ls : List Leaf}, (∀ l ∈ ls, LeafClosed C l) →
    ∀ {o o' : Fields} {w r x : Bytes}, w.length ≤ D →
    decLeaves Γ A S L ctx D ls o w = .ok (o', r) → decLeaves Γ A S L ctx (D + x.length) ls o (w ++ x) = .ok (o', r ++ x) := by
  intro ls
  induction ls with
  | nil => intro _ o o' w r x _ h; cases h; rfl
  | cons l ls ih =>
    intro hl o o' w r x hw h
    obtain ⟨⟨o1, w'⟩, h1, h2⟩ := DOut.bind_eq_ok.1 h
    have := (decLeaf_suffix hsuf h1).length_le
    simp only [decLeaves]
    rw [decLeaf_ext hS (hl l List.mem_cons_self) hw h1]
    exact ih (fun l h => hl l (List.mem_cons_of_mem _ h)) (by omega) h2

theorem decWindow_ext {α : Type} {n : Int} {w r x : Bytes} {body : Bytes → DOut (α × Bytes)} {a : α}
    (h : decWindow n w body = .ok (a, r)) : decWindow n (w ++ x) body = .ok (a, r ++ x) := by
  unfold decWindow at h ⊢
  split at h
  · cases h
  · rename_i hn
    rw [if_neg (by simp only [List.length_append]; omega), List.take_append_of_le_length (by omega),
      List.drop_append_of_le_length (by omega)]
    obtain ⟨⟨a', r'⟩, h1, h2⟩ := DOut.bind_eq_ok.1 h
    rw [h1]
    simp only [DOut.ok_bind] at h2 ⊢
    split at h2
    · cases h2
    · rename_i hr; rw [if_neg hr]; cases h2; rfl

theorem decMember_ext (hS : ExtS C S) (hsuf : S.Suffix) {m : Member} (hm : MemberClosed C m) {o o' : Fields} {w r x : Bytes}
    (hw : w.length ≤ D) (h : decMember Γ A S L ctx D o w m = .ok (o', r)) :
    decMember Γ A S L ctx (D + x.length) o (w ++ x) m = .ok (o', r ++ x) := by
  cases m with
  | leaf l => exact decLeaf_ext hS hm hw h
  | union u =>
    simp only [MemberClosed] at hm
    simp only [decMember] at h ⊢
    split at h
    · rename_i hu
      rw [hu] at hm
      unfold decCases at h ⊢
      split at h
      · cases h
      · split at h
        · rename_i c hc
          exact decLeaves_ext hS hsuf (hm c (selectCase_mem hc)) hw h
        · cases h; rfl
    · rename_i c hu
      rw [hu] at hm
      cases c with
      | leftover k => exact hm.elim
      | idRef ref =>
        simp only [decConstrained] at h ⊢
        split at h
        · cases h
        · split at h
          · cases h
          · rename_i hx
            rw [if_neg (by simp only [List.length_append]; omega)]
            have : (fun w => decCases Γ A S L ctx (D + x.length) u o w) = fun w => decCases Γ A S L ctx D u o w := by
              funext w; exact decCases_noptr hm
            rw [this]
            exact decWindow_ext h

theorem decMembers_ext (hS : ExtS C S) (hsuf : S.Suffix) : ∀ {ms : List Member}, (∀ m ∈ ms, MemberClosed C m) →
    ∀ {o o' : Fields} {w r x : Bytes}, w.length ≤ D →
    decMembers Γ A S L ctx D ms o w = .ok (o', r) → decMembers Γ A S L ctx (D + x.length) ms o (w ++ x) = .ok (o', r ++ x) := by
  intro ls
  induction ls with
  | nil => intro _ o o' w r x _ h; cases h; rfl
  | cons l ls ih =>
    intro hl o o' w r x hw h
    obtain ⟨⟨o1, w'⟩, h1, h2⟩ := DOut.bind_eq_ok.1 h
    have := (decMember_suffix hsuf h1).length_le
    simp only [decMembers]
    rw [decMember_ext hS hsuf (hl l List.mem_cons_self) hw h1]
    exact ih (fun l h => hl l (List.mem_cons_of_mem _ h)) (by omega) h2

/-- Extending the input of an accepted struct extends what is left. -/
theorem decStruct_ext (hC : Closed Γ C) : ∀ fuel, ExtS C (decStruct Γ A ctx fuel) := by
  intro fuel
  induction fuel with
  | zero => intro n _ w v r x h; cases h
  | succ fuel ih =>
    intro n hn w v r x h
    obtain ⟨s, hs, he, hm⟩ := hC n hn
    simp only [decStruct, hs, he, Bool.false_eq_true, if_false] at h ⊢
    obtain ⟨⟨o, w'⟩, h1, h2⟩ := DOut.bind_eq_ok.1 h
    cases h2
    rw [List.length_append, decMembers_ext ih (decStruct_suffix fuel) hm (Nat.le_refl _) h1]
    rfl

/-! ## Dropping bytes that were not used -/

/-- Nested structs do not use what they leave. -/
def CutS (C : String → Prop) (S : SDec) : Prop := ∀ n, C n → ∀ w v r x, S n (w ++ x) = .ok (v, r ++ x) → S n w = .ok (v, r)

theorem suffix_cut {r x q : Bytes} (h : r ++ x <:+ q) : ∃ q', q = q' ++ x := by
  obtain ⟨a, rfl⟩ := h
  exact ⟨a ++ r, by simp⟩

theorem decInt_cut {t : IntType} {w r x : Bytes} {v : Val} (h : decInt Γ t (w ++ x) = .ok (v, r ++ x)) :
    decInt Γ t w = .ok (v, r) := by
  have hlen : t.size / 8 ≤ w.length ∧ (w ++ x).drop (t.size / 8) = r ++ x := by
    have key : ¬ (w ++ x).length < t.size / 8 ∧ (w ++ x).drop (t.size / 8) = r ++ x := by
      unfold decInt at h
      split at h
      · cases h
      · rename_i hl
        refine ⟨hl, ?_⟩
        split at h
        · simp only [DOut.ok.injEq, Prod.mk.injEq] at h; exact h.2
        · split at h
          · simp only [DOut.ok.injEq, Prod.mk.injEq] at h; exact h.2
          · cases h
    refine ⟨?_, key.2⟩
    have := congrArg List.length key.2
    simp only [List.length_drop, List.length_append] at this
    have := key.1
    simp only [List.length_append] at this
    omega
  have h1 : (w ++ x).take (t.size / 8) = w.take (t.size / 8) := List.take_append_of_le_length hlen.1
  have h2 : (w ++ x).drop (t.size / 8) = w.drop (t.size / 8) ++ x := List.drop_append_of_le_length hlen.1
  have hr : w.drop (t.size / 8) = r := List.append_cancel_right (h2.symm.trans hlen.2)
  unfold decInt at h ⊢
  rw [if_neg (by simp only [List.length_append]; omega), h1] at h
  rw [if_neg (by omega), hr]
  split at h
  · simp only [DOut.ok.injEq, Prod.mk.injEq] at h; rw [h.1]
  · split at h
    · rename_i hh
      simp only [DOut.ok.injEq, Prod.mk.injEq] at h
      rw [if_pos hh, h.1]
    · cases h

theorem decBase_cut (hS : CutS C S) {b : Base} (hb : BaseClosed C b) {w r x : Bytes} {v : Val}
    (h : decBase Γ S b (w ++ x) = .ok (v, r ++ x)) : decBase Γ S b w = .ok (v, r) := by
  cases b with
  | int t => exact decInt_cut h
  | char => exact decInt_cut (Γ := Γ) h
  | struct n => exact hS n hb _ _ _ _ h

theorem decCount_cut (hS : CutS C S) (hsuf : S.Suffix) {b : Base} (hb : BaseClosed C b) {n : Int} {x : Bytes} : ∀ {k : Nat} {idx : Int} {acc vs : List Val}
    {w r : Bytes}, decCount (decBase Γ S b) n k idx acc (w ++ x) = .ok (vs, r ++ x) →
    decCount (decBase Γ S b) n k idx acc w = .ok (vs, r) := by
  intro k
  induction k with
  | zero => intro idx acc vs w r h; cases h
  | succ k ih =>
    intro idx acc vs w r h
    simp only [decCount] at h ⊢
    split at h
    · rename_i hi
      rw [if_pos hi]
      obtain ⟨⟨v, w'⟩, h1, h2⟩ := DOut.bind_eq_ok.1 h
      obtain ⟨q, rfl⟩ := suffix_cut (decCount_suffix (fun w v r h => decBase_suffix hsuf h) _ _ _ _ _ _ h2)
      rw [decBase_cut hS hb h1]
      exact ih h2
    · rename_i hi
      rw [if_neg hi]
      simp only [DOut.ok.injEq, Prod.mk.injEq] at h
      rw [h.1, List.append_cancel_right h.2]

theorem decTy_cut (hS : CutS C S) (hsuf : S.Suffix) {t : Ty} (ht : TyClosed C t) {o : Fields} {w r x : Bytes} {v : Val}
    (h : decTy Γ A S L ctx (D + x.length) o (w ++ x) t = .ok (v, r ++ x)) : decTy Γ A S L ctx D o w t = .ok (v, r) := by
  cases t with
  | base b => exact decBase_cut hS ht h
  | ptr =>
    simp only [decTy, List.length_append, DOut.ok.injEq, Prod.mk.injEq] at h ⊢
    refine ⟨?_, List.append_cancel_right h.2⟩
    rw [← h.1]
    congr 1
    push_cast; omega
  | nulterm =>
    simp only [decTy] at h ⊢
    split at h
    · cases h
    · rename_i hi
      obtain ⟨h1, h0⟩ := indexByte0_spec hi
      simp only [DOut.ok.injEq, Prod.mk.injEq] at h
      have hlt : (indexByte0 (w ++ x)).toNat + 1 ≤ w.length := by
        have := congrArg List.length h.2
        have h1' := congrArg List.length h1
        simp only [List.length_append, List.length_take, List.length_cons, List.length_drop] at this h1'
        omega
      have htake : (w ++ x).take (indexByte0 (w ++ x)).toNat = w.take (indexByte0 (w ++ x)).toNat :=
        List.take_append_of_le_length (by omega)
      have hdrop : (w ++ x).drop ((indexByte0 (w ++ x)).toNat + 1) = w.drop ((indexByte0 (w ++ x)).toNat + 1) ++ x :=
        List.drop_append_of_le_length hlt
      rw [hdrop] at h
      have hr := List.append_cancel_right h.2
      rw [htake, hdrop, ← List.cons_append, ← List.append_assoc] at h1
      have hw := List.append_cancel_right h1
      have hix : indexByte0 w = indexByte0 (w ++ x) := by
        rw [htake] at h0
        have := indexByte0_append (w.drop ((indexByte0 (w ++ x)).toNat + 1)) h0
        rw [← hw] at this
        rw [this, List.length_take]
        omega
      rw [hix, if_neg hi, ← htake, hr]
      simp only [DOut.ok.injEq, Prod.mk.injEq, and_true]
      exact h.1
  | fixedArray b n =>
    simp only [decTy] at h ⊢
    split at h
    · cases h
    · obtain ⟨⟨vs, w'⟩, h1, h2⟩ := DOut.bind_eq_ok.1 h
      simp only [DOut.ok.injEq, Prod.mk.injEq] at h2
      obtain ⟨rfl, rfl⟩ := h2
      rw [decCount_cut hS hsuf ht h1]; rfl
  | varArray b c =>
    rcases c with _ | (_ | _)
    · exact ht.elim
    · exact ht.elim
    · simp only [decTy] at h ⊢
      split at h
      · cases h
      · split at h
        · cases h
        · rename_i hn
          rw [if_neg hn]
          obtain ⟨⟨vs, w'⟩, h1, h2⟩ := DOut.bind_eq_ok.1 h
          simp only [DOut.ok.injEq, Prod.mk.injEq] at h2
          obtain ⟨rfl, rfl⟩ := h2
          rw [decCount_cut hS hsuf ht h1]; rfl

theorem decLeaf_cut (hS : CutS C S) (hsuf : S.Suffix) {l : Leaf} (hl : LeafClosed C l) {o o' : Fields} {w r x : Bytes}
    (h : decLeaf Γ A S L ctx (D + x.length) o (w ++ x) l = .ok (o', r ++ x)) : decLeaf Γ A S L ctx D o w l = .ok (o', r) := by
  cases l with
  | field f =>
    simp only [decLeaf] at h ⊢
    obtain ⟨⟨v, w'⟩, h1, h2⟩ := DOut.bind_eq_ok.1 h
    simp only [DOut.ok.injEq, Prod.mk.injEq] at h2
    obtain ⟨rfl, rfl⟩ := h2
    rw [decTy_cut hS hsuf hl h1]; rfl
  | eos => exact hl.elim
  | ignore => exact hl.elim
  | fail => cases h

theorem decLeaves_cut (hS : CutS C S) (hsuf : S.Suffix) : ∀ {ls : List Leaf}, (∀ l ∈ ls, LeafClosed C l) →
    ∀ {o o' : Fields} {w r x : Bytes},
    decLeaves Γ A S L ctx (D + x.length) ls o (w ++ x) = .ok (o', r ++ x) → decLeaves Γ A S L ctx D ls o w = .ok (o', r) := by
  intro ls
  induction ls with
  | nil =>
    intro _ o o' w r x h
    simp only [decLeaves, DOut.ok.injEq, Prod.mk.injEq] at h ⊢
    exact ⟨h.1, List.append_cancel_right h.2⟩
  | cons l ls ih =>
    intro hl o o' w r x h
    obtain ⟨⟨o1, w'⟩, h1, h2⟩ := DOut.bind_eq_ok.1 h
    obtain ⟨q, rfl⟩ := suffix_cut (decLeaves_suffix hsuf h2)
    simp only [decLeaves]
    rw [decLeaf_cut hS hsuf (hl l List.mem_cons_self) h1]
    exact ih (fun l h => hl l (List.mem_cons_of_mem _ h)) h2

theorem decWindow_cut {α : Type} {n : Int} {w r x : Bytes} {body : Bytes → DOut (α × Bytes)} {a : α}
    (h : decWindow n (w ++ x) body = .ok (a, r ++ x)) : decWindow n w body = .ok (a, r) ∧ n ≤ w.length := by
  unfold decWindow at h ⊢
  split at h
  · cases h
  · rename_i hn
    obtain ⟨⟨a', r'⟩, h1, h2⟩ := DOut.bind_eq_ok.1 h
    simp only at h2
    split at h2
    · cases h2
    · rename_i hr
      simp only [DOut.ok.injEq, Prod.mk.injEq] at h2
      obtain ⟨rfl, h2⟩ := h2
      have hle : n.toNat ≤ w.length := by
        have := congrArg List.length h2
        simp only [List.length_drop, List.length_append] at this hn
        omega
      rw [List.drop_append_of_le_length hle] at h2
      rw [List.take_append_of_le_length hle] at h1
      refine ⟨?_, by omega⟩
      rw [if_neg (by omega), h1]
      simp only [DOut.ok_bind]
      rw [if_neg hr, List.append_cancel_right h2]

theorem decMember_cut (hS : CutS C S) (hsuf : S.Suffix) {m : Member} (hm : MemberClosed C m) {o o' : Fields} {w r x : Bytes}
    (h : decMember Γ A S L ctx (D + x.length) o (w ++ x) m = .ok (o', r ++ x)) :
    decMember Γ A S L ctx D o w m = .ok (o', r) := by
  cases m with
  | leaf l => exact decLeaf_cut hS hsuf hm h
  | union u =>
    simp only [MemberClosed] at hm
    simp only [decMember] at h ⊢
    split at h
    · rename_i hu
      rw [hu] at hm
      unfold decCases at h ⊢
      split at h
      · cases h
      · split at h
        · rename_i c hc
          exact decLeaves_cut hS hsuf (hm c (selectCase_mem hc)) h
        · simp only [DOut.ok.injEq, Prod.mk.injEq] at h ⊢
          exact ⟨h.1, List.append_cancel_right h.2⟩
    · rename_i c hu
      rw [hu] at hm
      cases c with
      | leftover k => exact hm.elim
      | idRef ref =>
        simp only [decConstrained] at h ⊢
        split at h
        · cases h
        · split at h
          · cases h
          · rename_i hx
            have : (fun w => decCases Γ A S L ctx (D + x.length) u o w) = fun w => decCases Γ A S L ctx D u o w := by
              funext w; exact decCases_noptr hm
            rw [this] at h
            obtain ⟨h1, h2⟩ := decWindow_cut h
            rw [if_neg (by omega)]
            exact h1

theorem decMembers_cut (hS : CutS C S) (hsuf : S.Suffix) : ∀ {ms : List Member}, (∀ m ∈ ms, MemberClosed C m) →
    ∀ {o o' : Fields} {w r x : Bytes},
    decMembers Γ A S L ctx (D + x.length) ms o (w ++ x) = .ok (o', r ++ x) → decMembers Γ A S L ctx D ms o w = .ok (o', r) := by
  intro ls
  induction ls with
  | nil =>
    intro _ o o' w r x h
    simp only [decMembers, DOut.ok.injEq, Prod.mk.injEq] at h ⊢
    exact ⟨h.1, List.append_cancel_right h.2⟩
  | cons l ls ih =>
    intro hl o o' w r x h
    obtain ⟨⟨o1, w'⟩, h1, h2⟩ := DOut.bind_eq_ok.1 h
    obtain ⟨q, rfl⟩ := suffix_cut (decMembers_suffix hsuf h2)
    simp only [decMembers]
    rw [decMember_cut hS hsuf (hl l List.mem_cons_self) h1]
    exact ih (fun l h => hl l (List.mem_cons_of_mem _ h)) h2

/-- What an accepted struct leaves can be dropped from the input. -/
theorem decStruct_cut (hC : Closed Γ C) : ∀ fuel, CutS C (decStruct Γ A ctx fuel) := by
  intro fuel
  induction fuel with
  | zero => intro n _ w v r x h; cases h
  | succ fuel ih =>
    intro n hn w v r x h
    obtain ⟨s, hs, he, hm⟩ := hC n hn
    simp only [decStruct, hs, he, Bool.false_eq_true, if_false] at h ⊢
    obtain ⟨⟨o, w'⟩, h1, h2⟩ := DOut.bind_eq_ok.1 h
    simp only [DOut.ok.injEq, Prod.mk.injEq] at h2
    obtain ⟨rfl, rfl⟩ := h2
    rw [List.length_append] at h1
    rw [decMembers_cut ih (decStruct_suffix fuel) hm h1]
    rfl

end Verif.Wire
