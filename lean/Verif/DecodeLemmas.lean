import Verif.Decode
/-!
# Basic facts about the reference decoder: what is left over is a suffix of the input
-/
namespace Verif.Wire
open Verif.Ast Verif.Go Verif.Spec

/-- Nested structs leave a suffix. -/
def SDec.Suffix (S : SDec) : Prop := ∀ n w v r, S n w = .ok (v, r) → r <:+ w

variable {Γ : Fmt} {A : Nat} {S : SDec} {L : Nat} {ctx : Ctx} {D : Nat}

theorem decInt_suffix {t : IntType} {w r : Bytes} {v : Val} (h : decInt Γ t w = .ok (v, r)) : r <:+ w := by
  unfold decInt at h
  split at h
  · cases h
  · split at h
    · cases h; exact List.drop_suffix _ _
    · split at h
      · cases h; exact List.drop_suffix _ _
      · cases h

theorem decBase_suffix (hS : S.Suffix) {b : Base} {w r : Bytes} {v : Val}
    (h : decBase Γ S b w = .ok (v, r)) : r <:+ w := by
  cases b with
  | int t => exact decInt_suffix (Γ := Γ) h
  | char => exact decInt_suffix (Γ := Γ) h
  | struct n => exact hS _ _ _ _ h

theorem decCount_suffix {elem : Bytes → DOut (Val × Bytes)} {n : Int}
    (he : ∀ w v r, elem w = .ok (v, r) → r <:+ w) :
    ∀ (k : Nat) (idx : Int) (acc : List Val) (w : Bytes) vs r,
    decCount elem n k idx acc w = .ok (vs, r) → r <:+ w := by
  intro k
  induction k with
  | zero => intro idx acc w vs r h; cases h
  | succ k ih =>
    intro idx acc w vs r h
    unfold decCount at h
    split at h
    · obtain ⟨⟨v, w'⟩, h1, h2⟩ := DOut.bind_eq_ok.1 h
      exact (ih _ _ _ _ _ h2).trans (he _ _ _ h1)
    · cases h; exact List.suffix_refl _

theorem decRem_suffix {elem : Bytes → DOut (Val × Bytes)}
    (he : ∀ w v r, elem w = .ok (v, r) → r <:+ w) :
    ∀ (k : Nat) (acc : List Val) (w : Bytes) vs r,
    decRem elem k acc w = .ok (vs, r) → r <:+ w := by
  intro k
  induction k with
  | zero => intro acc w vs r h; cases h
  | succ k ih =>
    intro acc w vs r h
    unfold decRem at h
    split at h
    · obtain ⟨⟨v, w'⟩, h1, h2⟩ := DOut.bind_eq_ok.1 h
      exact (ih _ _ _ _ h2).trans (he _ _ _ h1)
    · cases h; exact List.suffix_refl _

theorem decWindow_suffix {α : Type} {n : Int} {w r : Bytes} {body : Bytes → DOut (α × Bytes)} {a : α}
    (h : decWindow n w body = .ok (a, r)) : r <:+ w := by
  unfold decWindow at h
  split at h
  · cases h
  · obtain ⟨⟨a', r'⟩, _, h2⟩ := DOut.bind_eq_ok.1 h
    simp only at h2
    split at h2
    · cases h2
    · cases h2; exact List.drop_suffix _ _

theorem decConstrained_suffix {α : Type} {o : Fields} {c : LengthConstraint} {w r : Bytes}
    {body : Bytes → DOut (α × Bytes)} {a : α}
    (h : decConstrained Γ ctx o c w body = .ok (a, r)) : r <:+ w := by
  unfold decConstrained at h
  split at h
  · split at h
    · cases h
    · split at h
      · cases h
      · exact decWindow_suffix h
  · split at h
    · cases h
    · split at h
      · cases h
      · exact decWindow_suffix h

theorem decTy_suffix (hS : S.Suffix) {o : Fields} {t : Ty} {w r : Bytes} {v : Val}
    (h : decTy Γ A S L ctx D o w t = .ok (v, r)) : r <:+ w := by
  unfold decTy at h
  split at h
  · exact decBase_suffix hS h
  · cases h; exact List.suffix_refl _
  · split at h
    · cases h
    · cases h; exact List.drop_suffix _ _
  · split at h
    · cases h
    · obtain ⟨⟨vs, w'⟩, h1, h2⟩ := DOut.bind_eq_ok.1 h
      cases h2
      exact decCount_suffix (fun _ _ _ => decBase_suffix hS) _ _ _ _ _ _ h1
  · split at h
    · cases h
    · split at h
      · cases h
      · obtain ⟨⟨vs, w'⟩, h1, h2⟩ := DOut.bind_eq_ok.1 h
        cases h2
        exact decCount_suffix (fun _ _ _ => decBase_suffix hS) _ _ _ _ _ _ h1
  · exact decConstrained_suffix h
  · obtain ⟨⟨vs, w'⟩, h1, h2⟩ := DOut.bind_eq_ok.1 h
    cases h2
    exact decRem_suffix (fun _ _ _ => decBase_suffix hS) _ _ _ _ _ h1

theorem decLeaf_suffix (hS : S.Suffix) {o o' : Fields} {l : Leaf} {w r : Bytes}
    (h : decLeaf Γ A S L ctx D o w l = .ok (o', r)) : r <:+ w := by
  unfold decLeaf at h
  split at h
  · obtain ⟨⟨v, w'⟩, h1, h2⟩ := DOut.bind_eq_ok.1 h
    cases h2
    exact decTy_suffix hS h1
  · split at h
    · cases h
    · cases h; exact List.suffix_refl _
  · cases h; exact List.nil_suffix
  · cases h

theorem decLeaves_suffix (hS : S.Suffix) : ∀ {ls : List Leaf} {o o' : Fields} {w r : Bytes},
    decLeaves Γ A S L ctx D ls o w = .ok (o', r) → r <:+ w := by
  intro ls
  induction ls with
  | nil => intro o o' w r h; cases h; exact List.suffix_refl _
  | cons l ls ih =>
    intro o o' w r h
    obtain ⟨⟨o1, w'⟩, h1, h2⟩ := DOut.bind_eq_ok.1 h
    exact (ih h2).trans (decLeaf_suffix hS h1)

theorem decCases_suffix (hS : S.Suffix) {u : UnionMember} {o o' : Fields} {w r : Bytes}
    (h : decCases Γ A S L ctx D u o w = .ok (o', r)) : r <:+ w := by
  unfold decCases at h
  split at h
  · cases h
  · split at h
    · exact decLeaves_suffix hS h
    · cases h; exact List.suffix_refl _

theorem decMember_suffix (hS : S.Suffix) {m : Member} {o o' : Fields} {w r : Bytes}
    (h : decMember Γ A S L ctx D o w m = .ok (o', r)) : r <:+ w := by
  unfold decMember at h
  split at h
  · exact decLeaf_suffix hS h
  · split at h
    · exact decCases_suffix hS h
    · exact decConstrained_suffix h

theorem decMembers_suffix (hS : S.Suffix) : ∀ {ms : List Member} {o o' : Fields} {w r : Bytes},
    decMembers Γ A S L ctx D ms o w = .ok (o', r) → r <:+ w := by
  intro ms
  induction ms with
  | nil => intro o o' w r h; cases h; exact List.suffix_refl _
  | cons l ls ih =>
    intro o o' w r h
    obtain ⟨⟨o1, w'⟩, h1, h2⟩ := DOut.bind_eq_ok.1 h
    exact (ih h2).trans (decMember_suffix hS h1)

theorem decStruct_suffix : ∀ fuel, (decStruct Γ A ctx fuel).Suffix := by
  intro fuel
  induction fuel with
  | zero => intro n w v r h; cases h
  | succ fuel ih =>
    intro n w v r h
    unfold decStruct at h
    split at h
    · cases h
    · split at h
      · split at h
        · cases h; exact List.drop_suffix _ _
        · cases h
      · obtain ⟨⟨o1, w'⟩, h1, h2⟩ := DOut.bind_eq_ok.1 h
        cases h2
        exact decMembers_suffix ih h1

end Verif.Wire
