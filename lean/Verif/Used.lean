import Verif.Complete
/-!
# Parsing into an object that was used before
-/
set_option linter.unusedVariables false
namespace Verif.Wire
open Verif.Ast Verif.Go Verif.Spec Verif.Refine

/-! ## Specification: references to fields already parsed -/

/-- Every reference in the leaves names one of `K` or an earlier leaf. -/
def LeavesKnown (K : List String) : List Leaf → Prop
  | [] => True
  | l :: ls => (∀ n ∈ leafRefs l, n ∈ K) ∧ LeavesKnown (leafNames [l] ++ K) ls

/-- Every reference in the members names one of `K`, an earlier ordinary member, or an earlier member of
the same union case. -/
def MembersKnown (K : List String) : List Member → Prop
  | [] => True
  | .leaf l :: ms => (∀ n ∈ leafRefs l, n ∈ K) ∧ MembersKnown (leafNames [l] ++ K) ms
  | .union u :: ms => (∀ n ∈ refNames u.tag, n ∈ K) ∧ (∀ c, u.length = some c → ∀ n ∈ lenRefs c, n ∈ K) ∧
      (∀ c ∈ u.cases, LeavesKnown K c.members) ∧ MembersKnown K ms

/-- Names of ordinary members. -/
def topNames : List Member → List String
  | [] => []
  | .leaf l :: ms => leafNames [l] ++ topNames ms
  | .union _ :: ms => topNames ms

instance : (K : List String) → (ls : List Leaf) → Decidable (LeavesKnown K ls)
  | _, [] => .isTrue trivial
  | K, l :: ls => @instDecidableAnd _ _ inferInstance (instDecidableLeavesKnown (leafNames [l] ++ K) ls)

instance (K : List String) (u : UnionMember) :
    Decidable (∀ c, u.length = some c → ∀ n ∈ lenRefs c, n ∈ K) :=
  match h : u.length with
  | none => .isTrue (fun c hc => by cases hc)
  | some c => decidable_of_iff (∀ n ∈ lenRefs c, n ∈ K) ⟨fun h c' hc => by cases hc; exact h, fun h => h c rfl⟩

instance : (K : List String) → (ms : List Member) → Decidable (MembersKnown K ms)
  | _, [] => .isTrue trivial
  | K, .leaf l :: ms => @instDecidableAnd _ _ inferInstance (instDecidableMembersKnown (leafNames [l] ++ K) ms)
  | K, .union u :: ms => @instDecidableAnd _ _ inferInstance (@instDecidableAnd _ _ inferInstance
      (@instDecidableAnd _ _ inferInstance (instDecidableMembersKnown K ms)))

variable {Γ : Fmt} {A L : Nat} {S : SDec} {ctx : Ctx} {D : Nat} {s : Struct}

/-- Same outcome, with records agreeing on `K`. -/
def DSim (Γ : Fmt) (K : List String) (d d' : DOut (Fields × Bytes)) : Prop :=
  match d with
  | .ok (o, r) => ∃ o', d' = .ok (o', r) ∧ AgreeOn Γ K o o' ∧ o.map (·.1) = o'.map (·.1)
  | .err m => d' = .err m
  | .panic m => d' = .panic m
  | .timeout => d' = .timeout

theorem DSim.mono {K K' : List String} {d d' : DOut (Fields × Bytes)} (h : DSim Γ K d d') (hs : ∀ n ∈ K', n ∈ K) : DSim Γ K' d d' := by
  cases d with
  | ok q => obtain ⟨o', h1, h2, h3⟩ := h; exact ⟨o', h1, h2.mono hs, h3⟩
  | err m => exact h
  | panic m => exact h
  | timeout => exact h

theorem DSim.bind {K K' : List String} {d d' : DOut (Fields × Bytes)} {f f' : Fields × Bytes → DOut (Fields × Bytes)} (h : DSim Γ K d d')
    (hf : ∀ o o' r, AgreeOn Γ K o o' → o.map (·.1) = o'.map (·.1) → DSim Γ K' (f (o, r)) (f' (o', r))) : DSim Γ K' (d >>= f) (d' >>= f') := by
  cases d with
  | ok q => obtain ⟨o', h1, h2, h3⟩ := h; rw [h1]; exact hf _ _ _ h2 h3
  | err m => rw [show d' = .err m from h]; exact rfl
  | panic m => rw [show d' = .panic m from h]; exact rfl
  | timeout => rw [show d' = .timeout from h]; exact rfl

theorem getF_setF_eq {v : Val} {f g : String} : ∀ {o o' : Fields}, o.map (·.1) = o'.map (·.1) →
    (g ≠ f → getF o g = getF o' g) → getF (setF o f v) g = getF (setF o' f v) g := by
  intro o o' hk h
  by_cases hg : g = f
  · subst hg
    cases h1 : getF o g with
    | some x =>
      obtain ⟨y, h2⟩ : ∃ y, getF o' g = some y := by
        refine getF_isSome ?_
        rw [← hk]
        by_contra hc
        have : getF o g = none := by
          simp only [getF, List.lookup_eq_none_iff]
          intro p hp
          by_contra hb
          have : g = p.1 := by simpa using hb
          subst this
          exact hc (List.mem_map_of_mem hp)
        rw [this] at h1; cases h1
      rw [getF_setF_same h1, getF_setF_same h2]
    | none =>
      have key : ∀ {o : Fields}, g ∉ o.map (·.1) → getF (setF o g v) g = none := by
        intro o ho
        simp only [getF, List.lookup_eq_none_iff]
        intro p hp
        by_contra hb
        have : g = p.1 := by simpa using hb
        subst this
        apply ho
        rw [← setF_keys o p.1 v]
        exact List.mem_map_of_mem hp
      have hn : g ∉ o.map (·.1) := by
        intro hc
        obtain ⟨y, hy⟩ := getF_isSome hc
        rw [hy] at h1; cases h1
      rw [key hn, key (hk ▸ hn)]
  · rw [getF_setF_ne hg, getF_setF_ne hg]; exact h hg

theorem decConstrained_congr {α : Type} {o o' : Fields} {c : LengthConstraint} {w : Bytes} {body : Bytes → DOut (α × Bytes)}
    (h : AgreeOn Γ (lenRefs c) o o') : decConstrained Γ ctx o c w body = decConstrained Γ ctx o' c w body := by
  cases c with
  | leftover k => rfl
  | idRef r => simp only [decConstrained]; rw [refVal_congr h]

theorem decTy_congr {o o' : Fields} {t : Ty} {w : Bytes} (h : AgreeOn Γ (tyRefs t) o o') :
    decTy Γ A S L ctx D o w t = decTy Γ A S L ctx D o' w t := by
  cases t with
  | varArray b c =>
    rcases c with _ | (_ | _)
    · rfl
    · rfl
    · simp only [decTy]; rw [refVal_congr h]
  | _ => rfl

theorem decLeaf_sim {K : List String} {o o' : Fields} {l : Leaf} {w : Bytes} (hl : ∀ n ∈ leafRefs l, n ∈ K)
    (h : AgreeOn Γ K o o') (hk : o.map (·.1) = o'.map (·.1)) :
    DSim Γ (leafNames [l] ++ K) (decLeaf Γ A S L ctx D o w l) (decLeaf Γ A S L ctx D o' w l) := by
  cases l with
  | field f =>
    simp only [decLeaf]
    rw [decTy_congr (h.mono hl)]
    cases decTy Γ A S L ctx D o' w f.type with
    | ok q =>
      refine ⟨_, rfl, ?_, ?_⟩
      · intro n hn
        refine getF_setF_eq hk fun hne => ?_
        rcases List.mem_append.1 hn with hn | hn
        · simp only [leafNames, leafFields, List.filterMap_cons, List.filterMap_nil, List.map_cons, List.map_nil, List.mem_singleton] at hn
          subst hn; exact absurd rfl hne
        · exact h n hn
      · simp only [setF_keys]; exact hk
    | err m => exact rfl
    | panic m => exact rfl
    | timeout => exact rfl
  | eos =>
    simp only [decLeaf]
    split
    · exact rfl
    · exact ⟨o', rfl, by simpa [leafNames, leafFields] using h, hk⟩
  | ignore => exact ⟨o', rfl, by simpa [leafNames, leafFields] using h, hk⟩
  | fail => exact rfl

theorem decLeaves_sim : ∀ {ls : List Leaf} {K : List String} {o o' : Fields} {w : Bytes}, LeavesKnown K ls →
    AgreeOn Γ K o o' → o.map (·.1) = o'.map (·.1) →
    DSim Γ K (decLeaves Γ A S L ctx D ls o w) (decLeaves Γ A S L ctx D ls o' w) := by
  intro ls
  induction ls with
  | nil => intro K o o' w _ h hk; exact ⟨o', rfl, h, hk⟩
  | cons l ls ih =>
    intro K o o' w hl h hk
    exact (decLeaf_sim hl.1 h hk).bind fun o o' r h hk => (ih hl.2 h hk).mono fun n hn => List.mem_append_right _ hn

theorem decCases_sim {u : UnionMember} {K : List String} (ht : ∀ n ∈ refNames u.tag, n ∈ K) (hc : ∀ c ∈ u.cases, LeavesKnown K c.members)
    {o o' : Fields} {w : Bytes} (h : AgreeOn Γ K o o') (hk : o.map (·.1) = o'.map (·.1)) :
    DSim Γ K (decCases Γ A S L ctx D u o w) (decCases Γ A S L ctx D u o' w) := by
  unfold decCases
  rw [refVal_congr (h.mono ht)]
  split
  · exact rfl
  · split
    · rename_i c hsel
      exact decLeaves_sim (hc c (selectCase_mem hsel)) h hk
    · exact ⟨o', rfl, h, hk⟩

theorem decMembers_sim : ∀ {ms : List Member} {K : List String} {o o' : Fields} {w : Bytes}, MembersKnown K ms →
    AgreeOn Γ K o o' → o.map (·.1) = o'.map (·.1) →
    DSim Γ (topNames ms ++ K) (decMembers Γ A S L ctx D ms o w) (decMembers Γ A S L ctx D ms o' w) := by
  intro ms
  induction ms with
  | nil => intro K o o' w _ h hk; exact ⟨o', rfl, h, hk⟩
  | cons m ms ih =>
    intro K o o' w hl h hk
    cases m with
    | leaf l =>
      refine (decLeaf_sim hl.1 h hk).bind fun o o' r h hk => (ih hl.2 h hk).mono fun n hn => ?_
      simp only [topNames, List.mem_append] at hn ⊢
      tauto
    | union u =>
      refine DSim.bind (K := K) ?_ fun o o' r h hk => ih hl.2.2.2 h hk
      simp only [decMember]
      split
      · exact decCases_sim hl.1 hl.2.2.1 h hk
      · rename_i c hc
        rw [decConstrained_congr (h.mono (hl.2.1 c hc))]
        have hw : ∀ n (w : Bytes), DSim Γ K (decWindow n w (fun w => decCases Γ A S L ctx D u o w))
            (decWindow n w (fun w => decCases Γ A S L ctx D u o' w)) := by
          intro n w
          unfold decWindow
          split
          · exact rfl
          · refine (decCases_sim hl.1 hl.2.2.1 h hk).bind fun o o' r h hk => ?_
            simp only
            split
            · exact rfl
            · exact ⟨o', rfl, h, hk⟩
        cases c with
        | leftover k =>
          simp only [decConstrained]
          split
          · exact rfl
          · split
            · exact rfl
            · exact hw _ _
        | idRef ref =>
          simp only [decConstrained]
          split
          · exact rfl
          · split
            · exact rfl
            · exact hw _ _

end Verif.Wire
