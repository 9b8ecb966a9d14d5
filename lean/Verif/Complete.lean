import Verif.Sound
/-!
# The reference decoder accepts every encoding
-/
set_option linter.unusedVariables false
namespace Verif.Wire
open Verif.Ast Verif.Go Verif.Spec Verif.Refine

/-! ## Values that fit -/

mutual
/-- Every slice in the value has at most `A` elements. -/
def Fits (A : Nat) : Val → Prop
  | .slice vs => vs.length ≤ A ∧ FitsL A vs
  | .array vs => FitsL A vs
  | .obj _ fs => FitsF A fs
  | .struct fs => FitsF A fs
  | _ => True
/-- Every value in the list fits. -/
def FitsL (A : Nat) : List Val → Prop
  | [] => True
  | v :: vs => Fits A v ∧ FitsL A vs
/-- Every field fits. -/
def FitsF (A : Nat) : List (String × Val) → Prop
  | [] => True
  | (_, v) :: fs => Fits A v ∧ FitsF A fs
end

theorem FitsF.get {A : Nat} : ∀ {o : Fields} {f : String} {v : Val}, FitsF A o → getF o f = some v → Fits A v := by
  intro o
  induction o with
  | nil => intro f v _ h; simp [getF] at h
  | cons p o ih =>
    obtain ⟨k, w⟩ := p
    intro f v h hg
    simp only [FitsF] at h
    by_cases hk : f = k
    · subst hk; simp [getF] at hg; subst hg; exact h.1
    · have hk' : (f == k) = false := by simpa using hk
      simp only [getF, List.lookup, hk'] at hg
      exact ih h.2 hg

/-! ## Eventually -/

/-- True for all large numbers. -/
def Ev (p : Nat → Prop) : Prop := ∃ F, ∀ k, F ≤ k → p k

theorem Ev.of {p : Nat → Prop} (h : ∀ k, p k) : Ev p := ⟨0, fun k _ => h k⟩
theorem Ev.mono {p q : Nat → Prop} (hp : Ev p) (h : ∀ k, p k → q k) : Ev q := by
  obtain ⟨F, hF⟩ := hp; exact ⟨F, fun k hk => h k (hF k hk)⟩
theorem Ev.and {p q : Nat → Prop} (hp : Ev p) (hq : Ev q) : Ev (fun k => p k ∧ q k) := by
  obtain ⟨F, hF⟩ := hp; obtain ⟨G, hG⟩ := hq
  exact ⟨max F G, fun k hk => ⟨hF k (by omega), hG k (by omega)⟩⟩
theorem Ev.ge (n : Nat) : Ev (fun k => n ≤ k) := ⟨n, fun _ h => h⟩
theorem Ev.succ {p : Nat → Prop} (hp : Ev (fun k => p (k + 1))) : Ev p := by
  obtain ⟨F, hF⟩ := hp
  refine ⟨F + 1, fun k hk => ?_⟩
  obtain ⟨k, rfl⟩ : ∃ j, k = j + 1 := ⟨k - 1, by omega⟩
  exact hF k (by omega)

variable {Γ : Fmt} {A : Nat} {S : Nat → SDec} {P : SRel} {ctx : Ctx} {D : Nat} {s : Struct}

/-! ## What follows an encoding is a suffix of the input -/

/-- Structs leave a suffix. -/
def SufP (P : SRel) : Prop := ∀ n v i r, P n v i r → r <:+ i

theorem encBase_suffix (hP : SufP P) {b : Base} {v : Val} {i r : Bytes} (h : EncBase Γ P b v i r) : r <:+ i := by
  cases b with
  | int t => obtain ⟨bs, h, _⟩ := h; exact ⟨bs, h.symm⟩
  | char => obtain ⟨b, h, _⟩ := h; exact ⟨[b], h.symm⟩
  | struct n => exact hP _ _ _ _ h

theorem encList_suffix (hP : SufP P) {b : Base} : ∀ {vs : List Val} {i r : Bytes}, EncList Γ P b vs i r → r <:+ i := by
  intro vs
  induction vs with
  | nil => intro i r h; cases h; exact List.suffix_refl _
  | cons v vs ih => rintro i r ⟨m, h1, h2⟩; exact (ih h2).trans (encBase_suffix hP h1)

theorem window_suffix {o : Fields} {c : LengthConstraint} {i win r : Bytes} (h : Window Γ ctx o c i win r) :
    r <:+ i := ⟨win, h.1.symm⟩

theorem encTy_suffix (hP : SufP P) {o : Fields} {t : Ty} {v : Val} {i r : Bytes}
    (h : EncTy Γ P ctx D o t v i r) : r <:+ i := by
  cases t with
  | base b => exact encBase_suffix hP h
  | ptr => rw [h.1]; exact List.suffix_refl _
  | nulterm => obtain ⟨s, _, _, h⟩ := h; exact ⟨s ++ [0], by rw [h]; simp⟩
  | fixedArray b n => obtain ⟨_, _, _, h⟩ := h; exact encList_suffix hP h
  | varArray b c =>
    match c with
    | none => obtain ⟨_, _, _, rfl⟩ := h; exact List.nil_suffix
    | some (.leftover k) => obtain ⟨_, _, _, h, _⟩ := h; exact window_suffix h
    | some (.idRef ref) => obtain ⟨_, _, _, h⟩ := h; exact encList_suffix hP h

theorem encLeaf_suffix (hP : SufP P) {o : Fields} {l : Leaf} {i r : Bytes}
    (h : EncLeaf Γ P ctx D o l i r) : r <:+ i := by
  cases l with
  | field f => obtain ⟨_, _, h⟩ := h; exact encTy_suffix hP h
  | eos => rw [h.2]; exact List.nil_suffix
  | ignore => rw [show r = [] from h]; exact List.nil_suffix
  | fail => exact h.elim

theorem encLeaves_suffix (hP : SufP P) {o : Fields} : ∀ {ls : List Leaf} {i r : Bytes},
    EncLeaves Γ P ctx D o ls i r → r <:+ i := by
  intro ls
  induction ls with
  | nil => intro i r h; cases h; exact List.suffix_refl _
  | cons l ls ih => rintro i r ⟨m, h1, h2⟩; exact (ih h2).trans (encLeaf_suffix hP h1)

theorem encCases_suffix (hP : SufP P) {o : Fields} {u : UnionMember} {i r : Bytes}
    (h : EncCases Γ P ctx D o u i r) : r <:+ i := by
  obtain ⟨x, _, h, _⟩ := h
  split at h
  · exact encLeaves_suffix hP h
  · rw [h]; exact List.suffix_refl _

theorem encMember_suffix (hP : SufP P) {o : Fields} {m : Member} {i r : Bytes}
    (h : EncMember Γ P ctx D o m i r) : r <:+ i := by
  cases m with
  | leaf l => exact encLeaf_suffix hP h
  | union u =>
    simp only [EncMember] at h
    split at h
    · exact encCases_suffix hP h
    · obtain ⟨_, h, _⟩ := h; exact window_suffix h

theorem encMembers_suffix (hP : SufP P) {o : Fields} : ∀ {ms : List Member} {i r : Bytes},
    EncMembers Γ P ctx D o ms i r → r <:+ i := by
  intro ls
  induction ls with
  | nil => intro i r h; cases h; exact List.suffix_refl _
  | cons l ls ih => rintro i r ⟨m, h1, h2⟩; exact (ih h2).trans (encMember_suffix hP h1)

theorem encStruct_suffix : ∀ d, SufP (EncStruct Γ ctx d) := by
  intro d
  induction d with
  | zero => intro n v i r h; exact h.elim
  | succ d ih =>
    rintro n v i r ⟨s, _, h⟩
    split at h
    · obtain ⟨k, _, rfl⟩ := h; exact List.drop_suffix _ _
    · obtain ⟨o, _, _, h⟩ := h; exact encMembers_suffix ih h

/-! ## Completeness -/

/-- Every encoding of a struct is accepted, given enough fuel. -/
def CompS (A : Nat) (S : Nat → SDec) (P : SRel) : Prop :=
  ∀ n v w r, Fits A v → w.length < 2 ^ 63 → P n v w r → Ev (fun k => S k n w = .ok (v, r))

theorem decInt_complete {t : IntType} {bs r : Bytes} (hl : bs.length = t.size / 8)
    (hc : ∀ l, t.constraint = some l → listHas Γ.K l (beNat bs) = true) :
    decInt Γ t (bs ++ r) = .ok (.num (beNat bs), r) := by
  have h1 : (bs ++ r).take (t.size / 8) = bs := by rw [← hl]; simp
  have h2 : (bs ++ r).drop (t.size / 8) = r := by rw [← hl]; simp
  unfold decInt
  rw [if_neg (by simp; omega), h1, h2]
  cases ht : t.constraint with
  | none => rfl
  | some l => simp only [hc l ht, if_true]

theorem decBase_complete (hS : CompS A S P) {b : Base} {v : Val} {i r : Bytes} (hv : Fits A v)
    (hw : i.length < 2 ^ 63) (h : EncBase Γ P b v i r) : Ev (fun k => decBase Γ (S k) b i = .ok (v, r)) := by
  cases b with
  | int t =>
    obtain ⟨bs, rfl, h1, rfl, h2⟩ := h
    exact Ev.of (fun k => decInt_complete h1 h2)
  | char =>
    obtain ⟨b, rfl, rfl⟩ := h
    refine Ev.of (fun k => ?_)
    have := decInt_complete (Γ := Γ) (t := U8) (bs := [b]) (r := r) rfl (by intro l hl; cases hl)
    rw [beNat_one] at this
    exact this
  | struct n => exact hS _ _ _ _ hv hw h

theorem decCount_complete (hS : CompS A S P) (hP : SufP P) {b : Base} : ∀ {vs : List Val} {i r : Bytes},
    FitsL A vs → i.length < 2 ^ 63 → EncList Γ P b vs i r →
    Ev (fun k => ∀ (k' : Nat) (idx : Int) acc (n : Int), vs.length < k' → n = idx + vs.length →
      decCount (decBase Γ (S k) b) n k' idx acc i = .ok (acc ++ vs, r)) := by
  intro vs
  induction vs with
  | nil =>
    intro i r _ _ h
    cases h
    refine Ev.of (fun k k' idx acc n hk hn => ?_)
    obtain ⟨k', rfl⟩ : ∃ j, k' = j + 1 := ⟨k' - 1, by simp at hk; omega⟩
    simp only [decCount, List.append_nil]
    rw [if_neg (by simp at hn; omega)]
  | cons v vs ih =>
    rintro i r hv hw ⟨m, h1, h2⟩
    simp only [FitsL] at hv
    have hlen := (encBase_suffix hP h1).length_le
    refine ((decBase_complete hS hv.1 hw h1).and (ih hv.2 (by omega) h2)).mono ?_
    rintro k ⟨he, hr⟩ k' idx acc n hk hn
    obtain ⟨k', rfl⟩ : ∃ j, k' = j + 1 := ⟨k' - 1, by omega⟩
    simp only [decCount]
    simp only [List.length_cons] at hn hk
    rw [if_pos (by omega), he]
    simp only [DOut.ok_bind]
    rw [hr k' (idx + 1) (acc ++ [v]) n (by omega) (by omega)]
    simp

theorem decRem_complete (hS : CompS A S P) (hP : SufP P) {b : Base} : ∀ {vs : List Val} {i : Bytes},
    FitsL A vs → i.length < 2 ^ 63 → EncRem Γ P b vs i →
    Ev (fun k => ∀ (k' : Nat) acc, vs.length < k' →
      decRem (decBase Γ (S k) b) k' acc i = .ok (acc ++ vs, [])) := by
  intro vs
  induction vs with
  | nil =>
    intro i _ _ h
    rw [show i = [] from h]
    refine Ev.of (fun k k' acc hk => ?_)
    obtain ⟨k', rfl⟩ : ∃ j, k' = j + 1 := ⟨k' - 1, by simp at hk; omega⟩
    simp [decRem]
  | cons v vs ih =>
    rintro i hv hw ⟨hne, m, h1, h2⟩
    simp only [FitsL] at hv
    have hlen := (encBase_suffix hP h1).length_le
    refine ((decBase_complete hS hv.1 hw h1).and (ih hv.2 (by omega) h2)).mono ?_
    rintro k ⟨he, hr⟩ k' acc hk
    obtain ⟨k', rfl⟩ : ∃ j, k' = j + 1 := ⟨k' - 1, by omega⟩
    simp only [decRem]
    simp only [List.length_cons] at hk
    rw [if_pos (List.length_pos_iff.2 hne), he]
    simp only [DOut.ok_bind]
    rw [hr k' (acc ++ [v]) (by omega)]
    simp

theorem decRemArr_complete (hS : CompS A S P) (hP : SufP P) {b : Base} {vs : List Val} {i : Bytes}
    (hv : Fits A (.slice vs)) (hw : i.length < 2 ^ 63) (h : EncRem Γ P b vs i) :
    Ev (fun k => decRemArr Γ (S k) k b i = .ok (.slice vs, [])) := by
  simp only [Fits] at hv
  refine ((decRem_complete hS hP hv.2 hw h).and (Ev.ge (vs.length + 1))).mono ?_
  rintro k ⟨h, hk⟩
  simp only [decRemArr]
  rw [h k [] hk]
  rfl

theorem decWindow_complete {α : Type} {win r : Bytes} {body : Bytes → DOut (α × Bytes)} {a : α}
    (h : body win = .ok (a, [])) : decWindow (win.length : Int) (win ++ r) body = .ok (a, r) := by
  unfold decWindow
  rw [if_neg (by simp; omega)]
  simp [h]

theorem decConstrained_complete {α : Type} {o : Fields} {c : LengthConstraint} {i win r : Bytes}
    {body : Bytes → DOut (α × Bytes)} {a : α} (hw : i.length < 2 ^ 63)
    (hwin : Window Γ ctx o c i win r) (h : body win = .ok (a, [])) :
    decConstrained Γ ctx o c i body = .ok (a, r) := by
  have hl := window_length hwin
  obtain ⟨rfl, hc⟩ := hwin
  simp only [List.length_append] at hw
  cases c with
  | leftover k =>
    simp only at hc
    simp only [decConstrained, hc]
    rw [if_neg (by simp only [List.length_append]; omega)]
    have : ((win ++ r).length : Int) - r.length = win.length := by simp only [List.length_append]; omega
    rw [this]
    exact decWindow_complete h
  | idRef ref =>
    simp only at hc
    simp only [decConstrained, hc]
    have : wrap64 (win.length : Int) = win.length := wrap64_id (by omega) (by omega)
    rw [this, if_neg (by simp only [List.length_append]; omega)]
    exact decWindow_complete h

theorem decTy_complete (hS : CompS A S P) (hP : SufP P) (hA : A < 2 ^ 63) {o : Fields} {t : Ty} {v : Val} {i r : Bytes}
    (hv : Fits A v) (hw : i.length < 2 ^ 63) (h : EncTy Γ P ctx D o t v i r) :
    Ev (fun k => ∀ oc, AgreeOn Γ (tyRefs t) o oc → decTy Γ A (S k) k ctx D oc i t = .ok (v, r)) := by
  cases t with
  | base b => exact (decBase_complete hS hv hw h).mono (fun k h oc _ => h)
  | ptr =>
    obtain ⟨rfl, rfl⟩ := h
    exact Ev.of (fun k oc _ => rfl)
  | nulterm =>
    obtain ⟨s, rfl, h0, rfl⟩ := h
    refine Ev.of (fun k oc _ => ?_)
    simp only [decTy, indexByte0_append r h0]
    rw [if_neg (by omega)]
    have h2 : (s ++ 0 :: r).drop (s.length + 1) = r := by
      rw [List.drop_append]; simp
    simp only [Int.toNat_natCast, h2, List.take_left']
  | fixedArray b n =>
    obtain ⟨vs, rfl, hn, h⟩ := h
    simp only [Fits] at hv
    refine ((decCount_complete hS hP hv hw h).and (Ev.ge (vs.length + 1))).mono ?_
    rintro k ⟨h, hk⟩ oc _
    simp only [decTy, hn]
    rw [h k 0 [] vs.length hk (by omega)]
    rfl
  | varArray b c =>
    match c, h with
    | none, h =>
      obtain ⟨vs, rfl, h', rfl⟩ := h
      exact (decRemArr_complete hS hP hv hw h').mono (fun k h oc _ => h)
    | some (.leftover n), h =>
      obtain ⟨vs, win, rfl, hwin, h'⟩ := h
      have hl := window_length hwin
      refine (decRemArr_complete hS hP hv (by omega) h').mono ?_
      intro k h oc _
      exact decConstrained_complete hw hwin h
    | some (.idRef ref), h =>
      obtain ⟨vs, rfl, hn, h'⟩ := h
      simp only [Fits] at hv
      refine ((decCount_complete hS hP hv.2 hw h').and (Ev.ge (vs.length + 1))).mono ?_
      rintro k ⟨h, hk⟩ oc hoc
      have hx : refVal Γ ctx oc ref = some (vs.length : Int) := by rw [← hn]; exact (refVal_congr hoc).symm
      have hwrap : wrap64 (vs.length : Int) = vs.length := wrap64_id (by omega) (by omega)
      simp only [decTy, hx, hwrap]
      rw [if_neg (by omega), h k 0 [] vs.length hk (by omega)]
      rfl

/-- `oc` has the fields of the struct and agrees with `o` except on the fields still to come. -/
def Inv (Γ : Fmt) (s : Struct) (o oc : Fields) (pend : List String) : Prop :=
  oc.map (·.1) = (fieldsOf s.ms).map (fun f => Γ.nm f.name) ∧
  ∀ n, IsField s n → n ∉ pend → getF oc (Γ.nm n) = getF o (Γ.nm n)

theorem decLeaf_complete (hS : CompS A S P) (hP : SufP P) (hA : A < 2 ^ 63) (hs : StructOK Γ s) {l : Leaf}
    (hl : LeafOK Γ s l) (hf : ∀ n ∈ leafNames [l], IsField s n) {later : List String}
    (hord : ∀ n ∈ leafRefs l, n ∉ leafNames [l] ++ later) {o : Fields} (ho : FitsF A o) {i r : Bytes}
    (hw : i.length < 2 ^ 63) (h : EncLeaf Γ P ctx D o l i r) :
    Ev (fun k => ∀ oc, Inv Γ s o oc (leafNames [l] ++ later) →
      ∃ oc', decLeaf Γ A (S k) k ctx D oc i l = .ok (oc', r) ∧ Inv Γ s o oc' later) := by
  cases l with
  | field f =>
    obtain ⟨v, hv, h⟩ := h
    refine (decTy_complete hS hP hA (ho.get hv) hw h).mono ?_
    intro k hk oc hinv
    have hag : AgreeOn Γ (tyRefs f.type) o oc := fun n hn =>
      (hinv.2 n (leafRefs_isField hl n hn) (hord n hn)).symm
    refine ⟨setF oc (Γ.nm f.name) v, by simp only [decLeaf, hk oc hag, DOut.ok_bind], ?_, ?_⟩
    · rw [setF_keys]; exact hinv.1
    · intro n hn hnl
      obtain ⟨f', hf', hfn⟩ := hf f.name (by simp [leafNames, leafFields])
      by_cases he : n = f.name
      · subst he
        have : Γ.nm f.name ∈ oc.map (·.1) := by
          rw [hinv.1, ← hfn]; exact List.mem_map_of_mem (f := fun f : Field => Γ.nm f.name) hf'
        obtain ⟨v0, hv0⟩ := getF_isSome this
        rw [getF_setF_same hv0, hv]
      · rw [getF_setF_ne (fun he' => he (nm_inj hs hn ⟨f', hf', hfn⟩ he'))]
        exact hinv.2 n hn (by simp [leafNames, leafFields, he, hnl])
  | eos =>
    obtain ⟨rfl, rfl⟩ := h
    exact Ev.of (fun k oc hinv => ⟨oc, by simp [decLeaf], hinv⟩)
  | ignore =>
    cases h
    exact Ev.of (fun k oc hinv => ⟨oc, rfl, hinv⟩)
  | fail => exact h.elim

theorem decLeaves_complete (hS : CompS A S P) (hP : SufP P) (hA : A < 2 ^ 63) (hs : StructOK Γ s) {later : List String}
    {o : Fields} (ho : FitsF A o) : ∀ {ls : List Leaf},
    (∀ l ∈ ls, LeafOK Γ s l) → (∀ n ∈ leafNames ls, IsField s n) → LeavesOrd ls →
    (∀ n ∈ ls.flatMap leafRefs, n ∉ later) → ∀ {i r : Bytes},
    i.length < 2 ^ 63 → EncLeaves Γ P ctx D o ls i r →
    Ev (fun k => ∀ oc, Inv Γ s o oc (leafNames ls ++ later) →
      ∃ oc', decLeaves Γ A (S k) k ctx D ls oc i = .ok (oc', r) ∧ Inv Γ s o oc' later) := by
  intro ls
  induction ls with
  | nil =>
    intro _ _ _ _ i r _ h
    cases h
    exact Ev.of (fun k oc hinv => ⟨oc, rfl, hinv⟩)
  | cons l ls ih =>
    rintro hl hf ⟨ho1, ho2⟩ hlat i r hw ⟨m, h1, h2⟩
    rw [leafNames_cons] at hf ho1
    have hlen := (encLeaf_suffix hP h1).length_le
    have e1 := decLeaf_complete (later := leafNames ls ++ later) hS hP hA hs (hl l List.mem_cons_self)
      (fun n hn => hf n (List.mem_append_left _ hn))
      (by
        intro n hn
        have h3 := ho1 n hn
        have h4 := hlat n (by simp only [List.flatMap_cons, List.mem_append]; exact Or.inl hn)
        simp only [List.mem_append, not_or] at h3 ⊢
        exact ⟨h3.1, h3.2, h4⟩) ho hw h1
    have e2 := ih (fun l' h' => hl l' (List.mem_cons_of_mem _ h')) (fun n hn => hf n (List.mem_append_right _ hn))
      ho2 (fun n hn => hlat n (by simp only [List.flatMap_cons, List.mem_append]; exact Or.inr hn)) (by omega) h2
    refine (e1.and e2).mono ?_
    rintro k ⟨k1, k2⟩ oc hinv
    rw [leafNames_cons, List.append_assoc] at hinv
    obtain ⟨oc1, hd1, hi1⟩ := k1 oc hinv
    obtain ⟨oc2, hd2, hi2⟩ := k2 oc1 hi1
    exact ⟨oc2, by simp only [decLeaves, hd1, DOut.ok_bind, hd2], hi2⟩

theorem decCases_complete (hS : CompS A S P) (hP : SufP P) (hA : A < 2 ^ 63) (hs : StructOK Γ s) {later : List String}
    {o : Fields} (ho : FitsF A o) {u : UnionMember} (hu : MemberOK Γ s (.union u))
    (hf : ∀ n ∈ memberNames (.union u), IsField s n) (hord : MemberOrd (.union u))
    (hlat : ∀ n ∈ memberRefs (.union u), n ∉ later) {i r : Bytes}
    (hw : i.length < 2 ^ 63) (h : EncCases Γ P ctx D o u i r) :
    Ev (fun k => ∀ oc, Inv Γ s o oc (memberNames (.union u) ++ later) →
      ZeroOn Γ (memberFields (.union u)) oc →
      ∃ oc', decCases Γ A (S k) k ctx D u oc i = .ok (oc', r) ∧ Inv Γ s o oc' later) := by
  obtain ⟨x, hx, hb, hz⟩ := h
  have hpre : ∀ {oc}, Inv Γ s o oc (memberNames (.union u) ++ later) → refVal Γ ctx oc u.tag = some x := by
    intro oc hinv
    rw [← hx]
    refine refVal_congr (fun n hn => hinv.2 n (refNames_isField hu.1 n hn) ?_)
    have h1 := hord.1 n hn
    have h2 := hlat n (by simp only [memberRefs, List.mem_append]; exact Or.inl (Or.inl hn))
    simp only [List.mem_append, not_or]
    exact ⟨h1, h2⟩
  cases hc : selectCase Γ.K u.cases x with
  | none =>
    rw [hc] at hb
    subst hb
    refine Ev.of (fun k oc hinv hzo => ⟨oc, by simp only [decCases, hpre hinv, hc], hinv.1, ?_⟩)
    intro n hn hnl
    by_cases hm : n ∈ memberNames (.union u)
    · obtain ⟨f, hfm, rfl⟩ := List.mem_map.1 hm
      rw [hzo f hfm]
      simp only [memberFields, List.mem_flatMap] at hfm
      obtain ⟨c, hcm, hfc⟩ := hfm
      exact (hz c hcm (by rw [hc]; simp) f hfc).symm
    · exact hinv.2 n hn (by simp [hm, hnl])
  | some c =>
    rw [hc] at hb
    have hm := selectCase_mem hc
    refine (decLeaves_complete hS hP hA hs ho (hu.2.2 c hm).2
      (fun n hn => hf n (mem_memberNames_union.2 ⟨c, hm, hn⟩)) (hord.2.2 c hm)
      (fun n hn => hlat n (by
        simp only [memberRefs, List.mem_append]
        exact Or.inr (List.mem_flatMap.2 ⟨c, hm, hn⟩))) hw hb).mono ?_
    intro k hk oc hinv hzo
    obtain ⟨oc', hd, hi⟩ := hk oc (by
      refine ⟨hinv.1, ?_⟩
      intro n hn hnl
      simp only [List.mem_append, not_or] at hnl
      by_cases hmn : n ∈ memberNames (.union u)
      · obtain ⟨f, hfm, rfl⟩ := List.mem_map.1 hmn
        rw [hzo f hfm]
        simp only [memberFields, List.mem_flatMap] at hfm
        obtain ⟨c', hcm, hfc⟩ := hfm
        refine (hz c' hcm ?_ f hfc).symm
        rw [hc]
        intro he
        cases he
        exact hnl.1 (List.mem_map_of_mem hfc)
      · exact hinv.2 n hn (by simp [hmn, hnl.2]))
    exact ⟨oc', by simp only [decCases, hpre hinv, hc, hd], hi⟩

theorem decMember_complete (hS : CompS A S P) (hP : SufP P) (hA : A < 2 ^ 63) (hs : StructOK Γ s) {later : List String}
    {o : Fields} (ho : FitsF A o) {m : Member} (hm : MemberOK Γ s m)
    (hf : ∀ n ∈ memberNames m, IsField s n) (hord : MemberOrd m)
    (hlat : ∀ n ∈ memberRefs m, n ∉ later) {i r : Bytes}
    (hw : i.length < 2 ^ 63) (h : EncMember Γ P ctx D o m i r) :
    Ev (fun k => ∀ oc, Inv Γ s o oc (memberNames m ++ later) → ZeroOn Γ (memberFields m) oc →
      ∃ oc', decMember Γ A (S k) k ctx D oc i m = .ok (oc', r) ∧ Inv Γ s o oc' later) := by
  cases m with
  | leaf l =>
    refine (decLeaf_complete hS hP hA hs hm hf (later := later) ?_ ho hw h).mono (fun k hk oc hinv _ => hk oc hinv)
    intro n hn
    have h1 := hord.1 n hn
    have h2 := hlat n hn
    simp only [List.mem_append, not_or]
    exact ⟨h1, h2⟩
  | union u =>
    simp only [EncMember] at h
    cases hl : u.length with
    | none =>
      rw [hl] at h
      refine (decCases_complete hS hP hA hs ho hm hf hord hlat hw h).mono ?_
      intro k hk oc hinv hz
      simp only [decMember, hl]
      exact hk oc hinv hz
    | some c =>
      rw [hl] at h
      obtain ⟨win, hwin, h⟩ := h
      have hlen := window_length hwin
      refine (decCases_complete hS hP hA hs ho hm hf hord hlat (by omega) h).mono ?_
      intro k hk oc hinv hz
      obtain ⟨oc', hd, hi⟩ := hk oc hinv hz
      refine ⟨oc', ?_, hi⟩
      simp only [decMember, hl]
      refine decConstrained_complete hw ((window_congr ?_).1 hwin) hd
      intro n hn
      refine (hinv.2 n (lenRefs_isField (hm.2.1 c hl) n hn) ?_).symm
      have h1 := hord.2.1 c hl n hn
      have h2 := hlat n (by simp only [memberRefs, hl, List.mem_append]; exact Or.inl (Or.inr hn))
      simp only [List.mem_append, not_or]
      exact ⟨h1, h2⟩

theorem decMembers_complete (hS : CompS A S P) (hP : SufP P) (hA : A < 2 ^ 63) (hs : StructOK Γ s)
    {o : Fields} (ho : FitsF A o) : ∀ {ms : List Member},
    (∀ m ∈ ms, m ∈ s.ms) → ((fieldsOf ms).map (·.name)).Nodup → MembersOrd ms → ∀ {i r : Bytes},
    i.length < 2 ^ 63 → EncMembers Γ P ctx D o ms i r →
    Ev (fun k => ∀ oc, Inv Γ s o oc ((fieldsOf ms).map (·.name)) → ZeroOn Γ (fieldsOf ms) oc →
      ∃ oc', decMembers Γ A (S k) k ctx D ms oc i = .ok (oc', r) ∧ Inv Γ s o oc' []) := by
  intro ms
  induction ms with
  | nil =>
    intro _ _ _ i r _ h
    cases h
    exact Ev.of (fun k oc hinv _ => ⟨oc, rfl, hinv⟩)
  | cons m ms ih =>
    rintro hsub hnd ⟨ho1, ho2, ho3⟩ i r hw ⟨j, h1, h2⟩
    have hms := hsub m List.mem_cons_self
    have hmok := hs.members m hms
    have hisf : ∀ m' ∈ s.ms, ∀ n ∈ memberNames m', IsField s n := by
      intro m' hm' n hn
      obtain ⟨f, hf', rfl⟩ := List.mem_map.1 hn
      exact ⟨f, fieldsOf_sub hm' f hf', rfl⟩
    rw [fieldsOf_cons, List.map_append, List.nodup_append] at hnd
    have hlen := (encMember_suffix hP h1).length_le
    have e1 := decMember_complete (later := (fieldsOf ms).map (·.name)) hS hP hA hs ho hmok (hisf m hms) ho1
      (by
        intro n hn hn'
        obtain ⟨f, hf, rfl⟩ := List.mem_map.1 hn'
        obtain ⟨m', hm', hfm⟩ := List.mem_flatMap.1 hf
        exact ho2 f.name hn m' hm' (List.mem_map_of_mem hfm)) hw h1
    have e2 := ih (fun m' h' => hsub m' (List.mem_cons_of_mem _ h')) hnd.2.1 ho3 (by omega) h2
    refine (e1.and e2).mono ?_
    rintro k ⟨k1, k2⟩ oc hinv hz
    rw [fieldsOf_cons] at hinv hz
    rw [List.map_append] at hinv
    obtain ⟨oc1, hd1, hi1⟩ := k1 oc hinv (fun f hf => hz f (List.mem_append_left _ hf))
    obtain ⟨oc2, hd2, hi2⟩ := k2 oc1 hi1 (by
      intro f hf
      rw [← hz f (List.mem_append_right _ hf)]
      obtain ⟨m', hm', hfm'⟩ := List.mem_flatMap.1 hf
      refine decMember_other hs (hisf m hms) hd1
        (hisf m' (hsub m' (List.mem_cons_of_mem _ hm')) f.name (List.mem_map_of_mem hfm')) ?_
      intro hc
      exact hnd.2.2 f.name hc f.name (mem_fieldsOf_names hm' (List.mem_map_of_mem hfm')) rfl)
    exact ⟨oc2, by simp only [decMembers, hd1, DOut.ok_bind, hd2], hi2⟩

theorem fields_ext : ∀ {o o' : Fields}, o.map (·.1) = o'.map (·.1) → (o.map (·.1)).Nodup →
    (∀ x ∈ o.map (·.1), getF o x = getF o' x) → o = o' := by
  intro o
  induction o with
  | nil => intro o' h _ _; cases o' with
    | nil => rfl
    | cons p o' => simp at h
  | cons p o ih =>
    intro o' h hnd hg
    cases o' with
    | nil => simp at h
    | cons p' o' =>
      obtain ⟨k, v⟩ := p
      obtain ⟨k', v'⟩ := p'
      simp only [List.map_cons, List.cons.injEq] at h
      obtain ⟨rfl, h⟩ := h
      simp only [List.map_cons, List.nodup_cons] at hnd
      have h1 := hg k (by simp)
      simp [getF] at h1
      subst h1
      congr 1
      refine ih h hnd.2 ?_
      intro x hx
      have h2 := hg x (by simp only [List.map_cons, List.mem_cons]; exact Or.inr hx)
      have hne : (x == k) = false := by
        simp only [beq_eq_false_iff_ne]
        rintro rfl
        exact hnd.1 hx
      simpa only [getF, List.lookup, hne] using h2

/-- Every encoding is accepted, with the value and rest it describes. -/
theorem decStruct_complete (hΓ : FmtOK Γ) (hord : OrdOK Γ) (hA : A < 2 ^ 63) :
    ∀ d, CompS A (decStruct Γ A ctx) (EncStruct Γ ctx d) := by
  intro d
  induction d with
  | zero => intro n v w r _ _ h; exact h.elim
  | succ d ih =>
    rintro n v w r hv hw ⟨s, hsn, h⟩
    apply Ev.succ
    cases he : s.extern with
    | true =>
      rw [he] at h
      obtain ⟨k, hk, rfl⟩ := h
      exact Ev.of (fun j => by simp only [decStruct, hsn, he, if_true, hk])
    | false =>
      rw [he] at h
      obtain ⟨o, rfl, hfields, h⟩ := h
      have hs := hΓ.structs n s hsn he
      simp only [Fits] at hv
      refine (decMembers_complete ih (encStruct_suffix d) hA hs hv (fun _ h => h) (names_nodup hs) (hord n s hsn he)
        hw h).mono ?_
      intro k hk
      obtain ⟨oc, hd, hi⟩ := hk (zeroObj Γ s) (by
        refine ⟨by simp [zeroObj], ?_⟩
        rintro n ⟨f, hf, rfl⟩ hn
        exact absurd (List.mem_map_of_mem hf) hn) (zeroObj_zeroOn hs)
      have : oc = o := by
        apply fields_ext
        · rw [hi.1, hfields]
        · rw [hi.1]; exact hs.fields
        · intro x hx
          rw [hi.1] at hx
          obtain ⟨f, hf, rfl⟩ := List.mem_map.1 hx
          exact hi.2 f.name ⟨f, hf, rfl⟩ (by simp)
      subst this
      simp only [decStruct, hsn, he, Bool.false_eq_true, if_false, hd, DOut.ok_bind]

end Verif.Wire
