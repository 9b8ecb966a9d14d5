import Verif.Safety
import Verif.Term
/-!
# Sizes of encoded values

In a format with narrow lengths, whose to-the-end arrays have elements of at least one byte, no slice in a value is
longer than the input or 2^32 - 1.
-/
set_option linter.unusedVariables false
namespace Verif.Wire
open Verif.Ast Verif.Go Verif.Spec Verif.Refine

variable {Γ : Fmt} {A : Nat} {P : SRel} {ctx : Ctx} {D : Nat} {s : Struct}

/-! ## Encodings that are not empty -/

/-- Structs with no empty encoding take at least one byte. -/
def ProgP (Γ : Fmt) (P : SRel) : Prop := ∀ n v i r, Consumes Γ n → P n v i r → r.length < i.length

theorem encBase_consumes (hP : ProgP Γ P) {b : Base} (hb : BaseOK Γ s b) (hc : TyConsumes Γ (.base b)) {v : Val} {i r : Bytes}
    (h : EncBase Γ P b v i r) : r.length < i.length := by
  cases hc with
  | int t =>
    obtain ⟨bs, rfl, hl, _⟩ := h
    have : 1 ≤ t.size / 8 := by rcases hb.1 with h | h | h | h <;> omega
    simp only [List.length_append]; omega
  | char => obtain ⟨b, rfl, _⟩ := h; simp
  | nested hn => exact hP _ _ _ _ hn h

theorem encTy_consumes (hP : ProgP Γ P) (hsuf : SufP P) {t : Ty} (ht : TyOK Γ s t) (hc : TyConsumes Γ t) {o : Fields} {v : Val}
    {i r : Bytes} (h : EncTy Γ P ctx D o t v i r) : r.length < i.length := by
  cases t with
  | base b => exact encBase_consumes hP ht hc h
  | ptr => cases hc
  | varArray b c => cases hc
  | nulterm => obtain ⟨s, _, _, rfl⟩ := h; simp; omega
  | fixedArray b k =>
    cases hc with
    | array hb hk hx =>
      obtain ⟨vs, _, hn, hl⟩ := h
      rw [hk] at hn
      cases vs with
      | nil => cases hn; exact absurd hx (by decide)
      | cons v vs =>
        obtain ⟨m, h1, h2⟩ := hl
        have := encBase_consumes hP ht.1 hb h1
        have := (encList_suffix hsuf h2).length_le
        omega

theorem encMembers_consumes (hP : ProgP Γ P) (hsuf : SufP P) (hs : StructOK Γ s) {f : Field} (hc : TyConsumes Γ f.type)
    {o : Fields} : ∀ {ms : List Member}, (∀ m ∈ ms, m ∈ s.ms) → .leaf (.field f) ∈ ms → ∀ {i r : Bytes},
    EncMembers Γ P ctx D o ms i r → r.length < i.length := by
  intro ms
  induction ms with
  | nil => intro _ h; cases h
  | cons m ms ih =>
    rintro hm hf i r ⟨k, h1, h2⟩
    have hl1 := (encMember_suffix hsuf h1).length_le
    have hl2 := (encMembers_suffix hsuf h2).length_le
    rcases List.mem_cons.1 hf with rfl | hf
    · obtain ⟨v, _, h3⟩ := h1
      have := encTy_consumes hP hsuf (hs.members _ (hm _ List.mem_cons_self)) hc h3
      omega
    · have := ih (fun m' h' => hm m' (List.mem_cons_of_mem _ h')) hf h2
      omega

theorem encStruct_consumes (hΓ : FmtOK Γ) : ∀ d, ProgP Γ (EncStruct Γ ctx d) := by
  intro d
  induction d with
  | zero => intro n v i r _ h; exact h.elim
  | succ d ih =>
    intro n v i r hc h
    cases hc with
    | struct hs he hf ht =>
      obtain ⟨s', hs', h⟩ := h
      rw [hs] at hs'
      cases hs'
      simp only [he, Bool.false_eq_true, if_false] at h
      obtain ⟨o, _, _, h⟩ := h
      exact encMembers_consumes ih (encStruct_suffix d) (hΓ.structs _ _ hs he) ht (fun _ h => h) hf h

/-! ## Fields of a record -/

theorem FitsF.of_mem : ∀ {o : Fields}, (∀ p ∈ o, Fits A p.2) → FitsF A o
  | [], _ => trivial
  | (k, v) :: o, h => ⟨h (k, v) List.mem_cons_self, FitsF.of_mem fun p hp => h p (List.mem_cons_of_mem _ hp)⟩

theorem FitsL.of_mem : ∀ {vs : List Val}, (∀ v ∈ vs, Fits A v) → FitsL A vs
  | [], _ => trivial
  | v :: o, h => ⟨h v List.mem_cons_self, FitsL.of_mem fun p hp => h p (List.mem_cons_of_mem _ hp)⟩

theorem getF_of_mem : ∀ {o : Fields} {k : String} {v : Val}, (o.map (·.1)).Nodup → (k, v) ∈ o → getF o k = some v
  | (k', v') :: o, k, v, hn, hm => by
    simp only [List.map_cons, List.nodup_cons] at hn
    rcases List.mem_cons.1 hm with h1 | h1
    · cases h1; simp [getF]
    · have hne : (k == k') = false := by
        simp only [beq_eq_false_iff_ne, ne_eq]
        rintro rfl
        exact hn.1 (List.mem_map.2 ⟨_, h1, rfl⟩)
      have := getF_of_mem hn.2 h1
      simp only [getF, List.lookup, hne] at this ⊢
      exact this

theorem leaf_of_leafFields {ls : List Leaf} {f : Field} (h : f ∈ leafFields ls) : .field f ∈ ls := by
  simp only [leafFields, List.mem_filterMap] at h
  obtain ⟨l, hl, he⟩ := h
  cases l <;> simp at he
  subst he; exact hl

theorem encLeaves_field (hsuf : SufP P) {o : Fields} {f : Field} : ∀ {ls : List Leaf} {i r : Bytes},
    EncLeaves Γ P ctx D o ls i r → .field f ∈ ls →
    ∃ v i' r', getF o (Γ.nm f.name) = some v ∧ EncTy Γ P ctx D o f.type v i' r' ∧ i'.length ≤ i.length := by
  intro ls
  induction ls with
  | nil => intro i r _ h; cases h
  | cons l ls ih =>
    rintro i r ⟨m, h1, h2⟩ hf
    rcases List.mem_cons.1 hf with rfl | hf
    · obtain ⟨v, hg, hv⟩ := h1
      exact ⟨v, i, m, hg, hv, Nat.le_refl _⟩
    · obtain ⟨v, i', r', hg, hv, hl⟩ := ih h2 hf
      exact ⟨v, i', r', hg, hv, Nat.le_trans hl (encLeaf_suffix hsuf h1).length_le⟩

theorem encCases_field (hsuf : SufP P) {o : Fields} {f : Field} {u : UnionMember} {i r : Bytes}
    (h : EncCases Γ P ctx D o u i r) (hf : f ∈ memberFields (.union u)) :
    (∃ v i' r', getF o (Γ.nm f.name) = some v ∧ EncTy Γ P ctx D o f.type v i' r' ∧ i'.length ≤ i.length) ∨
    getF o (Γ.nm f.name) = some (zeroTy Γ f.type) := by
  obtain ⟨x, _, h1, h2⟩ := h
  obtain ⟨c, hc, hf⟩ := List.mem_flatMap.1 hf
  by_cases hsel : some c = selectCase Γ.K u.cases x
  · rw [← hsel] at h1
    exact .inl (encLeaves_field hsuf h1 (leaf_of_leafFields hf))
  · exact .inr (h2 c hc hsel f hf)

/-- In an encoded record every field is encoded somewhere in the input, or absent. -/
theorem encMembers_field (hsuf : SufP P) {o : Fields} {f : Field} : ∀ {ms : List Member} {i r : Bytes},
    EncMembers Γ P ctx D o ms i r → f ∈ fieldsOf ms →
    (∃ v i' r', getF o (Γ.nm f.name) = some v ∧ EncTy Γ P ctx D o f.type v i' r' ∧ i'.length ≤ i.length) ∨
    getF o (Γ.nm f.name) = some (zeroTy Γ f.type) := by
  intro ms
  induction ms with
  | nil => intro i r _ h; cases h
  | cons m ms ih =>
    rintro i r ⟨k, h1, h2⟩ hf
    rw [fieldsOf_cons] at hf
    rcases List.mem_append.1 hf with hf | hf
    · cases m with
      | leaf l =>
        have hl := leaf_of_leafFields hf
        simp only [List.mem_singleton] at hl
        subst hl
        obtain ⟨v, hg, hv⟩ := h1
        exact .inl ⟨v, i, k, hg, hv, Nat.le_refl _⟩
      | union u =>
        simp only [EncMember] at h1
        split at h1
        · exact encCases_field hsuf h1 hf
        · obtain ⟨win, hw, h1⟩ := h1
          rcases encCases_field hsuf h1 hf with ⟨v, i', r', hg, hv, hl⟩ | h
          · refine .inl ⟨v, i', r', hg, hv, Nat.le_trans hl ?_⟩
            rw [hw.1]; simp
          · exact .inr h
    · rcases ih h2 hf with ⟨v, i', r', hg, hv, hl⟩ | h
      · exact .inl ⟨v, i', r', hg, hv, Nat.le_trans hl (encMember_suffix hsuf h1).length_le⟩
      · exact .inr h

/-! ## Lengths -/

theorem encBase_num {P : SRel} {t : Base} (hn : Narrow (.base t)) (hi : IntLike (.base t)) {v : Val} {i r : Bytes}
    (h : EncBase Γ P t v i r) : ∃ x : Int, v = .num x ∧ x < 2 ^ 32 := by
  cases t with
  | int t =>
    obtain ⟨bs, _, hl, rfl, _⟩ := h
    refine ⟨_, rfl, ?_⟩
    have h1 := beNat_lt bs
    have h2 : 256 ^ bs.length ≤ 256 ^ 4 := Nat.pow_le_pow_right (by decide) (by rw [hl]; simp only [Narrow] at hn; omega)
    have : beNat bs < 2 ^ 32 := by omega
    exact_mod_cast this
  | char =>
    obtain ⟨b, _, rfl⟩ := h
    exact ⟨_, rfl, by have := b.toNat_lt; omega⟩
  | struct n => exact hi.elim

/-- A narrow reference denotes a number below 2^32. -/
theorem refVal_narrow (hsuf : SufP P) (hctx : CtxOK Γ ctx) {o : Fields} {i r : Bytes} (h : EncMembers Γ P ctx D o s.ms i r)
    {ref : IDRef} (hr : RefOK Γ s ref) (hn : NarrowRef Γ s ref) {x : Int} (hx : refVal Γ ctx o ref = some x) : x < 2 ^ 32 := by
  simp only [RefOK, NarrowRef] at hr hn
  simp only [refVal] at hx
  by_cases hsc : ref.scope = ""
  · rw [if_pos hsc] at hr hn hx
    obtain ⟨f, hf, hname, hi⟩ := hr
    have hnf := hn f hf hname
    rw [← hname] at hx
    cases ht : f.type with
    | base t =>
      rw [ht] at hnf hi
      rcases encMembers_field hsuf h hf with ⟨v, i', r', hg, hv, _⟩ | hz
      · rw [ht] at hv
        obtain ⟨y, rfl, hy⟩ := encBase_num hnf hi hv
        rw [hg] at hx
        simp only [Option.some.injEq] at hx
        omega
      · rw [hz, ht] at hx
        cases t with
        | int t => simp only [zeroTy, zeroBase, Option.some.injEq] at hx; omega
        | char => simp only [zeroTy, zeroBase, Option.some.injEq] at hx; omega
        | struct n => exact hi.elim
    | _ => rw [ht] at hnf; exact hnf.elim
  · rw [if_neg hsc] at hr hn hx
    obtain ⟨_, C, hC, f, hf, hname, hi⟩ := hr
    have hnf := hn C hC f hf hname
    obtain ⟨y, hg, hy⟩ := hctx _ C hC f hf hi
    rw [← hname, hg] at hx
    simp only [Option.some.injEq] at hx
    subst hx
    cases ht : f.type with
    | base t =>
      rw [ht] at hnf hi hy
      cases t with
      | int t =>
        have h1 : (2 : Int) ^ t.size ≤ 2 ^ 32 := by exact_mod_cast Nat.pow_le_pow_right (by decide) hnf
        have := hy.2
        omega
      | char => have := hy.2; omega
      | struct n => exact hi.elim
    | _ => rw [ht] at hnf; exact hnf.elim

/-! ## Values fit -/

/-- Values of structs encoded in at most `A` bytes fit. -/
def FitsP (A : Nat) (P : SRel) : Prop := ∀ n v i r, i.length ≤ A → P n v i r → Fits A v

theorem encBase_fits (hP : FitsP A P) {b : Base} {v : Val} {i r : Bytes} (hi : i.length ≤ A) (h : EncBase Γ P b v i r) :
    Fits A v := by
  cases b with
  | int t => obtain ⟨_, _, _, rfl, _⟩ := h; trivial
  | char => obtain ⟨_, _, rfl⟩ := h; trivial
  | struct n => exact hP _ _ _ _ hi h

theorem encList_fits (hP : FitsP A P) (hsuf : SufP P) {b : Base} : ∀ {vs : List Val} {i r : Bytes}, i.length ≤ A →
    EncList Γ P b vs i r → FitsL A vs := by
  intro vs
  induction vs with
  | nil => intro _ _ _ _; trivial
  | cons v vs ih =>
    rintro i r hi ⟨m, h1, h2⟩
    exact ⟨encBase_fits hP hi h1, ih (Nat.le_trans (encBase_suffix hsuf h1).length_le hi) h2⟩

theorem encRem_fits (hP : FitsP A P) (hsuf : SufP P) (hprog : ProgP Γ P) {b : Base} (hb : BaseOK Γ s b)
    (hc : ∀ n, b = .struct n → Consumes Γ n) : ∀ {vs : List Val} {i : Bytes}, i.length ≤ A →
    EncRem Γ P b vs i → FitsL A vs ∧ vs.length ≤ i.length := by
  intro vs
  induction vs with
  | nil => intro _ _ _; exact ⟨trivial, Nat.zero_le _⟩
  | cons v vs ih =>
    rintro i hi ⟨_, m, h1, h2⟩
    have hcb : TyConsumes Γ (.base b) := by
      cases b with
      | int t => exact .int t
      | char => exact .char
      | struct n => exact .nested (hc n rfl)
    have := encBase_consumes hprog hb hcb h1
    obtain ⟨h3, h4⟩ := ih (by omega) h2
    exact ⟨⟨encBase_fits hP hi h1, h3⟩, by simp only [List.length_cons]; omega⟩

theorem zeroBase_fits (b : Base) : Fits A (zeroBase b) := by cases b <;> trivial

theorem zeroTy_fits (t : Ty) : Fits A (zeroTy Γ t) := by
  cases t with
  | base b => exact zeroBase_fits b
  | fixedArray b n => exact FitsL.of_mem fun v hv => by rw [(List.mem_replicate.1 hv).2]; exact zeroBase_fits b
  | _ => trivial

theorem encTy_fits (hP : FitsP A P) (hsuf : SufP P) (hprog : ProgP Γ P) (hA : 2 ^ 32 ≤ A + 1) {t : Ty} (ht : TyOK Γ s t)
    (hc : ∀ n, .struct n ∈ endBases t → Consumes Γ n) {o : Fields}
    (hr : ∀ b ref x, t = .varArray b (some (.idRef ref)) → refVal Γ ctx o ref = some x → x < 2 ^ 32) {v : Val} {i r : Bytes}
    (hi : i.length ≤ A) (h : EncTy Γ P ctx D o t v i r) : Fits A v := by
  cases t with
  | base b => exact encBase_fits hP hi h
  | ptr => obtain ⟨_, rfl⟩ := h; trivial
  | nulterm => obtain ⟨_, rfl, _⟩ := h; trivial
  | fixedArray b n => obtain ⟨vs, rfl, _, h⟩ := h; exact encList_fits hP hsuf hi h
  | varArray b c =>
    match c with
    | none =>
      obtain ⟨vs, rfl, h, _⟩ := h
      obtain ⟨h1, h2⟩ := encRem_fits hP hsuf hprog ht (fun n hb => hc n (by simp [endBases, hb])) hi h
      exact ⟨Nat.le_trans h2 hi, h1⟩
    | some (.leftover k) =>
      obtain ⟨vs, win, rfl, hw, h⟩ := h
      have hwl : win.length ≤ i.length := by rw [hw.1]; simp
      obtain ⟨h1, h2⟩ := encRem_fits hP hsuf hprog ht.1 (fun n hb => hc n (by simp [endBases, hb])) (by omega) h
      exact ⟨by omega, h1⟩
    | some (.idRef ref) =>
      obtain ⟨vs, rfl, hx, h⟩ := h
      have := hr b ref _ rfl hx
      exact ⟨by omega, encList_fits hP hsuf hi h⟩

theorem leaf_of_mem_fields {ms : List Member} {f : Field} (h : f ∈ fieldsOf ms) :
    .leaf (.field f) ∈ ms ∨ ∃ u, .union u ∈ ms ∧ ∃ c ∈ u.cases, .field f ∈ c.members := by
  obtain ⟨m, hm, hf⟩ := List.mem_flatMap.1 h
  cases m with
  | leaf l =>
    have hl := leaf_of_leafFields hf
    simp only [List.mem_singleton] at hl
    subst hl; exact .inl hm
  | union u =>
    obtain ⟨c, hc, hf⟩ := List.mem_flatMap.1 hf
    exact .inr ⟨u, hm, c, hc, leaf_of_leafFields hf⟩

/-- User code for extern structs yields only values that fit. -/
def ExtFits (Γ : Fmt) (A : Nat) : Prop :=
  ∀ n s, Γ.structs n = some s → s.extern = true → ∀ args w v k, Γ.ext (Γ.nm n) args w = .ok (v, k) → Fits A v

/-- Every value encoded in at most `A` bytes fits, where `A` is at least 2^32 - 1, user code yields only values that
fit, lengths have at most 32 bits and elements of arrays that extend to the end are not empty. -/
theorem encStruct_fits (hΓ : FmtOK Γ) (hctx : CtxOK Γ ctx) (hn : NarrowFmt Γ) (hA : 2 ^ 32 ≤ A + 1)
    (hcons : ∀ n s, Γ.structs n = some s → s.extern = false → ∀ n', NestsToEnd s n' → Consumes Γ n')
    (hext : ExtFits Γ A) : ∀ d, FitsP A (EncStruct Γ ctx d) := by
  intro d
  induction d with
  | zero => intro n v i r _ h; exact h.elim
  | succ d ih =>
    rintro n v i r hi ⟨s, hs, h⟩
    cases he : s.extern with
    | true =>
      rw [if_pos he] at h
      obtain ⟨k, hk, _⟩ := h
      exact hext n s hs he _ _ _ _ hk
    | false =>
      simp only [he, Bool.false_eq_true, if_false] at h
      obtain ⟨o, rfl, hfs, h⟩ := h
      have hok := hΓ.structs n s hs he
      have hsuf : SufP (EncStruct Γ ctx d) := encStruct_suffix d
      refine FitsF.of_mem fun p hp => ?_
      obtain ⟨k, v⟩ := p
      have hk : k ∈ (fieldsOf s.ms).map fun f => Γ.nm f.name := by
        rw [← hfs]; exact List.mem_map_of_mem (f := (·.1)) hp
      obtain ⟨f, hf, rfl⟩ := List.mem_map.1 hk
      have hg : getF o (Γ.nm f.name) = some v := getF_of_mem (by rw [hfs]; exact hok.fields) hp
      rcases encMembers_field hsuf h hf with ⟨v', i', r', hg', hv, hl⟩ | hz
      · rw [hg] at hg'
        cases hg'
        have hleaf := leaf_of_mem_fields hf
        have hty : TyOK Γ s f.type := by
          rcases hleaf with hm | ⟨u, hm, c, hc, hl⟩
          · exact hok.members _ hm
          · exact ((hok.members _ hm).2.2 c hc).2 _ hl
        have hnl : NarrowLeaf Γ s (.field f) := by
          rcases hleaf with hm | ⟨u, hm, c, hc, hl⟩
          · exact hn n s hs he _ hm
          · exact (hn n s hs he _ hm).2 c hc _ hl
        refine encTy_fits ih hsuf (encStruct_consumes hΓ d) hA hty (fun n' hb => hcons n s hs he n' ⟨f, hf, hb⟩) ?_
          (Nat.le_trans hl hi) hv
        intro b ref x ht hx
        obtain ⟨name, ty⟩ := f
        subst ht
        exact refVal_narrow hsuf hctx h hty.2 hnl hx
      · rw [hg] at hz
        cases hz
        exact zeroTy_fits _

theorem enc_fits (hΓ : FmtOK Γ) (hctx : CtxOK Γ ctx) (hn : NarrowFmt Γ) (hA : 2 ^ 32 ≤ A + 1)
    (hcons : ∀ n s, Γ.structs n = some s → s.extern = false → ∀ n', NestsToEnd s n' → Consumes Γ n')
    (hext : ExtFits Γ A) {n : String} {v : Val} {i r : Bytes} (hi : i.length ≤ A)
    (h : Enc Γ ctx n v i r) : Fits A v := by
  obtain ⟨d, h⟩ := h
  exact encStruct_fits hΓ hctx hn hA hcons hext d n v i r hi h

end Verif.Wire
