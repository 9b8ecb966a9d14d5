import Verif.TypedLemmas
import Verif.RefineStruct
/-!
# The reference decoder against the wire specification
-/
set_option linter.unusedVariables false
namespace Verif.Wire
open Verif.Ast Verif.Go Verif.Spec Verif.Refine

variable {Γ : Fmt} {A : Nat} {S : SDec} {P : SRel} {L : Nat} {ctx : Ctx} {D : Nat} {s : Struct}

/-! ## The encoding relation reads only named fields -/

/-- Two records agree on some fields. -/
def AgreeOn (Γ : Fmt) (ns : List String) (o o' : Fields) : Prop :=
  ∀ n ∈ ns, getF o (Γ.nm n) = getF o' (Γ.nm n)

theorem AgreeOn.symm {ns : List String} {o o' : Fields} (h : AgreeOn Γ ns o o') : AgreeOn Γ ns o' o :=
  fun n hn => (h n hn).symm

theorem AgreeOn.mono {ns ns' : List String} {o o' : Fields} (h : AgreeOn Γ ns o o') (hs : ∀ n ∈ ns', n ∈ ns) :
    AgreeOn Γ ns' o o' := fun n hn => h n (hs n hn)

theorem refVal_congr {o o' : Fields} {r : IDRef} (h : AgreeOn Γ (refNames r) o o') :
    refVal Γ ctx o r = refVal Γ ctx o' r := by
  unfold refVal
  by_cases hr : r.scope = ""
  · simp only [if_pos hr]
    rw [h r.name (by simp [refNames, hr])]
  · simp only [if_neg hr]

theorem window_congr {o o' : Fields} {c : LengthConstraint} {i win r : Bytes} (h : AgreeOn Γ (lenRefs c) o o') :
    Window Γ ctx o c i win r ↔ Window Γ ctx o' c i win r := by
  cases c with
  | leftover k => rfl
  | idRef ref => simp only [Window]; rw [refVal_congr h]

theorem encTy_congr {o o' : Fields} {t : Ty} {v : Val} {i r : Bytes} (h : AgreeOn Γ (tyRefs t) o o') :
    EncTy Γ P ctx D o t v i r ↔ EncTy Γ P ctx D o' t v i r := by
  cases t with
  | base b => rfl
  | ptr => rfl
  | nulterm => rfl
  | fixedArray b n => rfl
  | varArray b c =>
    cases c with
    | none => rfl
    | some c =>
      cases c with
      | leftover k => simp only [EncTy, Window]
      | idRef ref => simp only [EncTy]; rw [refVal_congr h]

theorem encLeaf_congr {o o' : Fields} {l : Leaf} {i r : Bytes}
    (h1 : AgreeOn Γ (leafRefs l) o o') (h2 : AgreeOn Γ (leafNames [l]) o o') :
    EncLeaf Γ P ctx D o l i r ↔ EncLeaf Γ P ctx D o' l i r := by
  cases l with
  | field f =>
    simp only [EncLeaf]
    rw [h2 f.name (by simp [leafNames, leafFields])]
    constructor <;> rintro ⟨v, hv, h⟩
    · exact ⟨v, hv, (encTy_congr h1).1 h⟩
    · exact ⟨v, hv, (encTy_congr h1).2 h⟩
  | eos => rfl
  | ignore => rfl
  | fail => rfl

theorem leafNames_cons (l : Leaf) (ls : List Leaf) : leafNames (l :: ls) = leafNames [l] ++ leafNames ls := by
  cases l <;> simp [leafNames, leafFields]

theorem encLeaves_congr {o o' : Fields} : ∀ {ls : List Leaf} {i r : Bytes},
    AgreeOn Γ (ls.flatMap leafRefs) o o' → AgreeOn Γ (leafNames ls) o o' →
    (EncLeaves Γ P ctx D o ls i r ↔ EncLeaves Γ P ctx D o' ls i r) := by
  intro ls
  induction ls with
  | nil => intros; rfl
  | cons l ls ih =>
    intro i r h1 h2
    rw [leafNames_cons] at h2
    simp only [EncLeaves]
    have hl : ∀ m, EncLeaf Γ P ctx D o l i m ↔ EncLeaf Γ P ctx D o' l i m := fun m =>
      encLeaf_congr (h1.mono (by simp +contextual)) (h2.mono (by simp +contextual))
    have hls : ∀ m, EncLeaves Γ P ctx D o ls m r ↔ EncLeaves Γ P ctx D o' ls m r := fun m =>
      ih (h1.mono (by simp +contextual)) (h2.mono (by simp +contextual))
    simp only [hl, hls]

theorem mem_memberNames_union {u : UnionMember} {n : String} :
    n ∈ memberNames (.union u) ↔ ∃ c ∈ u.cases, n ∈ leafNames c.members := by
  simp only [memberNames, memberFields, List.mem_map, List.mem_flatMap, leafNames]
  constructor
  · rintro ⟨f, ⟨c, hc, hf⟩, rfl⟩; exact ⟨c, hc, f, hf, rfl⟩
  · rintro ⟨c, hc, f, hf, rfl⟩; exact ⟨f, ⟨c, hc, hf⟩, rfl⟩

theorem encCases_congr {o o' : Fields} {u : UnionMember} {i r : Bytes}
    (h1 : AgreeOn Γ (refNames u.tag ++ u.cases.flatMap (fun c => c.members.flatMap leafRefs)) o o')
    (h2 : AgreeOn Γ (memberNames (.union u)) o o') :
    EncCases Γ P ctx D o u i r → EncCases Γ P ctx D o' u i r := by
  rintro ⟨x, hx, hb, hz⟩
  refine ⟨x, ?_, ?_, ?_⟩
  · rw [← refVal_congr (h1.mono (by simp +contextual))]; exact hx
  · cases hc : selectCase Γ.K u.cases x with
    | none => rw [hc] at hb; exact hb
    | some c =>
      rw [hc] at hb
      have hm := selectCase_mem hc
      refine (encLeaves_congr (h1.mono ?_) (h2.mono ?_)).1 hb
      · intro n hn
        exact List.mem_append_right _ (List.mem_flatMap.2 ⟨c, hm, hn⟩)
      · intro n hn
        exact mem_memberNames_union.2 ⟨c, hm, hn⟩
  · intro c hc hne f hf
    rw [← h2 f.name (mem_memberNames_union.2 ⟨c, hc, List.mem_map_of_mem hf⟩)]
    exact hz c hc hne f hf

theorem encMember_congr {o o' : Fields} {m : Member} {i r : Bytes}
    (h1 : AgreeOn Γ (memberRefs m) o o') (h2 : AgreeOn Γ (memberNames m) o o')
    (h : EncMember Γ P ctx D o m i r) : EncMember Γ P ctx D o' m i r := by
  cases m with
  | leaf l => exact (encLeaf_congr h1 h2).1 h
  | union u =>
    have h3 : AgreeOn Γ (refNames u.tag ++ u.cases.flatMap (fun c => c.members.flatMap leafRefs)) o o' := by
      refine h1.mono ?_
      intro n hn
      simp only [memberRefs, List.mem_append] at hn ⊢
      rcases hn with hn | hn
      · exact Or.inl (Or.inl hn)
      · exact Or.inr hn
    simp only [EncMember] at h ⊢
    cases hl : u.length with
    | none => rw [hl] at h; exact encCases_congr h3 h2 h
    | some c =>
      rw [hl] at h
      obtain ⟨win, hw, hc⟩ := h
      refine ⟨win, (window_congr (h1.mono ?_)).1 hw, encCases_congr h3 h2 hc⟩
      intro n hn
      simp only [memberRefs, hl, List.mem_append]
      exact Or.inl (Or.inr hn)

/-! ## Nul-terminated strings -/

theorem indexByte0_spec {w : Bytes} (h : ¬ indexByte0 w < 0) :
    w = w.take (indexByte0 w).toNat ++ 0 :: w.drop ((indexByte0 w).toNat + 1) ∧
      (0 : UInt8) ∉ w.take (indexByte0 w).toNat := by
  induction w with
  | nil => simp [indexByte0] at h
  | cons b w ih =>
    by_cases hb : b = 0
    · subst hb; simp [indexByte0]
    · simp only [indexByte0, if_neg hb] at h ⊢
      by_cases hk : indexByte0 w < 0
      · simp [hk] at h
      · obtain ⟨h1, h2⟩ := ih hk
        simp only [if_neg hk]
        have : (indexByte0 w + 1).toNat = (indexByte0 w).toNat + 1 := by omega
        rw [this]
        simp only [List.take_succ_cons, List.drop_succ_cons, List.cons_append, List.mem_cons, not_or]
        exact ⟨congrArg _ h1, fun h => hb h.symm, h2⟩

theorem indexByte0_append {s : Bytes} (r : Bytes) (h : (0 : UInt8) ∉ s) :
    indexByte0 (s ++ 0 :: r) = s.length := by
  induction s with
  | nil => simp [indexByte0]
  | cons b s ih =>
    simp only [List.mem_cons, not_or] at h
    have hb : b ≠ 0 := fun hb => h.1 hb.symm
    simp only [List.cons_append, indexByte0, if_neg hb, ih h.2, List.length_cons]
    rw [if_neg (by omega)]
    omega

/-! ## Soundness -/

/-- What nested decoding accepts is related. -/
def SoundS (S : SDec) (P : SRel) : Prop := ∀ n w v r, w.length < 2 ^ 63 → S n w = .ok (v, r) → P n v w r

theorem decInt_sound {t : IntType} {w r : Bytes} {v : Val} (h : decInt Γ t w = .ok (v, r)) :
    EncBase Γ P (.int t) v w r := by
  unfold decInt at h
  split at h
  · cases h
  · rename_i hl
    split at h
    · rename_i hc
      cases h
      refine ⟨w.take (t.size / 8), (List.take_append_drop _ _).symm, by simp; omega, rfl, ?_⟩
      intro l hl; rw [hc] at hl; cases hl
    · rename_i l hc
      split at h
      · rename_i hh
        cases h
        refine ⟨w.take (t.size / 8), (List.take_append_drop _ _).symm, by simp; omega, rfl, ?_⟩
        intro l' hl'; rw [hc] at hl'; cases hl'; exact hh
      · cases h

theorem beNat_one (b : UInt8) : beNat [b] = b.toNat := by simp [beNat]

theorem decBase_sound (hS : SoundS S P) {b : Base} {w r : Bytes} {v : Val} (hw : w.length < 2 ^ 63)
    (h : decBase Γ S b w = .ok (v, r)) : EncBase Γ P b v w r := by
  cases b with
  | int t => exact decInt_sound h
  | char =>
    obtain ⟨bs, h1, h2, h3, _⟩ := decInt_sound (P := P) (Γ := Γ) (t := U8) h
    match bs, h2 with
    | [b], _ => exact ⟨b, h1, by rw [h3, beNat_one]⟩
  | struct n => exact hS _ _ _ _ hw h

theorem decCount_sound (hS : SoundS S P) (hsuf : S.Suffix) {b : Base} {n : Int} :
    ∀ (k : Nat) (idx : Int) (acc : List Val) (w : Bytes) vs r, w.length < 2 ^ 63 →
    decCount (decBase Γ S b) n k idx acc w = .ok (vs, r) → ∃ vs', vs = acc ++ vs' ∧ EncList Γ P b vs' w r := by
  intro k
  induction k with
  | zero => intro idx acc w vs r _ h; cases h
  | succ k ih =>
    intro idx acc w vs r hw h
    unfold decCount at h
    split at h
    · obtain ⟨⟨v, w'⟩, h1, h2⟩ := DOut.bind_eq_ok.1 h
      have hlen := (decBase_suffix hsuf h1).length_le
      obtain ⟨vs', rfl, h3⟩ := ih _ _ _ _ _ (by omega) h2
      exact ⟨v :: vs', by simp, w', decBase_sound hS hw h1, h3⟩
    · cases h; exact ⟨[], by simp, rfl⟩

theorem decRem_sound (hS : SoundS S P) (hsuf : S.Suffix) {b : Base} :
    ∀ (k : Nat) (acc : List Val) (w : Bytes) vs r, w.length < 2 ^ 63 →
    decRem (decBase Γ S b) k acc w = .ok (vs, r) →
      r = [] ∧ ∃ vs', vs = acc ++ vs' ∧ EncRem Γ P b vs' w := by
  intro k
  induction k with
  | zero => intro acc w vs r _ h; cases h
  | succ k ih =>
    intro acc w vs r hw h
    unfold decRem at h
    split at h
    · rename_i hpos
      obtain ⟨⟨v, w'⟩, h1, h2⟩ := DOut.bind_eq_ok.1 h
      have hlen := (decBase_suffix hsuf h1).length_le
      obtain ⟨hr, vs', rfl, h3⟩ := ih _ _ _ _ (by omega) h2
      refine ⟨hr, v :: vs', by simp, ?_, w', decBase_sound hS hw h1, h3⟩
      rintro rfl; simp at hpos
    · rename_i hpos
      cases h
      have : w = [] := by cases w <;> simp_all
      subst this
      exact ⟨rfl, [], by simp, rfl⟩

theorem decRemArr_sound (hS : SoundS S P) (hsuf : S.Suffix) {b : Base} {w r : Bytes} {v : Val} (hw : w.length < 2 ^ 63)
    (h : decRemArr Γ S L b w = .ok (v, r)) : r = [] ∧ ∃ vs, v = .slice vs ∧ EncRem Γ P b vs w := by
  obtain ⟨⟨vs, w'⟩, h1, h2⟩ := DOut.bind_eq_ok.1 h
  cases h2
  obtain ⟨hr, vs', rfl, h3⟩ := decRem_sound hS hsuf _ _ _ _ _ hw h1
  exact ⟨hr, _, rfl, h3⟩

theorem wrap64_num {x : Int} {n : Nat} (h0 : 0 ≤ x) (h1 : x < 2 ^ 64) (h : wrap64 x = n) : x = n := by
  unfold wrap64 at h; omega

theorem numOK_lt {t : Ty} {x : Int} (hi : IntLike t) (h : NumOK t x) : 0 ≤ x ∧ x < 2 ^ 64 := by
  cases t with
  | base b =>
    cases b with
    | int t =>
      obtain ⟨h1, h2⟩ := h
      refine ⟨h1, ?_⟩
      rcases hi with h | h | h | h <;> rw [h] at h2 <;> omega
    | char => obtain ⟨h1, h2⟩ := h; exact ⟨h1, by omega⟩
    | struct n => exact hi.elim
  | ptr => obtain ⟨h1, h2⟩ := h; exact ⟨h1, by omega⟩
  | nulterm => exact hi.elim
  | fixedArray b n => exact hi.elim
  | varArray b c => exact hi.elim

theorem RefOK.val (hctx : CtxOK Γ ctx) {o : Fields} (ho : Typed Γ s o) {r : IDRef} (h : RefOK Γ s r) :
    ∃ x, refVal Γ ctx o r = some x ∧ 0 ≤ x ∧ x < 2 ^ 64 := by
  unfold RefOK at h
  by_cases h0 : r.scope = ""
  · rw [if_pos h0] at h
    obtain ⟨f, hf, hn, hi⟩ := h
    obtain ⟨v, hv, hs⟩ := ho f hf
    obtain ⟨x, rfl, hx⟩ := shape_num hi hs
    exact ⟨x, by simp [refVal, h0, ← hn, hv], numOK_lt hi hx⟩
  · rw [if_neg h0] at h
    obtain ⟨hs, C, hC, f, hf, hn, hi⟩ := h
    obtain ⟨x, hx, hx'⟩ := hctx _ C hC f hf hi
    exact ⟨x, by simp [refVal, h0, ← hn, hx], numOK_lt hi hx'⟩

theorem decConstrained_window {α : Type} (hctx : CtxOK Γ ctx) {o : Fields} (ho : Typed Γ s o)
    {c : LengthConstraint} (hc : LenOK Γ s c) {w r : Bytes} {body : Bytes → DOut (α × Bytes)} {a : α}
    (h : decConstrained Γ ctx o c w body = .ok (a, r)) :
    ∃ win, Window Γ ctx o c w win r ∧ body win = .ok (a, []) := by
  obtain ⟨n, hn, hb, hr, hc'⟩ := decConstrained_inv h
  refine ⟨w.take n, ⟨by rw [hr, List.take_append_drop], ?_⟩, hb⟩
  cases c with
  | leftover k =>
    simp only at hc' ⊢
    rw [hc', hr]; simp; omega
  | idRef ref =>
    obtain ⟨x, hx, hwx⟩ := hc'
    obtain ⟨x', hx', h0, h1⟩ := RefOK.val hctx ho hc
    rw [hx] at hx'; cases hx'
    simp only
    rw [hx, wrap64_num h0 h1 hwx]
    simp [List.length_take, Nat.min_eq_left hn]

theorem decTy_sound (hS : SoundS S P) (hsuf : S.Suffix) (hctx : CtxOK Γ ctx) {o : Fields} (ho : Typed Γ s o)
    {t : Ty} (ht : TyOK Γ s t) {w r : Bytes} {v : Val} (hw : w.length < 2 ^ 63)
    (h : decTy Γ A S L ctx D o w t = .ok (v, r)) : EncTy Γ P ctx D o t v w r := by
  cases t with
  | base b => exact decBase_sound hS hw h
  | ptr => cases h; exact ⟨rfl, rfl⟩
  | nulterm =>
    simp only [decTy] at h
    split at h
    · cases h
    · rename_i hn
      cases h
      obtain ⟨h1, h2⟩ := indexByte0_spec hn
      exact ⟨_, rfl, h2, h1⟩
  | fixedArray b n =>
    obtain ⟨_, x, hx, hx0, hx1⟩ := ht
    simp only [decTy, hx] at h
    obtain ⟨⟨vs, w'⟩, h1, h2⟩ := DOut.bind_eq_ok.1 h
    cases h2
    have hlen := decCount_length L 0 [] w vs w' rfl hx0 h1
    obtain ⟨vs', h3, h4⟩ := decCount_sound hS hsuf _ _ _ _ _ _ hw h1
    simp only [List.nil_append] at h3
    subst h3
    exact ⟨vs, rfl, by rw [hx, hlen], h4⟩
  | varArray b c =>
    match c, ht with
    | none, ht =>
      obtain ⟨hr, vs, rfl, h1⟩ := decRemArr_sound hS hsuf hw h
      exact ⟨vs, rfl, h1, hr⟩
    | some (.leftover k), ht =>
      obtain ⟨win, h1, h2⟩ := decConstrained_window hctx ho ht.2 h
      have hlen : win.length ≤ w.length := by rw [h1.1]; simp
      obtain ⟨_, vs, rfl, h3⟩ := decRemArr_sound hS hsuf (by omega) h2
      exact ⟨vs, win, rfl, h1, h3⟩
    | some (.idRef ref), ht =>
      obtain ⟨x, hx, h0, h1⟩ := RefOK.val hctx ho ht.2
      simp only [decTy, hx] at h
      split at h
      · cases h
      · rename_i hneg
        obtain ⟨⟨vs, w'⟩, h3, h2⟩ := DOut.bind_eq_ok.1 h
        cases h2
        have hlen := decCount_length L 0 [] w vs w' rfl (by omega) h3
        obtain ⟨vs', h4, h5⟩ := decCount_sound hS hsuf _ _ _ _ _ _ hw h3
        simp only [List.nil_append] at h4
        subst h4
        exact ⟨vs, rfl, by rw [hx, wrap64_num h0 h1 hlen.symm], h5⟩

/-- A name of a field of the struct. -/
def IsField (s : Struct) (n : String) : Prop := ∃ f ∈ fieldsOf s.ms, f.name = n

theorem nm_inj (hs : StructOK Γ s) {n n' : String} (h : IsField s n) (h' : IsField s n')
    (he : Γ.nm n = Γ.nm n') : n = n' := by
  obtain ⟨f, hf, rfl⟩ := h
  obtain ⟨f', hf', rfl⟩ := h'
  rw [field_inj hs hf hf' he]

theorem names_nodup (hs : StructOK Γ s) : ((fieldsOf s.ms).map (·.name)).Nodup := by
  have h : (((fieldsOf s.ms).map (·.name)).map Γ.nm).Nodup := by rw [List.map_map]; exact hs.fields
  exact List.Nodup.of_map _ h

theorem refNames_isField {r : IDRef} (h : RefOK Γ s r) : ∀ n ∈ refNames r, IsField s n := by
  intro n hn
  unfold refNames at hn
  split at hn
  · rename_i h0
    unfold RefOK at h
    rw [if_pos h0] at h
    obtain ⟨f, hf, hfn, _⟩ := h
    simp only [List.mem_singleton] at hn
    exact ⟨f, hf, by rw [hfn, hn]⟩
  · simp at hn

theorem lenRefs_isField {c : LengthConstraint} (h : LenOK Γ s c) : ∀ n ∈ lenRefs c, IsField s n := by
  cases c with
  | leftover k => intro n hn; simp [lenRefs] at hn
  | idRef r => exact refNames_isField h

theorem leafRefs_isField {l : Leaf} (h : LeafOK Γ s l) : ∀ n ∈ leafRefs l, IsField s n := by
  cases l with
  | field f =>
    intro n hn
    simp only [leafRefs] at hn
    simp only [LeafOK] at h
    cases ht : f.type with
    | varArray b c =>
      rw [ht] at hn h
      cases c with
      | none => simp [tyRefs] at hn
      | some c => exact lenRefs_isField h.2 n hn
    | base b => rw [ht] at hn; simp [tyRefs] at hn
    | ptr => rw [ht] at hn; simp [tyRefs] at hn
    | nulterm => rw [ht] at hn; simp [tyRefs] at hn
    | fixedArray b k => rw [ht] at hn; simp [tyRefs] at hn
  | eos => intro n hn; simp [leafRefs] at hn
  | ignore => intro n hn; simp [leafRefs] at hn
  | fail => intro n hn; simp [leafRefs] at hn

/-- Fields other than those of the leaf keep their value. -/
theorem decLeaf_other (hs : StructOK Γ s) {l : Leaf} (hf : ∀ n ∈ leafNames [l], IsField s n) {o o' : Fields}
    {w r : Bytes} (h : decLeaf Γ A S L ctx D o w l = .ok (o', r)) {n : String} (hn : IsField s n)
    (hn' : n ∉ leafNames [l]) : getF o' (Γ.nm n) = getF o (Γ.nm n) := by
  cases l with
  | field f =>
    obtain ⟨⟨v, w'⟩, h1, h2⟩ := DOut.bind_eq_ok.1 h
    cases h2
    refine getF_setF_ne ?_
    intro he
    have := nm_inj hs hn (hf f.name (by simp [leafNames, leafFields])) he
    subst this
    exact hn' (by simp [leafNames, leafFields])
  | eos => simp only [decLeaf] at h; split at h <;> cases h; rfl
  | ignore => cases h; rfl
  | fail => cases h

theorem decLeaves_other (hs : StructOK Γ s) : ∀ {ls : List Leaf}, (∀ n ∈ leafNames ls, IsField s n) →
    ∀ {o o' : Fields} {w r : Bytes}, decLeaves Γ A S L ctx D ls o w = .ok (o', r) →
    ∀ {n : String}, IsField s n → n ∉ leafNames ls → getF o' (Γ.nm n) = getF o (Γ.nm n) := by
  intro ls
  induction ls with
  | nil => intro _ o o' w r h n _ _; cases h; rfl
  | cons l ls ih =>
    intro hf o o' w r h n hn hn'
    rw [leafNames_cons] at hf hn'
    obtain ⟨⟨o1, w'⟩, h1, h2⟩ := DOut.bind_eq_ok.1 h
    simp only [List.mem_append, not_or] at hf hn'
    rw [ih (fun n h => hf n (Or.inr h)) h2 hn hn'.2, decLeaf_other hs (fun n h => hf n (Or.inl h)) h1 hn hn'.1]

theorem decCases_other (hs : StructOK Γ s) {u : UnionMember} (hf : ∀ n ∈ memberNames (.union u), IsField s n)
    {o o' : Fields} {w r : Bytes} (h : decCases Γ A S L ctx D u o w = .ok (o', r)) {n : String}
    (hn : IsField s n) (hn' : n ∉ memberNames (.union u)) : getF o' (Γ.nm n) = getF o (Γ.nm n) := by
  unfold decCases at h
  split at h
  · cases h
  · split at h
    · rename_i c hc
      have hm := selectCase_mem hc
      exact decLeaves_other hs (fun n h => hf n (mem_memberNames_union.2 ⟨c, hm, h⟩)) h hn
        (fun h => hn' (mem_memberNames_union.2 ⟨c, hm, h⟩))
    · cases h; rfl

theorem decMember_other (hs : StructOK Γ s) {m : Member} (hf : ∀ n ∈ memberNames m, IsField s n)
    {o o' : Fields} {w r : Bytes} (h : decMember Γ A S L ctx D o w m = .ok (o', r)) {n : String}
    (hn : IsField s n) (hn' : n ∉ memberNames m) : getF o' (Γ.nm n) = getF o (Γ.nm n) := by
  cases m with
  | leaf l => exact decLeaf_other hs hf h hn hn'
  | union u =>
    simp only [decMember] at h
    split at h
    · exact decCases_other hs hf h hn hn'
    · obtain ⟨k, _, hb, _⟩ := decConstrained_inv h
      exact decCases_other hs hf hb hn hn'

theorem decMembers_other (hs : StructOK Γ s) : ∀ {ms : List Member}, (∀ m ∈ ms, ∀ n ∈ memberNames m, IsField s n) →
    ∀ {o o' : Fields} {w r : Bytes}, decMembers Γ A S L ctx D ms o w = .ok (o', r) →
    ∀ {n : String}, IsField s n → (∀ m ∈ ms, n ∉ memberNames m) → getF o' (Γ.nm n) = getF o (Γ.nm n) := by
  intro ms
  induction ms with
  | nil => intro _ o o' w r h n _ _; cases h; rfl
  | cons m ms ih =>
    intro hf o o' w r h n hn hn'
    obtain ⟨⟨o1, w'⟩, h1, h2⟩ := DOut.bind_eq_ok.1 h
    rw [ih (fun m' h => hf m' (List.mem_cons_of_mem _ h)) h2 hn (fun m' h => hn' m' (List.mem_cons_of_mem _ h)),
      decMember_other hs (hf m List.mem_cons_self) h1 hn (hn' m List.mem_cons_self)]

theorem decLeaf_sound (hS : SoundS S P) (hsuf : S.Suffix) (hctx : CtxOK Γ ctx) (hs : StructOK Γ s)
    {l : Leaf} (hl : LeafOK Γ s l) (hf : ∀ n ∈ leafNames [l], IsField s n)
    (hord : ∀ n ∈ leafRefs l, n ∉ leafNames [l]) {o o' : Fields} (ho : Typed Γ s o) {w r : Bytes}
    (hw : w.length < 2 ^ 63) (h : decLeaf Γ A S L ctx D o w l = .ok (o', r)) :
    EncLeaf Γ P ctx D o' l w r := by
  cases l with
  | field f =>
    have hother := fun n => decLeaf_other (n := n) hs hf h
    obtain ⟨⟨v, w'⟩, h1, h2⟩ := DOut.bind_eq_ok.1 h
    cases h2
    obtain ⟨f', hf', hfn⟩ := hf f.name (by simp [leafNames, leafFields])
    obtain ⟨v0, hv0, _⟩ := ho f' hf'
    rw [hfn] at hv0
    refine ⟨v, getF_setF_same hv0, (encTy_congr ?_).1 (decTy_sound hS hsuf hctx ho hl hw h1)⟩
    intro n hn
    exact (hother n (leafRefs_isField hl n hn) (hord n hn)).symm
  | eos =>
    simp only [decLeaf] at h
    split at h
    · cases h
    · rename_i hpos
      cases h
      have : w = [] := by cases w <;> simp_all
      exact ⟨this, this⟩
  | ignore => cases h; rfl
  | fail => cases h

theorem decLeaves_sound (hS : SoundS S P) (hsuf : S.Suffix) (hctx : CtxOK Γ ctx) (hs : StructOK Γ s) (hD : D < 2 ^ 63) :
    ∀ {ls : List Leaf}, (∀ l ∈ ls, LeafOK Γ s l) → (∀ f ∈ leafFields ls, f ∈ fieldsOf s.ms) →
    (leafNames ls).Nodup → LeavesOrd ls → ∀ {o o' : Fields} {w r : Bytes}, Typed Γ s o → w.length ≤ D →
    decLeaves Γ A S L ctx D ls o w = .ok (o', r) → EncLeaves Γ P ctx D o' ls w r := by
  intro ls
  induction ls with
  | nil => intro _ _ _ _ o o' w r _ _ h; cases h; rfl
  | cons l ls ih =>
    intro hl hf hnd hord o o' w r ho hw h
    obtain ⟨⟨o1, w'⟩, h1, h2⟩ := DOut.bind_eq_ok.1 h
    have hf1 : ∀ f ∈ leafFields [l], f ∈ fieldsOf s.ms := by
      intro f hf'; apply hf
      cases l <;> simp_all [leafFields]
    have hf2 : ∀ f ∈ leafFields ls, f ∈ fieldsOf s.ms := by
      intro f hf'; apply hf
      cases l <;> simp_all [leafFields]
    have hn1 : ∀ n ∈ leafNames [l], IsField s n := by
      intro n hn; obtain ⟨f, hf', rfl⟩ := List.mem_map.1 hn; exact ⟨f, hf1 f hf', rfl⟩
    have hn2 : ∀ n ∈ leafNames ls, IsField s n := by
      intro n hn; obtain ⟨f, hf', rfl⟩ := List.mem_map.1 hn; exact ⟨f, hf2 f hf', rfl⟩
    obtain ⟨ho1, ho2⟩ := hord
    rw [leafNames_cons] at hnd ho1
    rw [List.nodup_append] at hnd
    simp only [List.mem_append, not_or] at ho1
    have hl0 := hl l List.mem_cons_self
    have htyped := decLeaf_typed hs hl0 hf1 hD hw ho h1
    have hlen := (decLeaf_suffix hsuf h1).length_le
    refine ⟨w', (encLeaf_congr ?_ ?_).1
      (decLeaf_sound hS hsuf hctx hs hl0 hn1 (fun n hn => (ho1 n hn).1) ho (by omega) h1),
      ih (fun l' h' => hl l' (List.mem_cons_of_mem _ h')) hf2 hnd.2.1 ho2 htyped (by omega) h2⟩
    · intro n hn
      exact (decLeaves_other hs hn2 h2 (leafRefs_isField hl0 n hn) (ho1 n hn).2).symm
    · intro n hn
      exact (decLeaves_other hs hn2 h2 (hn1 n hn) (fun hm => hnd.2.2 n hn n hm rfl)).symm

/-- The fields of some members are absent. -/
def ZeroOn (Γ : Fmt) (fs : List Field) (o : Fields) : Prop :=
  ∀ f ∈ fs, getF o (Γ.nm f.name) = some (zeroTy Γ f.type)

theorem case_names_disjoint : ∀ {cs : List UnionCase}, (cs.flatMap (fun c => leafNames c.members)).Nodup →
    ∀ {c c' : UnionCase}, c ∈ cs → c' ∈ cs → c ≠ c' → ∀ n ∈ leafNames c.members, n ∉ leafNames c'.members := by
  intro cs
  induction cs with
  | nil => intro _ c c' h; cases h
  | cons d cs ih =>
    intro hnd c c' hc hc' hne n hn hn'
    rw [List.flatMap_cons, List.nodup_append] at hnd
    rcases List.mem_cons.1 hc with rfl | hc <;> rcases List.mem_cons.1 hc' with rfl | hc'
    · exact hne rfl
    · exact hnd.2.2 n hn n (List.mem_flatMap.2 ⟨c', hc', hn'⟩) rfl
    · rename_i hc1
      exact hnd.2.2 n hn' n (List.mem_flatMap.2 ⟨c, hc1, hn⟩) rfl
    · exact ih hnd.2.1 hc hc' hne n hn hn'

theorem memberNames_union (u : UnionMember) :
    memberNames (.union u) = u.cases.flatMap (fun c => leafNames c.members) := by
  simp only [memberNames, memberFields, List.map_flatMap]; rfl

theorem case_nodup : ∀ {cs : List UnionCase}, (cs.flatMap (fun c => leafNames c.members)).Nodup →
    ∀ {c : UnionCase}, c ∈ cs → (leafNames c.members).Nodup := by
  intro cs h c hc
  exact (List.nodup_flatMap.1 h).1 c hc

theorem decCases_sound (hS : SoundS S P) (hsuf : S.Suffix) (hctx : CtxOK Γ ctx) (hs : StructOK Γ s) (hD : D < 2 ^ 63)
    {u : UnionMember} (hu : MemberOK Γ s (.union u)) (hf : ∀ f ∈ memberFields (.union u), f ∈ fieldsOf s.ms)
    (hnd : (memberNames (.union u)).Nodup) (hord : MemberOrd (.union u)) {o o' : Fields} {w r : Bytes}
    (ho : Typed Γ s o) (hz : ZeroOn Γ (memberFields (.union u)) o) (hw : w.length ≤ D)
    (h : decCases Γ A S L ctx D u o w = .ok (o', r)) : EncCases Γ P ctx D o' u w r := by
  have hn : ∀ n ∈ memberNames (.union u), IsField s n := by
    intro n hn; obtain ⟨f, hf', rfl⟩ := List.mem_map.1 hn; exact ⟨f, hf f hf', rfl⟩
  have hother := fun n => decCases_other (n := n) hs hn h
  unfold decCases at h
  split at h
  · cases h
  · rename_i x hx
    refine ⟨x, ?_, ?_, ?_⟩
    · rw [← hx]
      exact refVal_congr (fun n hn' => hother n (refNames_isField hu.1 n hn') (hord.1 n hn'))
    · split at h
      · rename_i c hc
        have hm := selectCase_mem hc
        rw [memberNames_union] at hnd
        rw [hc]
        exact decLeaves_sound hS hsuf hctx hs hD (hu.2.2 c hm).2 (caseFields_sub hf hm) (case_nodup hnd hm)
          (hord.2.2 c hm) ho hw h
      · rename_i hc
        cases h; rw [hc]
    · intro c hc hne f hf'
      have hff := hf f (by simp only [memberFields, List.mem_flatMap]; exact ⟨c, hc, hf'⟩)
      rw [← hz f (by simp only [memberFields, List.mem_flatMap]; exact ⟨c, hc, hf'⟩)]
      split at h
      · rename_i c' hc'
        have hm := selectCase_mem hc'
        rw [memberNames_union] at hnd
        rw [hc'] at hne
        refine decLeaves_other hs ?_ h ⟨f, hff, rfl⟩
          (case_names_disjoint hnd hc hm (fun he => hne (by rw [he])) f.name (List.mem_map_of_mem hf'))
        intro n hn'
        exact hn n (mem_memberNames_union.2 ⟨c', hm, hn'⟩)
      · cases h; rfl

theorem window_length {o : Fields} {c : LengthConstraint} {i win r : Bytes} (h : Window Γ ctx o c i win r) :
    win.length ≤ i.length := by rw [h.1]; simp

theorem decMember_sound (hS : SoundS S P) (hsuf : S.Suffix) (hctx : CtxOK Γ ctx) (hs : StructOK Γ s) (hD : D < 2 ^ 63)
    {m : Member} (hm : MemberOK Γ s m) (hf : ∀ f ∈ memberFields m, f ∈ fieldsOf s.ms)
    (hnd : (memberNames m).Nodup) (hord : MemberOrd m) {o o' : Fields} {w r : Bytes}
    (ho : Typed Γ s o) (hz : ZeroOn Γ (memberFields m) o) (hw : w.length ≤ D)
    (h : decMember Γ A S L ctx D o w m = .ok (o', r)) : EncMember Γ P ctx D o' m w r := by
  have hn : ∀ n ∈ memberNames m, IsField s n := by
    intro n hn; obtain ⟨f, hf', rfl⟩ := List.mem_map.1 hn; exact ⟨f, hf f hf', rfl⟩
  cases m with
  | leaf l => exact decLeaf_sound hS hsuf hctx hs hm hn hord.1 ho (by omega) h
  | union u =>
    have hother := fun n => decMember_other (n := n) hs hn h
    simp only [decMember] at h
    simp only [EncMember]
    cases hl : u.length with
    | none => rw [hl] at h; exact decCases_sound hS hsuf hctx hs hD hm hf hnd hord ho hz hw h
    | some c =>
      rw [hl] at h
      have hlen := hm.2.1 c hl
      obtain ⟨win, hwin, hb⟩ := decConstrained_window hctx ho hlen h
      have := window_length hwin
      refine ⟨win, (window_congr ?_).1 hwin, decCases_sound hS hsuf hctx hs hD hm hf hnd hord ho hz (by omega) hb⟩
      intro n hn'
      exact (hother n (lenRefs_isField hlen n hn') (hord.2.1 c hl n hn')).symm

theorem memberRefs_isField {m : Member} (hm : MemberOK Γ s m) : ∀ n ∈ memberRefs m, IsField s n := by
  cases m with
  | leaf l => exact leafRefs_isField hm
  | union u =>
    intro n hn
    simp only [memberRefs, List.mem_append] at hn
    rcases hn with (hn | hn) | hn
    · exact refNames_isField hm.1 n hn
    · cases hl : u.length with
      | none => rw [hl] at hn; simp at hn
      | some c => rw [hl] at hn; exact lenRefs_isField (hm.2.1 c hl) n hn
    · obtain ⟨c, hc, hn⟩ := List.mem_flatMap.1 hn
      obtain ⟨l, hl, hn⟩ := List.mem_flatMap.1 hn
      exact leafRefs_isField ((hm.2.2 c hc).2 l hl) n hn

theorem fieldsOf_cons (m : Member) (ms : List Member) : fieldsOf (m :: ms) = memberFields m ++ fieldsOf ms := by
  simp [fieldsOf]

theorem mem_fieldsOf_names {ms : List Member} {m : Member} (hm : m ∈ ms) {n : String} (hn : n ∈ memberNames m) :
    n ∈ (fieldsOf ms).map (·.name) := by
  obtain ⟨f, hf, rfl⟩ := List.mem_map.1 hn
  exact List.mem_map_of_mem (List.mem_flatMap.2 ⟨m, hm, hf⟩)

theorem decMembers_sound (hS : SoundS S P) (hsuf : S.Suffix) (hctx : CtxOK Γ ctx) (hs : StructOK Γ s) (hD : D < 2 ^ 63) :
    ∀ {ms : List Member}, (∀ m ∈ ms, m ∈ s.ms) → ((fieldsOf ms).map (·.name)).Nodup → MembersOrd ms →
    ∀ {o o' : Fields} {w r : Bytes}, Typed Γ s o → ZeroOn Γ (fieldsOf ms) o → w.length ≤ D →
    decMembers Γ A S L ctx D ms o w = .ok (o', r) → EncMembers Γ P ctx D o' ms w r := by
  intro ms
  induction ms with
  | nil => intro _ _ _ o o' w r _ _ _ h; cases h; rfl
  | cons m ms ih =>
    intro hsub hnd hord o o' w r ho hz hw h
    obtain ⟨⟨o1, w'⟩, h1, h2⟩ := DOut.bind_eq_ok.1 h
    have hms := hsub m List.mem_cons_self
    have hmok := hs.members m hms
    have hf : ∀ f ∈ memberFields m, f ∈ fieldsOf s.ms := fieldsOf_sub hms
    have hisf : ∀ m' ∈ s.ms, ∀ n ∈ memberNames m', IsField s n := by
      intro m' hm' n hn
      obtain ⟨f, hf', rfl⟩ := List.mem_map.1 hn
      exact ⟨f, fieldsOf_sub hm' f hf', rfl⟩
    rw [fieldsOf_cons, List.map_append, List.nodup_append] at hnd
    obtain ⟨ho1, ho2, ho3⟩ := hord
    have hdis : ∀ n ∈ memberNames m, ∀ m' ∈ ms, n ∉ memberNames m' := fun n hn m' hm' hn' =>
      hnd.2.2 n hn n (mem_fieldsOf_names hm' hn') rfl
    have hlen := (decMember_suffix hsuf h1).length_le
    have hrest : ∀ m' ∈ ms, ∀ n ∈ memberNames m', IsField s n := fun m' hm' => hisf m' (hsub m' (List.mem_cons_of_mem _ hm'))
    refine ⟨w', encMember_congr ?_ ?_ (decMember_sound hS hsuf hctx hs hD hmok hf hnd.1 ho1 ho ?_ hw h1),
      ih (fun m' h' => hsub m' (List.mem_cons_of_mem _ h')) hnd.2.1 ho3
        (decMember_typed hs hsuf hD hmok hf hw ho h1) ?_ (by omega) h2⟩
    · intro n hn
      exact (decMembers_other hs hrest h2 (memberRefs_isField hmok n hn) (ho2 n hn)).symm
    · intro n hn
      exact (decMembers_other hs hrest h2 (hisf m hms n hn) (hdis n hn)).symm
    · intro f hf'; exact hz f (by rw [fieldsOf_cons]; exact List.mem_append_left _ hf')
    · intro f hf'
      rw [← hz f (by rw [fieldsOf_cons]; exact List.mem_append_right _ hf')]
      obtain ⟨m', hm', hfm'⟩ := List.mem_flatMap.1 hf'
      refine decMember_other hs (hisf m hms) h1 (hrest m' hm' f.name (List.mem_map_of_mem hfm')) ?_
      intro hc
      exact hdis f.name hc m' hm' (List.mem_map_of_mem hfm')

theorem zeroObj_zeroOn (hs : StructOK Γ s) : ZeroOn Γ (fieldsOf s.ms) (zeroObj Γ s) := by
  intro f hf
  exact getF_map_mem (fun f : Field => Γ.nm f.name) (fun f => zeroTy Γ f.type) hs.fields hf

theorem decLeaf_keys {o o' : Fields} {l : Leaf} {w r : Bytes}
    (h : decLeaf Γ A S L ctx D o w l = .ok (o', r)) : o'.map (·.1) = o.map (·.1) := by
  cases l with
  | field f =>
    obtain ⟨⟨v, w'⟩, h1, h2⟩ := DOut.bind_eq_ok.1 h
    cases h2; exact setF_keys _ _ _
  | eos => simp only [decLeaf] at h; split at h <;> cases h; rfl
  | ignore => cases h; rfl
  | fail => cases h

theorem decLeaves_keys : ∀ {ls : List Leaf} {o o' : Fields} {w r : Bytes},
    decLeaves Γ A S L ctx D ls o w = .ok (o', r) → o'.map (·.1) = o.map (·.1) := by
  intro ls
  induction ls with
  | nil => intro o o' w r h; cases h; rfl
  | cons l ls ih =>
    intro o o' w r h
    obtain ⟨⟨o1, w'⟩, h1, h2⟩ := DOut.bind_eq_ok.1 h
    rw [ih h2, decLeaf_keys h1]

theorem decMember_keys {o o' : Fields} {m : Member} {w r : Bytes}
    (h : decMember Γ A S L ctx D o w m = .ok (o', r)) : o'.map (·.1) = o.map (·.1) := by
  have hc : ∀ {u : UnionMember} {w r : Bytes}, decCases Γ A S L ctx D u o w = .ok (o', r) → o'.map (·.1) = o.map (·.1) := by
    intro u w r h
    unfold decCases at h
    split at h
    · cases h
    · split at h
      · exact decLeaves_keys h
      · cases h; rfl
  cases m with
  | leaf l => exact decLeaf_keys h
  | union u =>
    simp only [decMember] at h
    split at h
    · exact hc h
    · obtain ⟨_, _, hb, _⟩ := decConstrained_inv h; exact hc hb

theorem decMembers_keys : ∀ {ms : List Member} {o o' : Fields} {w r : Bytes},
    decMembers Γ A S L ctx D ms o w = .ok (o', r) → o'.map (·.1) = o.map (·.1) := by
  intro ls
  induction ls with
  | nil => intro o o' w r h; cases h; rfl
  | cons l ls ih =>
    intro o o' w r h
    obtain ⟨⟨o1, w'⟩, h1, h2⟩ := DOut.bind_eq_ok.1 h
    rw [ih h2, decMember_keys h1]

/-- What the decoder accepts is an encoding of what it returns. -/
theorem decStruct_sound (hΓ : FmtOK Γ) (hord : OrdOK Γ) (hctx : CtxOK Γ ctx) :
    ∀ fuel, SoundS (decStruct Γ A ctx fuel) (EncStruct Γ ctx fuel) := by
  intro fuel
  induction fuel with
  | zero => intro n w v r _ h; cases h
  | succ fuel ih =>
    intro n w v r hw h
    unfold decStruct at h
    split at h
    · cases h
    · rename_i s hsn
      refine ⟨s, hsn, ?_⟩
      split at h
      · rename_i he
        rw [if_pos he]
        split at h
        · rename_i v' k hx
          cases h
          exact ⟨k, hx, rfl⟩
        · cases h
      · rename_i he
        rw [if_neg he]
        obtain ⟨⟨o, w'⟩, h1, h2⟩ := DOut.bind_eq_ok.1 h
        cases h2
        have hs := hΓ.structs n s hsn (by simpa using he)
        refine ⟨o, rfl, ?_, ?_⟩
        · unfold HasFields
          rw [decMembers_keys h1]; simp [zeroObj]
        · exact decMembers_sound ih (decStruct_suffix fuel) hctx hs hw (fun _ h => h) (names_nodup hs)
            (hord n s hsn (by simpa using he)) (zeroObj_typed hs) (zeroObj_zeroOn hs) (Nat.le_refl _) h1

end Verif.Wire
