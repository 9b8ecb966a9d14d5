import Verif.DecodeLemmas
import Verif.Static
import Mathlib.Data.List.Nodup
/-!
# Decoding keeps records well-typed
-/
namespace Verif.Wire
open Verif.Ast Verif.Go Verif.Spec

/-! ## Records -/

theorem getF_setF_same {o : Fields} {f : String} {v v0 : Val} (h : getF o f = some v0) :
    getF (setF o f v) f = some v := by
  induction o with
  | nil => simp [getF] at h
  | cons p o ih =>
    obtain ⟨k, w⟩ := p
    by_cases hk : f = k
    · subst hk; simp [setF, getF]
    · have hk' : (f == k) = false := by simpa using hk
      simp only [getF, List.lookup, hk'] at h
      simp only [setF, if_neg hk, getF, List.lookup, hk']
      exact ih h

theorem getF_setF_ne {o : Fields} {f f' : String} {v : Val} (h : f' ≠ f) :
    getF (setF o f v) f' = getF o f' := by
  induction o with
  | nil => simp [setF]
  | cons p o ih =>
    obtain ⟨k, w⟩ := p
    by_cases hk : f = k
    · subst hk
      have : (f' == f) = false := by simpa using h
      simp [setF, getF, List.lookup, this]
    · simp only [setF, if_neg hk, getF, List.lookup]
      split
      · rfl
      · exact ih

theorem setF_setF {o : Fields} {f : String} {v v' : Val} : setF (setF o f v) f v' = setF o f v' := by
  induction o with
  | nil => simp [setF]
  | cons p o ih =>
    obtain ⟨k, w⟩ := p
    by_cases hk : f = k <;> simp [setF, hk, ih]

theorem setF_self {o : Fields} {f : String} {v : Val} (h : getF o f = some v) : setF o f v = o := by
  induction o with
  | nil => simp [setF]
  | cons p o ih =>
    obtain ⟨k, w⟩ := p
    by_cases hk : f = k
    · subst hk; simp [getF] at h; simp [setF, h]
    · have hk' : (f == k) = false := by simpa using hk
      simp only [getF, List.lookup, hk'] at h
      simp only [setF, if_neg hk, ih h]

theorem setF_keys (o : Fields) (f : String) (v : Val) : (setF o f v).map (·.1) = o.map (·.1) := by
  induction o with
  | nil => rfl
  | cons p o ih =>
    obtain ⟨k, w⟩ := p
    by_cases hk : f = k <;> simp [setF, hk, ih]

theorem getF_isSome {o : Fields} {f : String} : f ∈ o.map (·.1) → ∃ v, getF o f = some v := by
  induction o with
  | nil => simp
  | cons p o ih =>
    obtain ⟨k, w⟩ := p
    intro h
    by_cases hk : f = k
    · subst hk; exact ⟨w, by simp [getF]⟩
    · have hk' : (f == k) = false := by simpa using hk
      simp only [List.map_cons, List.mem_cons, hk, false_or] at h
      obtain ⟨v, hv⟩ := ih h
      exact ⟨v, by simp only [getF, List.lookup, hk']; exact hv⟩

/-! ## Numbers -/

theorem beNat_lt (bs : Bytes) : beNat bs < 256 ^ bs.length := by
  induction bs with
  | nil => simp [beNat]
  | cons b bs ih =>
    simp only [beNat, List.length_cons]
    have hb : b.toNat < 256 := UInt8.toNat_lt b
    have h1 : b.toNat * 256 ^ bs.length + 256 ^ bs.length ≤ 256 ^ (bs.length + 1) := by
      rw [Nat.pow_succ, ← Nat.succ_mul, Nat.mul_comm _ 256]
      exact Nat.mul_le_mul_right _ hb
    omega

theorem pow_size {t : IntType} (h : SizeOK t) : 256 ^ (t.size / 8) = 2 ^ t.size := by
  rcases h with h | h | h | h <;> rw [h] <;> decide

theorem decInt_num {Γ : Fmt} {t : IntType} {w r : Bytes} {v : Val} (hs : SizeOK t)
    (h : decInt Γ t w = .ok (v, r)) : ∃ x : Int, v = .num x ∧ 0 ≤ x ∧ x < 2 ^ t.size := by
  have hb : ((beNat (w.take (t.size / 8)) : Nat) : Int) < 2 ^ t.size := by
    have h1 := beNat_lt (w.take (t.size / 8))
    have h2 : (w.take (t.size / 8)).length ≤ t.size / 8 := by simp [List.length_take]; omega
    have h3 : 256 ^ (w.take (t.size / 8)).length ≤ 256 ^ (t.size / 8) := Nat.pow_le_pow_right (by omega) h2
    have h4 := pow_size hs
    have : beNat (w.take (t.size / 8)) < 2 ^ t.size := by omega
    exact_mod_cast this
  unfold decInt at h
  split at h
  · cases h
  · split at h
    · cases h; exact ⟨_, rfl, by omega, hb⟩
    · split at h
      · cases h; exact ⟨_, rfl, by omega, hb⟩
      · cases h

theorem decCount_length {elem : Bytes → DOut (Val × Bytes)} {n : Int} :
    ∀ (k : Nat) (idx : Int) (acc : List Val) (w : Bytes) vs r, (acc.length : Int) = idx → idx ≤ n →
    decCount elem n k idx acc w = .ok (vs, r) → (vs.length : Int) = n := by
  intro k
  induction k with
  | zero => intro idx acc w vs r _ _ h; cases h
  | succ k ih =>
    intro idx acc w vs r hl hle h
    unfold decCount at h
    split at h
    · obtain ⟨⟨v, w'⟩, h1, h2⟩ := DOut.bind_eq_ok.1 h
      exact ih _ _ _ _ _ (by simp; omega) (by omega) h2
    · cases h; omega

variable {Γ : Fmt} {A : Nat} {S : SDec} {L : Nat} {ctx : Ctx} {D : Nat} {s : Struct}

theorem decTy_shape {o : Fields} {t : Ty} {w r : Bytes} {v : Val} (ht : TyOK Γ s t)
    (hD : D < 2 ^ 63) (hw : w.length ≤ D)
    (h : decTy Γ A S L ctx D o w t = .ok (v, r)) : Shape Γ t v := by
  cases t with
  | base b =>
    cases b with
    | int t => exact decInt_num ht.1 h
    | char => exact decInt_num (Γ := Γ) (t := U8) (Or.inl rfl) h
    | struct n => trivial
  | ptr =>
    simp only [decTy, DOut.ok.injEq, Prod.mk.injEq] at h
    refine ⟨_, h.1.symm, ?_, ?_⟩ <;> omega
  | nulterm => trivial
  | fixedArray b n =>
    obtain ⟨_, x, hx, hx0, hx1⟩ := ht
    simp only [decTy, hx] at h
    obtain ⟨⟨vs, w'⟩, h1, h2⟩ := DOut.bind_eq_ok.1 h
    cases h2
    exact ⟨vs, rfl, by rw [hx, decCount_length L 0 [] w vs w' rfl hx0 h1]⟩
  | varArray b c => trivial

theorem field_inj (hs : StructOK Γ s) {f f' : Field} (hf : f ∈ fieldsOf s.ms) (hf' : f' ∈ fieldsOf s.ms)
    (h : Γ.nm f.name = Γ.nm f'.name) : f = f' :=
  List.inj_on_of_nodup_map hs.fields hf hf' h

theorem Typed.set (hs : StructOK Γ s) {o : Fields} (ho : Typed Γ s o) {f : Field} (hf : f ∈ fieldsOf s.ms)
    {v : Val} (hv : Shape Γ f.type v) : Typed Γ s (setF o (Γ.nm f.name) v) := by
  intro f' hf'
  obtain ⟨v', h1, h2⟩ := ho f' hf'
  by_cases h : Γ.nm f'.name = Γ.nm f.name
  · have := field_inj hs hf' hf h
    subst this
    exact ⟨v, getF_setF_same h1, hv⟩
  · exact ⟨v', by rw [getF_setF_ne h]; exact h1, h2⟩

theorem decLeaf_typed (hs : StructOK Γ s) {o o' : Fields} {l : Leaf} {w r : Bytes} (hl : LeafOK Γ s l)
    (hf : ∀ f ∈ leafFields [l], f ∈ fieldsOf s.ms) (hD : D < 2 ^ 63) (hw : w.length ≤ D)
    (ho : Typed Γ s o) (h : decLeaf Γ A S L ctx D o w l = .ok (o', r)) : Typed Γ s o' := by
  cases l with
  | field f =>
    obtain ⟨⟨v, w'⟩, h1, h2⟩ := DOut.bind_eq_ok.1 h
    cases h2
    exact ho.set hs (hf f (by simp [leafFields])) (decTy_shape hl hD hw h1)
  | eos =>
    simp only [decLeaf] at h
    split at h <;> cases h
    exact ho
  | ignore => cases h; exact ho
  | fail => cases h

theorem decLeaves_typed (hs : StructOK Γ s) (hS : S.Suffix) (hD : D < 2 ^ 63) : ∀ {ls : List Leaf} {o o' : Fields} {w r : Bytes},
    (∀ l ∈ ls, LeafOK Γ s l) → (∀ f ∈ leafFields ls, f ∈ fieldsOf s.ms) → w.length ≤ D →
    Typed Γ s o → decLeaves Γ A S L ctx D ls o w = .ok (o', r) → Typed Γ s o' := by
  intro ls
  induction ls with
  | nil => intro o o' w r _ _ _ ho h; cases h; exact ho
  | cons l ls ih =>
    intro o o' w r hl hf hw ho h
    obtain ⟨⟨o1, w'⟩, h1, h2⟩ := DOut.bind_eq_ok.1 h
    have hf1 : ∀ f ∈ leafFields [l], f ∈ fieldsOf s.ms := by
      intro f hf'; apply hf
      cases l <;> simp_all [leafFields]
    have hf2 : ∀ f ∈ leafFields ls, f ∈ fieldsOf s.ms := by
      intro f hf'; apply hf
      cases l <;> simp_all [leafFields]
    exact ih (fun l' h' => hl l' (List.mem_cons_of_mem _ h')) hf2
      (Nat.le_trans (decLeaf_suffix hS h1).length_le hw)
      (decLeaf_typed hs (hl l List.mem_cons_self) hf1 hD hw ho h1) h2

theorem selectCase_mem {K : String → Option Int} {cs : List UnionCase} {x : Int} {c : UnionCase}
    (h : selectCase K cs x = some c) : c ∈ cs := by
  unfold selectCase at h
  cases h1 : cs.find? (caseHas K x) with
  | some c' => rw [h1] at h; simp at h; subst h; exact List.mem_of_find?_eq_some h1
  | none =>
    rw [h1] at h
    simp only [Option.none_or] at h
    have := List.mem_of_find?_eq_some h
    simpa using this

theorem caseFields_sub {u : UnionMember} (hu : ∀ f ∈ memberFields (.union u), f ∈ fieldsOf s.ms)
    {c : UnionCase} (hc : c ∈ u.cases) : ∀ f ∈ leafFields c.members, f ∈ fieldsOf s.ms := by
  intro f hf
  exact hu f (by simp only [memberFields, List.mem_flatMap]; exact ⟨c, hc, hf⟩)

theorem decCases_typed (hs : StructOK Γ s) (hS : S.Suffix) (hD : D < 2 ^ 63) {u : UnionMember}
    (hu : MemberOK Γ s (.union u)) (hf : ∀ f ∈ memberFields (.union u), f ∈ fieldsOf s.ms)
    {o o' : Fields} {w r : Bytes} (hw : w.length ≤ D) (ho : Typed Γ s o)
    (h : decCases Γ A S L ctx D u o w = .ok (o', r)) : Typed Γ s o' := by
  unfold decCases at h
  split at h
  · cases h
  · split at h
    · rename_i c hc
      have hm := selectCase_mem hc
      exact decLeaves_typed hs hS hD (hu.2.2 c hm).2 (caseFields_sub hf hm) hw ho h
    · cases h; exact ho

theorem decConstrained_inv {α : Type} {o : Fields} {c : LengthConstraint} {w r : Bytes}
    {body : Bytes → DOut (α × Bytes)} {a : α} (h : decConstrained Γ ctx o c w body = .ok (a, r)) :
    ∃ n : Nat, n ≤ w.length ∧ body (w.take n) = .ok (a, []) ∧ r = w.drop n ∧
      match c with
      | .leftover k => ival Γ.K k = some ((w.length : Int) - n)
      | .idRef ref => ∃ x, refVal Γ ctx o ref = some x ∧ wrap64 x = n := by
  have win : ∀ n : Int, decWindow n w body = .ok (a, r) →
      0 ≤ n ∧ n ≤ w.length ∧ body (w.take n.toNat) = .ok (a, []) ∧ r = w.drop n.toNat := by
    intro n h
    unfold decWindow at h
    split at h
    · cases h
    · rename_i hn
      obtain ⟨⟨a', r'⟩, h1, h2⟩ := DOut.bind_eq_ok.1 h
      simp only at h2
      split at h2
      · cases h2
      · rename_i hr
        cases h2
        have : r' = [] := by cases r' <;> simp_all
        subst this
        exact ⟨by omega, by omega, h1, rfl⟩
  cases c with
  | leftover k =>
    simp only [decConstrained] at h
    cases hk : ival Γ.K k with
    | none => rw [hk] at h; cases h
    | some x =>
      rw [hk] at h
      simp only at h
      split at h
      · cases h
      · obtain ⟨h1, h2, h3, h4⟩ := win _ h
        refine ⟨((w.length : Int) - x).toNat, by omega, h3, h4, ?_⟩
        simp only [hk]
        congr 1; omega
  | idRef ref =>
    simp only [decConstrained] at h
    cases hk : refVal Γ ctx o ref with
    | none => rw [hk] at h; cases h
    | some x =>
      rw [hk] at h
      simp only at h
      split at h
      · cases h
      · obtain ⟨h1, h2, h3, h4⟩ := win _ h
        exact ⟨(wrap64 x).toNat, by omega, h3, h4, x, hk, by omega⟩

theorem decMember_typed (hs : StructOK Γ s) (hS : S.Suffix) (hD : D < 2 ^ 63) {m : Member}
    (hm : MemberOK Γ s m) (hf : ∀ f ∈ memberFields m, f ∈ fieldsOf s.ms)
    {o o' : Fields} {w r : Bytes} (hw : w.length ≤ D) (ho : Typed Γ s o)
    (h : decMember Γ A S L ctx D o w m = .ok (o', r)) : Typed Γ s o' := by
  cases m with
  | leaf l => exact decLeaf_typed hs hm hf hD hw ho h
  | union u =>
    simp only [decMember] at h
    split at h
    · exact decCases_typed hs hS hD hm hf hw ho h
    · obtain ⟨n, hn, hb, _, _⟩ := decConstrained_inv h
      exact decCases_typed hs hS hD hm hf (by simp; omega) ho hb

theorem fieldsOf_sub {m : Member} {ms : List Member} (h : m ∈ ms) :
    ∀ f ∈ memberFields m, f ∈ fieldsOf ms := by
  intro f hf
  exact List.mem_flatMap.2 ⟨m, h, hf⟩

theorem decMembers_typed (hs : StructOK Γ s) (hS : S.Suffix) (hD : D < 2 ^ 63) :
    ∀ {ms : List Member} {o o' : Fields} {w r : Bytes}, (∀ m ∈ ms, m ∈ s.ms) → w.length ≤ D →
    Typed Γ s o → decMembers Γ A S L ctx D ms o w = .ok (o', r) → Typed Γ s o' := by
  intro ms
  induction ms with
  | nil => intro o o' w r _ _ ho h; cases h; exact ho
  | cons m ms ih =>
    intro o o' w r hm hw ho h
    obtain ⟨⟨o1, w'⟩, h1, h2⟩ := DOut.bind_eq_ok.1 h
    have hmm := hm m List.mem_cons_self
    exact ih (fun m' h' => hm m' (List.mem_cons_of_mem _ h')) (Nat.le_trans (decMember_suffix hS h1).length_le hw)
      (decMember_typed hs hS hD (hs.members m hmm) (fieldsOf_sub hmm) hw ho h1) h2

theorem getF_map_mem {α : Type} (k : α → String) (v : α → Val) : ∀ {l : List α} {a : α}, (l.map k).Nodup → a ∈ l →
    getF (l.map (fun a => (k a, v a))) (k a) = some (v a) := by
  intro l
  induction l with
  | nil => intro a _ h; cases h
  | cons b l ih =>
    intro a hnd h
    simp only [List.map_cons, List.nodup_cons] at hnd
    by_cases hk : k a = k b
    · rcases List.mem_cons.1 h with rfl | hm
      · simp [getF]
      · exact absurd (hk ▸ List.mem_map_of_mem hm) hnd.1
    · have hk' : (k a == k b) = false := by simpa using hk
      rcases List.mem_cons.1 h with rfl | hm
      · exact absurd rfl hk
      · simp only [List.map_cons, getF, List.lookup, hk']
        exact ih hnd.2 hm

theorem zeroObj_typed (hs : StructOK Γ s) : Typed Γ s (zeroObj Γ s) := by
  intro f hf
  refine ⟨zeroTy Γ f.type, getF_map_mem (fun f : Field => Γ.nm f.name) (fun f => zeroTy Γ f.type) hs.fields hf, ?_⟩
  have htok : TyOK Γ s f.type := by
    obtain ⟨m, hm, hfm⟩ := List.mem_flatMap.1 hf
    have hmo := hs.members m hm
    cases m with
    | leaf l =>
      cases l with
      | field f' =>
        simp [memberFields, leafFields] at hfm; subst hfm; exact hmo
      | eos => simp [memberFields, leafFields] at hfm
      | ignore => simp [memberFields, leafFields] at hfm
      | fail => simp [memberFields, leafFields] at hfm
    | union u =>
      simp only [memberFields, List.mem_flatMap] at hfm
      obtain ⟨c, hc, hfc⟩ := hfm
      simp only [leafFields, List.mem_filterMap] at hfc
      obtain ⟨l, hl, hlf⟩ := hfc
      have := (hmo.2.2 c hc).2 l hl
      cases l <;> simp at hlf
      subst hlf; exact this
  cases hty : f.type with
  | base b =>
    cases b with
    | int t => exact ⟨0, rfl, Int.le_refl 0, Int.pow_pos (by decide)⟩
    | char => exact ⟨0, rfl, by simp [NumOK]⟩
    | struct n => trivial
  | ptr => exact ⟨0, rfl, by simp [NumOK]⟩
  | nulterm => trivial
  | fixedArray b n =>
    rw [hty] at htok
    obtain ⟨_, x, hx, hx0, hx1⟩ := htok
    refine ⟨List.replicate x.toNat (zeroBase b), ?_, ?_⟩
    · simp [zeroTy, hx]
    · rw [hx]; simp; omega
  | varArray b c => trivial

end Verif.Wire
