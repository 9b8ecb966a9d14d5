import Verif.TvElem
/-!
# Vectors for fields
-/
set_option linter.unusedVariables false
namespace Verif.Tv
open Verif Verif.Ast Verif.Inspect Verif.Intervals Verif.Go Verif.Spec Verif.Wire Verif.Props

variable {E : Env} {π : Par} {r : Resolver} {s : Struct} {N : Nat} {O : String → Prop}

/-! ## Number of elements -/

/-- Where the number of elements comes from. -/
def CountFact (K : String → Option Int) (n : Int) (σ : CEnv) : Count → Prop
  | .size i => ival K i = some n
  | .con (some (.idRef ref)) => σ ref.scope ref.name = some n
  | .con none => 1 ≤ n ∧ n ≤ 20
  | .con (some (.leftover _)) => False

/-- A suitable source of the number of elements. -/
def CountGen (Γ : Fmt) (s : Struct) : Count → Prop
  | .size i => NatOK Γ i
  | .con (some (.idRef ref)) => CountRef Γ s ref
  | _ => True

theorem CountRef.key {Γ : Fmt} {ref : IDRef} (h : CountRef Γ s ref) (hsc : ref.scope = "") {k : Nat} (h1 : 1 ≤ k)
    (h2 : k ≤ 20) : KeyOK Γ.K s ref.name (k : Int) := by
  unfold CountRef at h
  rw [if_pos hsc] at h
  obtain ⟨f, hf, e, ht⟩ := h
  refine ⟨f, hf, e, ?_⟩
  rw [asField_small (by omega) (by omega)]
  cases htype : f.type with
  | base b =>
    rw [htype] at ht
    cases b with
    | int t =>
      obtain ⟨hs, _, hl⟩ := ht
      have : (2 : Int) ^ 8 ≤ 2 ^ t.size := by
        rcases hs with h | h | h | h <;> rw [h] <;> decide
      refine ⟨by omega, by omega, fun l hl' => hl l hl' k ?_⟩
      simp only [List.mem_range'_1]
      omega
    | char => exact ⟨by omega, by omega⟩
    | struct n => exact ht.elim
  | _ => rw [htype] at ht; exact ht.elim

theorem orCreate_grow {K : String → Option Int} {σ : CEnv} {ref : IDRef} {x : Int}
    (h : σ ref.scope ref.name = none → EntryOK K s ref.scope ref.name x) : Grow K s σ (orCreate σ ref x) := by
  refine ⟨fun c k y hy => ?_, fun c k y hy => ?_⟩
  · unfold orCreate
    split
    · rw [hy]; rfl
    · exact hy
  · unfold orCreate at hy
    split at hy
    · rename_i e
      obtain ⟨rfl, rfl⟩ := e
      cases hσ : σ ref.scope ref.name with
      | none => rw [hσ] at hy; cases hy; exact .inr (h hσ)
      | some z => rw [hσ] at hy; exact .inl hy
    · exact .inl hy

theorem orCreate_self (σ : CEnv) (ref : IDRef) (x : Int) :
    orCreate σ ref x ref.scope ref.name = some ((σ ref.scope ref.name).getD x) := by
  unfold orCreate
  rw [if_pos ⟨rfl, rfl⟩]

theorem arrayCount_ok (H : Hyp π r s) {c : Count} (hc : CountGen π.Γ s c) {iv : Vec} {n : Int} {st st' : St E}
    (hi : Inv N st) (hiv : Live N st iv) (h : arrayCount r iv c st = .ok (n, st')) :
    Inv N st' ∧ Frame π.Γ.K s N st st' ∧ st'.arrs = st.arrs ∧ st'.cur = st.cur ∧
      CountFact π.Γ.K n (st'.env iv.cst) c := by
  match c, hc, h with
  | .size i, hc, h =>
    obtain ⟨h1, rfl⟩ := ofRes_ok h
    rw [integer_eq, H.const] at h1
    refine ⟨hi, .refl _ _, rfl, rfl, ?_⟩
    show ival π.Γ.K i = some n
    cases hv : ival π.Γ.K i with
    | none => rw [hv] at h1; cases h1
    | some x => rw [hv] at h1; cases h1; rfl
  | .con none, hc, h =>
    simp only [arrayCount] at h
    obtain ⟨k, st1, h1, ha⟩ := bind_ok h
    clear h
    obtain ⟨k1, k2, hs⟩ := randbtw_ok (by omega) h1
    obtain ⟨rfl, rfl⟩ := pure_ok ha
    refine ⟨hs.inv hi, hs.frame, hs.arrs, hs.cur, ?_, ?_⟩ <;> omega
  | .con (some (.leftover k)), hc, h => cases h
  | .con (some (.idRef ref)), hc, h =>
    simp only [arrayCount] at h
    obtain ⟨k, st1, h1, ha⟩ := bind_ok h
    clear h
    obtain ⟨k1, k2, hs⟩ := randbtw_ok (by omega) h1
    have hlt : iv.cst < st1.maps.length := by rw [hs.maps]; exact hiv.lt
    obtain ⟨hx, hset⟩ := lookupOrCreateAt_ok (hs.inv hi).wf hlt ha
    have hg : Grow π.Γ.K s (st1.env iv.cst) (orCreate (st1.env iv.cst) ref k) := by
      refine orCreate_grow fun _ => ⟨by omega, by omega, fun e => CountRef.key hc e k1 k2⟩
    have hf := hs.frame (N := N) (s := s) (K := π.Γ.K) |>.trans (hset.frame hiv.ge hg)
    refine ⟨⟨hset.wf, ?_, ?_⟩, hf, hset.arrs.trans hs.arrs, hset.cur.trans hs.cur, ?_⟩
    · rw [hset.cur]; exact (hs.inv hi).cur_ge
    · rw [hset.cur, hset.len]; exact (hs.inv hi).cur_lt
    · show st'.env iv.cst ref.scope ref.name = some n
      rw [hset.env, orCreate_self, hx]

/-! ## Arrays -/

/-- What an array action establishes. -/
def ArrayQ (π : Par) (s : Struct) (b : Base) (c : Count) (σ0 : CEnv) (d : Bytes) (σ : CEnv) : Prop :=
  ∃ n : Int, (∀ c k x, σ0 c k = some x → σ c k = some x) ∧ CountFact π.Γ.K n σ c ∧
    (d.length < π.B → MapOK π.Γ.K s σ ∧ ListGood π b n.toNat d σ)

theorem CountFact.mono {K : String → Option Int} {n : Int} {σ σ' : CEnv} {c : Count} (h : CountFact K n σ c)
    (g : ∀ c k x, σ c k = some x → σ' c k = some x) : CountFact K n σ' c := by
  match c, h with
  | .size i, h => exact h
  | .con none, h => exact h
  | .con (some (.leftover k)), h => exact h
  | .con (some (.idRef ref)), h => exact g _ _ _ h

theorem genArray_act (hsel : Selects E) (H : Hyp π r s) {S : Struct → TM E (List Vec)} (hS : StructAct π O S) {b : Base}
    (hb : ElemGen π.Γ π.C O b) {c : Count} (hc : CountGen π.Γ s c) :
    Act π.Γ.K s N True (ArrayQ π s b c) (genArray (E := E) r S b c) := by
  intro st vs st' hi h
  unfold genArray at h
  obtain ⟨iv, st1, h1, ha⟩ := bind_ok h
  clear h
  obtain ⟨n, st2, h2, hd⟩ := bind_ok ha
  clear ha
  obtain ⟨a1, a2, a3, a4, a5, a6, a7, a8, a9⟩ := vector_ok hi (.refl st) h1
  have f1 : Frame π.Γ.K s N st st1 := frame_arrs a6 (by omega) a9
  obtain ⟨b1, b2, b3, b4, b5⟩ := arrayCount_ok H hc a2 a4 h2
  have hg : Grow π.Γ.K s (st1.env iv.cst) (st2.env iv.cst) := b2.grow a4
  have e1 : st1.env iv.cst = st.env st.cur := by rw [a1]; exact env_eq (by rw [a6])
  have hcur2 : st2.cur = iv.cst := by rw [b4, a7, a1]
  have hread : st2.read iv.data = [] := by rw [b2.read a4.data, a5]
  have hm2 : MapOK π.Γ.K s (st.env st.cur) → MapOK π.Γ.K s (st2.env iv.cst) := fun hm => by
    rw [e1] at hg; exact hm.grow hg
  obtain ⟨q1, q2, q3, q4, q5⟩ := arrayLoop_ok (b := b) (M := st.arrs.length) (σ1 := st2.env iv.cst)
    (hyp := MapOK π.Γ.K s (st.env st.cur)) (j := 0) hsel (elem_act H hS hb) b1 (vs := [iv]) (by simp)
    (by rw [b3]; omega)
    (fun v hv => by
      cases List.mem_singleton.1 hv
      refine ⟨by omega, a4.frame b2, fun hm => ⟨fun _ _ _ hx => hx, fun _ => ⟨hm2 hm, ?_⟩⟩⟩
      rw [hread]
      exact fun _ tail => ⟨[], rfl, by simp [FitsL], by simp [EncList]⟩)
    (fun hm => by
      refine ⟨by rw [hcur2]; exact hm2 hm, fun v hv => ?_⟩
      cases List.mem_singleton.1 hv
      exact hm2 hm) hd
  refine ⟨q1, (f1.trans b2).trans q2, ?_, fun v hv => ⟨(q4 v hv).1, (q4 v hv).2.1⟩, ?_, fun _ => q3, fun _ hm => q5 hm⟩
  · rcases short_cases vs q3 with rfl | ⟨v, rfl⟩ <;> simp [arrsOf]
  · intro hm v hv
    obtain ⟨_, _, hR⟩ := q4 v hv
    obtain ⟨r1, r2⟩ := hR hm
    refine ⟨n, ?_, b5.mono r1, ?_⟩
    · intro c k x hx
      exact r1 c k x (hg.sub c k x (by rw [e1]; exact hx))
    · simpa using r2

/-! ## Fields -/

theorem refVal_of {σ : CEnv} {o : Fields} {ref : IDRef} {x : Int} (hsat : Sat π.Γ π.ctx σ)
    (hse : Sees π.Γ σ o (refNames ref)) (h : σ ref.scope ref.name = some x) :
    refVal π.Γ π.ctx o ref = some (asField x) := by
  unfold refVal
  by_cases hs : ref.scope = ""
  · have := hse ref.name (by simp [refNames, hs]) x (by rw [← hs]; exact h)
    rw [if_pos hs, this]
  · rw [if_neg hs, hsat _ _ _ hs h]

/-- A number of elements that a field of at most 32 bits holds. -/
theorem count_small (H : Hyp π r s) {ref : IDRef} (hc : CountRef π.Γ s ref) {σ : CEnv} {x : Int}
    (hm : MapOK π.Γ.K s σ) (hsat : Sat π.Γ π.ctx σ) (h : σ ref.scope ref.name = some x) :
    0 ≤ x ∧ asField x = x ∧ x.toNat ≤ π.A := by
  obtain ⟨r1, r2, r3⟩ := hm _ _ _ h
  have hlt : asField x < 2 ^ 32 := by
    unfold CountRef at hc
    by_cases hs : ref.scope = ""
    · rw [if_pos hs] at hc
      obtain ⟨f, hf, e, ht⟩ := hc
      have hv := KeyOK.val H.nodup hf (e ▸ r3 hs)
      cases htype : f.type with
      | base b =>
        rw [htype] at ht hv
        cases b with
        | int t =>
          have : (2 : Int) ^ t.size ≤ 2 ^ 32 := by
            obtain ⟨hsz, hle, _⟩ := ht
            rcases hsz with h | h | h | h <;> rw [h] at hle ⊢ <;> first | decide | omega
          have := hv.2.1
          omega
        | char => have := hv.2; omega
        | struct n => exact hv.elim
      | _ => rw [htype] at hv; exact hv.elim
    · rw [if_neg hs] at hc
      obtain ⟨C, hC, f, hf, e, hil, hna⟩ := hc
      obtain ⟨y, hy1, hy2⟩ := H.ctx _ _ hC f hf hil
      rw [e, hsat _ _ _ hs h] at hy1
      simp only [Option.some.injEq, Val.num.injEq] at hy1
      rw [hy1]
      cases htype : f.type with
      | base b =>
        rw [htype] at hil hna hy2
        cases b with
        | int t =>
          have : (2 : Int) ^ t.size ≤ 2 ^ 32 := by
            have hle : t.size ≤ 32 := hna
            rcases hil with h | h | h | h <;> rw [h] at hle ⊢ <;> first | decide | omega
          have := hy2.2
          omega
        | char => have := hy2.2; omega
        | struct n => exact hna.elim
      | _ => rw [htype] at hna; exact hna.elim
  obtain ⟨n1, n2⟩ := nonneg_of_asField r1 r2 hlt
  refine ⟨n1, n2, ?_⟩
  have := H.A
  omega

theorem encList_rem {Γ : Fmt} {P : SRel} {b : Base} (hb : ∀ v i m, EncBase Γ P b v i m → m.length < i.length) :
    ∀ {vs : List Val} {i : Bytes}, EncList Γ P b vs i [] → EncRem Γ P b vs i := by
  intro vs
  induction vs with
  | nil => intro i h; exact h
  | cons v vs ih =>
    rintro i ⟨m, h1, h2⟩
    refine ⟨?_, m, h1, ih h2⟩
    rintro rfl
    have := hb _ _ _ h1
    simp at this

theorem encBase_consumes (H : Hyp π r s) {b : Base} (hb : ElemGen π.Γ π.C O b) (hc : TyConsumes π.Γ (.base b)) (v : Val)
    (i m : Bytes) (h : EncBase π.Γ π.P b v i m) : m.length < i.length := by
  cases hc with
  | int t =>
    obtain ⟨bs, rfl, hl, _⟩ := h
    have := (sizeOK_dvd hb.1).2.2
    simp only [List.length_append]; omega
  | char => obtain ⟨b, rfl, _⟩ := h; simp
  | nested hn => exact H.cons _ _ _ _ hn h

/-- A field's vector, from an encoding of its type. -/
theorem field_good {p : List String} {f : Field} {σ0 σ : CEnv} {d : Bytes}
    (h : Sat π.Γ π.ctx σ → ∀ tail, (tail ≠ [] → TyClosed π.C f.type) → ∀ D, ∃ v, Fits π.A v ∧
      (∀ x, σ0 "" f.name = some x → v = .num (asField x)) ∧
      ∀ o, Sees π.Γ σ o (tyRefs f.type) → EncTy π.Γ π.P π.ctx D o f.type v (d ++ tail) tail) :
    MemberGood π p (.leaf (.field f)) σ0 d σ := by
  intro hsat tail ht D
  obtain ⟨v, h1, h2, h3⟩ := h hsat tail ht D
  have hf : memberFields (.leaf (.field f)) = [f] := rfl
  refine ⟨fun _ => v, fun _ _ => h1, ?_, ?_⟩
  · intro k hk _ x hx
    simp only [memberNames, hf, List.map_cons, List.map_nil, List.mem_singleton] at hk
    subst hk
    exact h2 x hx
  · intro o ho hse
    exact ⟨v, ho f (by rw [hf]; exact List.mem_cons_self), h3 o hse⟩

theorem not_scalar (H : Hyp π r s) {f : Field} (hf : f ∈ fieldsOf s.ms) {σ0 : CEnv} (hm : MapOK π.Γ.K s σ0)
    (hns : ∀ y, ¬ ValOK π.Γ.K f.type y) {v : Val} : ∀ x, σ0 "" f.name = some x → v = .num (asField x) := by
  intro x hx
  obtain ⟨_, _, h⟩ := hm _ _ _ hx
  exact (hns _ (KeyOK.val H.nodup hf (h rfl))).elim

theorem fitsL_slice {A : Nat} {vs : List Val} (h : FitsL A vs) (hl : vs.length ≤ A) : Fits A (.slice vs) := by
  simp only [Fits]; exact ⟨hl, h⟩

theorem genField_act (hsel : Selects E) (H : Hyp π r s) {S : Struct → TM E (List Vec)} (hS : StructAct π O S)
    {p : List String} {f : Field} (hf : f ∈ fieldsOf s.ms) (hg : TyGen π.Γ s π.C O p f.type) :
    Act π.Γ.K s N (OneMember O (.leaf (.field f))) (MemberQ π s p (.leaf (.field f))) (genField (E := E) r S f) := by
  unfold genField
  cases htype : f.type with
  | base b =>
    rw [htype] at hg
    simp only []
    cases b with
    | int t =>
      refine (genInt_act H hg ?_).mono (fun _ => trivial) ?_
      · intro x hx
        have := KeyOK.val H.nodup hf hx
        rwa [htype] at this
      · intro σ0 d σ hm h _
        obtain ⟨e, h2, h3, h4⟩ := h
        subst e
        refine ⟨hm, .of_sub fun _ _ _ hx => hx, field_good fun _ tail _ D =>
          ⟨.num (beNat d), by simp [Fits], fun x hx => by rw [h4 x hx], fun o _ => ?_⟩⟩
        rw [htype]
        exact ⟨d, rfl, h2, rfl, h3⟩
    | char =>
      refine (genInt_act H (U8_gen _) ?_).mono (fun _ => trivial) ?_
      · intro x hx
        have := KeyOK.val H.nodup hf hx
        rw [htype] at this
        exact ⟨this.1, this.2, fun l hl => by cases hl⟩
      · intro σ0 d σ hm h _
        refine ⟨h.1 ▸ hm, .of_sub fun _ _ _ hx => h.1 ▸ hx, field_good fun _ tail _ D =>
          ⟨.num (beNat d), by simp [Fits], fun x hx => by rw [h.2.2.2 x hx], fun o _ => ?_⟩⟩
        rw [htype]
        exact h.encChar tail
    | struct n =>
      have hp : p = [] := hg
      refine (genStructRef_act H hS n).mono (fun ho => ho n htype) ?_
      intro σ0 d σ hm h hd
      obtain ⟨h1, h2, h3, h4⟩ := h hd
      refine ⟨h1.mapOK h2, ⟨h3, by rw [hp]; simp⟩, field_good fun hsat tail ht D => ?_⟩
      rw [htype] at ht
      obtain ⟨v, hv1, hv2⟩ := h4 hsat tail ht
      refine ⟨v, hv1, not_scalar H hf hm (by rw [htype]; exact fun y h => h), fun o _ => ?_⟩
      rw [htype]
      exact hv2
  | ptr =>
    intro st vs st' hi h
    obtain ⟨v, st1, h1, ha⟩ := bind_ok h
    clear h
    obtain ⟨rfl, rfl⟩ := pure_ok ha
    refine vector_after hi (.refl st) h1 (fun hm _ => ⟨hm, .of_sub fun _ _ _ hx => hx, field_good fun _ tail _ D => ?_⟩)
    refine ⟨.num ((D : Int) - tail.length), by simp [Fits],
      not_scalar H hf hm (by rw [htype]; exact fun y h => h), fun o _ => ?_⟩
    rw [htype]
    exact ⟨rfl, rfl⟩
  | nulterm =>
    intro st vs st' hi h
    obtain ⟨bs, st1, h1, ha⟩ := bind_ok h
    clear h
    obtain ⟨v, st2, h2, hb⟩ := bind_ok ha
    clear ha
    obtain ⟨rfl, rfl⟩ := pure_ok hb
    unfold randnulterm at h1
    obtain ⟨n, st3, h3, hc⟩ := bind_ok h1
    clear h1
    obtain ⟨ls, st4, h4, hd⟩ := bind_ok hc
    clear hc
    obtain ⟨rfl, rfl⟩ := pure_ok hd
    obtain ⟨_, _, s1⟩ := randbtw_ok (by omega) h3
    obtain ⟨h0, s2⟩ := randletters_ok h4
    refine vector_after hi (s1.trans s2) h2 (fun hm _ => ⟨hm, .of_sub fun _ _ _ hx => hx,
      field_good fun _ tail _ D => ?_⟩)
    refine ⟨.str ls, by simp [Fits], not_scalar H hf hm (by rw [htype]; exact fun y h => h), fun o _ => ?_⟩
    rw [htype]
    exact ⟨ls, rfl, h0, by simp⟩
  | fixedArray b k =>
    rw [htype] at hg
    refine (genArray_act hsel H hS hg.1 (c := .size k) hg.2).mono (fun _ => trivial) ?_
    intro σ0 d σ hm h hd
    obtain ⟨n, h1, h2, h3⟩ := h
    obtain ⟨h4, h5⟩ := h3 hd
    refine ⟨h4, .of_sub h1, field_good fun hsat tail _ D => ?_⟩
    obtain ⟨ws, w1, w2, w3⟩ := h5 hsat tail
    refine ⟨.array ws, by simpa [Fits] using w2, not_scalar H hf hm (by rw [htype]; exact fun y h => h), fun o _ => ?_⟩
    rw [htype]
    refine ⟨ws, rfl, ?_, w3⟩
    obtain ⟨x, x1, x2, x3⟩ := hg.2
    have h2' : ival π.Γ.K k = some n := h2
    rw [x1] at h2'
    cases h2'
    rw [x1, w1, Int.toNat_of_nonneg x2]
  | varArray b c =>
    rw [htype] at hg
    match c, htype, hg with
    | none, htype, hg =>
      refine (genArray_act hsel H hS hg.1 (c := .con none) trivial).mono (fun _ => trivial) ?_
      intro σ0 d σ hm h hd
      obtain ⟨n, h1, h2, h3⟩ := h
      obtain ⟨h4, h5⟩ := h3 hd
      refine ⟨h4, .of_sub h1, field_good fun hsat tail ht D => ?_⟩
      have htail : tail = [] := by
        by_contra hne
        have := ht hne
        rw [htype] at this
        exact this
      subst htail
      obtain ⟨ws, w1, w2, w3⟩ := h5 hsat []
      have hA := H.A
      have hn : 1 ≤ n ∧ n ≤ 20 := h2
      refine ⟨.slice ws, fitsL_slice w2 (by omega), not_scalar H hf hm (by rw [htype]; exact fun y h => h), fun o _ => ?_⟩
      rw [htype]
      exact ⟨ws, rfl, encList_rem (encBase_consumes H hg.1 hg.2) w3, rfl⟩
    | some (.leftover k), htype, hg =>
      intro st vs st' hi h
      exfalso
      unfold genArray at h
      obtain ⟨iv, st1, h1, ha⟩ := bind_ok h
      obtain ⟨n, st2, h2, hb⟩ := bind_ok ha
      cases h2
    | some (.idRef ref), htype, hg =>
      refine (genArray_act hsel H hS hg.1 (c := .con (some (.idRef ref))) hg.2).mono (fun _ => trivial) ?_
      intro σ0 d σ hm h hd
      obtain ⟨n, h1, h2, h3⟩ := h
      obtain ⟨h4, h5⟩ := h3 hd
      refine ⟨h4, .of_sub h1, field_good fun hsat tail ht D => ?_⟩
      obtain ⟨ws, w1, w2, w3⟩ := h5 hsat tail
      have h2' : σ ref.scope ref.name = some n := h2
      obtain ⟨n1, n2, n3⟩ := count_small H hg.2 h4 hsat h2'
      refine ⟨.slice ws, fitsL_slice w2 (by omega), not_scalar H hf hm (by rw [htype]; exact fun y h => h),
        fun o hse => ?_⟩
      rw [htype] at hse ⊢
      refine ⟨ws, rfl, ?_, w3⟩
      rw [refVal_of hsat hse h2', n2, w1, Int.toNat_of_nonneg n1]

/-! ## Leaves -/

theorem genLeaf_act (hsel : Selects E) (H : Hyp π r s) {S : Struct → TM E (List Vec)} (hS : StructAct π O S)
    {p : List String} {l : Leaf} (hf : ∀ f ∈ leafFields [l], f ∈ fieldsOf s.ms) (hg : LeafGen π.Γ s π.C O p l) :
    Act π.Γ.K s N (OneMember O (.leaf l)) (MemberQ π s p (.leaf l)) (genLeaf (E := E) r S l) := by
  cases l with
  | field f => exact genField_act hsel H hS (hf f (by simp [leafFields])) hg
  | fail =>
    intro st vs st' hi h
    obtain ⟨rfl, rfl⟩ := pure_ok h
    exact ⟨hi, .refl _ _, by simp [arrsOf], by simp, by simp, fun _ => by simp, fun _ hm => ⟨hm, by simp⟩⟩
  | eos =>
    intro st vs st' hi h
    obtain ⟨v, st1, h1, ha⟩ := bind_ok h
    clear h
    obtain ⟨rfl, rfl⟩ := pure_ok ha
    refine vector_after hi (.refl st) h1 (fun hm _ => ⟨hm, .of_sub fun _ _ _ hx => hx, ?_⟩)
    intro _ tail ht D
    have htail : tail = [] := by
      by_contra hne
      exact ht hne
    subst htail
    refine ⟨fun _ => .nil, ?_, ?_, ?_⟩
    · intro f hf'; simp [memberFields, leafFields] at hf'
    · intro k hk; simp [memberNames, memberFields, leafFields] at hk
    · intro o _ _; exact ⟨rfl, rfl⟩
  | ignore =>
    intro st vs st' hi h
    obtain ⟨v, st1, h1, ha⟩ := bind_ok h
    clear h
    obtain ⟨n, st2, h2, hb⟩ := bind_ok ha
    clear ha
    obtain ⟨bs, st3, h3, hc⟩ := bind_ok hb
    clear hb
    obtain ⟨w, st4, h4, hd⟩ := bind_ok hc
    clear hc
    obtain ⟨rfl, rfl⟩ := pure_ok hd
    obtain ⟨_, _, s1⟩ := randbtw_ok (by omega) h2
    obtain ⟨_, s2⟩ := randread_ok h3
    have good : ∀ σ0 d, MapOK π.Γ.K s σ0 → MemberQ π s p (.leaf .ignore) σ0 d σ0 := by
      intro σ0 d hm _
      refine ⟨hm, .of_sub fun _ _ _ hx => hx, fun _ tail ht D => ?_⟩
      have htail : tail = [] := by
        by_contra hne
        exact ht hne
      subst htail
      refine ⟨fun _ => .nil, ?_, ?_, ?_⟩
      · intro f hf'; simp [memberFields, leafFields] at hf'
      · intro k hk; simp [memberNames, memberFields, leafFields] at hk
      · intro o _ _; exact rfl
    have A1 := vector_after (K := π.Γ.K) (s := s) (one := False) (Q := MemberQ π s p (.leaf .ignore)) hi (.refl st) h1
      (good _ _)
    have A2 := vector_after (K := π.Γ.K) (s := s) (one := False) (Q := MemberQ π s p (.leaf .ignore)) A1.inv
      (s1.trans s2) h4 (good _ _)
    obtain ⟨c1, _, c3, c4, c5, c6, c7, c8, c9⟩ := vector_ok hi (.refl st) h1
    have henv : st1.env st1.cur = st.env st.cur := by rw [c7]; exact env_eq (by rw [c6])
    have hv1 := A1.vec v List.mem_cons_self
    have hv2 := A2.vec w List.mem_cons_self
    refine ⟨A2.inv, A1.frame.trans A2.frame, ?_, ?_, ?_, fun ho => ho.elim, fun ho => ho.elim⟩
    · simp only [arrsOf, List.map_cons, List.map_nil, List.nodup_cons, List.mem_singleton, List.not_mem_nil,
        not_false_eq_true, List.nodup_nil, and_true]
      have := hv1.2.data.1
      omega
    · intro x hx
      rcases List.mem_cons.1 hx with rfl | hx
      · exact ⟨hv1.1, hv1.2.frame A2.frame⟩
      · cases List.mem_singleton.1 hx
        have := A1.frame.arrs_le
        exact ⟨by omega, hv2.2⟩
    · intro hm x hx
      rcases List.mem_cons.1 hx with rfl | hx
      · rw [A2.frame.read hv1.2.data]
        exact MemberQ.mono _ _ _ (A2.frame.grow hv1.2) (A1.sem hm _ List.mem_cons_self)
      · cases List.mem_singleton.1 hx
        have := A2.sem (by rw [henv]; exact hm) w List.mem_cons_self
        rw [henv] at this
        exact this

end Verif.Tv
