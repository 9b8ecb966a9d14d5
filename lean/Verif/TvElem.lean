import Verif.TvLeaf
/-!
# Vectors for nested structs and arrays
-/
set_option linter.unusedVariables false
namespace Verif.Tv
open Verif Verif.Ast Verif.Inspect Verif.Intervals Verif.Go Verif.Spec Verif.Wire Verif.Props

variable {E : Env} {π : Par} {r : Resolver} {s : Struct} {N : Nat} {O : String → Prop}

/-! ## Nested structs -/

/-- Global entries are `int64`s. -/
def Range (σ : CEnv) : Prop := ∀ c k x, c ≠ "" → σ c k = some x → -2 ^ 63 ≤ x ∧ x < 2 ^ 63

/-- There are no local entries. -/
def LocalFree (σ : CEnv) : Prop := ∀ k, σ "" k = none

theorem MapOK.range {K : String → Option Int} {σ : CEnv} (h : MapOK K s σ) : Range σ :=
  fun c k x _ hx => ⟨(h c k x hx).1, (h c k x hx).2.1⟩

theorem LocalFree.mapOK {K : String → Option Int} {σ : CEnv} (h : LocalFree σ) (hr : Range σ) : MapOK K s σ := by
  intro c k x hx
  have hc : c ≠ "" := by rintro rfl; rw [h k] at hx; cases hx
  exact ⟨(hr c k x hc hx).1, (hr c k x hc hx).2, fun e => (hc e).elim⟩

/-- What a nested struct establishes. -/
def StructQ (π : Par) (n : String) (σ0 : CEnv) (d : Bytes) (σ : CEnv) : Prop :=
  d.length < π.B → LocalFree σ ∧ Range σ ∧ (∀ c k x, c ≠ "" → σ0 c k = some x → σ c k = some x) ∧
    (Sat π.Γ π.ctx σ → ∀ tail, (tail ≠ [] → π.C n) → ∃ v, Fits π.A v ∧ π.P n v (d ++ tail) tail)

/-- What generating a struct does. -/
structure SAfter (π : Par) (one : Prop) (n : String) (st st' : St E) (vs : List Vec) : Prop where
  inv : Inv st.maps.length st'
  arrs_le : st.arrs.length ≤ st'.arrs.length
  arrs : ∀ a, a < st.arrs.length → st'.arrs[a]? = st.arrs[a]?
  maps : ∀ k, k < st.maps.length → st'.maps[k]? = st.maps[k]?
  nodup : (arrsOf vs).Nodup
  vec : ∀ v ∈ vs, st.arrs.length ≤ v.data.arr ∧ Live st.maps.length st' v
  sem : Range (st.env st.cur) → ∀ v ∈ vs, StructQ π n (st.env st.cur) (st'.read v.data) (st'.env v.cst)
  free : LocalFree (st'.env st'.cur) ∧ ∀ v ∈ vs, LocalFree (st'.env v.cst)
  one_len : one → vs.length ≤ 1
  one_ok : one → Range (st.env st.cur) →
    (LocalFree (st'.env st'.cur) ∧ Range (st'.env st'.cur)) ∧ ∀ v ∈ vs, LocalFree (st'.env v.cst) ∧ Range (st'.env v.cst)

/-- Actions for structs that do that. -/
def StructAct (π : Par) (O : String → Prop) (S : Struct → TM E (List Vec)) : Prop :=
  ∀ n s', π.Γ.structs n = some s' → s'.extern = false → ∀ st vs st', st.WF → st.cur < st.maps.length →
    S s' st = .ok (vs, st') → SAfter π (O n) n st st' vs

theorem SAfter.maps_le {one : Prop} {n : String} {st st' : St E} {vs : List Vec} (h : SAfter π one n st st' vs) :
    st.maps.length ≤ st'.maps.length := by
  have := h.inv.cur_ge
  have := h.inv.cur_lt
  omega

theorem genStructRef_act (H : Hyp π r s) {S : Struct → TM E (List Vec)} (hS : StructAct π O S) (n : String) :
    Act π.Γ.K s N (O n) (StructQ π n) (genStructRef r S n) := by
  intro st vs st' hi h
  unfold genStructRef at h
  obtain ⟨s', st1, h1, ha⟩ := bind_ok h
  clear h
  obtain ⟨h2, rfl⟩ := ofRes_ok h1
  unfold Resolver.structNonExtern at h2
  rw [H.strs] at h2
  cases hs : π.Γ.structs n with
  | none => rw [hs] at h2; cases h2
  | some s'' =>
    rw [hs] at h2
    simp only [] at h2
    cases he : s''.extern with
    | true => rw [if_pos he] at h2; cases h2
    | false =>
      rw [if_neg (by simp [he])] at h2
      cases h2
      have A := hS n s' hs he _ _ _ hi.wf hi.cur_lt ha
      have hle := A.maps_le
      have hN : N ≤ st1.maps.length := Nat.le_of_lt (Nat.lt_of_le_of_lt hi.cur_ge hi.cur_lt)
      refine ⟨⟨A.inv.wf, Nat.le_trans hN A.inv.cur_ge, A.inv.cur_lt⟩, ⟨A.arrs_le, A.arrs, hle, fun k _ => A.maps k, ?_⟩,
        A.nodup, ?_, ?_, A.one_len, ?_⟩
      · intro k _ hk
        rw [env_eq (A.maps k hk)]
        exact .refl _
      · intro v hv
        obtain ⟨a, b⟩ := A.vec v hv
        exact ⟨a, b.data, Nat.le_trans hN b.ge, b.lt⟩
      · intro hm v hv
        exact A.sem hm.range v hv
      · intro ho hm
        obtain ⟨⟨a, b⟩, c⟩ := A.one_ok ho hm.range
        exact ⟨a.mapOK b, fun v hv => (c v hv).1.mapOK (c v hv).2⟩

/-! ## Elements -/

/-- The bytes are an encoding of an element, whatever follows. -/
def ElemGood (π : Par) (b : Base) (d : Bytes) (σ : CEnv) : Prop :=
  Sat π.Γ π.ctx σ → ∀ tail, ∃ v, Fits π.A v ∧ EncBase π.Γ π.P b v (d ++ tail) tail

/-- What an element action establishes. -/
def ElemQ (π : Par) (s : Struct) (b : Base) (σ0 : CEnv) (d : Bytes) (σ : CEnv) : Prop :=
  d.length < π.B → MapOK π.Γ.K s σ ∧ ElemGood π b d σ

theorem elem_act (H : Hyp π r s) {S : Struct → TM E (List Vec)} (hS : StructAct π O S) {b : Base}
    (hb : ElemGen π.Γ π.C O b) : Act π.Γ.K s N True (ElemQ π s b) (genBase r S "" b) := by
  have hk : ∀ {t : Ty} x, KeyOK π.Γ.K s "" x → ValOK π.Γ.K t (asField x) := by
    rintro t x ⟨f, hf, e, _⟩
    exact (H.named f hf e).elim
  cases b with
  | int t =>
    refine (genInt_act H hb (fun x => hk x)).mono id ?_
    intro σ0 d σ hm h _
    exact ⟨h.1 ▸ hm, fun _ tail => ⟨.num (beNat d), by simp [Fits], h.enc tail⟩⟩
  | char =>
    refine (genInt_act H (U8_gen _) (fun x => hk x)).mono id ?_
    intro σ0 d σ hm h _
    exact ⟨h.1 ▸ hm, fun _ tail => ⟨.num (beNat d), by simp [Fits], h.encChar tail⟩⟩
  | struct n =>
    refine (genStructRef_act H hS n).mono (fun _ => hb.2) ?_
    intro σ0 d σ hm h hd
    obtain ⟨a, b, _, c⟩ := h hd
    exact ⟨a.mapOK b, fun hsat tail => c hsat tail (fun _ => hb.1)⟩

/-! ## Array loops -/

/-- The bytes are an encoding of `j` elements, whatever follows. -/
def ListGood (π : Par) (b : Base) (j : Nat) (d : Bytes) (σ : CEnv) : Prop :=
  Sat π.Γ π.ctx σ → ∀ tail, ∃ vs, vs.length = j ∧ FitsL π.A vs ∧ EncList π.Γ π.P b vs (d ++ tail) tail

/-- What holds of a vector of `j` elements, starting from store `σ1`. -/
def ListR (π : Par) (s : Struct) (b : Base) (σ1 : CEnv) (j : Nat) (σ : CEnv) (d : Bytes) : Prop :=
  (∀ c k x, σ1 c k = some x → σ c k = some x) ∧
  (d.length < π.B → MapOK π.Γ.K s σ ∧ ListGood π b j d σ)

theorem ListR.mono {b : Base} {σ1 : CEnv} {j : Nat} : Mono π.Γ.K s (ListR π s b σ1 j) := by
  intro σ σ' d g h
  refine ⟨fun c k x hx => g.sub c k x (h.1 c k x hx), fun hd => ?_⟩
  obtain ⟨h1, h2⟩ := h.2 hd
  exact ⟨h1.grow g, fun hsat => h2 (hsat.anti fun c k x _ => g.sub c k x)⟩

theorem over_left {σ τ : CEnv} (h : Compat σ τ) : ∀ c k x, σ c k = some x → over σ τ c k = some x := by
  intro c k x hx
  unfold over
  cases ht : τ c k with
  | none => simpa using hx
  | some y => rw [h c k x y hx ht]; rfl

theorem over_right {σ τ : CEnv} : ∀ c k x, τ c k = some x → over σ τ c k = some x := by
  intro c k x hx
  unfold over
  rw [hx]; rfl

theorem over_mapOK {K : String → Option Int} {σ τ : CEnv} (h1 : MapOK K s σ) (h2 : MapOK K s τ) :
    MapOK K s (over σ τ) := by
  intro c k x hx
  unfold over at hx
  cases ht : τ c k with
  | none => rw [ht] at hx; exact h1 c k x (by simpa using hx)
  | some y => rw [ht] at hx; exact h2 c k x (by rw [ht]; simpa using hx)

theorem ListR.step {b : Base} {σ1 σ σ' τ : CEnv} {j : Nat} {d d' : Bytes} (h : ListR π s b σ1 j σ d)
    (h' : ElemQ π s b τ d' σ') (hc : Compat σ' σ) : ListR π s b σ1 (j + 1) (over σ' σ) (d' ++ d) := by
  refine ⟨fun c k x hx => over_right c k x (h.1 c k x hx), fun hd => ?_⟩
  simp only [List.length_append] at hd
  obtain ⟨a1, a2⟩ := h.2 (by omega)
  obtain ⟨b1, b2⟩ := h' (by omega)
  refine ⟨over_mapOK b1 a1, fun hsat tail => ?_⟩
  obtain ⟨vs, e1, e2, e3⟩ := a2 (hsat.anti fun c k x _ => over_right c k x) tail
  obtain ⟨v, f1, f2⟩ := b2 (hsat.anti fun c k x _ => over_left hc c k x) (d ++ tail)
  refine ⟨v :: vs, by simp [e1], ⟨f1, e2⟩, d ++ tail, ?_, e3⟩
  rw [List.append_assoc]
  exact f2

theorem short_cases (vs : List Vec) (h : vs.length ≤ 1) : vs = [] ∨ ∃ v, vs = [v] := by
  match vs, h with
  | [], _ => exact .inl rfl
  | [v], _ => exact .inr ⟨v, rfl⟩

/-- `cross` of at most one with at most one vector. -/
theorem cross_ok {us vs ws : List Vec} {st0 st st' : St E} {M : Nat} (hi : Inv N st)
    (hu : us.length ≤ 1) (hv : vs.length ≤ 1)
    (hul : ∀ u ∈ us, st0.arrs.length ≤ u.data.arr ∧ Live N st u) (hvl : ∀ v ∈ vs, Live N st v)
    (h : cross us vs st = .ok (ws, st')) {K : String → Option Int} (hfr : Frame K s N st0 st) :
    Inv N st' ∧ Frame K s N st0 st' ∧ st'.cur = st.cur ∧ (∀ k, k < st.maps.length → st'.env k = st.env k) ∧ ws.length ≤ 1 ∧
    ∀ w ∈ ws, ∃ u ∈ us, ∃ v ∈ vs, st0.arrs.length ≤ w.data.arr ∧ Live N st' w ∧
      Compat (st.env u.cst) (st.env v.cst) ∧ st'.env w.cst = over (st.env u.cst) (st.env v.cst) ∧
      st'.read w.data = st.read u.data ++ st.read v.data := by
  rcases short_cases us hu with rfl | ⟨u, rfl⟩
  · obtain ⟨rfl, rfl⟩ := pure_ok h
    exact ⟨hi, hfr, rfl, fun _ _ => rfl, by simp, by simp⟩
  · simp only [cross] at h
    obtain ⟨p, st1, h1, ha⟩ := bind_ok h
    clear h
    obtain ⟨rest, st2, h2, hb⟩ := bind_ok ha
    clear ha
    obtain ⟨rfl, rfl⟩ := pure_ok h2
    obtain ⟨rfl, rfl⟩ := pure_ok hb
    clear h2 hb
    rw [List.append_nil]
    rcases short_cases vs hv with rfl | ⟨v, rfl⟩
    · obtain ⟨rfl, rfl⟩ := pure_ok h1
      exact ⟨hi, hfr, rfl, fun _ _ => rfl, by simp, by simp⟩
    · simp only [crossOne] at h1
      obtain ⟨m, st3, h3, hc⟩ := bind_ok h1
      clear h1
      obtain ⟨d, st4, h4, hd⟩ := bind_ok hc
      clear hc
      simp only [getSlice, Out.ok.injEq, Prod.mk.injEq] at h4
      obtain ⟨rfl, rfl⟩ := h4
      obtain ⟨sl, st5, h5, he⟩ := bind_ok hd
      clear hd
      obtain ⟨rest, st6, h6, hf⟩ := bind_ok he
      clear he
      obtain ⟨rfl, rfl⟩ := pure_ok h6
      obtain ⟨rfl, rfl⟩ := pure_ok hf
      obtain ⟨hcomp, hnew⟩ := mergeRef_ok hi.wf h3
      obtain ⟨hu1, hu2⟩ := hul u List.mem_cons_self
      have hv2 := hvl v List.mem_cons_self
      have hul3 : SLive st3 u.data := hu2.data.of_eq (Nat.le_of_eq (by rw [hnew.arrs])) (by rw [hnew.arrs])
      have hA := appendSlice_ok hul3 h5
      have hfr3 : Frame K s N st0 st3 := hfr.trans hnew.frame
      have henv3 : ∀ k, k < st.maps.length → st3.env k = st.env k := fun k hk => env_eq (hnew.old k hk)
      have henv5 : ∀ k, st'.env k = st3.env k := fun k => env_eq (by rw [hA.maps])
      have hcur : st'.cur = st.cur := hA.cur.trans hnew.cur
      refine ⟨⟨?_, by rw [hcur]; exact hi.cur_ge, ?_⟩, ⟨?_, ?_, ?_, ?_, ?_⟩, hcur, ?_, by simp, ?_⟩
      · intro c hc; rw [hA.maps] at hc; exact hnew.wf c hc
      · rw [hcur, hA.maps, hnew.len]; have := hi.cur_lt; omega
      · exact Nat.le_trans hfr3.arrs_le hA.le
      · intro a ha
        rw [hA.old a (Nat.lt_of_lt_of_le ha hfr3.arrs_le) (by omega), hfr3.arrs a ha]
      · rw [hA.maps]; exact hfr3.maps_le
      · intro k hk hl; rw [hA.maps]; exact hfr3.low k hk hl
      · intro k hk hl; rw [henv5]; exact hfr3.high k hk hl
      · intro k hk; rw [henv5, henv3 k hk]
      · intro w hw
        cases List.mem_singleton.1 hw
        refine ⟨u, List.mem_cons_self, v, List.mem_cons_self, ?_, ⟨hA.live, ?_, ?_⟩, hcomp, ?_, ?_⟩
        · have := hfr3.arrs_le
          rcases hA.arr with e | e <;> simp only [e] <;> omega
        · simp only [hnew.ref]
          have := hi.cur_ge; have := hi.cur_lt; omega
        · simp only [hnew.ref, hA.maps, hnew.len]; omega
        · simp only []
          rw [henv5, hnew.env]
        · simp only []
          rw [hA.read, read_eq (st := st) (st' := st3) (by rw [hnew.arrs])]
          have : st3.read v.data = st.read v.data := read_eq (by rw [hnew.arrs])
          rw [this]

theorem arrayLoop_ok (hsel : Selects E) {b : Base} {elem : TM E (List Vec)}
    (hel : Act π.Γ.K s N True (ElemQ π s b) elem) {M : Nat} {σ1 : CEnv} {hyp : Prop} :
    ∀ {n j : Nat} {vs ws : List Vec} {st st' : St E}, Inv N st → vs.length ≤ 1 → M ≤ st.arrs.length →
    (∀ v ∈ vs, M ≤ v.data.arr ∧ Live N st v ∧ (hyp → ListR π s b σ1 j (st.env v.cst) (st.read v.data))) →
    (hyp → MapsOK π.Γ.K s st vs) →
    arrayLoop elem n vs st = .ok (ws, st') →
    Inv N st' ∧ Frame π.Γ.K s N st st' ∧ ws.length ≤ 1 ∧
    (∀ v ∈ ws, M ≤ v.data.arr ∧ Live N st' v ∧ (hyp → ListR π s b σ1 (j + n) (st'.env v.cst) (st'.read v.data))) ∧
    (hyp → MapsOK π.Γ.K s st' ws) := by
  intro n
  induction n with
  | zero =>
    intro j vs ws st st' hi hl hM hv hm h
    obtain ⟨rfl, rfl⟩ := pure_ok h
    exact ⟨hi, .refl _ _, hl, hv, hm⟩
  | succ n ih =>
    intro j vs ws st st' hi hl hM hv hm h
    simp only [arrayLoop] at h
    obtain ⟨us, st1, h1, ha⟩ := bind_ok h
    clear h
    obtain ⟨xs, st2, h2, hb⟩ := bind_ok ha
    clear ha
    obtain ⟨ys, st3, h3, hc⟩ := bind_ok hb
    clear hb
    have A := hel st us st1 hi h1
    obtain ⟨c1, c2, c3, c4, c5, c6⟩ := cross_ok (M := M) A.inv (A.one_len trivial) hl A.vec
      (fun v hv' => (hv v hv').2.1.frame A.frame) h2 A.frame
    obtain ⟨hsp, rfl⟩ := select_ok hsel h3
    have hlen := hsp.length_le
    have hm1 : hyp → MapsOK π.Γ.K s st1 us := fun hy => A.one_ok trivial (hm hy).1
    have hcur2 : hyp → MapOK π.Γ.K s (st2.env st2.cur) := by
      intro hy
      rw [c3, c4 _ A.inv.cur_lt]
      exact (hm1 hy).1
    obtain ⟨q1, q2, q3, q4, q5⟩ := ih (j := j + 1) (st := { st2 with calls := st2.calls + 1 })
      ⟨c1.wf, c1.cur_ge, c1.cur_lt⟩ (Nat.le_trans hlen c5) (Nat.le_trans hM c2.arrs_le)
      (fun w hw => by
        obtain ⟨u, hu, v, hv', e1, e2, e3, e4, e5⟩ := c6 w (hsp.subset hw)
        refine ⟨Nat.le_trans hM e1, ⟨e2.data, e2.ge, e2.lt⟩, fun hy => ?_⟩
        change ListR π s b σ1 (j + 1) (st2.env w.cst) (st2.read w.data)
        rw [e4, e5]
        have hR := (hv v hv').2.2 hy
        have hlv := (hv v hv').2.1
        have hR1 := ListR.mono _ _ _ (A.frame.grow hlv) hR
        rw [← A.frame.read hlv.data] at hR1
        exact hR1.step (A.sem (hm hy).1 u hu) e3)
      (fun hy => by
        refine ⟨hcur2 hy, fun w hw => ?_⟩
        obtain ⟨u, hu, v, hv', e1, e2, e3, e4, e5⟩ := c6 w (hsp.subset hw)
        change MapOK π.Γ.K s (st2.env w.cst)
        rw [e4]
        exact over_mapOK ((hm1 hy).2 u hu) (((hm hy).2 v hv').grow (A.frame.grow (hv v hv').2.1))) hc
    refine ⟨q1, c2.calls.trans q2, q3, ?_, q5⟩
    have : j + (n + 1) = j + 1 + n := by omega
    rw [this]
    exact q4

end Verif.Tv
