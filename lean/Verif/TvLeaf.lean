import Verif.TvSem
import Verif.BranchLemmas
/-!
# Vectors for leaves
-/
set_option linter.unusedVariables false
namespace Verif.Tv
open Verif Verif.Ast Verif.Inspect Verif.Intervals Verif.Go Verif.Spec Verif.Wire Verif.Props

/-! ## Numbers -/

theorem asField_nonneg (x : Int) : 0 ≤ asField x := Int.emod_nonneg _ (by decide)
theorem asField_lt (x : Int) : asField x < 2 ^ 64 := Int.emod_lt_of_pos _ (by decide)

theorem asField_small {x : Int} (h0 : 0 ≤ x) (h1 : x < 2 ^ 64) : asField x = x := Int.emod_eq_of_lt h0 h1

theorem asField_castI64 (x : UInt64) : asField (castI64 x) = x.toNat := by
  have := x.toNat_lt
  unfold castI64 asField
  split <;> omega

theorem castI64_range (x : UInt64) : -2 ^ 63 ≤ castI64 x ∧ castI64 x < 2 ^ 63 := by
  have := x.toNat_lt
  unfold castI64
  split <;> omega

theorem castU64_asField (x : Int) : ((Resolver.castU64 x).toNat : Int) = asField x := by
  unfold Resolver.castU64 asField
  have h0 := Int.emod_nonneg x (b := 2 ^ 64) (by decide)
  have h1 := Int.emod_lt_of_pos x (b := 2 ^ 64) (by decide)
  have h : (x % 2 ^ 64).toNat < 2 ^ 64 := by omega
  have e : (UInt64.ofNat (x % 2 ^ 64).toNat).toNat = (x % 2 ^ 64).toNat := UInt64.toNat_ofNat_of_lt' h
  rw [e]
  exact Int.toNat_of_nonneg h0

/-- An `int64` seen as a small `uint64` is not negative. -/
theorem nonneg_of_asField {x : Int} (h0 : -2 ^ 63 ≤ x) (h1 : x < 2 ^ 63) (h : asField x < 2 ^ 32) :
    0 ≤ x ∧ asField x = x := by
  unfold asField at *
  omega

theorem sizeOK_dvd {t : IntType} (h : SizeOK t) : 8 ∣ t.size ∧ t.size ≤ 64 ∧ 0 < t.size / 8 := by
  rcases h with h | h | h | h <;> rw [h] <;> decide

/-- `intbytes` of a value that fits. -/
theorem intbytes_asField {t : IntType} (hs : SizeOK t) {x : Int} (h : asField x < 2 ^ t.size) :
    (intbytes x t.size).length = t.size / 8 ∧ (beNat (intbytes x t.size) : Int) = asField x := by
  obtain ⟨h8, h64, _⟩ := sizeOK_dvd hs
  obtain ⟨h1, h2⟩ := Props.C39_intbytes x t.size h8
  refine ⟨h1, ?_⟩
  rw [h2]
  have hd : (2 : Int) ^ t.size ∣ 2 ^ 64 := by
    obtain ⟨k, hk⟩ := Nat.exists_eq_add_of_le h64
    rw [hk, Int.pow_add]
    exact Int.dvd_mul_right _ _
  rw [← Int.emod_emod_of_dvd x hd]
  exact Int.emod_eq_of_lt (asField_nonneg x) h

theorem listOK_nonneg {K : String → Option Int} {l : IntegerList} (h : ListOK K l) : Nonneg K l.ranges := by
  intro r hr v hv
  obtain ⟨lo, hi, hb, h1, h2, h3, h4⟩ := h r hr
  unfold bounds at hb
  cases hl : ival K r.low with
  | none => rw [hl] at hb; cases hb
  | some a =>
    rw [hl] at hb
    simp only [] at hb
    cases hh : r.high with
    | none =>
      rw [hh] at hb
      simp only [Option.some.injEq, Prod.mk.injEq] at hb
      rcases hv with hv | ⟨h, e, _⟩
      · rw [hl] at hv; cases hv; omega
      · rw [hh] at e; cases e
    | some b =>
      rw [hh] at hb
      simp only [Option.map_eq_some_iff, Prod.mk.injEq] at hb
      obtain ⟨c, hc, e1, e2⟩ := hb
      rcases hv with hv | ⟨h, e, hv⟩
      · rw [hl] at hv; cases hv; omega
      · rw [hh] at e; cases e; rw [hc] at hv; cases hv; omega

theorem listHas_below {K : String → Option Int} {l : IntegerList} {n : Nat} (hb : Below K l n) {y : Int}
    (h : listHas K l y = true) : y < 2 ^ n := by
  simp only [listHas, List.any_eq_true] at h
  obtain ⟨r, hr, h⟩ := h
  unfold rangeHas at h
  cases hbd : bounds K r with
  | none => rw [hbd] at h; cases h
  | some p =>
    obtain ⟨lo, hi⟩ := p
    rw [hbd] at h
    simp only [Bool.and_eq_true, decide_eq_true_eq] at h
    have := hb r hr _ hbd
    simp only [] at this
    omega

/-! ## What the argument is about -/

variable {E : Env}

/-- What is assumed throughout: the resolver is that of the format, names are distinct, contexts conform. -/
structure Hyp (π : Par) (r : Resolver) (s : Struct) : Prop where
  const : r.constant = π.Γ.K
  ctxs : r.context = π.Γ.contexts
  strs : r.struct = π.Γ.structs
  nodup : ((fieldsOf s.ms).map (·.name)).Nodup
  named : ∀ f ∈ fieldsOf s.ms, f.name ≠ ""
  ctx : CtxOK π.Γ π.ctx
  A : 2 ^ 32 ≤ π.A + 1
  B : π.B ≤ 2 ^ 63
  cons : ∀ n v i r, Consumes π.Γ n → π.P n v i r → r.length < i.length

variable {π : Par} {r : Resolver} {s : Struct} {N : Nat}

theorem name_inj {fs : List Field} (hn : (fs.map (·.name)).Nodup) {f g : Field} (hf : f ∈ fs) (hg : g ∈ fs)
    (h : f.name = g.name) : f = g := List.inj_on_of_nodup_map hn hf hg h

theorem KeyOK.val {K : String → Option Int} (hn : ((fieldsOf s.ms).map (·.name)).Nodup) {f : Field}
    (hf : f ∈ fieldsOf s.ms) {x : Int} (h : KeyOK K s f.name x) : ValOK K f.type (asField x) := by
  obtain ⟨g, hg, e, hv⟩ := h
  rw [name_inj hn hf hg e.symm]
  exact hv

/-! ## Consuming randomness -/

/-- States with the same memory. -/
structure Same (st st' : St E) : Prop where
  maps : st'.maps = st.maps
  arrs : st'.arrs = st.arrs
  cur : st'.cur = st.cur

theorem Same.refl (st : St E) : Same st st := ⟨rfl, rfl, rfl⟩
theorem Same.trans {st st' st'' : St E} (h : Same st st') (h' : Same st' st'') : Same st st'' :=
  ⟨h'.maps.trans h.maps, h'.arrs.trans h.arrs, h'.cur.trans h.cur⟩

theorem Same.inv {st st' : St E} (h : Same st st') (hi : Inv N st) : Inv N st' :=
  ⟨fun c hc => hi.wf c (h.maps ▸ hc), by rw [h.cur]; exact hi.cur_ge, by rw [h.cur, h.maps]; exact hi.cur_lt⟩

theorem Same.env {st st' : St E} (h : Same st st') (r : Nat) : st'.env r = st.env r := env_eq (by rw [h.maps])

theorem Same.frame {K : String → Option Int} {st st' : St E} (h : Same st st') : Frame K s N st st' :=
  frame_arrs h.maps (Nat.le_of_eq (by rw [h.arrs])) (fun a _ => by rw [h.arrs])

theorem randbtw_ok {a b k : Nat} {st st' : St E} (hab : a ≤ b) (h : randbtw a b st = .ok (k, st')) :
    a ≤ k ∧ k ≤ b ∧ Same st st' := by
  simp only [randbtw, Out.ok.injEq, Prod.mk.injEq] at h
  obtain ⟨rfl, rfl⟩ := h
  have := E.R.intn_lt (b - a + 1) st.rnd (by omega)
  refine ⟨Nat.le_add_right _ _, ?_, rfl, rfl, rfl⟩
  show a + (E.R.intn (b - a + 1) st.rnd).1 ≤ b
  omega

theorem randread_ok {n : Nat} {bs : Bytes} {st st' : St E} (h : randread n st = .ok (bs, st')) :
    bs.length = n ∧ Same st st' := by
  simp only [randread, Out.ok.injEq, Prod.mk.injEq] at h
  obtain ⟨rfl, rfl⟩ := h
  exact ⟨E.R.read_length _ _, rfl, rfl, rfl⟩

theorem alpha_getD {i : Nat} (h : i ≤ 25) : alpha.getD i 0 ≠ 0 := by
  have : ∀ i, i < 26 → alpha.getD i 0 ≠ 0 := by decide +kernel
  exact this i (by omega)

theorem randletters_ok : ∀ {n : Nat} {bs : Bytes} {st st' : St E}, randletters n st = .ok (bs, st') →
    (0 : UInt8) ∉ bs ∧ Same st st' := by
  intro n
  induction n with
  | zero =>
    intro bs st st' h
    obtain ⟨rfl, rfl⟩ := pure_ok h
    exact ⟨by simp, .refl _⟩
  | succ n ih =>
    intro bs st st' h
    simp only [randletters] at h
    obtain ⟨i, st1, h1, ha⟩ := bind_ok h
    clear h
    obtain ⟨rest, st2, h2, hb⟩ := bind_ok ha
    clear ha
    obtain ⟨rfl, rfl⟩ := pure_ok hb
    obtain ⟨_, hi, hs1⟩ := randbtw_ok (by omega) h1
    obtain ⟨h0, hs2⟩ := ih h2
    refine ⟨?_, hs1.trans hs2⟩
    simp only [List.mem_cons, not_or]
    exact ⟨fun e => alpha_getD hi e.symm, h0⟩

theorem randomIn_ok {I : Set} (hc : Canonical I.intervals) {x : UInt64} {st st' : St E}
    (h : randomIn I st = .ok (x, st')) : I.contains x = true ∧ Same st st' := by
  unfold randomIn at h
  have hne : I.intervals ≠ [] := by
    intro e
    unfold Set.random at h
    rw [if_pos (by simpa using e)] at h
    cases h
  cases hr : I.random E.R E.draws st.rnd with
  | none => rw [hr] at h; cases h
  | some p =>
    obtain ⟨o, rr⟩ := p
    obtain ⟨v, rfl, hv⟩ := Props.C06_random_mem E.R I hc hne _ _ _ _ hr
    rw [hr] at h
    cases h
    exact ⟨hv, rfl, rfl, rfl⟩

/-! ## A single vector -/

theorem vector_ok {bs : Bytes} {v : Vec} {st st1 st' : St E} (hi : Inv N st) (hs : Same st st1)
    (h : vector bs st1 = .ok (v, st')) :
    v.cst = st.cur ∧ Inv N st' ∧ v.data.arr = st.arrs.length ∧ Live N st' v ∧ st'.read v.data = bs ∧
      st'.maps = st.maps ∧ st'.cur = st.cur ∧ st'.arrs.length = st.arrs.length + 1 ∧
      ∀ a, a < st.arrs.length → st'.arrs[a]? = st.arrs[a]? := by
  unfold vector at h
  obtain ⟨d, st2, h1, ha⟩ := bind_ok h
  clear h
  obtain ⟨rfl, rfl⟩ := newSlice_ok h1
  obtain ⟨c, st3, h2, hb⟩ := bind_ok ha
  obtain ⟨rfl, rfl⟩ := getCur_ok h2
  obtain ⟨rfl, rfl⟩ := pure_ok hb
  refine ⟨hs.cur, ?_, by simp only [hs.arrs], ?_, read_newSlice _ _, hs.maps, hs.cur, by simp [hs.arrs], ?_⟩
  · have := hs.inv hi
    exact ⟨this.wf, this.cur_ge, this.cur_lt⟩
  · refine ⟨⟨by simp, by simp⟩, ?_, ?_⟩
    · simp only [hs.cur]; exact hi.cur_ge
    · simp only [hs.cur, hs.maps]; exact hi.cur_lt
  · intro a ha
    simp only [hs.arrs]
    rw [List.getElem?_append_left ha]

theorem vector_after {K : String → Option Int} {one : Prop} {Q : CEnv → Bytes → CEnv → Prop} {bs : Bytes} {v : Vec}
    {st st1 st' : St E} (hi : Inv N st) (hs : Same st st1) (h : vector bs st1 = .ok (v, st'))
    (hQ : MapOK K s (st.env st.cur) → Q (st.env st.cur) bs (st.env st.cur)) :
    After K s N one Q st st' [v] := by
  obtain ⟨a1, a2, a3, a4, a5, a6, a7, a8, a9⟩ := vector_ok hi hs h
  have henv : ∀ k, st'.env k = st.env k := fun k => env_eq (by rw [a6])
  refine ⟨a2, frame_arrs a6 (by omega) a9, by simp [arrsOf], ?_, ?_, fun _ => by simp, ?_⟩
  · intro w hw
    cases List.mem_singleton.1 hw
    exact ⟨by omega, a4⟩
  · intro hm w hw
    cases List.mem_singleton.1 hw
    rw [a5, henv, a1]
    exact hQ hm
  · intro _ hm
    refine ⟨by rw [henv, a7]; exact hm, fun w hw => ?_⟩
    cases List.mem_singleton.1 hw
    rw [henv, a1]
    exact hm

theorem Act.mono {K : String → Option Int} {one one' : Prop} {Q Q' : CEnv → Bytes → CEnv → Prop} {x : TM E (List Vec)}
    (h : Act K s N one Q x) (ho : one' → one) (hQ : ∀ σ0 d σ, MapOK K s σ0 → Q σ0 d σ → Q' σ0 d σ) :
    Act K s N one' Q' x := by
  intro st vs st' hi hx
  have A := h st vs st' hi hx
  exact ⟨A.inv, A.frame, A.nodup, A.vec, fun hm v hv => hQ _ _ _ hm (A.sem hm v hv), fun h => A.one_len (ho h),
    fun h => A.one_ok (ho h)⟩

/-! ## Integers -/

/-- What an integer action establishes. -/
def IntQ (K : String → Option Int) (name : String) (t : IntType) (σ0 : CEnv) (d : Bytes) (σ : CEnv) : Prop :=
  σ = σ0 ∧ d.length = t.size / 8 ∧ (∀ l, t.constraint = some l → listHas K l (beNat d) = true) ∧
    ∀ x, σ0 "" name = some x → (beNat d : Int) = asField x

theorem genInt_act (H : Hyp π r s) {name : String} {t : IntType} (ht : IntGen π.Γ.K t)
    (hk : ∀ x, KeyOK π.Γ.K s name x → ValOK π.Γ.K (.base (.int t)) (asField x)) :
    Act π.Γ.K s N True (IntQ π.Γ.K name t) (genInt (E := E) r name t) := by
  intro st vs st' hi h
  unfold genInt at h
  obtain ⟨c, st1, h1, ha⟩ := bind_ok h
  clear h
  obtain ⟨rfl, rfl⟩ := getCur_ok h1
  obtain ⟨m, st2, h2, hb⟩ := bind_ok ha
  clear ha
  obtain ⟨rfl, rfl⟩ := getMap_ok h2
  have key : ∃ b st3, Same st2 st3 ∧ (MapOK π.Γ.K s (st2.env st2.cur) →
      IntQ π.Γ.K name t (st2.env st2.cur) b (st2.env st2.cur)) ∧
      (vector b >>= fun v => pure [v] : TM E (List Vec)) st3 = .ok (vs, st') := by
    cases hl : (st2.map st2.cur).lookup "" name with
    | some x =>
      rw [hl] at hb
      obtain ⟨b, st3, h3, hc⟩ := bind_ok hb
      clear hb
      obtain ⟨rfl, rfl⟩ := pure_ok h3
      refine ⟨_, st3, .refl _, fun hm => ?_, hc⟩
      obtain ⟨_, _, hkey⟩ := hm "" name x hl
      obtain ⟨v1, v2, v3⟩ := hk x (hkey rfl)
      obtain ⟨e1, e2⟩ := intbytes_asField ht.1 v2
      refine ⟨rfl, e1, fun l hl' => by rw [e2]; exact v3 l hl', fun y hy => ?_⟩
      have : (st3.map st3.cur).lookup "" name = some y := hy
      rw [hl] at this; cases this
      exact e2
    | none =>
      rw [hl] at hb
      simp only [] at hb
      have hnone : ∀ x, st2.env st2.cur "" name = some x → False := by
        intro x hx
        have : (st2.map st2.cur).lookup "" name = some x := hx
        rw [hl] at this; cases this
      cases hcon : t.constraint with
      | none =>
        rw [hcon] at hb
        obtain ⟨b, st3, h3, hc⟩ := bind_ok hb
        obtain ⟨hlen, hs⟩ := randread_ok h3
        exact ⟨b, st3, hs, fun _ => ⟨rfl, hlen, fun l hl' => (by cases hcon.symm.trans hl'),
          fun x hx => (hnone x hx).elim⟩, hc⟩
      | some l =>
        rw [hcon] at hb
        obtain ⟨I, st5, h5, he⟩ := bind_ok hb
        clear hb
        obtain ⟨h5', rfl⟩ := ofRes_ok h5
        obtain ⟨x, st6, h6, hf⟩ := bind_ok he
        clear he
        obtain ⟨b, st3, h3, hc⟩ := bind_ok hf
        clear hf
        obtain ⟨rfl, rfl⟩ := pure_ok h3
        obtain ⟨hlne, hlok, hbel⟩ := ht.2 l hcon
        have hnn : Nonneg r.constant l.ranges := by rw [H.const]; exact listOK_nonneg hlok
        obtain ⟨i1, i2, i3⟩ := intervals_canonical hnn h5'
        obtain ⟨hx, hs⟩ := randomIn_ok i1 h6
        rw [i3, H.const] at hx
        have hlt := listHas_below hbel hx
        obtain ⟨e1, e2⟩ := intbytes_asField (x := castI64 x) ht.1 (by rw [asField_castI64]; exact hlt)
        refine ⟨_, st3, hs, fun _ => ⟨rfl, e1, fun l' hl' => ?_, fun x hx => (hnone x hx).elim⟩, hc⟩
        cases hcon.symm.trans hl'
        rw [e2, asField_castI64]
        exact hx
  obtain ⟨b, st3, k1, k2, hc⟩ := key
  obtain ⟨v, st4, h4, hd⟩ := bind_ok hc
  obtain ⟨rfl, rfl⟩ := pure_ok hd
  exact vector_after hi k1 h4 k2

theorem IntQ.enc {name : String} {t : IntType} {σ0 σ : CEnv} {d : Bytes} (h : IntQ π.Γ.K name t σ0 d σ) (tail : Bytes) :
    EncBase π.Γ π.P (.int t) (.num (beNat d)) (d ++ tail) tail := ⟨d, rfl, h.2.1, rfl, h.2.2.1⟩

theorem IntQ.encChar {name : String} {σ0 σ : CEnv} {d : Bytes} (h : IntQ π.Γ.K name U8 σ0 d σ) (tail : Bytes) :
    EncBase π.Γ π.P .char (.num (beNat d)) (d ++ tail) tail := by
  obtain ⟨_, h2, _⟩ := h
  match d, h2 with
  | [b], _ => exact ⟨b, rfl, by simp [beNat]⟩

theorem U8_gen (K : String → Option Int) : IntGen K U8 := ⟨.inl rfl, fun l h => by cases h⟩

end Verif.Tv
