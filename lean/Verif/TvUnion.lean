import Verif.TvField
import Mathlib.Data.List.Pairwise
import Mathlib.Data.List.Nodup
/-!
# Vectors for unions
-/
set_option linter.unusedVariables false
namespace Verif.Tv
open Verif Verif.Ast Verif.Inspect Verif.Intervals Verif.Go Verif.Spec Verif.Wire Verif.Props

variable {E : Env} {π : Par} {r : Resolver} {s : Struct} {N : Nat} {O : String → Prop}

/-! ## Branches -/

theorem apart_has {K : String → Option Int} {l l' : IntegerList} {x : Int}
    (h : ∀ r ∈ l.ranges, ∀ r' ∈ l'.ranges, Apart K r r') (h1 : listHas K l x = true) (h2 : listHas K l' x = true) :
    False := by
  simp only [listHas, List.any_eq_true] at h1 h2
  obtain ⟨a, ha, h1⟩ := h1
  obtain ⟨b, hb, h2⟩ := h2
  unfold rangeHas at h1 h2
  cases e1 : bounds K a with
  | none => rw [e1] at h1; cases h1
  | some p =>
    cases e2 : bounds K b with
    | none => rw [e2] at h2; cases h2
    | some q =>
      rw [e1] at h1; rw [e2] at h2
      obtain ⟨p1, p2⟩ := p
      obtain ⟨q1, q2⟩ := q
      simp only [Bool.and_eq_true, decide_eq_true_eq] at h1 h2
      have := h a ha b hb _ e1 _ e2
      simp only [] at this
      omega

theorem within_has {K : String → Option Int} {l l' : IntegerList} {x : Int} (h : Within K l l')
    (h1 : listHas K l x = true) : listHas K l' x = true := by
  simp only [listHas, List.any_eq_true] at h1 ⊢
  obtain ⟨a, ha, h1⟩ := h1
  obtain ⟨b, hb, p, e1, q, e2, h3, h4⟩ := h a ha
  refine ⟨b, hb, ?_⟩
  unfold rangeHas at h1 ⊢
  rw [e1] at h1; rw [e2]
  obtain ⟨p1, p2⟩ := p
  obtain ⟨q1, q2⟩ := q
  simp only [Bool.and_eq_true, decide_eq_true_eq] at h1 h3 h4 ⊢
  omega

/-- With cases apart, the one listing a value is selected. -/
theorem selectCase_of_has {K : String → Option Int} {cs : List UnionCase} (ha : CasesApart K cs) {c : UnionCase}
    (hc : c ∈ cs) {x : Int} (h : caseHas K x c = true) : selectCase K cs x = some c := by
  unfold selectCase
  cases hf : cs.find? (caseHas K x) with
  | none => exact absurd h (by simpa using List.find?_eq_none.1 hf c hc)
  | some c' =>
    have h' := List.find?_some hf
    have hc' := List.mem_of_find?_eq_some hf
    by_cases e : c' = c
    · subst e; rfl
    · exfalso
      have sym : Std.Symm fun c c' : UnionCase => ∀ l, c.case = some l → ∀ l', c'.case = some l' →
          ∀ r ∈ l.ranges, ∀ r' ∈ l'.ranges, Apart K r r' :=
        ⟨fun a b hab l hl l' hl' r hr r' hr' p hp q hq => (hab l' hl' l hl r' hr' r hr q hq p hp).symm⟩
      have hap := List.Pairwise.forall ha hc' hc e
      unfold caseHas at h h'
      cases e1 : c.case with
      | none => rw [e1] at h; cases h
      | some l =>
        cases e2 : c'.case with
        | none => rw [e2] at h'; cases h'
        | some l' =>
          rw [e1] at h; rw [e2] at h'
          exact apart_has (hap l' e2 l e1) h' h

theorem newBranches_ok {u : UnionMember} {bs : List Branch} {t : IntType} (hb : newBranches r s u = .ok bs)
    (ht : r.intType u.tag s = .ok t) (hsz : t.size ≤ 64) (ha : CasesApart r.constant u.cases)
    (hc : ∀ c ∈ u.cases, ∀ l, c.case = some l → l.ranges ≠ [] ∧ ListOK r.constant l) :
    ∀ b ∈ bs, b.case ∈ u.cases ∧ Canonical b.set.intervals ∧ ∀ x : UInt64, b.set.contains x = true →
      selectCase r.constant u.cases x.toNat = some b.case ∧
      (b.case.case = none → x.toNat < 2 ^ t.size) ∧ ∀ l, b.case.case = some l → listHas r.constant l x.toNat = true := by
  unfold newBranches at hb
  rw [ht] at hb
  simp only [Res.ok_bind] at hb
  obtain ⟨d0, hd0, hcan, hmem⟩ := C05_intType t.size hsz
  rw [hd0] at hb
  simp only [Res.ok_bind] at hb
  obtain ⟨⟨bs', d1, dc⟩, hl, hb⟩ := Res.bind_eq_ok.1 hb
  obtain ⟨a1, a2, a3, a4, a5, a6⟩ := branchLoop_spec r t.size u.cases d0 none [] bs' d1 dc
    (fun c hc' l hl' => ⟨(hc c hc' l hl').1, listOK_nonneg (hc c hc' l hl').2⟩) hcan (by simpa using hmem) hl
  simp only [Option.or_none] at a3
  have main : ∀ b ∈ bs', b.case ∈ u.cases ∧ Canonical b.set.intervals ∧ ∀ x : UInt64, b.set.contains x = true →
      selectCase r.constant u.cases x.toNat = some b.case ∧
      (b.case.case = none → x.toNat < 2 ^ t.size) ∧ ∀ l, b.case.case = some l → listHas r.constant l x.toNat = true := by
    intro b hb'
    obtain ⟨b1, b2, b3⟩ := a5 b hb'
    refine ⟨b1, b2, fun x hx => ?_⟩
    have hh := (b3 x).1 hx
    refine ⟨selectCase_of_has ha b1 hh, ?_, ?_⟩
    · intro e; unfold caseHas at hh; rw [e] at hh; cases hh
    · intro l e; unfold caseHas at hh; rw [e] at hh; exact hh
  cases hdc : dc with
  | none =>
    rw [hdc] at hb
    cases hb
    exact main
  | some d =>
    rw [hdc] at hb a3
    cases hb
    intro b hb'
    rcases List.mem_append.1 hb' with hb' | hb'
    · exact main b hb'
    · cases List.mem_singleton.1 hb'
      have hd : d ∈ u.cases := List.mem_reverse.1 (List.mem_of_find?_eq_some a3.symm)
      have hdn : d.case = none := by
        have := List.find?_some a3.symm
        simpa using this
      refine ⟨hd, a1, fun x hx => ?_⟩
      obtain ⟨x1, x2⟩ := (a2 x).1 hx
      refine ⟨?_, fun _ => x1, fun l e => ?_⟩
      · unfold selectCase
        have : u.cases.find? (caseHas r.constant x.toNat) = none := by
          rw [List.find?_eq_none]
          intro c hc'
          simp [x2 c (by simpa using hc')]
        rw [this, ← a3]; rfl
      · simp only [hdn] at e; cases e

theorem findIntType_ok {n : String} {t : IntType} : ∀ {fs : List Field}, findIntType n fs = .ok t →
    ∃ f ∈ fs, f.name = n ∧ f.type = .base (.int t) := by
  intro fs
  induction fs with
  | nil => intro h; cases h
  | cons f fs ih =>
    intro h
    unfold findIntType at h
    by_cases e : f.name = n
    · rw [if_neg (by simpa using e)] at h
      refine ⟨f, List.mem_cons_self, e, ?_⟩
      split at h
      · rename_i t' ht'; cases h; exact ht'
      · cases h
    · rw [if_pos e] at h
      obtain ⟨g, hg, h1⟩ := ih h
      exact ⟨g, List.mem_cons_of_mem _ hg, h1⟩

theorem structFields_sub {f : Field} (h : f ∈ structFields s) : f ∈ fieldsOf s.ms := by
  unfold structFields at h
  obtain ⟨m, hm, e⟩ := List.mem_filterMap.1 h
  unfold fieldsOf
  refine List.mem_flatMap.2 ⟨m, hm, ?_⟩
  cases m with
  | union u => cases e
  | leaf l =>
    cases l with
    | field g => cases e; simp [memberFields, leafFields]
    | _ => cases e

/-- The type of a tag. -/
theorem tag_type (H : Hyp π r s) {u : UnionMember} {t : IntType} (ht : r.intType u.tag s = .ok t)
    (hcs : ∀ c D, π.Γ.contexts c = some D → ∀ f ∈ D.members, ∀ t, f.type = .base (.int t) → SizeOK t)
    (hg : TagGen π.Γ s u) : SizeOK t ∧ (u.tag.scope = "" → ∃ f ∈ fieldsOf s.ms, f.name = u.tag.name ∧
      f.type = .base (.int t)) := by
  unfold Resolver.intType at ht
  by_cases hs : u.tag.scope = ""
  · rw [if_pos hs] at ht
    obtain ⟨f, hf, e1, e2⟩ := findIntType_ok ht
    have := hg hs f (structFields_sub hf) e1
    rw [e2] at this
    exact ⟨this.1, fun _ => ⟨f, structFields_sub hf, e1, e2⟩⟩
  · rw [if_neg hs, H.ctxs] at ht
    cases hc : π.Γ.contexts u.tag.scope with
    | none => rw [hc] at ht; cases ht
    | some D =>
      rw [hc] at ht
      obtain ⟨f, hf, e1, e2⟩ := findIntType_ok ht
      exact ⟨hcs _ _ hc f hf t e2, fun h => (hs h).elim⟩

/-- A value drawn for the tag is right. -/
theorem tag_entry {u : UnionMember} {t : IntType} (hg : TagGen π.Γ s u)
    (hf : u.tag.scope = "" → ∃ f ∈ fieldsOf s.ms, f.name = u.tag.name ∧ f.type = .base (.int t))
    {c : UnionCase} (hc : c ∈ u.cases) (hnf : c.members ≠ [.fail]) {x : UInt64}
    (h1 : c.case = none → x.toNat < 2 ^ t.size) (h2 : ∀ l, c.case = some l → listHas π.Γ.K l x.toNat = true) :
    EntryOK π.Γ.K s u.tag.scope u.tag.name (castI64 x) := by
  refine ⟨(castI64_range x).1, (castI64_range x).2, fun hs => ?_⟩
  obtain ⟨f, hf1, hf2, hf3⟩ := hf hs
  have := hg hs f hf1 hf2
  rw [hf3] at this
  obtain ⟨t1, t2, t3⟩ := this
  refine ⟨f, hf1, hf2, ?_⟩
  rw [hf3, asField_castI64]
  refine ⟨by omega, ?_, fun l hl => ?_⟩
  · cases hcase : c.case with
    | none => have := h1 hcase; exact_mod_cast this
    | some l => exact listHas_below (t2 c hc l hcase) (h2 l hcase)
  · rcases t3 l hl c hc with h | ⟨l', e, hw⟩
    · exact (hnf h).elim
    · exact within_has hw (h2 l' e)

/-! ## Frames -/

theorem Frame.weaken {K : String → Option Int} {N' : Nat} {st st' : St E} (h : Frame K s N' st st') (hN : N ≤ N') :
    Frame K s N st st' where
  arrs_le := h.arrs_le
  arrs := h.arrs
  maps_le := h.maps_le
  low k hk hl := h.low k (by omega) hl
  high k hk hl := by
    by_cases e : k < N'
    · rw [env_eq (h.low k e hl)]; exact .refl _
    · exact h.high k (by omega) hl

theorem Live.weaken {N' : Nat} {st : St E} {v : Vec} (h : Live N' st v) (hN : N ≤ N') : Live N st v :=
  ⟨h.data, Nat.le_trans hN h.ge, h.lt⟩

/-! ## One branch -/

theorem fail_loop (hsel : Selects E) {S : Struct → TM E (List Vec)} {v : Vec} {ws : List Vec} {st st' : St E}
    (h : membersLoop (genLeaf r S) [.fail] [v] st = .ok (ws, st')) :
    ws = [] ∧ st' = { st with cur := v.cst, calls := st.calls + 1 } := by
  simp only [membersLoop, extendAll] at h
  obtain ⟨ext, st1, h1, ha⟩ := bind_ok h
  clear h
  obtain ⟨u, st2, h2, hb⟩ := bind_ok h1
  clear h1
  simp only [setCur, Out.ok.injEq, Prod.mk.injEq, true_and] at h2
  obtain ⟨mvs, st3, h3, hc⟩ := bind_ok hb
  clear hb
  obtain ⟨rfl, rfl⟩ := pure_ok h3
  obtain ⟨ex, st4, h4, hd⟩ := bind_ok hc
  clear hc
  obtain ⟨rfl, rfl⟩ := pure_ok h4
  obtain ⟨rest, st5, h5, he⟩ := bind_ok hd
  clear hd
  obtain ⟨rfl, rfl⟩ := pure_ok h5
  obtain ⟨rfl, rfl⟩ := pure_ok he
  obtain ⟨sel, st6, h6, hf⟩ := bind_ok ha
  clear ha
  obtain ⟨hsp, e⟩ := select_ok hsel h6
  obtain ⟨rfl, rfl⟩ := pure_ok hf
  subst e
  refine ⟨?_, ?_⟩
  · have := hsp.length_le
    exact List.length_eq_zero_iff.1 (by simpa using this)
  · rw [← h2]

theorem LeavesGen.split {Γ : Fmt} {C : String → Prop} {p : List String} {l : Leaf} {post : List Leaf} :
    ∀ {pre : List Leaf}, LeavesGen Γ s C O p (pre ++ l :: post) →
    (post ≠ [] → LeafClosed C l) ∧ LeafGen Γ s C O (needLeaves post ++ p) l := by
  intro pre
  induction pre with
  | nil => intro h; exact ⟨h.1, h.2.1⟩
  | cons a pre ih => intro h; exact ih h.2.2

/-- What holds of a vector for a union, before its length is recorded. -/
def UnionR (π : Par) (s : Struct) (p : List String) (u : UnionMember) (σ0 σ : CEnv) (d : Bytes) : Prop :=
  d.length < π.B → MapOK π.Γ.K s σ ∧ Ext p σ0 σ ∧ ∃ c ∈ u.cases, ∃ y, σ u.tag.scope u.tag.name = some y ∧
    selectCase π.Γ.K u.cases (asField y) = some c ∧ MembersGood π (c.members.map .leaf) d σ

theorem UnionR.mono {p : List String} {u : UnionMember} {σ0 : CEnv} : Mono π.Γ.K s (UnionR π s p u σ0) := by
  intro σ σ' d g h hd
  obtain ⟨h1, h2, c, hc, y, h3, h4, h5⟩ := h hd
  exact ⟨h1.grow g, h2.grow g, c, hc, y, g.sub _ _ _ h3, h4, h5.mono g.sub⟩

/-- What holds of a vector for a case, before the length is recorded. -/
def CaseR (π : Par) (s : Struct) (p : List String) (u : UnionMember) (c : UnionCase) (σ0 σ : CEnv) (d : Bytes) : Prop :=
  d.length < π.B → MapOK π.Γ.K s σ ∧ Ext p σ0 σ ∧ ∃ y, σ u.tag.scope u.tag.name = some y ∧
    selectCase π.Γ.K u.cases (asField y) = some c ∧ MembersGood π (c.members.map .leaf) d σ

theorem CaseR.mono {p : List String} {u : UnionMember} {c : UnionCase} {σ0 : CEnv} :
    Mono π.Γ.K s (CaseR π s p u c σ0) := by
  intro σ σ' d g h hd
  obtain ⟨h1, h2, y, h3, h4, h5⟩ := h hd
  exact ⟨h1.grow g, h2.grow g, y, g.sub _ _ _ h3, h4, h5.mono g.sub⟩

theorem CaseR.union {p : List String} {u : UnionMember} {c : UnionCase} (hc : c ∈ u.cases) {σ0 σ : CEnv} {d : Bytes}
    (h : CaseR π s p u c σ0 σ d) : UnionR π s p u σ0 σ d := fun hd => by
  obtain ⟨h1, h2, y, h3⟩ := h hd
  exact ⟨h1, h2, c, hc, y, h3⟩

/-- A branch that can be taken. -/
structure BranchOK (π : Par) (s : Struct) (O : String → Prop) (p : List String) (u : UnionMember) (σ0 : CEnv)
    (b : Branch) : Prop where
  mem : b.case ∈ u.cases
  canon : Canonical b.set.intervals
  sel : ∀ x : UInt64, b.set.contains x = true → selectCase π.Γ.K u.cases x.toNat = some b.case
  entry : ∀ x : UInt64, b.set.contains x = true → b.case.members ≠ [.fail] →
    EntryOK π.Γ.K s u.tag.scope u.tag.name (castI64 x)
  old : ∀ y, σ0 u.tag.scope u.tag.name = some y → b.set.contains (Resolver.castU64 y) = true
  gen : b.case.members = [.fail] ∨ LeavesGen π.Γ s π.C O (refNames u.tag ++ p) b.case.members

theorem case_fields {u : UnionMember} (hu : .union u ∈ s.ms) {c : UnionCase} (hc : c ∈ u.cases) {f : Field}
    (hf : f ∈ leafFields c.members) : f ∈ fieldsOf s.ms :=
  List.mem_flatMap.2 ⟨.union u, hu, List.mem_flatMap.2 ⟨c, hc, hf⟩⟩

theorem flatMap_sublist {α β : Type} {f : α → List β} {a : α} {l : List α} (h : a ∈ l) :
    (f a).Sublist (l.flatMap f) := by
  induction l with
  | nil => simp at h
  | cons b l ih =>
    rw [List.flatMap_cons]
    rcases List.mem_cons.1 h with rfl | h
    · exact List.sublist_append_left _ _
    · exact (ih h).trans (List.sublist_append_right _ _)

theorem case_nodup {u : UnionMember} (hu : .union u ∈ s.ms) {c : UnionCase} (hc : c ∈ u.cases)
    (hn : ((fieldsOf s.ms).map (·.name)).Nodup) {pre post : List Leaf} (e : pre ++ post = c.members) :
    ((fieldsOf (post.map .leaf)).map (·.name)).Nodup := by
  refine hn.sublist (List.Sublist.map _ ?_)
  rw [fieldsOf_leaves]
  have h1 : (leafFields post).Sublist (leafFields c.members) := by
    rw [← e]; exact (List.sublist_append_right pre post).filterMap _
  have h2 : (leafFields c.members).Sublist (memberFields (.union u)) :=
    flatMap_sublist (f := fun c : UnionCase => leafFields c.members) hc
  exact (h1.trans h2).trans (flatMap_sublist (f := memberFields) hu)

theorem branch_ok (hsel : Selects E) (H : Hyp π r s) {S : Struct → TM E (List Vec)} (hS : StructAct π O S)
    {p : List String} {u : UnionMember} (hu : .union u ∈ s.ms) {base : Nat} {b : Branch} {st st1 st3 st4 st5 st' : St E}
    {c : Nat} {x : UInt64} {y : Int} {v : Vec} {ws : List Vec} (hw : st.WF) (hbase : base < st.maps.length)
    (hb : BranchOK π s O p u (st.env base) b) (h1 : cloneRef base st = .ok (c, st1))
    (h3 : randomIn b.set { st1 with cur := c } = .ok (x, st3))
    (h4 : lookupOrCreateAt c u.tag (castI64 x) st3 = .ok (y, st4)) (h5 : emptyVec st4 = .ok (v, st5))
    (h6 : membersLoop (genLeaf r S) b.case.members.reverse [v] st5 = .ok (ws, st')) :
    Inv (base + 1) st' ∧ Frame π.Γ.K s (base + 1) st st' ∧ (arrsOf ws).Nodup ∧
    ∀ v ∈ ws, st.arrs.length ≤ v.data.arr ∧ Live (base + 1) st' v ∧
      (MapOK π.Γ.K s (st.env base) → CaseR π s p u b.case (st.env base) (st'.env v.cst) (st'.read v.data)) := by
  have hnew := cloneRef_ok hw h1
  obtain ⟨hx, hs⟩ := randomIn_ok hb.canon h3
  have hc1 : c < st1.maps.length := by rw [hnew.len, hnew.ref]; omega
  have hwf3 : st3.WF := fun m hm => hnew.wf m (by rw [hs.maps] at hm; exact hm)
  have hc3 : c < st3.maps.length := by rw [hs.maps]; exact hc1
  have e3 : st3.env c = st.env base := by rw [hs.env]; exact hnew.env
  obtain ⟨hy, hset⟩ := lookupOrCreateAt_ok hwf3 hc3 h4
  rw [e3] at hy hset
  have hcge : base + 1 ≤ c := by rw [hnew.ref]; omega
  have hcur4 : st4.cur = c := hset.cur.trans hs.cur
  have hlen4 : st4.maps.length = st.maps.length + 1 := by rw [hset.len, hs.maps]; exact hnew.len
  have hi4 : Inv (base + 1) st4 :=
    ⟨hset.wf, by rw [hcur4]; exact hcge, by rw [hcur4, hlen4, hnew.ref]; omega⟩
  have hold : ∀ k, k < st.maps.length → st4.maps[k]? = st.maps[k]? := fun k hk => by
    rw [hset.old k (by rw [hnew.ref]; omega), hs.maps]; exact hnew.old k hk
  have harr4 : st4.arrs = st.arrs := (hset.arrs.trans hs.arrs).trans hnew.arrs
  have hf4 : Frame π.Γ.K s (base + 1) st st4 := by
    refine ⟨by rw [harr4], fun a _ => by rw [harr4], by omega, fun k _ hk => hold k hk,
      fun k _ hk => ?_⟩
    rw [env_eq (hold k hk)]; exact .refl _
  obtain ⟨a1, a2, a3, a4, a5, a6, a7, a8, a9⟩ := vector_ok hi4 (.refl st4) h5
  have hf5 : Frame π.Γ.K s (base + 1) st st5 := hf4.trans (frame_arrs a6 (by omega) a9)
  have hvc : v.cst = c := a1.trans hcur4
  by_cases hfail : b.case.members = [.fail]
  · rw [hfail] at h6
    obtain ⟨rfl, rfl⟩ := fail_loop hsel h6
    exact ⟨⟨a2.wf, a4.ge, a4.lt⟩, ⟨hf5.arrs_le, hf5.arrs, hf5.maps_le, hf5.low, hf5.high⟩, by simp [arrsOf], by simp⟩
  · have hgen := hb.gen.resolve_left hfail
    have hσ5 : st5.env v.cst = orCreate (st.env base) u.tag (castI64 x) := by
      rw [hvc, env_eq (st := st4) (by rw [a6]), hset.env]
    have hgrow : Grow π.Γ.K s (st.env base) (st5.env v.cst) := by
      rw [hσ5]; exact orCreate_grow fun _ => hb.entry x hx hfail
    have hself : st5.env v.cst u.tag.scope u.tag.name = some y := by rw [hσ5, orCreate_self, hy]
    have hselect : selectCase π.Γ.K u.cases (asField y) = some b.case := by
      rw [hy]
      cases hσ : st.env base u.tag.scope u.tag.name with
      | none =>
        show selectCase _ _ (asField (castI64 x)) = _
        rw [asField_castI64]; exact hb.sel x hx
      | some z =>
        show selectCase _ _ (asField z) = _
        rw [← castU64_asField]; exact hb.sel _ (hb.old z hσ)
    obtain ⟨q1, q2, q3, q4, _, _⟩ := membersLoop_ok (K := π.Γ.K) (s := s) (N := base + 1) hsel (one := False)
      (f := genLeaf (E := E) r S)
      (R := fun ls σ d => MapOK π.Γ.K s (st.env base) →
        MembersR π s (refNames u.tag ++ p) (st5.env v.cst) (ls.map .leaf) σ d)
      (fun ls σ σ' d g h hm => MembersR.mono _ _ _ g (h hm)) (all := b.case.members)
      (fun pre l post e => by
        obtain ⟨g1, g2⟩ := LeavesGen.split (pre := pre) (l := l) (post := post) (by rw [e]; exact hgen)
        refine ⟨MemberQ π s (needLeaves post ++ (refNames u.tag ++ p)) (.leaf l),
          (genLeaf_act hsel H hS (fun f hf => ?_) g2).mono (fun h => h.elim) (fun _ _ _ _ h => h), ?_⟩
        · refine case_fields hu hb.mem ?_
          rw [← e]
          have : (leafFields [l]).Sublist (leafFields (pre ++ l :: post)) :=
            ((List.sublist_append_left [l] post).trans (List.sublist_append_right pre _)).filterMap _
          exact this.subset hf
        · intro σ0 d2 d1 σ hR hQ hm
          refine MembersR.step (ms := post.map .leaf) (m := .leaf l) ?_ ?_ (hR hm) ?_
          · exact case_nodup hu hb.mem H.nodup (pre := pre) (post := l :: post) e
          · intro hne; exact g1 (fun e' => hne (by rw [e']; rfl))
          · rw [needs_leaves]; exact hQ)
      (M := st.arrs.length) (rev := b.case.members.reverse) (ms0 := []) (by simp) a2
      (by rw [a8, harr4]; omega) (by simp [arrsOf])
      (fun w hw => by
        cases List.mem_singleton.1 hw
        refine ⟨by rw [a3, harr4], a4, fun hm _ => ⟨hm.grow hgrow, .of_sub fun _ _ _ h => h, ?_⟩⟩
        rw [a5]
        intro _ tail _ D
        exact ⟨fun _ => .nil, by simp [fieldsOf], fun o _ _ => rfl⟩) h6
    refine ⟨q1, hf5.trans q2, q3, fun w hw => ?_⟩
    obtain ⟨w1, w2, w3⟩ := q4 w hw
    refine ⟨w1, w2, fun hm hd => ?_⟩
    obtain ⟨m1, m2, m3⟩ := w3 hm hd
    refine ⟨m1, ?_, y, ?_, hselect, m3⟩
    · exact (Ext.of_sub hgrow.sub).trans (m2.sub fun k hk => List.mem_append_right _ hk)
    · by_cases hsc : u.tag.scope = ""
      · rw [hsc] at hself ⊢
        exact m2.loc _ (List.mem_append_left _ (by simp [refNames, hsc])) _ hself
      · exact m2.glob _ _ _ hsc hself

/-! ## All branches -/

theorem branchesLoop_ok (hsel : Selects E) (H : Hyp π r s) {S : Struct → TM E (List Vec)} (hS : StructAct π O S)
    {p : List String} {u : UnionMember} (hu : .union u ∈ s.ms) {base : Nat} (hN : N ≤ base) :
    ∀ {bs : List Branch} {st st' : St E} {ws : List Vec}, Inv N st → base < st.maps.length →
    (∀ b ∈ bs, BranchOK π s O p u (st.env base) b) → branchesLoop r S u.tag base bs st = .ok (ws, st') →
    Inv N st' ∧ Frame π.Γ.K s (base + 1) st st' ∧ (arrsOf ws).Nodup ∧
    ∀ v ∈ ws, st.arrs.length ≤ v.data.arr ∧ Live (base + 1) st' v ∧
      (MapOK π.Γ.K s (st.env base) → UnionR π s p u (st.env base) (st'.env v.cst) (st'.read v.data)) := by
  intro bs
  induction bs with
  | nil =>
    intro st st' ws hi _ _ h
    obtain ⟨rfl, rfl⟩ := pure_ok h
    exact ⟨hi, .refl _ _, by simp [arrsOf], by simp⟩
  | cons b bs ih =>
    intro st st' ws hi hbase hb h
    simp only [branchesLoop] at h
    obtain ⟨c, st1, h1, ha⟩ := bind_ok h
    clear h
    obtain ⟨⟨⟩, st2, h2, hc⟩ := bind_ok ha
    clear ha
    simp only [setCur, Out.ok.injEq, Prod.mk.injEq, true_and] at h2
    obtain ⟨x, st3, h3, hd⟩ := bind_ok hc
    clear hc
    obtain ⟨y, st4, h4, he⟩ := bind_ok hd
    clear hd
    obtain ⟨v, st5, h5, hf⟩ := bind_ok he
    clear he
    obtain ⟨vs, st6, h6, hg⟩ := bind_ok hf
    clear hf
    obtain ⟨rest, st7, h7, hh⟩ := bind_ok hg
    clear hg
    obtain ⟨rfl, rfl⟩ := pure_ok hh
    rw [← h2] at h3
    obtain ⟨p1, p2, p3, p4'⟩ := branch_ok hsel H hS hu hi.wf hbase (hb b List.mem_cons_self) h1 h3 h4 h5 h6
    have p4 := fun v hv => (p4' v hv).imp_right (And.imp_right fun h hm => (h hm).union (hb b List.mem_cons_self).mem)
    have hbase6 : base < st6.maps.length := Nat.lt_of_lt_of_le hbase p2.maps_le
    have henv : st6.env base = st.env base := env_eq (p2.low base (Nat.lt_succ_self _) hbase)
    obtain ⟨q1, q2, q3, q4⟩ := ih ⟨p1.wf, by have := p1.cur_ge; omega, p1.cur_lt⟩ hbase6
      (fun b' hb' => by rw [henv]; exact hb b' (List.mem_cons_of_mem _ hb')) h7
    rw [henv] at q4
    refine ⟨q1, p2.trans q2, ?_, ?_⟩
    · simp only [arrsOf, List.map_append]
      refine List.nodup_append.2 ⟨p3, q3, ?_⟩
      intro a ha b hb e
      subst e
      obtain ⟨w, hw, e⟩ := List.mem_map.1 ha
      obtain ⟨w', hw', e'⟩ := List.mem_map.1 hb
      have h1 := (p4 w hw).2.1.data.1
      have h2 := (q4 w' hw').1
      omega
    · intro w hw
      rcases List.mem_append.1 hw with hw | hw
      · obtain ⟨w1, w2, w3⟩ := p4 w hw
        refine ⟨w1, w2.frame q2, fun hm => ?_⟩
        rw [q2.read w2.data]
        exact UnionR.mono _ _ _ (q2.grow w2) (w3 hm)
      · obtain ⟨w1, w2, w3⟩ := q4 w hw
        exact ⟨Nat.le_trans p2.arrs_le w1, w2, w3⟩

/-! ## Lengths -/

theorem LenRef.key (H : Hyp π r s) {ref : IDRef} (h : LenRef π.B s ref) (hsc : ref.scope = "") {k : Nat} (hk : k < π.B) :
    KeyOK π.Γ.K s ref.name (k : Int) := by
  obtain ⟨f, hf, e, ht⟩ := h hsc
  refine ⟨f, hf, e, ?_⟩
  have hB := H.B
  rw [asField_small (by omega) (by omega)]
  cases htype : f.type with
  | base b =>
    rw [htype] at ht
    cases b with
    | int t =>
      obtain ⟨_, h2, h3⟩ := ht
      refine ⟨by omega, ?_, fun l hl => by rw [h2] at hl; cases hl⟩
      have : k < 2 ^ t.size := by omega
      exact_mod_cast this
    | char =>
      have : π.B ≤ 2 ^ 8 := ht
      exact ⟨by omega, by omega⟩
    | struct n => exact ht.elim
  | _ => rw [htype] at ht; exact ht.elim

theorem lenLoop_ok (H : Hyp π r s) {ref : IDRef} (href : LenRef π.B s ref) {p : List String} {u : UnionMember}
    {σ0 : CEnv} {hyp : Prop} {M : Nat} :
    ∀ {vs ws : List Vec} {st st' : St E}, Inv N st → (arrsOf vs).Nodup →
    (∀ v ∈ vs, M ≤ v.data.arr ∧ Live N st v ∧ (hyp → UnionR π s p u σ0 (st.env v.cst) (st.read v.data))) →
    lenLoop ref vs st = .ok (ws, st') →
    Inv N st' ∧ Frame π.Γ.K s N st st' ∧ (arrsOf ws).Sublist (arrsOf vs) ∧
    ∀ v ∈ ws, M ≤ v.data.arr ∧ Live N st' v ∧ (hyp → UnionR π s p u σ0 (st'.env v.cst) (st'.read v.data)) ∧
      st'.env v.cst ref.scope ref.name = some ((st'.read v.data).length : Int) := by
  intro vs
  induction vs with
  | nil =>
    intro ws st st' hi _ _ h
    obtain ⟨rfl, rfl⟩ := pure_ok h
    exact ⟨hi, .refl _ _, by simp [arrsOf], by simp⟩
  | cons v vs ih =>
    intro ws st st' hi hn hv h
    simp only [lenLoop] at h
    obtain ⟨c, st1, h1, ha⟩ := bind_ok h
    clear h
    obtain ⟨m, st2, h2, hb⟩ := bind_ok ha
    clear ha
    obtain ⟨rest, st3, h3, hc⟩ := bind_ok hb
    clear hb
    obtain ⟨e, rfl⟩ := pure_ok hc
    have hnew := cloneRef_ok hi.wf h1
    have hcl : c < st1.maps.length := by rw [hnew.len, hnew.ref]; omega
    obtain ⟨hm, hset⟩ := lookupOrCreateAt_ok hnew.wf hcl h2
    rw [hnew.env] at hm hset
    obtain ⟨v1, v2, v3⟩ := hv v List.mem_cons_self
    have hold : ∀ k, k < st.maps.length → st2.maps[k]? = st.maps[k]? := fun k hk => by
      rw [hset.old k (by rw [hnew.ref]; omega)]; exact hnew.old k hk
    have harr : st2.arrs = st.arrs := hset.arrs.trans hnew.arrs
    have hlen : st2.maps.length = st.maps.length + 1 := by rw [hset.len, hnew.len]
    have hcur : st2.cur = st.cur := hset.cur.trans hnew.cur
    have hf2 : Frame π.Γ.K s N st st2 := by
      refine ⟨by rw [harr], fun a _ => by rw [harr], by omega, fun k _ hk => hold k hk,
        fun k _ hk => ?_⟩
      rw [env_eq (hold k hk)]; exact .refl _
    have hi2 : Inv N st2 := ⟨hset.wf, by rw [hcur]; exact hi.cur_ge, by rw [hcur, hlen]; have := hi.cur_lt; omega⟩
    simp only [arrsOf, List.map_cons, List.nodup_cons] at hn
    obtain ⟨q1, q2, q3, q4⟩ := ih hi2 hn.2 (fun w hw => by
      obtain ⟨w1, w2, w3⟩ := hv w (List.mem_cons_of_mem _ hw)
      refine ⟨w1, w2.frame hf2, fun hy => ?_⟩
      rw [hf2.read w2.data]
      exact UnionR.mono _ _ _ (hf2.grow w2) (w3 hy)) h3
    refine ⟨q1, hf2.trans q2, ?_, ?_⟩
    · rw [e]
      split
      · exact q3.trans (List.sublist_cons_self _ _)
      · exact List.Sublist.cons_cons _ q3
    · intro w hw
      rw [e] at hw
      split at hw
      · exact q4 w hw
      · rename_i hne
        have hml : m = (v.data.len : Int) := by simpa using hne
        rcases List.mem_cons.1 hw with rfl | hw
        · have hl2 : Live N st2 ⟨v.data, c⟩ :=
            ⟨(v2.frame hf2).data, by
              show N ≤ c
              rw [hnew.ref]; have := hi.cur_ge; have := hi.cur_lt; omega, by
              show c < st2.maps.length
              rw [hlen, hnew.ref]; omega⟩
          have hrd : st2.read v.data = st.read v.data := hf2.read v2.data
          have hdl : (st.read v.data).length = v.data.len := v2.data.length
          have hent : st2.env c ref.scope ref.name = some ((st2.read v.data).length : Int) := by
            rw [hset.env, orCreate_self, ← hm, hml, hrd, hdl]
          refine ⟨v1, hl2.frame q2, ?_, ?_⟩
          · intro hy
            rw [q2.read hl2.data]
            refine UnionR.mono _ _ _ (q2.grow hl2) ?_
            intro hd
            rw [hrd] at hd ⊢
            obtain ⟨u1, u2, cc, hcc, y, u3, u4, u5⟩ := v3 hy hd
            have hg : Grow π.Γ.K s (st.env v.cst) (st2.env c) := by
              rw [hset.env]
              refine orCreate_grow fun _ => ?_
              have hB := H.B
              refine ⟨by omega, by omega, fun hsc => href.key H hsc (by omega)⟩
            exact ⟨u1.grow hg, u2.grow hg, cc, hcc, y, hg.sub _ _ _ u3, u4, u5.mono hg.sub⟩
          · rw [q2.read hl2.data]
            exact (q2.grow hl2).sub _ _ _ hent
        · exact q4 w hw

/-! ## Unions as members -/

theorem fits_zeroBase (A : Nat) (b : Base) : Fits A (zeroBase b) := by cases b <;> simp [zeroBase, Fits]

theorem fitsL_replicate {A : Nat} {v : Val} (h : Fits A v) : ∀ n, FitsL A (List.replicate n v)
  | 0 => by simp [FitsL]
  | n + 1 => by rw [List.replicate_succ]; exact ⟨h, fitsL_replicate h n⟩

theorem fits_zeroTy (Γ : Fmt) (A : Nat) (t : Ty) : Fits A (zeroTy Γ t) := by
  cases t with
  | base b => exact fits_zeroBase A b
  | ptr => simp [zeroTy, Fits]
  | nulterm => simp [zeroTy, Fits]
  | fixedArray b n => simp only [zeroTy, Fits]; exact fitsL_replicate (fits_zeroBase A b) _
  | varArray b c => simp [zeroTy, Fits]

theorem union_good (H : Hyp π r s) {p : List String} {u : UnionMember} (hu : .union u ∈ s.ms)
    (hp : ∀ k ∈ p, k ∉ memberNames (.union u)) {σ0 σ : CEnv} {d : Bytes} (hd : d.length < π.B)
    (h : UnionR π s p u σ0 σ d) (hlo : ∀ k, u.length ≠ some (.leftover k))
    (hlen : ∀ ref, u.length = some (.idRef ref) → σ ref.scope ref.name = some (d.length : Int)) :
    MemberGood π p (.union u) σ0 d σ := by
  obtain ⟨h1, h2, c, hc, y, h3, h4, h5⟩ := h hd
  intro hsat tail ht D
  have hn : ((memberFields (.union u)).map (·.name)).Nodup :=
    H.nodup.sublist ((flatMap_sublist (f := memberFields) hu).map _)
  have core : ∀ tail', (tail' ≠ [] → ∀ m ∈ c.members.map Member.leaf, MemberClosed π.C m) → ∃ q : String → Val,
      (∀ f ∈ memberFields (.union u), Fits π.A (q f.name)) ∧
      ∀ o, Has π.Γ o q (memberFields (.union u)) → Sees π.Γ σ o (memberNeeds (.union u)) →
        EncCases π.Γ π.P π.ctx D o u (d ++ tail') tail' := by
    intro tail' ht'
    obtain ⟨q, f1, f2⟩ := h5 hsat tail' ht' D
    rw [fieldsOf_leaves] at f1 f2
    let z : String → Val := fun k => match (memberFields (.union u)).find? (fun f => f.name = k) with
      | some f => zeroTy π.Γ f.type
      | none => .nil
    have hz : ∀ f ∈ memberFields (.union u), z f.name = zeroTy π.Γ f.type := by
      intro f hf
      show (match (memberFields (.union u)).find? (fun g => g.name = f.name) with
        | some f => zeroTy π.Γ f.type | none => Val.nil) = _
      cases hfi : (memberFields (.union u)).find? (fun g => g.name = f.name) with
      | none => exact (List.find?_eq_none.1 hfi f hf (by simp)).elim
      | some g =>
        have e := List.find?_some hfi
        rw [name_inj hn (List.mem_of_find?_eq_some hfi) hf (by simpa using e)]
    refine ⟨fun k => if k ∈ leafNames c.members then q k else z k, ?_, ?_⟩
    · intro f hf
      by_cases hm : f.name ∈ leafNames c.members
      · simp only [hm, if_true]
        obtain ⟨g, hg, e⟩ := List.mem_map.1 hm
        rw [← e]; exact f1 g hg
      · simp only [hm, if_false, hz f hf]; exact fits_zeroTy _ _ _
    · intro o ho hse
      have htag : refVal π.Γ π.ctx o u.tag = some (asField y) :=
        refVal_of hsat (hse.sub fun k hk => by
          simp only [memberNeeds]; exact List.mem_append_left _ (List.mem_append_left _ hk)) h3
      refine ⟨asField y, htag, ?_, ?_⟩
      · rw [h4]
        refine encLeaves_iff.2 (f2 o ?_ ?_)
        · intro f hf
          have := ho f (List.mem_flatMap.2 ⟨c, hc, hf⟩)
          have hm : f.name ∈ leafNames c.members := List.mem_map.2 ⟨f, hf, rfl⟩
          simpa only [hm, if_true] using this
        · rw [needs_leaves]
          refine hse.sub fun k hk => ?_
          simp only [memberNeeds]
          exact List.mem_append_right _ (List.mem_flatMap.2 ⟨c, hc, hk⟩)
      · intro c' hc' hne f hf
        rw [h4] at hne
        have hne' : c' ≠ c := fun e => hne (by rw [e])
        have hfu : f ∈ memberFields (.union u) := List.mem_flatMap.2 ⟨c', hc', hf⟩
        have hm : f.name ∉ leafNames c.members := by
          intro hm
          obtain ⟨g, hg, e⟩ := List.mem_map.1 hm
          have hgu : g ∈ memberFields (.union u) := List.mem_flatMap.2 ⟨c, hc, hg⟩
          have hfg : g = f := name_inj hn hgu hfu e
          subst hfg
          have hnd : (u.cases.flatMap fun c => leafFields c.members).Nodup := List.Nodup.of_map _ hn
          have hpw := (List.nodup_flatMap.1 hnd).2
          have sym : Std.Symm (Function.onFun List.Disjoint fun c : UnionCase => leafFields c.members) :=
            ⟨fun a b hab => List.Disjoint.symm hab⟩
          exact List.Pairwise.forall hpw hc' hc hne' hf hg
        have := ho f hfu
        simpa only [hm, if_false, hz f hfu] using this
  have hq2 : ∀ q : String → Val, ∀ k ∈ memberNames (.union u), k ∈ p → ∀ x, σ0 "" k = some x → q k = .num (asField x) :=
    fun q k hk hkp => (hp k hkp hk).elim
  cases hl : u.length with
  | none =>
    have hcl : tail ≠ [] → ∀ m ∈ c.members.map Member.leaf, MemberClosed π.C m := by
      intro hne m hm
      have := ht hne
      simp only [MemberClosed, hl] at this
      obtain ⟨l, hl', rfl⟩ := List.mem_map.1 hm
      exact this c hc l hl'
    obtain ⟨q, g1, g2⟩ := core tail hcl
    refine ⟨q, g1, hq2 q, fun o ho hse => ?_⟩
    simp only [EncMember, hl]
    exact g2 o ho hse
  | some lc =>
    cases lc with
    | leftover k => exact (hlo k hl).elim
    | idRef ref =>
      obtain ⟨q, g1, g2⟩ := core [] (fun h => (h rfl).elim)
      refine ⟨q, g1, hq2 q, fun o ho hse => ?_⟩
      simp only [EncMember, hl]
      have hB := H.B
      refine ⟨d, ⟨rfl, ?_⟩, ?_⟩
      · have := refVal_of (π := π) hsat (hse.sub fun k hk => by
          simp only [memberNeeds, hl, lenRefs]
          exact List.mem_append_left _ (List.mem_append_right _ hk)) (hlen ref hl)
        rw [asField_small (by omega) (by omega)] at this
        exact this
      · have := g2 o ho hse
        rwa [List.append_nil] at this

theorem branches_ok (H : Hyp π r s)
    (hcs : ∀ c D, π.Γ.contexts c = some D → ∀ f ∈ D.members, ∀ t, f.type = .base (.int t) → SizeOK t)
    {p : List String} {u : UnionMember} (hg : MemberGen π.Γ π.B s π.C O p (.union u)) {bs : List Branch}
    (h1' : newBranches r s u = .ok bs) : ∀ b ∈ bs, ∀ σ0 : CEnv, (∀ y, σ0 u.tag.scope u.tag.name = some y →
      b.set.contains (Resolver.castU64 y) = true) → BranchOK π s O p u σ0 b := by
  obtain ⟨g1, g2, g3, g4, g5, g6⟩ := hg
  obtain ⟨t, ht, _⟩ := Res.bind_eq_ok.1 (show (r.intType u.tag s >>= fun t => _) = Res.ok bs from h1')
  obtain ⟨t1, t2⟩ := tag_type H ht hcs g2
  intro b hb σ0 hold
  obtain ⟨b1, b2, b3⟩ := newBranches_ok h1' ht (sizeOK_dvd t1).2.1 (by rw [H.const]; exact g4)
    (by rw [H.const]; exact g5) b hb
  rw [H.const] at b3
  exact ⟨b1, b2, fun x hx => (b3 x hx).1,
    fun x hx hnf => tag_entry g2 t2 b1 hnf (b3 x hx).2.1 (b3 x hx).2.2, hold, g6 _ b1⟩

theorem genUnion_act (hsel : Selects E) (H : Hyp π r s) {S : Struct → TM E (List Vec)} (hS : StructAct π O S)
    (hcs : ∀ c D, π.Γ.contexts c = some D → ∀ f ∈ D.members, ∀ t, f.type = .base (.int t) → SizeOK t)
    {p : List String} {u : UnionMember} (hu : .union u ∈ s.ms) (hg : MemberGen π.Γ π.B s π.C O p (.union u)) :
    Act π.Γ.K s N False (MemberQ π s p (.union u)) (genUnion (E := E) r S s u) := by
  have hbranches := fun bs h1' => branches_ok H hcs hg (bs := bs) h1'
  obtain ⟨g1, g2, g3, g4, g5, g6⟩ := hg
  intro st vs st' hi h
  unfold genUnion at h
  obtain ⟨bs, st1, h1, ha⟩ := bind_ok h
  clear h
  obtain ⟨h1', rfl⟩ := ofRes_ok h1
  obtain ⟨c, st2, h2, hb⟩ := bind_ok ha
  clear ha
  obtain ⟨rfl, rfl⟩ := getCur_ok h2
  obtain ⟨m, st3, h3, hc⟩ := bind_ok hb
  clear hb
  obtain ⟨rfl, rfl⟩ := getMap_ok h3
  have hbr := hbranches bs h1'
  cases hopt : branchOptions bs ((st3.map st3.cur).lookupRef u.tag) with
  | none =>
    rw [hopt] at hc
    obtain ⟨rfl, rfl⟩ := pure_ok hc
    exact ⟨hi, .refl _ _, by simp [arrsOf], by simp, by simp, fun h => h.elim, fun h => h.elim⟩
  | some opts =>
    rw [hopt] at hc
    obtain ⟨base, st4, h4, hd⟩ := bind_ok hc
    clear hc
    obtain ⟨res, st5, h5, he⟩ := bind_ok hd
    clear hd
    have hnew := cloneRef_ok hi.wf h4
    have hNb : N ≤ base := by rw [hnew.ref]; have := hi.cur_ge; have := hi.cur_lt; omega
    have hi4 : Inv N st4 := ⟨hnew.wf, by rw [hnew.cur]; exact hi.cur_ge, by
      rw [hnew.cur, hnew.len]; have := hi.cur_lt; omega⟩
    have hopts : ∀ b ∈ opts, BranchOK π s O p u (st4.env base) b := by
      rw [hnew.env]
      intro b hb
      have hlk : (st3.map st3.cur).lookupRef u.tag = st3.env st3.cur u.tag.scope u.tag.name := rfl
      rw [hlk] at hopt
      cases hσ : st3.env st3.cur u.tag.scope u.tag.name with
      | none =>
        rw [hσ] at hopt
        cases hopt
        exact hbr b hb _ (fun y hy => by rw [hσ] at hy; cases hy)
      | some y =>
        rw [hσ] at hopt
        simp only [branchOptions] at hopt
        cases hlb : lookupBranch bs y with
        | none => rw [hlb] at hopt; cases hopt
        | some b' =>
          rw [hlb] at hopt
          cases hopt
          cases List.mem_singleton.1 hb
          unfold lookupBranch at hlb
          exact hbr b (List.mem_of_find?_eq_some hlb) _ (fun z hz => by
            rw [hσ] at hz; cases hz
            exact List.find?_some (p := fun b : Branch => b.set.contains (Resolver.castU64 y)) hlb)
    obtain ⟨p1, p2, p3, p4⟩ := branchesLoop_ok hsel H hS hu hNb hi4 (by rw [hnew.len, hnew.ref]; omega) hopts h5
    rw [hnew.env, hnew.arrs] at p4
    have hf5 : Frame π.Γ.K s N st3 st5 := hnew.frame.trans (p2.weaken (by omega))
    cases hl : u.length with
    | none =>
      rw [hl] at he
      obtain ⟨rfl, rfl⟩ := pure_ok he
      refine ⟨p1, hf5, p3, fun v hv => ⟨(p4 v hv).1, (p4 v hv).2.1.weaken (by omega)⟩, ?_, fun h => h.elim, fun h => h.elim⟩
      intro hm v hv hd
      have hR := (p4 v hv).2.2 hm
      exact ⟨(hR hd).1, (hR hd).2.1, union_good H hu g1 hd hR (by simp [hl]) (by simp [hl])⟩
    | some lc =>
      rw [hl] at he
      cases lc with
      | leftover k => cases he
      | idRef ref =>
        obtain ⟨q1, q2, q3, q4⟩ := lenLoop_ok (M := st3.arrs.length) (hyp := MapOK π.Γ.K s (st3.env st3.cur)) H
          (g3 ref hl) p1 p3 (fun v hv => ⟨(p4 v hv).1, (p4 v hv).2.1.weaken (by omega), (p4 v hv).2.2⟩) he
        refine ⟨q1, hf5.trans q2, p3.sublist q3, fun v hv => ⟨(q4 v hv).1, (q4 v hv).2.1⟩, ?_, fun h => h.elim,
          fun h => h.elim⟩
        intro hm v hv hd
        obtain ⟨_, _, hR, hlen⟩ := q4 v hv
        refine ⟨(hR hm hd).1, (hR hm hd).2.1, union_good H hu g1 hd (hR hm) (by simp [hl]) ?_⟩
        intro ref' e
        rw [hl] at e
        cases e
        exact hlen

end Verif.Tv
