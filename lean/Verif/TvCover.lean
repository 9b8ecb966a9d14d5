import Verif.TvKeys
import Mathlib.Tactic.ByContra
/-!
# Every case of a union gets vectors

With a selector that keeps all vectors, and tags that nothing else decides.
-/
set_option linter.unusedVariables false
namespace Verif.Tv
open Verif Verif.Ast Verif.Inspect Verif.Intervals Verif.Go Verif.Spec Verif.Wire Verif.Props

variable {E : Env} {β : Type} {K : String → Option Int} {π : Par} {r : Resolver} {s : Struct} {N : Nat} {O : String → Prop}
  {G : Glob}

/-! ## Following one vector -/

theorem extendAll_cons {act : TM E (List Vec)} {v : Vec} {vs ext : List Vec} {st st' : St E}
    (h : extendAll act (v :: vs) st = .ok (ext, st')) : ∃ ex st2 rest, extendAll act [v] st = .ok (ex, st2) ∧
      extendAll act vs st2 = .ok (rest, st') ∧ ext = ex ++ rest := by
  simp only [extendAll] at h
  obtain ⟨u, st0, h0, ha⟩ := bind_ok h
  clear h
  obtain ⟨mvs, st1, h1, hb⟩ := bind_ok ha
  clear ha
  obtain ⟨ex, st2, h2, hc⟩ := bind_ok hb
  clear hb
  obtain ⟨rest, st3, h3, hd⟩ := bind_ok hc
  clear hc
  obtain ⟨rfl, rfl⟩ := pure_ok hd
  refine ⟨ex ++ [], st2, rest, ?_, h3, by simp⟩
  simp only [extendAll, Bind.bind, TM.bind, h0, h1, h2]
  rfl

theorem extendAll_one {one : Prop} {Q : CEnv → Bytes → CEnv → Prop} {act : TM E (List Vec)} (hact : Act K s N one Q act)
    {X : CEnv → Bytes → CEnv → Prop} {L : List Key}
    (hex : ∀ st vs st', Inv N st → Keys L (st.env st.cur) → act st = .ok (vs, st') →
      ∃ v ∈ vs, X (st.env st.cur) (st'.read v.data) (st'.env v.cst))
    {R0 R1 : CEnv → Bytes → Prop}
    (step : ∀ σ0 d2 d1 σ, R0 σ0 d2 → (MapOK K s σ0 → Q σ0 d1 σ) → X σ0 d1 σ → R1 σ (d1 ++ d2))
    {v : Vec} {st st' : St E} {ext : List Vec} (hi : Inv N st) (hlv : Live N st v) (hL : Keys L (st.env v.cst))
    (hR : R0 (st.env v.cst) (st.read v.data)) (h : extendAll act [v] st = .ok (ext, st')) :
    ∃ e ∈ ext, R1 (st'.env e.cst) (st'.read e.data) := by
  simp only [extendAll] at h
  obtain ⟨u, st0, h0, ha⟩ := bind_ok h
  clear h
  simp only [setCur, Out.ok.injEq, Prod.mk.injEq, true_and] at h0
  obtain ⟨mvs, st1, h1, hb⟩ := bind_ok ha
  clear ha
  obtain ⟨ex, st2, h2, hc⟩ := bind_ok hb
  clear hb
  obtain ⟨rest, st3, h3, hd⟩ := bind_ok hc
  clear hc
  obtain ⟨rfl, rfl⟩ := pure_ok h3
  obtain ⟨rfl, rfl⟩ := pure_ok hd
  have hi0 : Inv N st0 := by subst h0; exact ⟨hi.wf, hlv.ge, hlv.lt⟩
  have A := hact st0 mvs st1 hi0 h1
  have hcur0 : st0.cur = v.cst := by rw [← h0]
  have henv0 : st0.env v.cst = st.env v.cst := by subst h0; rfl
  have hread0 : st0.read v.data = st.read v.data := by subst h0; rfl
  have hlv0 : Live N st0 v := by subst h0; exact ⟨hlv.data, hlv.ge, hlv.lt⟩
  have hlv1 : Live N st1 v := hlv0.frame A.frame
  obtain ⟨p1, p2, p3, p4, p5, p6, p7, p8⟩ := appendAll_ok (M := st0.arrs.length) hlv1.data hlv0.data.1
    A.frame.arrs_le (fun w hw => ⟨(A.vec w hw).1, (A.vec w hw).2.data⟩) A.nodup h2
  obtain ⟨w, hw, hX⟩ := hex st0 mvs st1 hi0 (by rw [hcur0, henv0]; exact hL) h1
  obtain ⟨e, he, e1, e2⟩ := p8 w hw
  refine ⟨e, by simpa using he, ?_⟩
  rw [e1, e2, A.frame.read hlv0.data, hread0, env_eq (st := st1) (by rw [p1])]
  rw [hcur0, henv0] at hX
  refine step _ _ _ _ hR (fun hm => ?_) hX
  have := A.sem (by rw [hcur0, henv0]; exact hm) w hw
  rw [hcur0, henv0] at this
  exact this

theorem extendAll_ex {one : Prop} {Q : CEnv → Bytes → CEnv → Prop} {act : TM E (List Vec)} (hact : Act K s N one Q act)
    {F R L : List Key} {W : List Key → Prop} (hk : KAct F R W act) (hF : F ⊆ L) {X : CEnv → Bytes → CEnv → Prop}
    (hex : ∀ st vs st', Inv N st → Keys L (st.env st.cur) → act st = .ok (vs, st') →
      ∃ v ∈ vs, X (st.env st.cur) (st'.read v.data) (st'.env v.cst))
    {R0 R1 : CEnv → Bytes → Prop} (m0 : Mono K s R0) (m1 : Mono K s R1)
    (step : ∀ σ0 d2 d1 σ, R0 σ0 d2 → (MapOK K s σ0 → Q σ0 d1 σ) → X σ0 d1 σ → R1 σ (d1 ++ d2)) :
    ∀ {vs : List Vec} {v0 : Vec} {st st' : St E} {ext : List Vec}, Inv N st →
    (∀ v ∈ vs, Live N st v ∧ Keys L (st.env v.cst)) → v0 ∈ vs → R0 (st.env v0.cst) (st.read v0.data) →
    extendAll act vs st = .ok (ext, st') → ∃ e ∈ ext, R1 (st'.env e.cst) (st'.read e.data) := by
  intro vs
  induction vs with
  | nil => intro v0 st st' ext _ _ h; simp at h
  | cons v vs ih =>
    intro v0 st st' ext hi hv h0 hR h
    obtain ⟨ex, st2, rest, h1, h2, rfl⟩ := extendAll_cons h
    obtain ⟨a1, a2, a3, a4, _, _⟩ := extendAll_ok hact (R0 := fun _ _ => True) (R1 := fun _ _ => True)
      (fun _ _ _ _ h => h) (fun _ _ _ _ h => h) (fun _ _ _ _ _ _ => trivial) hi
      (fun w hw => ⟨(hv w (by cases List.mem_singleton.1 hw; exact List.mem_cons_self)).1, trivial⟩) h1
    obtain ⟨_, _, _, b4, _, _, _⟩ := extendAll_keys (L' := R ++ L) (good := False) hk hF
      (List.subset_append_right _ _) (List.subset_append_left _ _) (fun h => h.elim) hi.wf hi.cur_lt
      (fun w hw => by cases List.mem_singleton.1 hw; exact ⟨(hv v List.mem_cons_self).1.lt, (hv v List.mem_cons_self).2⟩) h1
    have hv2 : ∀ w ∈ vs, Live N st2 w ∧ Keys L (st2.env w.cst) := fun w hw => by
      obtain ⟨w1, w2⟩ := hv w (List.mem_cons_of_mem _ hw)
      exact ⟨w1.frame a2, b4 _ w1.lt L hF w2⟩
    obtain ⟨_, c2, _, _, _, _⟩ := extendAll_ok hact (R0 := fun _ _ => True) (R1 := fun _ _ => True)
      (fun _ _ _ _ h => h) (fun _ _ _ _ h => h) (fun _ _ _ _ _ _ => trivial) a1
      (fun w hw => ⟨(hv2 w hw).1, trivial⟩) h2
    rcases List.mem_cons.1 h0 with rfl | h0
    · obtain ⟨e, he, hR1⟩ := extendAll_one hact hex step hi (hv v0 List.mem_cons_self).1 (hv v0 List.mem_cons_self).2 hR h1
      refine ⟨e, List.mem_append_left _ he, ?_⟩
      have hl := (a4 e he).2.1
      rw [c2.read hl.data]
      exact m1 _ _ _ (c2.grow hl) hR1
    · have hl := (hv v0 (List.mem_cons_of_mem _ h0)).1
      obtain ⟨e, he, hR1⟩ := ih a1 hv2 h0 (by rw [a2.read hl.data]; exact m0 _ _ _ (a2.grow hl) hR) h2
      exact ⟨e, List.mem_append_right _ he, hR1⟩

/-- What one member does to a vector being followed. -/
def StepEx (K : String → Option Int) (s : Struct) (N : Nat) (refs : List β → List Key) (R : List β → CEnv → Bytes → Prop)
    (f : β → TM E (List Vec)) (m : β) (post : List β) : Prop :=
  ∃ (Q X : CEnv → Bytes → CEnv → Prop) (F Rr L : List Key) (W : List Key → Prop), Act K s N False Q (f m) ∧
    KAct F Rr W (f m) ∧ F ⊆ L ∧ refs post ⊆ L ∧ L ⊆ refs (m :: post) ∧ Rr ⊆ refs (m :: post) ∧
    (∀ st vs st', Inv N st → Keys L (st.env st.cur) → f m st = .ok (vs, st') →
      ∃ v ∈ vs, X (st.env st.cur) (st'.read v.data) (st'.env v.cst)) ∧
    ∀ σ0 d2 d1 σ, R post σ0 d2 → (MapOK K s σ0 → Q σ0 d1 σ) → X σ0 d1 σ → R (m :: post) σ (d1 ++ d2)

theorem membersLoop_ex (hkeep : Keeps E) {f : β → TM E (List Vec)} {refs : List β → List Key}
    {R : List β → CEnv → Bytes → Prop} (hmono : ∀ ms, Mono K s (R ms)) {all : List β}
    (H : ∀ pre m post, pre ++ m :: post = all → StepEx K s N refs R f m post) :
    ∀ {rev ms0 : List β} {vs : List Vec} {v0 : Vec} {st st' : St E} {ws : List Vec}, rev.reverse ++ ms0 = all →
    Inv N st → (∀ v ∈ vs, Live N st v ∧ Keys (refs ms0) (st.env v.cst)) → v0 ∈ vs →
    R ms0 (st.env v0.cst) (st.read v0.data) → membersLoop f rev vs st = .ok (ws, st') →
    ∃ w ∈ ws, R all (st'.env w.cst) (st'.read w.data) := by
  intro rev
  induction rev with
  | nil =>
    intro ms0 vs v0 st st' ws e hi hv h0 hR h
    obtain ⟨rfl, rfl⟩ := pure_ok h
    simp only [List.reverse_nil, List.nil_append] at e
    subst e
    exact ⟨v0, h0, hR⟩
  | cons m rev ih =>
    intro ms0 vs v0 st st' ws e hi hv h0 hR h
    simp only [membersLoop] at h
    obtain ⟨ext, st1, h1, ha⟩ := bind_ok h
    clear h
    obtain ⟨sel, st2, h2, hb⟩ := bind_ok ha
    clear ha
    have e' : rev.reverse ++ (m :: ms0) = all := by rw [← e]; simp
    obtain ⟨Q, X, F, Rr, L, W, s1, s2, s3, s4, s5, s6, s7, s8⟩ := H _ m ms0 e'
    have hvL : ∀ v ∈ vs, Live N st v ∧ Keys L (st.env v.cst) := fun v hv' => ⟨(hv v hv').1, (hv v hv').2.sub s4⟩
    obtain ⟨a1, a2, a3, a4, _, _⟩ := extendAll_ok s1 (R0 := fun _ _ => True) (R1 := fun _ _ => True)
      (fun _ _ _ _ h => h) (fun _ _ _ _ h => h) (fun _ _ _ _ _ _ => trivial) hi
      (fun w hw => ⟨(hv w hw).1, trivial⟩) h1
    obtain ⟨_, _, _, _, b5, _, _⟩ := extendAll_keys (good := False) s2 s3 s5 s6 (fun h => h.elim) hi.wf hi.cur_lt
      (fun w hw => ⟨(hv w hw).1.lt, (hvL w hw).2⟩) h1
    obtain ⟨e0, he0, hR1⟩ := extendAll_ex s1 s2 s3 s7 (hmono ms0) (hmono (m :: ms0)) s8 hi hvL h0 hR h1
    obtain ⟨hp, rfl⟩ := select_keeps hkeep h2
    exact ih e' (st := { st1 with calls := st1.calls + 1 }) ⟨a1.wf, a1.cur_ge, a1.cur_lt⟩
      (fun v hv' => by
        have hl := (a4 v (hp.subset hv')).2.1
        exact ⟨⟨hl.data, hl.ge, hl.lt⟩, (b5 v (hp.subset hv')).2⟩) (hp.symm.subset he0) hR1 hb

/-! ## Unions -/

/-- A case that can be selected, other than one that always fails. -/
def CaseGood (K : String → Option Int) (u : UnionMember) (c : UnionCase) : Prop :=
  Leaf.fail ∉ c.members ∧ ∃ x, selectCase K u.cases x = some c

/-- Variables that generating the cases may give values. -/
def casesKeys (G : Glob) (u : UnionMember) : List Key := u.cases.flatMap fun c => c.members.flatMap (leafKeys G)

/-- The variable the length of a union refers to. -/
def lenKeys (u : UnionMember) : List Key :=
  match u.length with
  | some (.idRef ref) => [refKey ref]
  | _ => []

/-- Leaves such that what decides unions within one is not decided by later ones or `L`. -/
def LeavesCov (G : Glob) (L : List Key) : List Leaf → Prop
  | [] => True
  | l :: ls => LeafPlain G l ∧ Disj (leafTags G l) (L ++ ls.flatMap (leafKeys G)) ∧ LeavesCov G L ls

/-- A union followed by members that may give values to the variables in `L`: tag and length are not among them,
nor is what decides unions within the cases. -/
structure UnionCov (G : Glob) (K : String → Option Int) (u : UnionMember) (L : List Key) : Prop where
  tag : refKey u.tag ∉ L
  len : ∀ ref, u.length = some (.idRef ref) → refKey ref ∉ L ∧ refKey ref ≠ refKey u.tag ∧ refKey ref ∉ casesKeys G u
  cases : ∀ c ∈ u.cases, LeavesCov G (refKey u.tag :: L) c.members
  some : ∃ c, CaseGood K u c

theorem LeavesCov.split {L : List Key} {l : Leaf} {post : List Leaf} : ∀ {pre : List Leaf},
    LeavesCov G L (pre ++ l :: post) → LeafPlain G l ∧ Disj (leafTags G l) (L ++ post.flatMap (leafKeys G))
  | [], h => ⟨h.1, h.2.1⟩
  | _ :: pre, h => LeavesCov.split (pre := pre) h.2.2

/-- What a leaf's own reference is to does not matter: then there are no unions within it. -/
theorem disj_own {l : Leaf} {L : List Key} (h : Disj (leafTags G l) L) : Disj (leafTags G l) (leafOwn l ++ L) := by
  intro k hk
  rw [leafTags_own (G := G) (l := l) (fun e => by rw [e] at hk; simp at hk)]
  exact h k hk

theorem selected_branch {u : UnionMember} {bs : List Branch} {t : IntType} (hb : newBranches r s u = .ok bs)
    (ht : r.intType u.tag s = .ok t) (hsz : t.size ≤ 64)
    (hc : ∀ c ∈ u.cases, ∀ l, c.case = some l → l.ranges ≠ [] ∧ ListOK r.constant l) {c : UnionCase} {x : Int}
    (hx : selectCase r.constant u.cases x = some c) : ∃ b ∈ bs, b.case = c := by
  unfold newBranches at hb
  rw [ht] at hb
  simp only [Res.ok_bind] at hb
  obtain ⟨d0, hd0, hcan, hmem⟩ := C05_intType t.size hsz
  rw [hd0] at hb
  simp only [Res.ok_bind] at hb
  obtain ⟨⟨bs', d1, dc⟩, hl, hb⟩ := Res.bind_eq_ok.1 hb
  obtain ⟨a1, a2, a3, a4, a5, a6⟩ := branchLoop_spec r t.size u.cases d0 none [] bs' d1 dc
    (fun c hc' l hl' => ⟨(hc c hc' l hl').1, listOK_nonneg (hc c hc' l hl').2⟩) hcan (by simpa using hmem) hl
  simp only [Option.or_none] at a3
  have main : u.cases.find? (caseHas r.constant x) = some c → ∃ b ∈ bs', b.case = c := by
    intro hf
    have h1 := List.find?_some hf
    have : c ∈ bs'.map (·.case) := by
      rw [a6]
      refine List.mem_filter.2 ⟨List.mem_of_find?_eq_some hf, ?_⟩
      unfold caseHas at h1
      cases hcs : c.case with
      | none => rw [hcs] at h1; cases h1
      | some l => rfl
    obtain ⟨b, hb, e⟩ := List.mem_map.1 this
    exact ⟨b, hb, e⟩
  unfold selectCase at hx
  cases hf : u.cases.find? (caseHas r.constant x) with
  | some c' =>
    rw [hf] at hx
    cases hx
    obtain ⟨b, hb', e⟩ := main hf
    cases dc with
    | none => cases hb; exact ⟨b, hb', e⟩
    | some d => cases hb; exact ⟨b, List.mem_append_left _ hb', e⟩
  | none =>
    rw [hf] at hx
    have hx' : u.cases.reverse.find? (fun c => c.case.isNone) = some c := hx
    rw [hx'] at a3
    rw [a3] at hb
    cases hb
    exact ⟨_, List.mem_append_right _ List.mem_cons_self, rfl⟩

theorem branch_keys {Γ : Fmt} (hkeep : Keeps E) {S : Struct → TM E (List Vec)} (hS : SKeys G Γ S)
    (hr : r.struct = Γ.structs) {tag : IDRef} {base : Nat} {b : Branch} {st st1 st3 st4 st5 st' : St E} {c : Nat}
    {x : UInt64} {y : Int} {v : Vec} {ws : List Vec} (hw : st.WF) {L : List Key} (hK : Keys L (st.env base))
    (h1 : cloneRef base st = .ok (c, st1)) (h3 : randomIn b.set { st1 with cur := c } = .ok (x, st3))
    (h4 : lookupOrCreateAt c tag (castI64 x) st3 = .ok (y, st4)) (h5 : emptyVec st4 = .ok (v, st5))
    (h6 : membersLoop (genLeaf r S) b.case.members.reverse [v] st5 = .ok (ws, st')) :
    st.maps.length ≤ st'.maps.length ∧
    (∀ a, a < st.maps.length → ∀ M, refKey tag :: (L ++ b.case.members.flatMap (leafKeys G)) ⊆ M → Keys M (st.env a) →
      Keys M (st'.env a)) ∧
    (∀ v ∈ ws, Keys (refKey tag :: (L ++ b.case.members.flatMap (leafKeys G))) (st'.env v.cst)) ∧
    (Leaf.fail ∉ b.case.members → LeavesCov G (refKey tag :: L) b.case.members → ws ≠ []) ∧
    ∀ M, refKey tag :: (L ++ b.case.members.flatMap (leafKeys G)) ⊆ M → Keys M (st'.env st'.cur) := by
  have hnew := cloneRef_ok hw h1
  obtain ⟨s1, s2⟩ := Quiet.randomIn _ _ _ _ h3
  have hc1 : c < st1.maps.length := by rw [hnew.len, hnew.ref]; omega
  have hwf3 : st3.WF := fun m hm => hnew.wf m (by rw [s1] at hm; exact hm)
  have hc3 : c < st3.maps.length := by rw [s1]; exact hc1
  have e3 : st3.env c = st.env base := by
    rw [env_eq (st := st1) (by rw [s1])]; exact hnew.env
  obtain ⟨hy, hset⟩ := lookupOrCreateAt_ok hwf3 hc3 h4
  rw [e3] at hy hset
  have hcur4 : st4.cur = c := hset.cur.trans s2
  have hlen4 : st4.maps.length = st.maps.length + 1 := by rw [hset.len, s1]; exact hnew.len
  have hold : ∀ k, k < st.maps.length → st4.maps[k]? = st.maps[k]? := fun k hk => by
    rw [hset.old k (by rw [hnew.ref]; omega), s1]; exact hnew.old k hk
  have h5' : st5.maps = st4.maps ∧ st5.cur = st4.cur ∧ v.cst = st4.cur := by cases h5; exact ⟨rfl, rfl, rfl⟩
  obtain ⟨d1, d2, d3⟩ := h5'
  have hc4 : c < st4.maps.length := by rw [hlen4, hnew.ref]; omega
  have hK5 : Keys (refKey tag :: L) (st5.env c) := by
    rw [env_eq (st := st4) (by rw [d1]), hset.env]
    exact (hK.sub (List.subset_cons_self _ _)).orCreate List.mem_cons_self
  obtain ⟨q1, q2, q3, q4, q5, q6, q7, q8⟩ := membersLoop_keys hkeep (f := genLeaf (E := E) r S)
    (refs := fun ls => refKey tag :: (L ++ ls.flatMap (leafKeys G)))
    (all := b.case.members) (good := Leaf.fail ∉ b.case.members ∧ LeavesCov G (refKey tag :: L) b.case.members)
    (fun pre l post e => by
      have hm : l ∈ b.case.members := by rw [← e]; simp
      have hsub : ∀ k, k ∈ refKey tag :: (L ++ post.flatMap (leafKeys G)) →
          k ∈ refKey tag :: (L ++ (l :: post).flatMap (leafKeys G)) := by
        intro k
        simp only [List.flatMap_cons, List.mem_cons, List.mem_append]
        rintro (h | h | h) <;> simp [h]
      have hown : ∀ k, k ∈ leafKeys G l → k ∈ refKey tag :: (L ++ (l :: post).flatMap (leafKeys G)) := by
        intro k h
        simp only [List.flatMap_cons, List.mem_cons, List.mem_append]
        exact .inr (.inr (.inl h))
      refine ⟨leafOwn l, leafKeys G l, leafOwn l ++ refKey tag :: (L ++ post.flatMap (leafKeys G)), _,
        genLeaf_keys hkeep hS hr l, List.subset_append_left _ _, List.subset_append_right _ _, ?_, hown, ?_⟩
      · intro k hk
        rcases List.mem_append.1 hk with hk | hk
        · exact hown k (List.mem_append_left _ hk)
        · exact hsub k hk
      · rintro ⟨g1, g2⟩
        obtain ⟨a1, a2⟩ := LeavesCov.split (pre := pre) (l := l) (post := post) (by rw [e]; exact g2)
        exact ⟨fun e' => g1 (e' ▸ hm), a1, disj_own a2⟩)
    (rev := b.case.members.reverse) (ms0 := []) (vs := [v]) (by simp)
    (by unfold St.WF; rw [d1]; exact hset.wf) (by rw [d1, d2, hcur4]; exact hc4)
    (fun w hw' => by
      cases List.mem_singleton.1 hw'
      rw [d3, hcur4, d1]
      refine ⟨hc4, ?_⟩
      simpa using hK5) h6
  rw [d1] at q3
  refine ⟨by omega, fun a ha M hM hk => ?_, fun w hw' => (q5 w hw').2, fun hg hl => q7 ⟨hg, hl⟩ (by simp), ?_⟩
  · refine q4 a (by rw [d1]; omega) M hM ?_
    rw [env_eq (st := st4) (by rw [d1]), env_eq (hold a ha)]
    exact hk
  · intro M hM
    refine q8 M hM ?_
    rw [d2, hcur4]
    refine hK5.sub fun k hk => hM ?_
    rcases List.mem_cons.1 hk with rfl | hk
    · exact List.mem_cons_self
    · exact List.mem_cons_of_mem _ (List.mem_append_left _ hk)

theorem branchesLoop_keys (hkeep : Keeps E) (H : Hyp π r s) {S : Struct → TM E (List Vec)} (hA : StructAct π O S)
    (hS : SKeys G π.Γ S) {p : List String} {u : UnionMember} (hu : .union u ∈ s.ms) {base : Nat} (hN : N ≤ base)
    {L : List Key} :
    ∀ {bs : List Branch} {st st' : St E} {ws : List Vec}, Inv N st → base < st.maps.length → Keys L (st.env base) →
    (∀ b ∈ bs, BranchOK π s O p u (st.env base) b) → branchesLoop r S u.tag base bs st = .ok (ws, st') →
    (∀ a, a < st.maps.length → ∀ M, refKey u.tag :: (L ++ casesKeys G u) ⊆ M → Keys M (st.env a) → Keys M (st'.env a)) ∧
    (∀ v ∈ ws, Keys (refKey u.tag :: (L ++ casesKeys G u)) (st'.env v.cst)) ∧
    (∀ M, refKey u.tag :: (L ++ casesKeys G u) ⊆ M → Keys M (st.env st.cur) → Keys M (st'.env st'.cur)) ∧
    ∀ b ∈ bs, Leaf.fail ∉ b.case.members → LeavesCov G (refKey u.tag :: L) b.case.members → ∃ v ∈ ws,
      (MapOK π.Γ.K s (st.env base) → CaseR π s p u b.case (st.env base) (st'.env v.cst) (st'.read v.data)) := by
  intro bs
  induction bs with
  | nil =>
    intro st st' ws hi _ _ _ h
    obtain ⟨rfl, rfl⟩ := pure_ok h
    exact ⟨fun _ _ _ _ h => h, by simp, fun _ _ h => h, by simp⟩
  | cons b bs ih =>
    intro st st' ws hi hbase hK hb h
    simp only [branchesLoop] at h
    obtain ⟨c, st1, h1, ha⟩ := bind_ok h
    clear h
    obtain ⟨⟨⟩, st2, h2, hc⟩ := bind_ok ha
    clear ha
    simp only [setCur, Out.ok.injEq, Prod.mk.injEq, true_and] at h2
    obtain ⟨x, st3, h3, hd⟩ := bind_ok hc
    clear hc
    obtain ⟨y, st4, h4, he⟩ := bind_ok hd
    clear hd
    obtain ⟨v, st5, h5, hf⟩ := bind_ok he
    clear he
    obtain ⟨vs, st6, h6, hg⟩ := bind_ok hf
    clear hf
    obtain ⟨rest, st7, h7, hh⟩ := bind_ok hg
    clear hg
    obtain ⟨rfl, rfl⟩ := pure_ok hh
    rw [← h2] at h3
    have hb0 := hb b List.mem_cons_self
    obtain ⟨p1, p2, p3, p4⟩ := branch_ok hkeep.selects H hA hu hi.wf hbase hb0 h1 h3 h4 h5 h6
    obtain ⟨k1, k2, k3, k4, k5⟩ := branch_keys hkeep hS H.strs hi.wf hK h1 h3 h4 h5 h6
    have hsub : refKey u.tag :: (L ++ b.case.members.flatMap (leafKeys G)) ⊆ refKey u.tag :: (L ++ casesKeys G u) := by
      refine List.cons_subset_cons _ ?_
      intro k hk
      rcases List.mem_append.1 hk with hk | hk
      · exact List.mem_append_left _ hk
      · exact List.mem_append_right _ (List.mem_flatMap.2 ⟨b.case, hb0.mem, hk⟩)
    have hbase6 : base < st6.maps.length := Nat.lt_of_lt_of_le hbase p2.maps_le
    have henv : st6.env base = st.env base := env_eq (p2.low base (Nat.lt_succ_self _) hbase)
    have hi6 : Inv N st6 := ⟨p1.wf, by have := p1.cur_ge; omega, p1.cur_lt⟩
    have hb6 : ∀ b' ∈ bs, BranchOK π s O p u (st6.env base) b' := fun b' hb' => by
      rw [henv]; exact hb b' (List.mem_cons_of_mem _ hb')
    obtain ⟨_, f2, _, _⟩ := branchesLoop_ok hkeep.selects H hA hu hN hi6 hbase6 hb6 h7
    obtain ⟨q1, q2, q4, q3⟩ := ih hi6 hbase6 (by rw [henv]; exact hK) hb6 h7
    rw [henv] at q3
    refine ⟨fun a ha M hM hk => q1 a (by omega) M hM (k2 a ha M (fun _ h => hM (hsub h)) hk), ?_, ?_, ?_⟩
    · intro w hw
      rcases List.mem_append.1 hw with hw | hw
      · exact q1 _ (p4 w hw).2.1.lt _ (fun _ h => h) ((k3 w hw).sub hsub)
      · exact q2 w hw
    · intro M hM _
      exact q4 M hM (k5 M fun _ h => hM (hsub h))
    · intro b' hb' hnf hlc
      rcases List.mem_cons.1 hb' with rfl | hb'
      · obtain ⟨w, hw⟩ := List.exists_mem_of_ne_nil _ (k4 hnf hlc)
        obtain ⟨w1, w2, w3⟩ := p4 w hw
        refine ⟨w, List.mem_append_left _ hw, fun hm => ?_⟩
        rw [f2.read w2.data]
        exact CaseR.mono _ _ _ (f2.grow w2) (w3 hm)
      · obtain ⟨w, hw, h'⟩ := q3 b' hb' hnf hlc
        exact ⟨w, List.mem_append_right _ hw, h'⟩

theorem lenLoop_all {ref : IDRef} : ∀ {vs ws : List Vec} {st st' : St E}, st.WF → (∀ v ∈ vs, v.cst < st.maps.length) →
    lenLoop ref vs st = .ok (ws, st') →
    st'.arrs = st.arrs ∧ st'.cur = st.cur ∧ st.maps.length ≤ st'.maps.length ∧
    (∀ a, a < st.maps.length → st'.maps[a]? = st.maps[a]?) ∧
    (∀ w ∈ ws, ∃ v ∈ vs, w.data = v.data ∧ st'.env w.cst = orCreate (st.env v.cst) ref v.data.len) ∧
    ∀ v ∈ vs, st.env v.cst ref.scope ref.name = none →
      ∃ w ∈ ws, w.data = v.data ∧ st'.env w.cst = orCreate (st.env v.cst) ref v.data.len := by
  intro vs
  induction vs with
  | nil =>
    intro ws st st' hw _ h
    obtain ⟨rfl, rfl⟩ := pure_ok h
    exact ⟨rfl, rfl, Nat.le_refl _, fun _ _ => rfl, by simp, by simp⟩
  | cons v vs ih =>
    intro ws st st' hw hv h
    simp only [lenLoop] at h
    obtain ⟨c, st1, h1, ha⟩ := bind_ok h
    clear h
    obtain ⟨m, st2, h2, hb⟩ := bind_ok ha
    clear ha
    obtain ⟨rest, st3, h3, hc⟩ := bind_ok hb
    clear hb
    obtain ⟨e, rfl⟩ := pure_ok hc
    have hnew := cloneRef_ok hw h1
    have hcl : c < st1.maps.length := by rw [hnew.len, hnew.ref]; omega
    obtain ⟨hm, hset⟩ := lookupOrCreateAt_ok hnew.wf hcl h2
    rw [hnew.env] at hm hset
    have hold : ∀ k, k < st.maps.length → st2.maps[k]? = st.maps[k]? := fun k hk => by
      rw [hset.old k (by rw [hnew.ref]; omega)]; exact hnew.old k hk
    have hlen : st2.maps.length = st.maps.length + 1 := by rw [hset.len, hnew.len]
    obtain ⟨q1, q0, q2, q3, q4, q5⟩ := ih hset.wf (fun w hw' => by
      have := hv w (List.mem_cons_of_mem _ hw'); omega) h3
    have hcenv : st'.env c = orCreate (st.env v.cst) ref v.data.len := by
      rw [env_eq (q3 c (by rw [hlen, hnew.ref]; omega)), hset.env]
    refine ⟨q1.trans (hset.arrs.trans hnew.arrs), q0.trans (hset.cur.trans hnew.cur), by omega, fun a ha => by rw [q3 a (by omega), hold a ha], ?_, ?_⟩
    · have tl : ∀ w ∈ rest, ∃ v' ∈ v :: vs, w.data = v'.data ∧ st'.env w.cst = orCreate (st.env v'.cst) ref v'.data.len := by
        intro w hw'
        obtain ⟨v', hv', d1, d2⟩ := q4 w hw'
        refine ⟨v', List.mem_cons_of_mem _ hv', d1, ?_⟩
        rw [d2, env_eq (hold _ (hv v' (List.mem_cons_of_mem _ hv')))]
      intro w hw'
      rw [e] at hw'
      split at hw'
      · exact tl w hw'
      · rcases List.mem_cons.1 hw' with rfl | hw'
        · exact ⟨v, List.mem_cons_self, rfl, hcenv⟩
        · exact tl w hw'
    · have tl : ∀ w ∈ rest, w ∈ ws := by
        intro w hw'
        rw [e]
        split
        · exact hw'
        · exact List.mem_cons_of_mem _ hw'
      intro v' hv' hnone
      rcases List.mem_cons.1 hv' with rfl | hv'
      · refine ⟨⟨v'.data, c⟩, ?_, rfl, hcenv⟩
        rw [e, if_neg]
        · exact List.mem_cons_self
        · rw [hm, hnone]; simp
      · obtain ⟨w, hw', d1, d2⟩ := q5 v' hv' (by
          rw [env_eq (hold _ (hv v' (List.mem_cons_of_mem _ hv')))]; exact hnone)
        refine ⟨w, tl w hw', d1, ?_⟩
        rw [d2, env_eq (hold _ (hv v' (List.mem_cons_of_mem _ hv')))]

/-- The tag recorded with a vector is in the case. -/
def TagX (K : String → Option Int) (B : Nat) (s : Struct) (u : UnionMember) (c : UnionCase) (σ0 : CEnv) (d : Bytes)
    (σ : CEnv) : Prop :=
  MapOK K s σ0 → d.length < B → ∃ y, σ u.tag.scope u.tag.name = some y ∧ selectCase K u.cases (asField y) = some c

/-- Variables that generating a member may give values. -/
def memberKeys (G : Glob) : Member → List Key
  | .leaf l => leafKeys G l
  | .union u => refKey u.tag :: (lenKeys u ++ casesKeys G u)

theorem genUnion_cover (hkeep : Keeps E) (H : Hyp π r s) {S : Struct → TM E (List Vec)} (hA : StructAct π O S)
    (hS : SKeys G π.Γ S)
    (hcs : ∀ c D, π.Γ.contexts c = some D → ∀ f ∈ D.members, ∀ t, f.type = .base (.int t) → SizeOK t)
    {p : List String} {u : UnionMember} (hu : .union u ∈ s.ms) (hg : MemberGen π.Γ π.B s π.C O p (.union u))
    {st st' : St E} {vs : List Vec} (hi : Inv N st) (h : genUnion r S s u st = .ok (vs, st')) :
    (∀ a, a < st.maps.length → st'.maps[a]? = st.maps[a]?) ∧
    (∀ M, memberKeys G (.union u) ⊆ M → Keys M (st.env st.cur) →
      (∀ v ∈ vs, Keys M (st'.env v.cst)) ∧ Keys M (st'.env st'.cur)) ∧
    (∀ L, UnionCov G π.Γ.K u L → Keys L (st.env st.cur) → ∀ c, CaseGood π.Γ.K u c →
      ∃ v ∈ vs, TagX π.Γ.K π.B s u c (st.env st.cur) (st'.read v.data) (st'.env v.cst)) := by
  have hbranches := fun bs h1' => branches_ok H hcs hg (bs := bs) h1'
  obtain ⟨g1, g2, g3, g4, g5, g6⟩ := hg
  unfold genUnion at h
  obtain ⟨bs, st1, h1, ha⟩ := bind_ok h
  clear h
  obtain ⟨h1', rfl⟩ := ofRes_ok h1
  obtain ⟨c, st2, h2, hb⟩ := bind_ok ha
  clear ha
  obtain ⟨rfl, rfl⟩ := getCur_ok h2
  obtain ⟨m, st3, h3, hc⟩ := bind_ok hb
  clear hb
  obtain ⟨rfl, rfl⟩ := getMap_ok h3
  have hbr := hbranches bs h1'
  have hlk : (st3.map st3.cur).lookupRef u.tag = st3.env st3.cur u.tag.scope u.tag.name := rfl
  rw [hlk] at hc
  have hnone : ∀ {L}, UnionCov G π.Γ.K u L → Keys L (st3.env st3.cur) →
      st3.env st3.cur u.tag.scope u.tag.name = none := fun hcov hk => hk.none hcov.tag
  cases hopt : branchOptions bs (st3.env st3.cur u.tag.scope u.tag.name) with
  | none =>
    rw [hopt] at hc
    obtain ⟨rfl, rfl⟩ := pure_ok hc
    refine ⟨fun _ _ => rfl, fun M _ hk => ⟨by simp, hk⟩, fun L hcov hk => ?_⟩
    rw [hnone hcov hk] at hopt
    cases hopt
  | some opts =>
    rw [hopt] at hc
    obtain ⟨base, st4, h4, hd⟩ := bind_ok hc
    clear hc
    obtain ⟨res, st5, h5, he⟩ := bind_ok hd
    clear hd
    have hnew := cloneRef_ok hi.wf h4
    have hNb : N ≤ base := by rw [hnew.ref]; have := hi.cur_ge; have := hi.cur_lt; omega
    have hi4 : Inv N st4 := ⟨hnew.wf, by rw [hnew.cur]; exact hi.cur_ge, by
      rw [hnew.cur, hnew.len]; have := hi.cur_lt; omega⟩
    have hbase : base < st4.maps.length := by rw [hnew.len, hnew.ref]; omega
    have hopts : ∀ b ∈ opts, BranchOK π s O p u (st4.env base) b := by
      rw [hnew.env]
      intro b hb
      cases hσ : st3.env st3.cur u.tag.scope u.tag.name with
      | none =>
        rw [hσ] at hopt
        cases hopt
        exact hbr b hb _ (fun y hy => by rw [hσ] at hy; cases hy)
      | some y =>
        rw [hσ] at hopt
        simp only [branchOptions] at hopt
        cases hlb : lookupBranch bs y with
        | none => rw [hlb] at hopt; cases hopt
        | some b' =>
          rw [hlb] at hopt
          cases hopt
          cases List.mem_singleton.1 hb
          unfold lookupBranch at hlb
          exact hbr b (List.mem_of_find?_eq_some hlb) _ (fun z hz => by
            rw [hσ] at hz; cases hz
            exact List.find?_some (p := fun b : Branch => b.set.contains (Resolver.castU64 y)) hlb)
    obtain ⟨p1, p2, p3, p4⟩ := branchesLoop_ok hkeep.selects H hA hu hNb hi4 hbase hopts h5
    have hold5 : ∀ a, a < st3.maps.length → st5.maps[a]? = st3.maps[a]? := fun a ha => by
      rw [p2.low a (by rw [hnew.ref]; omega) (by rw [hnew.len]; omega)]; exact hnew.old a ha
    -- variables of vectors before lengths
    have hkeys : ∀ {L}, Keys L (st3.env st3.cur) → _ := fun {L} hk =>
      branchesLoop_keys (G := G) (L := L) hkeep H hA hS hu hNb hi4 hbase (by rw [hnew.env]; exact hk) hopts h5
    have hcur4 : st4.env st4.cur = st3.env st3.cur := by rw [hnew.cur]; exact env_eq (hnew.old _ hi.cur_lt)
    have hk5 : ∀ M, refKey u.tag ∈ M → casesKeys G u ⊆ M → Keys M (st3.env st3.cur) →
        (∀ v ∈ res, Keys M (st5.env v.cst)) ∧ Keys M (st5.env st5.cur) := by
      intro M m1 m2 hk
      have hM : refKey u.tag :: (M ++ casesKeys G u) ⊆ M := by
        intro k hk
        rcases List.mem_cons.1 hk with rfl | hk
        · exact m1
        · exact (List.mem_append.1 hk).elim id fun h => m2 h
      obtain ⟨_, a2, a3, _⟩ := hkeys hk
      exact ⟨fun v hv => (a2 v hv).sub hM, a3 M hM (by rw [hcur4]; exact hk)⟩
    have hc5 : ∀ L, UnionCov G π.Γ.K u L → Keys L (st3.env st3.cur) → ∀ c, CaseGood π.Γ.K u c → ∃ v ∈ res,
        Keys (refKey u.tag :: (L ++ casesKeys G u)) (st5.env v.cst) ∧
        (MapOK π.Γ.K s (st3.env st3.cur) → CaseR π s p u c (st3.env st3.cur) (st5.env v.cst) (st5.read v.data)) := by
      intro L hcov hk c hgood
      obtain ⟨_, a2, _, a4⟩ := hkeys hk
      rw [hnone hcov hk] at hopt
      cases hopt
      obtain ⟨hf, x, hx⟩ := hgood
      obtain ⟨t, ht, _⟩ := Res.bind_eq_ok.1 (show (r.intType u.tag s >>= fun t => _) = Res.ok bs from h1')
      obtain ⟨t1, t2⟩ := tag_type H ht hcs g2
      obtain ⟨b, hb, rfl⟩ := selected_branch h1' ht (sizeOK_dvd t1).2.1 (by rw [H.const]; exact g5)
        (by rw [H.const]; exact hx)
      obtain ⟨v, hv, hR⟩ := a4 b hb hf (hcov.cases _ (hopts b hb).mem)
      rw [hnew.env] at hR
      exact ⟨v, hv, a2 v hv, hR⟩
    have hsubT : refKey u.tag ∈ memberKeys G (.union u) := List.mem_cons_self
    have hsubC : casesKeys G u ⊆ memberKeys G (.union u) := fun k hk =>
      List.mem_cons_of_mem _ (List.mem_append_right _ hk)
    have fin : ∀ {c : UnionCase} {d : Bytes} {σ : CEnv},
        (MapOK π.Γ.K s (st3.env st3.cur) → CaseR π s p u c (st3.env st3.cur) σ d) →
        TagX π.Γ.K π.B s u c (st3.env st3.cur) d σ := by
      intro c d σ hR hm hd
      obtain ⟨_, _, y, y1, y2, _⟩ := hR hm hd
      exact ⟨y, y1, y2⟩
    cases hl : u.length with
    | none =>
      rw [hl] at he
      obtain ⟨rfl, rfl⟩ := pure_ok he
      refine ⟨hold5, fun M hM hk => hk5 M (hM hsubT) (fun _ h => hM (hsubC h)) hk, ?_⟩
      intro L hcov hk c hgood
      obtain ⟨v, hv, _, hR⟩ := hc5 L hcov hk c hgood
      exact ⟨v, hv, fin hR⟩
    | some lc =>
      rw [hl] at he
      cases lc with
      | leftover k => cases he
      | idRef ref =>
        obtain ⟨l1, l0, l2, l3, l4, l5⟩ := lenLoop_all p1.wf (fun v hv => (p4 v hv).2.1.lt) he
        have hsubL : refKey ref ∈ memberKeys G (.union u) :=
          List.mem_cons_of_mem _ (List.mem_append_left _ (by simp [lenKeys, hl]))
        refine ⟨fun a ha => ?_, ?_, ?_⟩
        · have := p2.maps_le
          rw [hnew.len] at this
          rw [l3 a (by omega), hold5 a ha]
        · intro M hM hk
          obtain ⟨m1, m2⟩ := hk5 M (hM hsubT) (fun _ h => hM (hsubC h)) hk
          refine ⟨fun w hw => ?_, ?_⟩
          · obtain ⟨v, hv, d1, d2⟩ := l4 w hw
            rw [d2]
            exact (m1 v hv).orCreate (hM hsubL)
          · rw [l0, env_eq (l3 _ p1.cur_lt)]
            exact m2
        · intro L hcov hk c hgood
          obtain ⟨v, hv, hkv, hR⟩ := hc5 L hcov hk c hgood
          obtain ⟨r2, r3, r4⟩ := hcov.len ref hl
          obtain ⟨w, hw, d1, d2⟩ := l5 v hv (by
            refine hkv.none ?_
            simp only [List.mem_cons, List.mem_append]
            rintro (h | h | h)
            · exact r3 h
            · exact r2 h
            · exact r4 h)
          refine ⟨w, hw, ?_⟩
          rw [d2, d1, read_eq (st := st5) (by rw [l1])]
          intro hm hd
          obtain ⟨y, y1, y2⟩ := fin hR hm hd
          refine ⟨y, ?_, y2⟩
          unfold Tv.orCreate
          split
          · rename_i e
            exact (r3 (Prod.ext e.1.symm e.2.symm)).elim
          · exact y1

/-! ## Members -/

/-- Variables that generating members may give values. -/
def keysOf (G : Glob) (ms : List Member) : List Key := ms.flatMap (memberKeys G)

/-- Variables that decide unions of a member, including its length. -/
def memberTags (G : Glob) : Member → List Key
  | .leaf l => leafTags G l
  | .union u => refKey u.tag :: (lenKeys u ++ u.cases.flatMap fun c => c.members.flatMap (leafTags G))

/-- Variables that decide unions of members. -/
def tagsOf (G : Glob) (ms : List Member) : List Key := ms.flatMap (memberTags G)

/-- Members among which unions get vectors for all cases: what decides them is not decided by later members, nor
by `L`. -/
def MembersCov (G : Glob) (K : String → Option Int) (L : List Key) : List Member → Prop
  | [] => True
  | .leaf l :: ms => (l ≠ .fail ∧ LeafPlain G l ∧ Disj (leafTags G l) (L ++ keysOf G ms)) ∧ MembersCov G K L ms
  | .union u :: ms => UnionCov G K u (L ++ keysOf G ms) ∧ MembersCov G K L ms

/-- Formats whose unions get vectors for all cases. -/
structure FmtCov (Γ : Fmt) (G : Glob) : Prop where
  uses : ∀ n s, Γ.structs n = some s → s.extern = false → globs (keysOf G s.ms) ⊆ G.uses n
  tags : ∀ n s, Γ.structs n = some s → s.extern = false → globs (tagsOf G s.ms) ⊆ G.tags n
  members : ∀ n s, Γ.structs n = some s → s.extern = false → MembersCov G Γ.K [] s.ms

theorem MembersCov.split {L : List Key} {m : Member} {post : List Member} : ∀ {pre : List Member},
    MembersCov G K L (pre ++ m :: post) → MembersCov G K L (m :: post) := by
  intro pre
  induction pre with
  | nil => exact fun h => h
  | cons a pre ih =>
    intro h
    cases a with
    | leaf l => exact ih h.2
    | union u => exact ih h.2

theorem LeavesCov.extend {L M : List Key} : ∀ {ls : List Leaf}, LeavesCov G L ls → Disj (ls.flatMap (leafTags G)) M →
    LeavesCov G (L ++ M) ls
  | [], _, _ => trivial
  | l :: ls, h, hd => by
    simp only [List.flatMap_cons] at hd
    refine ⟨h.1, ?_, h.2.2.extend (hd.sub (List.subset_append_right _ _) (fun _ h => h))⟩
    intro k hk hm
    rcases List.mem_append.1 hm with hm | hm
    · rcases List.mem_append.1 hm with hm | hm
      · exact h.2.1 k hk (List.mem_append_left _ hm)
      · exact hd k (List.mem_append_left _ hk) hm
    · exact h.2.1 k hk (List.mem_append_right _ hm)

theorem LeavesCov.sub {L L' : List Key} (hL : L' ⊆ L) : ∀ {ls : List Leaf}, LeavesCov G L ls → LeavesCov G L' ls
  | [], _ => trivial
  | l :: ls, h => ⟨h.1, h.2.1.sub (fun _ h => h) (fun k hk => (List.mem_append.1 hk).elim
      (fun h => List.mem_append_left _ (hL h)) (fun h => List.mem_append_right _ h)), h.2.2.sub hL⟩

theorem UnionCov.extend {u : UnionMember} {L M : List Key} (h : UnionCov G K u L) (hd : Disj (memberTags G (.union u)) M) :
    UnionCov G K u (M ++ L) := by
  refine ⟨?_, fun ref hr => ?_, fun c hc => ?_, h.some⟩
  · intro hm
    exact (List.mem_append.1 hm).elim (hd _ List.mem_cons_self) h.tag
  · obtain ⟨h1, h2⟩ := h.len ref hr
    refine ⟨fun hm => (List.mem_append.1 hm).elim (hd _ ?_) h1, h2⟩
    exact List.mem_cons_of_mem _ (List.mem_append_left _ (by simp [lenKeys, hr]))
  · refine LeavesCov.sub (L := (refKey u.tag :: L) ++ M) ?_ ((h.cases c hc).extend (hd.sub ?_ (fun _ h => h)))
    · intro k hk
      simp only [List.mem_cons, List.mem_append] at hk ⊢
      rcases hk with h | h | h <;> simp [h]
    · exact fun k hk => List.mem_cons_of_mem _ (List.mem_append_right _ (List.mem_flatMap.2 ⟨c, hc, hk⟩))

theorem MembersCov.extend {L : List Key} : ∀ {ms : List Member}, MembersCov G K [] ms → Disj (tagsOf G ms) L →
    MembersCov G K L ms
  | [], _, _ => trivial
  | .leaf l :: ms, h, hd => by
    simp only [tagsOf, List.flatMap_cons] at hd
    refine ⟨⟨h.1.1, h.1.2.1, ?_⟩, h.2.extend (hd.sub (List.subset_append_right _ _) (fun _ h => h))⟩
    exact (hd.sub (List.subset_append_left _ _) (fun _ h => h)).app h.1.2.2
  | .union u :: ms, h, hd => by
    simp only [tagsOf, List.flatMap_cons] at hd
    exact ⟨h.1.extend (hd.sub (List.subset_append_left _ _) (fun _ h => h)),
      h.2.extend (hd.sub (List.subset_append_right _ _) (fun _ h => h))⟩

theorem genUnion_keys (hkeep : Keeps E) (H : Hyp π r s) {S : Struct → TM E (List Vec)} (hA : StructAct π O S)
    (hS : SKeys G π.Γ S)
    (hcs : ∀ c D, π.Γ.contexts c = some D → ∀ f ∈ D.members, ∀ t, f.type = .base (.int t) → SizeOK t)
    {p : List String} {u : UnionMember} (hu : .union u ∈ s.ms) (hg : MemberGen π.Γ π.B s π.C O p (.union u)) :
    KAct [] (memberKeys G (.union u)) (UnionCov G π.Γ.K u) (genUnion (E := E) r S s u) := by
  intro st vs st' hw hc h
  have hi : Inv 0 st := ⟨hw, Nat.zero_le _, hc⟩
  have A := genUnion_act hkeep.selects H hA hcs hu hg st vs st' hi h
  obtain ⟨c1, c2, c3⟩ := genUnion_cover hkeep H hA hS hcs hu hg hi h
  refine ⟨A.inv.wf, A.inv.cur_lt, A.frame.maps_le, fun v hv => (A.vec v hv).2.lt, ?_, fun L hL hk => (c2 L hL hk).1,
    fun L hL hk => (c2 L hL hk).2, ?_⟩
  · intro a ha M _ hk
    rw [env_eq (c1 a ha)]; exact hk
  · intro L hcov hk e
    obtain ⟨c, hc'⟩ := hcov.some
    obtain ⟨v, hv, _⟩ := c3 L hcov hk c hc'
    rw [e] at hv
    simp at hv

/-- Variables given values before vectors are extended by a member. -/
def memberOwn : Member → List Key
  | .leaf l => leafOwn l
  | .union _ => []

/-- Conditions under which a member gets vectors, if only the variables in `L` have values. -/
def MemberCov (G : Glob) (K : String → Option Int) : Member → List Key → Prop
  | .leaf l, L => l ≠ .fail ∧ LeafPlain G l ∧ Disj (leafTags G l) L
  | .union u, L => UnionCov G K u L

theorem genMember_keys (hkeep : Keeps E) (H : Hyp π r s) {S : Struct → TM E (List Vec)} (hA : StructAct π O S)
    (hS : SKeys G π.Γ S)
    (hcs : ∀ c D, π.Γ.contexts c = some D → ∀ f ∈ D.members, ∀ t, f.type = .base (.int t) → SizeOK t)
    {p : List String} {m : Member} (hm : m ∈ s.ms) (hg : MemberGen π.Γ π.B s π.C O p m) :
    KAct (memberOwn m) (memberKeys G m) (MemberCov G π.Γ.K m) (genMember (E := E) r S s m) := by
  cases m with
  | leaf l => exact genLeaf_keys hkeep hS H.strs l
  | union u => exact genUnion_keys hkeep H hA hS hcs hm hg

theorem memberOwn_sub (m : Member) : memberOwn m ⊆ memberKeys G m := by
  cases m with
  | leaf l => exact List.subset_append_left _ _
  | union u => exact List.nil_subset _

theorem keysOf_cons (L : List Key) (m : Member) (post : List Member) :
    memberOwn m ++ (L ++ keysOf G post) ⊆ L ++ keysOf G (m :: post) ∧
    memberKeys G m ⊆ L ++ keysOf G (m :: post) := by
  simp only [keysOf, List.flatMap_cons]
  refine ⟨fun k hk => ?_, fun k hk => List.mem_append_right _ (List.mem_append_left _ hk)⟩
  rcases List.mem_append.1 hk with hk | hk
  · exact List.mem_append_right _ (List.mem_append_left _ (memberOwn_sub m hk))
  · rcases List.mem_append.1 hk with hk | hk
    · exact List.mem_append_left _ hk
    · exact List.mem_append_right _ (List.mem_append_right _ hk)

theorem MembersCov.head {L : List Key} {m : Member} {post : List Member} (h : MembersCov G K L (m :: post)) :
    MemberCov G K m (memberOwn m ++ (L ++ keysOf G post)) := by
  cases m with
  | leaf l => exact ⟨h.1.1, h.1.2.1, disj_own h.1.2.2⟩
  | union u => exact h.1

/-! ## Structs -/

/-- How `structure_` runs. -/
theorem structure_run {fuel : Nat} {st st' : St E} {vs : List Vec} (hw : st.WF) (hne : s.ms ≠ [])
    (h : structure_ r (fuel + 1) s st = .ok (vs, st')) : ∃ (st3 st5 : St E) (v : Vec),
      Inv st.maps.length st3 ∧ Live st.maps.length st3 v ∧ st3.env v.cst = globals (st.env st.cur) ∧ st3.read v.data = [] ∧
      membersLoop (genMember r (structure_ r fuel) s) s.ms.reverse [v] st3 = .ok (vs, st5) ∧
      st3.cur = v.cst ∧ st3.env v.cst = globals (st.env st.cur) ∧
      (st5.WF → st5.cur < st5.maps.length → (∀ v ∈ vs, v.cst < st5.maps.length) →
        (∀ d, st'.read d = st5.read d) ∧ (∀ v ∈ vs, st'.env v.cst = globals (st5.env v.cst)) ∧
        st'.env st'.cur = globals (st5.env st5.cur)) := by
  simp only [structure_] at h
  obtain ⟨c, st1, h1, ha⟩ := bind_ok h
  clear h
  obtain ⟨rfl, rfl⟩ := getCur_ok h1
  obtain ⟨g, st2, h2, hb⟩ := bind_ok ha
  clear ha
  obtain ⟨d, st3, h3, hc⟩ := bind_ok hb
  clear hb
  obtain ⟨ws, st4, h4, hd⟩ := bind_ok hc
  clear hc
  obtain ⟨c5, st5, h5, he'⟩ := bind_ok hd
  clear hd
  obtain ⟨rfl, rfl⟩ := getCur_ok h5
  obtain ⟨u6, st6, h6, hf⟩ := bind_ok he'
  clear he'
  obtain ⟨u7, st7, h7, hg⟩ := bind_ok hf
  clear hf
  obtain ⟨rfl, rfl⟩ := pure_ok hg
  have hnew := cloneGlobalRef_ok hw h2
  obtain ⟨rfl, rfl⟩ := newSlice_ok h3
  have hrev : ∃ m rev, s.ms.reverse = m :: rev := by
    cases hr : s.ms.reverse with
    | nil => exact (hne (List.reverse_eq_nil_iff.1 hr)).elim
    | cons m rev => exact ⟨m, rev, rfl⟩
  obtain ⟨m, rev, hrev⟩ := hrev
  rw [hrev, membersLoop_cur _ _ _ _ _ g, ← hrev] at h4
  have hgl : g < st2.maps.length := by rw [hnew.len, hnew.ref]; omega
  refine ⟨{ st2 with arrs := st2.arrs ++ [[]], cur := g }, st5, ⟨⟨st2.arrs.length, 0⟩, g⟩,
    ⟨hnew.wf, by rw [hnew.ref], hgl⟩, ⟨⟨by simp, by simp⟩, by rw [hnew.ref], hgl⟩, hnew.env, by simp [St.read], h4, rfl, hnew.env, ?_⟩
  intro hw5 hc5 hv5
  have hset := clearLocalAt_ok hw5 hc5 h6
  obtain ⟨c1, c2, c3, c4, c5, c6, c7⟩ := clearAll_ok (N := 0) hset.wf (fun v hv => by
    rw [hset.len]; exact ⟨Nat.zero_le _, hv5 v hv⟩) h7
  refine ⟨fun d => read_eq (by rw [c3, hset.arrs]), fun v hv => ?_, ?_⟩
  · rw [c7 v hv]
    by_cases e : v.cst = st5.cur
    · rw [e, hset.env, globals_idem]
    · rw [env_eq (hset.old _ e)]
  · rw [c2, hset.cur]
    rcases c6 st5.cur with e | e <;> rw [e, hset.env]
    exact globals_idem _

/-- The parameters used for structs. -/
abbrev parOf (Γ : Fmt) (A B : Nat) (C : String → Prop) (ctx : Ctx) (fuel : Nat) : Par :=
  ⟨Γ, A, B, C, ctx, EncStruct Γ ctx fuel⟩

theorem Base0.hyp {Γ : Fmt} {B A : Nat} {C : String → Prop} {ctx : Ctx} (h0 : Base0 Γ B A C O ctx r) {n : String}
    (hs : Γ.structs n = some s) (he : s.extern = false) (fuel : Nat) : Hyp (parOf Γ A B C ctx fuel) r s := by
  have hnames : ((fieldsOf s.ms).map (·.name)).Nodup := by
    refine List.Nodup.of_map Γ.nm ?_
    rw [List.map_map]
    exact (h0.fmt.structs n s hs he).fields
  exact ⟨h0.const, h0.ctxs, h0.strs, hnames, (h0.gen.structs n s hs he).named, h0.ctx, h0.A, h0.gen.bound,
    encStruct_consumes h0.fmt fuel⟩

theorem structure_keys (hkeep : Keeps E) {Γ : Fmt} {B A : Nat} {C : String → Prop} {ctx : Ctx}
    (h0 : Base0 Γ B A C O ctx r) (hcov : FmtCov Γ G) : ∀ fuel, SKeys G Γ (structure_ (E := E) r fuel) := by
  intro fuel
  induction fuel with
  | zero => intro n s _ _ st vs st' _ _ h; cases h
  | succ fuel ih =>
    intro n s hs he
    have hsg := h0.gen.structs n s hs he
    have act := structure_act hkeep.selects h0 (fuel + 1) n s hs he
    intro st vs st' hw hc h
    have A := act st vs st' hw hc h
    have H := h0.hyp hs he fuel
    obtain ⟨st3, st5, v, i1, i2, i3, i4, i5, i7, i8, i6⟩ := structure_run hw hsg.nonempty h
    have run : ∀ L, Keys L (st.env st.cur) → _ := fun L hL =>
      membersLoop_keys hkeep (refs := fun ms => globs L ++ keysOf G ms) (all := s.ms)
        (good := Disj (G.tags n) L)
        (fun pre m post e => by
          obtain ⟨g1, g2⟩ := MembersGen.split (pre := pre) (m := m) (post := post) (by rw [e]; exact hsg.members)
          have hm : m ∈ s.ms := by rw [← e]; simp
          obtain ⟨k1, k2⟩ := keysOf_cons (G := G) (globs L) m post
          refine ⟨_, _, memberOwn m ++ (globs L ++ keysOf G post), _,
            genMember_keys hkeep H (structure_act hkeep.selects h0 fuel) ih h0.gen.contexts hm g2,
            List.subset_append_left _ _, List.subset_append_right _ _, k1, k2, fun hd => ?_⟩
          refine MembersCov.head (MembersCov.split (pre := pre) ?_)
          rw [e]
          refine (hcov.members n s hs he).extend ?_
          intro k hk hk'
          obtain ⟨h1, h2⟩ := mem_globs.1 hk'
          exact hd k (hcov.tags n s hs he (mem_globs.2 ⟨hk, h2⟩)) h1)
        (rev := s.ms.reverse) (ms0 := []) (by simp) i1.wf i1.cur_lt
        (fun w hw' => by
          cases List.mem_singleton.1 hw'
          refine ⟨i2.lt, ?_⟩
          rw [i3]
          exact hL.globals.sub (List.subset_append_left _ _)) i5
    have fin : ∀ L, G.uses n ⊆ L → globs (globs L ++ keysOf G s.ms) ⊆ L := by
      intro L hL k hk
      obtain ⟨h1, h2⟩ := mem_globs.1 hk
      rcases List.mem_append.1 h1 with h1 | h1
      · exact globs_sub _ h1
      · exact hL (hcov.uses n s hs he (mem_globs.2 ⟨h1, h2⟩))
    refine ⟨A.inv.wf, A.inv.cur_lt, A.maps_le, fun v hv => (A.vec v hv).2.lt, ?_, ?_, ?_, ?_⟩
    · intro a ha L _ hk
      rw [env_eq (A.maps a ha)]; exact hk
    · intro L hL hk v hv
      obtain ⟨q1, q2, _, _, q5, _⟩ := run L hk
      rw [(i6 q1 q2 fun v hv => (q5 v hv).1).2.1 v hv]
      exact ((q5 v hv).2.globals).sub (fin L hL)
    · intro L hL hk
      obtain ⟨q1, q2, _, _, q5, _, _, q8⟩ := run L hk
      rw [(i6 q1 q2 fun v hv => (q5 v hv).1).2.2]
      refine (Keys.globals (q8 _ (fun _ h => h) ?_)).sub (fin L hL)
      rw [i7, i8]
      exact hk.globals.sub (List.subset_append_left _ _)
    · intro L hd hk
      obtain ⟨_, _, _, _, _, _, q7, _⟩ := run L hk
      exact q7 hd (by simp)

/-! ## Following a tag -/

theorem act_all {ι : Type} [Nonempty ι] {one : Prop} {Q : ι → CEnv → Bytes → CEnv → Prop} {x : TM E (List Vec)}
    (h : ∀ i, Act K s N one (Q i) x) : Act K s N one (fun σ0 d σ => ∀ i, Q i σ0 d σ) x := by
  intro st vs st' hi hx
  obtain ⟨i0⟩ := ‹Nonempty ι›
  have A := h i0 st vs st' hi hx
  exact ⟨A.inv, A.frame, A.nodup, A.vec, fun hm v hv i => (h i st vs st' hi hx).sem hm v hv, A.one_len, A.one_ok⟩

theorem needs_mem {k : String} {m : Member} {post : List Member} (hk : k ∈ memberNeeds m) : ∀ {pre : List Member},
    k ∈ needs (pre ++ m :: post) ∨ k ∈ (fieldsOf pre).map (·.name) := by
  intro pre
  induction pre with
  | nil => exact .inl (List.mem_append_left _ hk)
  | cons a pre ih =>
    rcases ih with h | h
    · by_cases ha : k ∈ memberNames a
      · right
        rw [fieldsOf_cons, List.map_append]
        exact List.mem_append_left _ ha
      · left
        exact List.mem_append_right _ (List.mem_filter.2 ⟨h, by simpa using ha⟩)
    · right
      rw [fieldsOf_cons, List.map_append]
      exact List.mem_append_right _ h

/-- Names of the fields of members. -/
abbrev namesOf (ms : List Member) : List String := (fieldsOf ms).map (·.name)

/-- Where a value `x` of the tag of `u` is recorded, while it is not yet in a record. -/
structure TagAt (u : UnionMember) (ms : List Member) (σ : CEnv) (x : Int) : Prop where
  loc : u.tag.scope = "" → u.tag.name ∉ namesOf ms → u.tag.name ∈ needs ms ∧ σ "" u.tag.name = some x
  glob : u.tag.scope ≠ "" → σ u.tag.scope u.tag.name = some x

theorem TagAt.mono {u : UnionMember} {ms : List Member} {σ σ' : CEnv} {x : Int} (h : TagAt u ms σ x)
    (hs : ∀ c k x, σ c k = some x → σ' c k = some x) : TagAt u ms σ' x :=
  ⟨fun h1 h2 => ⟨(h.loc h1 h2).1, hs _ _ _ (h.loc h1 h2).2⟩, fun h1 => hs _ _ _ (h.glob h1)⟩

theorem TagAt.step {u : UnionMember} {m : Member} {ms : List Member} {σ σ' : CEnv} {x : Int} (h : TagAt u ms σ x)
    (he : Ext (needs ms) σ σ') : TagAt u (m :: ms) σ' x := by
  refine ⟨fun h1 h2 => ?_, fun h1 => he.glob _ _ _ h1 (h.glob h1)⟩
  rw [namesOf, fieldsOf_cons, List.map_append, List.mem_append, not_or] at h2
  obtain ⟨k1, k2⟩ := h.loc h1 h2.2
  exact ⟨List.mem_append_right _ (List.mem_filter.2 ⟨k1, by
    have : u.tag.name ∉ memberNames m := h2.1
    simpa using this⟩), he.loc _ k1 _ k2⟩

/-- A record has the value `x` of the tag of `u`, if this is one of the fields `ms`. -/
def TagIn (u : UnionMember) (ms : List Member) (x : Int) (q : String → Val) : Prop :=
  u.tag.scope = "" → u.tag.name ∈ namesOf ms → q u.tag.name = .num (asField x)

theorem TagIn.step {u : UnionMember} {m : Member} {ms : List Member} (hn : (namesOf (m :: ms)).Nodup) {σ0 : CEnv} {x : Int}
    (ha : TagAt u ms σ0 x) {q1 q2 : String → Val} (hq1 : ∀ k ∈ memberNames m, k ∈ needs ms ++ [] → ∀ x,
      σ0 "" k = some x → q1 k = .num (asField x)) (hq2 : TagIn u ms x q2) :
    TagIn u (m :: ms) x (fun k => if k ∈ memberNames m then q1 k else q2 k) := by
  intro hs hk
  by_cases hm : u.tag.name ∈ memberNames m
  · simp only [hm, if_true]
    have hms : u.tag.name ∉ namesOf ms := by
      intro h'
      rw [namesOf, fieldsOf_cons, List.map_append, List.nodup_append] at hn
      exact hn.2.2 _ hm _ h' rfl
    obtain ⟨k1, k2⟩ := ha.loc hs hms
    exact hq1 _ hm (List.mem_append_left _ k1) x k2
  · simp only [hm, if_false]
    refine hq2 hs ?_
    rw [namesOf, fieldsOf_cons, List.map_append, List.mem_append] at hk
    exact hk.resolve_left hm

/-- The tag of a union is recorded for the members before, and not one of the fields after. -/
theorem TagAt.new {pre post : List Member} {u : UnionMember} (hmet : needs (pre ++ .union u :: post) = [])
    (hnames : (namesOf (pre ++ .union u :: post)).Nodup) {σ : CEnv} {x : Int} (h : σ u.tag.scope u.tag.name = some x) :
    TagAt u (.union u :: post) σ x ∧ ∀ q, TagIn u (.union u :: post) x q := by
  have htag : u.tag.scope = "" → u.tag.name ∈ memberNeeds (.union u) := fun hs => by simp [memberNeeds, refNames, hs]
  refine ⟨⟨fun hs _ => ⟨List.mem_append_left _ (htag hs), by rw [← hs]; exact h⟩, fun _ => h⟩, fun q hs hin => ?_⟩
  rcases needs_mem (pre := pre) (post := post) (htag hs) with h' | h'
  · rw [hmet] at h'; cases h'
  · simp only [namesOf, fieldsOf, List.flatMap_append, List.map_append] at hnames
    rw [List.nodup_append] at hnames
    exact (hnames.2.2 _ h' _ hin rfl).elim

/-- The record, or the context, has the value of the tag. -/
theorem TagAt.refVal {Γ : Fmt} {ctx : Ctx} {u : UnionMember} {ms : List Member} {σ : CEnv} {x : Int} {q : String → Val}
    (h : TagAt u ms σ x) (hq : TagIn u ms x q) (hmet : needs ms = []) (hsat : Sat Γ ctx σ)
    (hnm : ((fieldsOf ms).map (fun f => Γ.nm f.name)).Nodup) :
    refVal Γ ctx ((fieldsOf ms).map fun f => (Γ.nm f.name, q f.name)) u.tag = some (asField x) := by
  unfold Wire.refVal
  by_cases hs : u.tag.scope = ""
  · have hin : u.tag.name ∈ namesOf ms := by
      by_contra hno
      have := (h.loc hs hno).1
      rw [hmet] at this
      cases this
    obtain ⟨f, hf, hfn⟩ := List.mem_map.1 hin
    have hfn' : f.name = u.tag.name := hfn
    have := getF_map (q := fun f => q f.name) hnm f hf
    rw [if_pos hs, ← hfn', this, hfn', hq hs hin]
  · rw [if_neg hs, hsat _ _ _ hs (h.glob hs)]

/-- What holds of a vector whose tag is in case `c`. -/
def TagR (Γ : Fmt) (A B : Nat) (C : String → Prop) (fuel : Nat) (s : Struct) (σi : CEnv) (u : UnionMember) (c : UnionCase)
    (ms : List Member) (σ : CEnv) (d : Bytes) : Prop :=
  d.length < B → ∃ x, selectCase Γ.K u.cases (asField x) = some c ∧ MapOK Γ.K s σ ∧ Ext [] σi σ ∧ TagAt u ms σ x ∧
    ∀ i : { ctx // CtxOK Γ ctx }, MembersGoodT (parOf Γ A B C i.1 fuel) (TagIn u ms x) ms d σ

theorem TagR.mono {Γ : Fmt} {A B : Nat} {C : String → Prop} {fuel : Nat} {σi : CEnv} {u : UnionMember} {c : UnionCase}
    {ms : List Member} : Mono Γ.K s (TagR Γ A B C fuel s σi u c ms) := by
  intro σ σ' d g h hd
  obtain ⟨x, h1, h2, h3, h4, h5⟩ := h hd
  exact ⟨x, h1, h2.grow g, h3.grow g, h4.mono g.sub, fun i => (h5 i).mono g.sub⟩

theorem TagR.step {Γ : Fmt} {A B : Nat} {C : String → Prop} {fuel : Nat} {σi : CEnv} {u : UnionMember} {c : UnionCase}
    {m : Member} {ms : List Member} (i0 : { ctx // CtxOK Γ ctx }) (hn : (namesOf (m :: ms)).Nodup)
    (hc : ms ≠ [] → MemberClosed C m)
    {σ0 σ : CEnv} {d1 d2 : Bytes} (h0 : TagR Γ A B C fuel s σi u c ms σ0 d2)
    (h1 : MapOK Γ.K s σ0 → ∀ i : { ctx // CtxOK Γ ctx }, MemberQ (parOf Γ A B C i.1 fuel) s (needs ms) m σ0 d1 σ) :
    TagR Γ A B C fuel s σi u c (m :: ms) σ (d1 ++ d2) := by
  intro hd
  simp only [List.length_append] at hd
  obtain ⟨x, a1, a2, a3, a4, a5⟩ := h0 (by omega)
  obtain ⟨b1, b2, _⟩ := h1 a2 i0 (by show d1.length < B; omega)
  refine ⟨x, a1, b1, a3.trans (b2.sub (by simp)), a4.step b2, fun i => ?_⟩
  obtain ⟨_, c2, c3⟩ := h1 a2 i (by show d1.length < B; omega)
  exact MembersGoodT.step (p := []) hn hc (a5 i) (by rw [List.append_nil]; exact c2) (by rw [List.append_nil]; exact c3)
    fun q1 q2 hq1 hq2 => TagIn.step hn a4 hq1 hq2

theorem structure_cover (hkeep : Keeps E) {Γ : Fmt} {B A : Nat} {C : String → Prop} {ctx0 : Ctx}
    (h0 : Base0 Γ B A C O ctx0 r) (hcov : FmtCov Γ G) {fuel : Nat} {n : String} (hs : Γ.structs n = some s)
    (he : s.extern = false) {u : UnionMember} (hu : .union u ∈ s.ms) {c : UnionCase} (hgood : CaseGood Γ.K u c)
    {st st' : St E} {vs : List Vec} (hw : st.WF) (hc : st.cur < st.maps.length) (hr : Range (st.env st.cur))
    {L : List Key} (hL : Keys L (st.env st.cur)) (hd : Disj (G.tags n) L) (h : structure_ r fuel s st = .ok (vs, st')) :
    ∃ v ∈ vs, (st'.read v.data).length < B → ∀ ctx, CtxOK Γ ctx → Sat Γ ctx (st'.env v.cst) → ∃ fs x,
      Fits A (.obj (Γ.nm n) fs) ∧ EncStruct Γ ctx fuel n (.obj (Γ.nm n) fs) (st'.read v.data) [] ∧
      refVal Γ ctx fs u.tag = some x ∧ selectCase Γ.K u.cases x = some c := by
  cases fuel with
  | zero => cases h
  | succ fuel =>
    have hsg := h0.gen.structs n s hs he
    have hbase : ∀ i : { ctx // CtxOK Γ ctx }, Base0 Γ B A C O i.1 r := fun i => { h0 with ctx := i.2 }
    have i0 : { ctx // CtxOK Γ ctx } := ⟨ctx0, h0.ctx⟩
    have : Nonempty { ctx // CtxOK Γ ctx } := ⟨i0⟩
    have H0 := h0.hyp hs he fuel
    have hnames : (namesOf s.ms).Nodup := H0.nodup
    have hSK := structure_keys hkeep h0 hcov fuel
    have hSA := structure_act hkeep.selects h0 fuel
    obtain ⟨st3, st5, v, i1, i2, i3, i4, i5, _, _, i6⟩ := structure_run hw hsg.nonempty h
    have hms : MembersCov G Γ.K (globs L) s.ms := (hcov.members n s hs he).extend fun k hk hk' => by
      obtain ⟨h1, h2⟩ := mem_globs.1 hk'
      exact hd k (hcov.tags n s hs he (mem_globs.2 ⟨hk, h2⟩)) h1
    have hm3 : MapOK Γ.K s (globals (st.env st.cur)) := (globals_free _).mapOK (globals_range hr)
    have hact : ∀ pre m post, pre ++ m :: post = s.ms → (post ≠ [] → MemberClosed C m) ∧
        MemberGen Γ B s C O (needs post) m ∧ m ∈ s.ms ∧ (namesOf (m :: post)).Nodup ∧
        MembersCov G Γ.K (globs L) (m :: post) ∧
        Act Γ.K s st.maps.length False (fun σ0 d σ => ∀ i : { ctx // CtxOK Γ ctx },
          MemberQ (parOf Γ A B C i.1 fuel) s (needs post) m σ0 d σ) (genMember r (structure_ (E := E) r fuel) s m) := by
      intro pre m post e
      obtain ⟨g1, g2⟩ := MembersGen.split (pre := pre) (m := m) (post := post) (by rw [e]; exact hsg.members)
      have hm : m ∈ s.ms := by rw [← e]; simp
      refine ⟨g1, g2, hm, ?_, MembersCov.split (pre := pre) (by rw [e]; exact hms), act_all fun i => ?_⟩
      · refine hnames.sublist (List.Sublist.map _ ?_)
        rw [← e]
        simp only [fieldsOf, List.flatMap_append]
        exact List.sublist_append_right _ _
      · exact (genMember_act hkeep.selects ((hbase i).hyp hs he fuel) (structure_act hkeep.selects (hbase i) fuel)
          h0.gen.contexts hm g2).mono (fun h => h.elim) (fun _ _ _ _ h => h)
    obtain ⟨w, hwv, hR⟩ := membersLoop_ex (K := Γ.K) (s := s) (N := st.maps.length) hkeep (refs := fun ms => globs L ++ keysOf G ms)
      (R := fun ms σ d => (∀ i : { ctx // CtxOK Γ ctx },
          MembersR (parOf Γ A B C i.1 fuel) s [] (globals (st.env st.cur)) ms σ d) ∧
        (.union u ∈ ms → TagR Γ A B C fuel s (globals (st.env st.cur)) u c ms σ d))
      (fun ms σ σ' d g h => ⟨fun i => MembersR.mono _ _ _ g (h.1 i), fun hm => TagR.mono _ _ _ g (h.2 hm)⟩) (all := s.ms)
      (f := genMember r (structure_ (E := E) r fuel) s)
      (fun pre m post e => by
        obtain ⟨g1, g2, hm, hnd, hmc, hA⟩ := hact pre m post e
        have k1 := genMember_keys hkeep H0 hSA hSK h0.gen.contexts hm g2
        obtain ⟨k4, k6⟩ := keysOf_cons (G := G) (globs L) m post
        have k2 : memberOwn m ⊆ memberOwn m ++ (globs L ++ keysOf G post) := List.subset_append_left _ _
        have k3 : globs L ++ keysOf G post ⊆ memberOwn m ++ (globs L ++ keysOf G post) := List.subset_append_right _ _
        have hstep : ∀ {σ0 d2 d1 σ}, (∀ i : { ctx // CtxOK Γ ctx },
            MembersR (parOf Γ A B C i.1 fuel) s [] (globals (st.env st.cur)) post σ0 d2) →
            (MapOK Γ.K s σ0 → ∀ i : { ctx // CtxOK Γ ctx }, MemberQ (parOf Γ A B C i.1 fuel) s (needs post) m σ0 d1 σ) →
            ∀ i : { ctx // CtxOK Γ ctx },
            MembersR (parOf Γ A B C i.1 fuel) s [] (globals (st.env st.cur)) (m :: post) σ (d1 ++ d2) :=
          fun hR hQ i => MembersR.step hnd g1 (hR i) (by rw [List.append_nil]; exact fun h => hQ h i)
        by_cases hfirst : m = .union u ∧ .union u ∉ post
        · obtain ⟨rfl, hnp⟩ := hfirst
          refine ⟨_, TagX Γ.K B s u c, _, _, _, _, hA, k1, k2, k3, k4, k6, ?_, ?_⟩
          · intro st vs st' hi hk h
            exact (genUnion_cover hkeep H0 hSA hSK h0.gen.contexts hm g2 hi h).2.2 _ hmc.1 hk c hgood
          · intro σ0 d2 d1 σ hR hQ hX
            have hS := hstep hR.1 hQ
            refine ⟨hS, fun _ hd => ?_⟩
            have hd' := hd
            simp only [List.length_append] at hd'
            obtain ⟨m0, _, _⟩ := hR.1 i0 (by show d2.length < B; omega)
            obtain ⟨y, y1, y2⟩ := hX m0 (by omega)
            obtain ⟨s1, s2, _⟩ := hS i0 hd
            obtain ⟨n1, n2⟩ := TagAt.new (pre := pre) (by rw [e]; exact hsg.met) (by rw [e]; exact hnames) y1
            refine ⟨y, y2, s1, s2, n1, fun i => ?_⟩
            obtain ⟨_, _, s3⟩ := hS i hd
            exact s3.withT n2
        · have hpost : .union u ∈ m :: post → .union u ∈ post := by
            intro hin
            by_contra hnp
            rcases List.mem_cons.1 hin with rfl | hin
            · exact hfirst ⟨rfl, hnp⟩
            · exact hnp hin
          refine ⟨_, fun _ _ _ => True, _, _, _, _, hA, k1, k2, k3, k4, k6, ?_, ?_⟩
          · intro st vs st' hi hk h
            obtain ⟨w, hw'⟩ := List.exists_mem_of_ne_nil _ ((k1 st vs st' hi.wf hi.cur_lt h).ne _ hmc.head hk)
            exact ⟨w, hw', trivial⟩
          · intro σ0 d2 d1 σ hR hQ _
            exact ⟨hstep hR.1 hQ, fun hin => TagR.step i0 hnd g1 (hR.2 (hpost hin)) hQ⟩)
      (rev := s.ms.reverse) (ms0 := []) (v0 := v) (by simp) i1
      (fun w hw' => by
        cases List.mem_singleton.1 hw'
        refine ⟨i2, ?_⟩
        rw [i3]; exact hL.globals.sub (List.subset_append_left _ _)) List.mem_cons_self
      ⟨fun i _ => by
        rw [i3, i4]
        refine ⟨hm3, .of_sub fun _ _ _ h => h, ?_⟩
        intro _ tail _ D
        exact ⟨fun _ => .nil, by simp [fieldsOf], fun o _ _ => rfl⟩, by simp⟩ i5
    have hend : st5.WF ∧ st5.cur < st5.maps.length ∧ ∀ v ∈ vs, v.cst < st5.maps.length := by
      obtain ⟨q1, q2, q3, q4, _, _⟩ := membersLoop_ok (K := Γ.K) (s := s) (N := st.maps.length) hkeep.selects (one := False)
        (f := genMember (E := E) r (structure_ r fuel) s) (R := fun _ _ _ => True) (fun _ _ _ _ _ h => h) (all := s.ms)
        (fun pre m post e => ⟨_, (hact pre m post e).2.2.2.2.2, fun _ _ _ _ _ _ => trivial⟩) (M := 0)
        (rev := s.ms.reverse) (ms0 := []) (by simp) i1 (Nat.zero_le _) (by simp [arrsOf])
        (fun w hw' => by cases List.mem_singleton.1 hw'; exact ⟨Nat.zero_le _, i2, trivial⟩) i5
      exact ⟨q1.wf, q1.cur_lt, fun v hv => (q4 v hv).2.1.lt⟩
    obtain ⟨e1, e2, _⟩ := i6 hend.1 hend.2.1 hend.2.2
    refine ⟨w, hwv, fun hd ctx hctx hsat => ?_⟩
    rw [e1] at hd ⊢
    rw [e2 w hwv] at hsat
    obtain ⟨x, t1, t2, t3, t4, t5⟩ := hR.2 hu hd
    have hsat' : Sat Γ ctx (st5.env w.cst) := fun c k x hc hx => hsat c k x hc (by rw [globals_of hc]; exact hx)
    obtain ⟨q, f1, hq, f2⟩ := t5 ⟨ctx, hctx⟩ hsat' [] (fun h => (h rfl).elim) (st5.read w.data ++ []).length
    have hnm : ((fieldsOf s.ms).map (fun f => Γ.nm f.name)).Nodup := (h0.fmt.structs n s hs he).fields
    refine ⟨(fieldsOf s.ms).map fun f => (Γ.nm f.name, q f.name), asField x, ?_, ⟨s, hs, ?_⟩, ?_, t1⟩
    · simp only [Fits]; exact fitsF_map f1
    · rw [if_neg (by simp [he])]
      rw [List.append_nil] at f2
      refine ⟨_, rfl, ?_, f2 _ ?_ ?_⟩
      · simp [HasFields]
      · exact fun f hf => getF_map (q := fun f => q f.name) hnm f hf
      · intro k hk
        rw [hsg.met] at hk
        cases hk
    · exact t4.refVal hq hsg.met hsat' hnm

/-! ## Files -/

/-- There are context values. -/
theorem ctxOK_zero (Γ : Fmt) : ∃ ctx, CtxOK Γ ctx := by
  refine ⟨fun c => match Γ.contexts c with
    | some D => D.members.map fun f => (Γ.nm f.name, Val.num 0)
    | none => [], ?_⟩
  intro c D hD f hf hi
  refine ⟨0, ?_, ?_⟩
  · simp only [hD]
    have : ∀ {fs : List Field}, f ∈ fs → getF (fs.map fun f => (Γ.nm f.name, Val.num 0)) (Γ.nm f.name) = some (.num 0) := by
      intro fs
      induction fs with
      | nil => intro h; simp at h
      | cons g fs ih =>
        intro h
        simp only [getF, List.map_cons, List.lookup]
        by_cases e : Γ.nm f.name = Γ.nm g.name
        · simp [e]
        · have hne : (Γ.nm f.name == Γ.nm g.name) = false := by simpa using e
          rw [hne]
          rcases List.mem_cons.1 h with rfl | h
          · exact (e rfl).elim
          · exact ih h
    exact this hf
  · cases ht : f.type with
    | base b =>
      cases b with
      | int t => refine ⟨Int.le_refl _, ?_⟩; exact Int.pow_pos (by decide)
      | char => exact ⟨Int.le_refl _, by decide⟩
      | struct n => rw [ht] at hi; exact hi.elim
    | ptr => exact ⟨Int.le_refl _, by decide⟩
    | nulterm => rw [ht] at hi; exact hi.elim
    | fixedArray b n => rw [ht] at hi; exact hi.elim
    | varArray b n => rw [ht] at hi; exact hi.elim

/-- What a vector showing case `c` of union `u` is. -/
def CoverQ (Γ : Fmt) (B A : Nat) (n : String) (u : UnionMember) (c : UnionCase) (d : Bytes) (σ : CEnv) : Prop :=
  d.length < B → ∀ ctx, CtxOK Γ ctx → Sat Γ ctx σ → ∃ fs x, Fits A (.obj (Γ.nm n) fs) ∧
    Enc Γ ctx n (.obj (Γ.nm n) fs) d [] ∧ refVal Γ ctx fs u.tag = some x ∧ selectCase Γ.K u.cases x = some c

theorem suites_cover (hkeep : Keeps E) {Γ : Fmt} {B A : Nat} {C : String → Prop} {ctx : Ctx}
    (h0 : Base0 Γ B A C O ctx r) (hcov : FmtCov Γ G) {fuel : Nat} : ∀ {ss : List Struct} {st st' : St E}
    {out : List SuiteRef}, (∀ s ∈ ss, s.extern = false → Γ.structs s.name = some s) → st.WF →
    suites r fuel ss st = .ok (out, st') → ∀ o ∈ out, ∃ s ∈ ss, s.extern = false ∧ s.name = o.type ∧
      ∀ u, .union u ∈ s.ms → ∀ c, CaseGood Γ.K u c → ∃ v ∈ o.vectors,
        CoverQ Γ B A o.type u c (st'.read v.data) (st'.env v.cst) := by
  intro ss
  induction ss with
  | nil =>
    intro st st' out _ hw h
    obtain ⟨rfl, rfl⟩ := pure_ok h
    simp
  | cons s ss ih =>
    intro st st' out hss hw h
    have hss' : ∀ s ∈ ss, s.extern = false → Γ.structs s.name = some s := fun s hs => hss s (List.mem_cons_of_mem _ hs)
    simp only [suites] at h
    cases he : s.extern with
    | true =>
      rw [if_pos he] at h
      intro o ho
      obtain ⟨t, ht, rest⟩ := ih hss' hw h o ho
      exact ⟨t, List.mem_cons_of_mem _ ht, rest⟩
    | false =>
      rw [if_neg (by simp [he])] at h
      obtain ⟨c, st1, h1, ha⟩ := bind_ok h
      clear h
      obtain ⟨⟨⟩, st2, h2, hb⟩ := bind_ok ha
      clear ha
      simp only [setCur, Out.ok.injEq, Prod.mk.injEq, true_and] at h2
      obtain ⟨vs, st3, h3, hc⟩ := bind_ok hb
      clear hb
      obtain ⟨rest, st4, h4, hd⟩ := bind_ok hc
      clear hc
      obtain ⟨rfl, rfl⟩ := pure_ok hd
      have hnew := newAt_of (st := st) (st1 := st) hw Cst.wf_empty rfl rfl rfl h1
      have hcl : c < st1.maps.length := by rw [hnew.len, hnew.ref]; omega
      subst h2
      have hfree : Range (({ st1 with cur := c } : St E).env c) := by
        have : ({ st1 with cur := c } : St E).env c = Cst.empty.lookup := hnew.env
        rw [this]
        intro c k x _ hx
        rw [Cst.lookup_empty] at hx; cases hx
      have hempty : Keys [] (({ st1 with cur := c } : St E).env c) := by
        have : ({ st1 with cur := c } : St E).env c = Cst.empty.lookup := hnew.env
        rw [this]
        intro c k x hx
        rw [Cst.lookup_empty] at hx; cases hx
      have hs0 := hss s List.mem_cons_self he
      have A3 := structure_act hkeep.selects h0 fuel s.name s hs0 he { st1 with cur := c } vs st3 hnew.wf hcl h3
      obtain ⟨_, _, _, q4, q5, _⟩ := suites_ok hkeep.selects h0 hss' A3.inv.wf h4
      intro o ho
      rcases List.mem_cons.1 ho with rfl | ho
      · refine ⟨s, List.mem_cons_self, he, rfl, fun u hu cs hgood => ?_⟩
        obtain ⟨v, hv, hq⟩ := structure_cover hkeep h0 hcov hs0 he hu hgood
          (st := { st1 with cur := c }) hnew.wf hcl hfree hempty (by simp [Disj]) h3
        obtain ⟨_, hl⟩ := A3.vec v hv
        refine ⟨v, hv, ?_⟩
        rw [read_eq (q4 _ hl.data.1), env_eq (q5 _ hl.lt)]
        intro hd ctx' hctx hsat
        obtain ⟨fs, x, e1, e2, e3⟩ := hq hd ctx' hctx hsat
        exact ⟨fs, x, e1, ⟨fuel, e2⟩, e3⟩
      · obtain ⟨t, ht, rest⟩ := ih hss' A3.inv.wf h4 o ho
        exact ⟨t, List.mem_cons_of_mem _ ht, rest⟩

/-- Every case that can be selected, other than those that always fail, is shown by a vector. -/
theorem generateFiles_cover (hkeep : Keeps E) {nm : String → String} {ext : Go.Ext} {fs : List File} {fuel : Nat}
    {seed : E.R.σ} {corpus : Corpus} (h : generateFiles E fuel seed fs = .ok corpus) (hok : FilesOK nm ext fs)
    {B A : Nat} {C O : String → Prop} (hg : FmtGen (fmtOf nm ext fs) B C O) (hcov : FmtCov (fmtOf nm ext fs) G)
    (hA : 2 ^ 32 ≤ A + 1) : ∀ t ∈ corpus, ∃ s, (fmtOf nm ext fs).structs t.type = some s ∧ s.extern = false ∧
      ∀ u, .union u ∈ s.ms → ∀ c, CaseGood (fmtOf nm ext fs).K u c → ∃ v ∈ t.vectors, v.data.length < B →
        ∀ ctx, CtxOK (fmtOf nm ext fs) ctx → Meets (fmtOf nm ext fs) ctx v.cst → ∃ rec x,
          Fits A (.obj (nm t.type) rec) ∧ Enc (fmtOf nm ext fs) ctx t.type (.obj (nm t.type) rec) v.data [] ∧
          refVal (fmtOf nm ext fs) ctx rec u.tag = some x ∧ selectCase (fmtOf nm ext fs).K u.cases x = some c := by
  obtain ⟨ctx, hctx⟩ := ctxOK_zero (fmtOf nm ext fs)
  unfold generateFiles at h
  cases hr : newResolverFiles E.order fs with
  | err m => rw [hr] at h; cases h
  | panic m => rw [hr] at h; cases h
  | ok r =>
    rw [hr] at h
    simp only [] at h
    have hcomp : Props.FilesCompatible fs := by
      by_contra hc
      obtain ⟨m, hm⟩ := (Props.C11_multi_file E.order fs).2 hc
      rw [hm] at hr; cases hr
    obtain ⟨r', hr', h1, h2, h3⟩ := (Props.C11_multi_file E.order fs).1 hcomp
    rw [hr] at hr'
    cases hr'
    have h0 : Base0 (fmtOf nm ext fs) B A C O ctx r :=
      ⟨hok.fmtOK, hg, by funext n; exact h3 n, by funext n; exact h2 n, by funext n; exact h1 n, hctx, hA⟩
    cases hs : suites (E := E) r fuel (fs.flatMap (·.structs)) (St.init seed) with
    | err m => rw [hs] at h; cases h
    | panic m => rw [hs] at h; cases h
    | timeout => rw [hs] at h; cases h
    | ok p =>
      obtain ⟨ss, st⟩ := p
      rw [hs] at h
      cases h
      have hdef : ∀ s ∈ fs.flatMap (·.structs), s.extern = false → (fmtOf nm ext fs).structs s.name = some s :=
        fun s hs he => Verif.Refine.defined_struct hcomp hs he
      have q := suites_cover hkeep h0 hcov hdef (by intro c hc; simp [St.init] at hc) hs
      intro t ht
      obtain ⟨o, ho, rfl⟩ := List.mem_map.1 ht
      obtain ⟨s, hsm, he, hn, hv⟩ := q o ho
      refine ⟨s, by rw [← hn]; exact hdef s hsm he, he, fun u hu c hgood => ?_⟩
      obtain ⟨w, hw, hq⟩ := hv u hu c hgood
      exact ⟨_, List.mem_map.2 ⟨w, hw, rfl⟩, fun hB ctx' hctx' hm => hq hB ctx' hctx' hm⟩

end Verif.Tv
