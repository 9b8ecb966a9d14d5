import Verif.TvCover
/-!
# Combinations of cases

`Verif/TvCover.lean` follows one tag through the loops of the generator. Here all tags of a struct are followed at
once: whatever case is chosen for each union of a struct, some vector shows all of them together. This is what makes
the number of vectors at least the product of the numbers of cases.
-/
set_option linter.unusedVariables false
namespace Verif.Tv
open Verif Verif.Ast Verif.Inspect Verif.Intervals Verif.Go Verif.Spec Verif.Wire Verif.Props

variable {E : Env} {K : String → Option Int} {π : Par} {r : Resolver} {s : Struct} {N : Nat} {O : String → Prop}
  {G : Glob}

/-- What holds of a vector whose tags are in the cases chosen by `ch`. -/
def TagsR (Γ : Fmt) (A B : Nat) (C : String → Prop) (fuel : Nat) (s : Struct) (σi : CEnv) (ch : UnionMember → UnionCase)
    (ms : List Member) (σ : CEnv) (d : Bytes) : Prop :=
  d.length < B → ∃ x : UnionMember → _, MapOK Γ.K s σ ∧ Ext [] σi σ ∧
    (∀ u, .union u ∈ ms → selectCase Γ.K u.cases (asField (x u)) = some (ch u) ∧ TagAt u ms σ (x u)) ∧
    ∀ i : { ctx // CtxOK Γ ctx }, MembersGoodT (parOf Γ A B C i.1 fuel)
      (fun q => ∀ u, .union u ∈ ms → TagIn u ms (x u) q) ms d σ

theorem TagsR.mono {Γ : Fmt} {A B : Nat} {C : String → Prop} {fuel : Nat} {σi : CEnv} {ch : UnionMember → UnionCase}
    {ms : List Member} : Mono Γ.K s (TagsR Γ A B C fuel s σi ch ms) := by
  intro σ σ' d g h hd
  obtain ⟨x, h2, h3, h4, h5⟩ := h hd
  exact ⟨x, h2.grow g, h3.grow g,
    fun u hu => ⟨(h4 u hu).1, (h4 u hu).2.mono g.sub⟩, fun i => (h5 i).mono g.sub⟩

theorem TagsR.step {Γ : Fmt} {A B : Nat} {C : String → Prop} {fuel : Nat} {σi : CEnv} {ch : UnionMember → UnionCase}
    {m : Member} {ms : List Member} (i0 : { ctx // CtxOK Γ ctx }) (hn : (namesOf (m :: ms)).Nodup)
    (hc : ms ≠ [] → MemberClosed C m)
    {σ0 σ : CEnv} {d1 d2 : Bytes} (h0 : TagsR Γ A B C fuel s σi ch ms σ0 d2)
    (h1 : MapOK Γ.K s σ0 → ∀ i : { ctx // CtxOK Γ ctx }, MemberQ (parOf Γ A B C i.1 fuel) s (needs ms) m σ0 d1 σ)
    (hu : ∀ u x, m = .union u → σ u.tag.scope u.tag.name = some x → TagAt u (m :: ms) σ x ∧ ∀ q, TagIn u (m :: ms) x q)
    (h2 : ∀ u, m = .union u → TagX Γ.K B s u (ch u) σ0 d1 σ) :
    TagsR Γ A B C fuel s σi ch (m :: ms) σ (d1 ++ d2) := by
  classical
  intro hd
  simp only [List.length_append] at hd
  obtain ⟨x, a2, a3, a4, a5⟩ := h0 (by omega)
  obtain ⟨b1, b2, _⟩ := h1 a2 i0 (by show d1.length < B; omega)
  obtain ⟨y, hy⟩ : ∃ y, ∀ u, m = .union u → σ u.tag.scope u.tag.name = some y ∧
      selectCase Γ.K u.cases (asField y) = some (ch u) := by
    cases m with
    | leaf l => exact ⟨0, fun u h => by cases h⟩
    | union u0 =>
      obtain ⟨y, h⟩ := h2 u0 rfl a2 (by omega)
      exact ⟨y, fun u e => by cases e; exact h⟩
  have hin : ∀ u, Member.union u ∈ m :: ms → m ≠ .union u → .union u ∈ ms := fun u h hne =>
    (List.mem_cons.1 h).resolve_left fun e => hne e.symm
  refine ⟨fun u => if m = .union u then y else x u, b1, a3.trans (b2.sub (by simp)), ?_, fun i => ?_⟩
  · intro u hum
    by_cases e : m = .union u
    · simp only [e, if_true]
      have := (hu u y e (hy u e).1).1
      rw [e] at this
      exact ⟨(hy u e).2, this⟩
    · simp only [e, if_false]
      obtain ⟨p1, p2⟩ := a4 u (hin u hum e)
      exact ⟨p1, p2.step b2⟩
  · obtain ⟨_, c2, c3⟩ := h1 a2 i (by show d1.length < B; omega)
    refine MembersGoodT.step (p := []) hn hc (a5 i) (by rw [List.append_nil]; exact c2) (by rw [List.append_nil]; exact c3) ?_
    intro q1 q2 hq1 hq2 u hum
    by_cases e : m = .union u
    · simp only [e, if_true]
      have := (hu u y e (hy u e).1).2
      rw [e] at this
      exact this _
    · simp only [e, if_false]
      have hum' := hin u hum e
      exact TagIn.step hn (a4 u hum').2 hq1 (hq2 u hum')

/-- Some vector shows, of each union of the struct, the case chosen. -/
theorem structure_combos (hkeep : Keeps E) {Γ : Fmt} {B A : Nat} {C : String → Prop} {ctx0 : Ctx}
    (h0 : Base0 Γ B A C O ctx0 r) (hcov : FmtCov Γ G) {fuel : Nat} {n : String} (hs : Γ.structs n = some s)
    (he : s.extern = false) {ch : UnionMember → UnionCase} (hgood : ∀ u, .union u ∈ s.ms → CaseGood Γ.K u (ch u))
    {st st' : St E} {vs : List Vec} (hw : st.WF) (hc : st.cur < st.maps.length) (hr : Range (st.env st.cur))
    {L : List Key} (hL : Keys L (st.env st.cur)) (hd : Disj (G.tags n) L) (h : structure_ r fuel s st = .ok (vs, st')) :
    ∃ v ∈ vs, (st'.read v.data).length < B → ∀ ctx, CtxOK Γ ctx → Sat Γ ctx (st'.env v.cst) → ∃ fs,
      Fits A (.obj (Γ.nm n) fs) ∧ EncStruct Γ ctx fuel n (.obj (Γ.nm n) fs) (st'.read v.data) [] ∧
      ∀ u, .union u ∈ s.ms → ∃ x, refVal Γ ctx fs u.tag = some x ∧
        selectCase Γ.K u.cases x = some (ch u) := by
  cases fuel with
  | zero => cases h
  | succ fuel =>
    have hsg := h0.gen.structs n s hs he
    have hbase : ∀ i : { ctx // CtxOK Γ ctx }, Base0 Γ B A C O i.1 r := fun i => { h0 with ctx := i.2 }
    have i0 : { ctx // CtxOK Γ ctx } := ⟨ctx0, h0.ctx⟩
    have : Nonempty { ctx // CtxOK Γ ctx } := ⟨i0⟩
    have H0 := h0.hyp hs he fuel
    have hnames : (namesOf s.ms).Nodup := H0.nodup
    have hSK := structure_keys hkeep h0 hcov fuel
    have hSA := structure_act hkeep.selects h0 fuel
    obtain ⟨st3, st5, v, i1, i2, i3, i4, i5, _, _, i6⟩ := structure_run hw hsg.nonempty h
    have hms : MembersCov G Γ.K (globs L) s.ms := (hcov.members n s hs he).extend fun k hk hk' => by
      obtain ⟨h1, h2⟩ := mem_globs.1 hk'
      exact hd k (hcov.tags n s hs he (mem_globs.2 ⟨hk, h2⟩)) h1
    have hm3 : MapOK Γ.K s (globals (st.env st.cur)) := (globals_free _).mapOK (globals_range hr)
    have hact : ∀ pre m post, pre ++ m :: post = s.ms → (post ≠ [] → MemberClosed C m) ∧
        MemberGen Γ B s C O (needs post) m ∧ m ∈ s.ms ∧ (namesOf (m :: post)).Nodup ∧
        MembersCov G Γ.K (globs L) (m :: post) ∧
        Act Γ.K s st.maps.length False (fun σ0 d σ => ∀ i : { ctx // CtxOK Γ ctx },
          MemberQ (parOf Γ A B C i.1 fuel) s (needs post) m σ0 d σ) (genMember r (structure_ (E := E) r fuel) s m) := by
      intro pre m post e
      obtain ⟨g1, g2⟩ := MembersGen.split (pre := pre) (m := m) (post := post) (by rw [e]; exact hsg.members)
      have hm : m ∈ s.ms := by rw [← e]; simp
      refine ⟨g1, g2, hm, ?_, MembersCov.split (pre := pre) (by rw [e]; exact hms), act_all fun i => ?_⟩
      · refine hnames.sublist (List.Sublist.map _ ?_)
        rw [← e]
        simp only [fieldsOf, List.flatMap_append]
        exact List.sublist_append_right _ _
      · exact (genMember_act hkeep.selects ((hbase i).hyp hs he fuel) (structure_act hkeep.selects (hbase i) fuel)
          h0.gen.contexts hm g2).mono (fun h => h.elim) (fun _ _ _ _ h => h)
    obtain ⟨w, hwv, hR⟩ := membersLoop_ex (K := Γ.K) (s := s) (N := st.maps.length) hkeep (refs := fun ms => globs L ++ keysOf G ms)
      (R := TagsR Γ A B C fuel s (globals (st.env st.cur)) ch)
      (fun ms σ σ' d g h => TagsR.mono _ _ _ g h) (all := s.ms)
      (f := genMember r (structure_ (E := E) r fuel) s)
      (fun pre m post e => by
        obtain ⟨g1, g2, hm, hnd, hmc, hA⟩ := hact pre m post e
        have k1 := genMember_keys hkeep H0 hSA hSK h0.gen.contexts hm g2
        obtain ⟨k4, k6⟩ := keysOf_cons (G := G) (globs L) m post
        have k2 : memberOwn m ⊆ memberOwn m ++ (globs L ++ keysOf G post) := List.subset_append_left _ _
        have k3 : globs L ++ keysOf G post ⊆ memberOwn m ++ (globs L ++ keysOf G post) := List.subset_append_right _ _
        refine ⟨_, fun σ0 d σ => ∀ u, m = .union u → TagX Γ.K B s u (ch u) σ0 d σ, _, _, _, _, hA, k1, k2, k3, k4, k6, ?_, ?_⟩
        · intro st vs st' hi hk h
          cases m with
          | leaf l =>
            obtain ⟨w, hw'⟩ := List.exists_mem_of_ne_nil _ ((k1 st vs st' hi.wf hi.cur_lt h).ne _ hmc.head hk)
            exact ⟨w, hw', fun u h => by cases h⟩
          | union u =>
            obtain ⟨w, hw', hX⟩ := (genUnion_cover hkeep H0 hSA hSK h0.gen.contexts hm g2 hi h).2.2 _ hmc.1 hk (ch u) (hgood u hm)
            exact ⟨w, hw', fun u h => by cases h; exact hX⟩
        · intro σ0 d2 d1 σ hR hQ hX
          refine TagsR.step i0 hnd g1 hR hQ (fun u x hu hx => ?_) hX
          subst hu
          exact TagAt.new (pre := pre) (by rw [e]; exact hsg.met) (by rw [e]; exact hnames) hx)
      (rev := s.ms.reverse) (ms0 := []) (v0 := v) (by simp) i1
      (fun w hw' => by
        cases List.mem_singleton.1 hw'
        refine ⟨i2, ?_⟩
        rw [i3]; exact hL.globals.sub (List.subset_append_left _ _)) List.mem_cons_self
      (fun _ => by
        rw [i3, i4]
        refine ⟨fun _ => 0, hm3, .of_sub fun _ _ _ h => h, by simp, fun i => ?_⟩
        intro _ tail _ D
        exact ⟨fun _ => .nil, by simp [fieldsOf], by simp, fun o _ _ => rfl⟩) i5
    have hend : st5.WF ∧ st5.cur < st5.maps.length ∧ ∀ v ∈ vs, v.cst < st5.maps.length := by
      obtain ⟨q1, q2, q3, q4, _, _⟩ := membersLoop_ok (K := Γ.K) (s := s) (N := st.maps.length) hkeep.selects (one := False)
        (f := genMember (E := E) r (structure_ r fuel) s) (R := fun _ _ _ => True) (fun _ _ _ _ _ h => h) (all := s.ms)
        (fun pre m post e => ⟨_, (hact pre m post e).2.2.2.2.2, fun _ _ _ _ _ _ => trivial⟩) (M := 0)
        (rev := s.ms.reverse) (ms0 := []) (by simp) i1 (Nat.zero_le _) (by simp [arrsOf])
        (fun w hw' => by cases List.mem_singleton.1 hw'; exact ⟨Nat.zero_le _, i2, trivial⟩) i5
      exact ⟨q1.wf, q1.cur_lt, fun v hv => (q4 v hv).2.1.lt⟩
    obtain ⟨e1, e2, _⟩ := i6 hend.1 hend.2.1 hend.2.2
    refine ⟨w, hwv, fun hd ctx hctx hsat => ?_⟩
    rw [e1] at hd ⊢
    rw [e2 w hwv] at hsat
    obtain ⟨x, t2, t3, t4, t5⟩ := hR hd
    have hsat' : Sat Γ ctx (st5.env w.cst) := fun c k x hc hx => hsat c k x hc (by rw [globals_of hc]; exact hx)
    obtain ⟨q, f1, hq, f2⟩ := t5 ⟨ctx, hctx⟩ hsat' [] (fun h => (h rfl).elim) (st5.read w.data ++ []).length
    have hnm : ((fieldsOf s.ms).map (fun f => Γ.nm f.name)).Nodup := (h0.fmt.structs n s hs he).fields
    refine ⟨(fieldsOf s.ms).map fun f => (Γ.nm f.name, q f.name), ?_, ⟨s, hs, ?_⟩, fun u hu => ⟨asField (x u), ?_, (t4 u hu).1⟩⟩
    · simp only [Fits]; exact fitsF_map f1
    · rw [if_neg (by simp [he])]
      rw [List.append_nil] at f2
      refine ⟨_, rfl, ?_, f2 _ ?_ ?_⟩
      · simp [HasFields]
      · exact fun f hf => getF_map (q := fun f => q f.name) hnm f hf
      · intro k hk
        rw [hsg.met] at hk
        cases hk
    · exact (t4 u hu).2.refVal (hq u hu) hsg.met hsat' hnm

/-! ## Files -/

/-- What a vector showing the cases chosen by `ch` is. -/
def CombosQ (Γ : Fmt) (B A : Nat) (s : Struct) (n : String) (ch : UnionMember → UnionCase) (d : Bytes) (σ : CEnv) : Prop :=
  d.length < B → ∀ ctx, CtxOK Γ ctx → Sat Γ ctx σ → ∃ fs, Fits A (.obj (Γ.nm n) fs) ∧
    Enc Γ ctx n (.obj (Γ.nm n) fs) d [] ∧ ∀ u, .union u ∈ s.ms → ∃ x, refVal Γ ctx fs u.tag = some x ∧
      selectCase Γ.K u.cases x = some (ch u)

theorem suites_combos (hkeep : Keeps E) {Γ : Fmt} {B A : Nat} {C : String → Prop} {ctx : Ctx}
    (h0 : Base0 Γ B A C O ctx r) (hcov : FmtCov Γ G) {fuel : Nat} : ∀ {ss : List Struct} {st st' : St E}
    {out : List SuiteRef}, (∀ s ∈ ss, s.extern = false → Γ.structs s.name = some s) → st.WF →
    suites r fuel ss st = .ok (out, st') → ∀ o ∈ out, ∃ s ∈ ss, s.extern = false ∧ s.name = o.type ∧
      ∀ ch : UnionMember → UnionCase, (∀ u, .union u ∈ s.ms → CaseGood Γ.K u (ch u)) → ∃ v ∈ o.vectors,
        CombosQ Γ B A s o.type ch (st'.read v.data) (st'.env v.cst) := by
  intro ss
  induction ss with
  | nil =>
    intro st st' out _ hw h
    obtain ⟨rfl, rfl⟩ := pure_ok h
    simp
  | cons s ss ih =>
    intro st st' out hss hw h
    have hss' : ∀ s ∈ ss, s.extern = false → Γ.structs s.name = some s := fun s hs => hss s (List.mem_cons_of_mem _ hs)
    simp only [suites] at h
    cases he : s.extern with
    | true =>
      rw [if_pos he] at h
      intro o ho
      obtain ⟨t, ht, rest⟩ := ih hss' hw h o ho
      exact ⟨t, List.mem_cons_of_mem _ ht, rest⟩
    | false =>
      rw [if_neg (by simp [he])] at h
      obtain ⟨c, st1, h1, ha⟩ := bind_ok h
      clear h
      obtain ⟨⟨⟩, st2, h2, hb⟩ := bind_ok ha
      clear ha
      simp only [setCur, Out.ok.injEq, Prod.mk.injEq, true_and] at h2
      obtain ⟨vs, st3, h3, hc⟩ := bind_ok hb
      clear hb
      obtain ⟨rest, st4, h4, hd⟩ := bind_ok hc
      clear hc
      obtain ⟨rfl, rfl⟩ := pure_ok hd
      have hnew := newAt_of (st := st) (st1 := st) hw Cst.wf_empty rfl rfl rfl h1
      have hcl : c < st1.maps.length := by rw [hnew.len, hnew.ref]; omega
      subst h2
      have hfree : Range (({ st1 with cur := c } : St E).env c) := by
        have : ({ st1 with cur := c } : St E).env c = Cst.empty.lookup := hnew.env
        rw [this]
        intro c k x _ hx
        rw [Cst.lookup_empty] at hx; cases hx
      have hempty : Keys [] (({ st1 with cur := c } : St E).env c) := by
        have : ({ st1 with cur := c } : St E).env c = Cst.empty.lookup := hnew.env
        rw [this]
        intro c k x hx
        rw [Cst.lookup_empty] at hx; cases hx
      have hs0 := hss s List.mem_cons_self he
      have A3 := structure_act hkeep.selects h0 fuel s.name s hs0 he { st1 with cur := c } vs st3 hnew.wf hcl h3
      obtain ⟨_, _, _, q4, q5, _⟩ := suites_ok hkeep.selects h0 hss' A3.inv.wf h4
      intro o ho
      rcases List.mem_cons.1 ho with rfl | ho
      · refine ⟨s, List.mem_cons_self, he, rfl, fun ch hgood => ?_⟩
        obtain ⟨v, hv, hq⟩ := structure_combos hkeep h0 hcov hs0 he hgood
          (st := { st1 with cur := c }) hnew.wf hcl hfree hempty (by simp [Disj]) h3
        obtain ⟨_, hl⟩ := A3.vec v hv
        refine ⟨v, hv, ?_⟩
        rw [read_eq (q4 _ hl.data.1), env_eq (q5 _ hl.lt)]
        intro hd ctx' hctx hsat
        obtain ⟨fs, e1, e2, e3⟩ := hq hd ctx' hctx hsat
        exact ⟨fs, e1, ⟨fuel, e2⟩, e3⟩
      · obtain ⟨t, ht, rest⟩ := ih hss' A3.inv.wf h4 o ho
        exact ⟨t, List.mem_cons_of_mem _ ht, rest⟩

/-- Every choice of a case for each union of a struct is shown by a vector. -/
theorem generateFiles_combos (hkeep : Keeps E) {nm : String → String} {ext : Go.Ext} {fs : List File} {fuel : Nat}
    {seed : E.R.σ} {corpus : Corpus} (h : generateFiles E fuel seed fs = .ok corpus) (hok : FilesOK nm ext fs)
    {B A : Nat} {C O : String → Prop} (hg : FmtGen (fmtOf nm ext fs) B C O) (hcov : FmtCov (fmtOf nm ext fs) G)
    (hA : 2 ^ 32 ≤ A + 1) : ∀ t ∈ corpus, ∃ s, (fmtOf nm ext fs).structs t.type = some s ∧ s.extern = false ∧
      ∀ ch : UnionMember → UnionCase, (∀ u, .union u ∈ s.ms → CaseGood (fmtOf nm ext fs).K u (ch u)) →
        ∃ v ∈ t.vectors, v.data.length < B →
        ∀ ctx, CtxOK (fmtOf nm ext fs) ctx → Meets (fmtOf nm ext fs) ctx v.cst → ∃ rec,
          Fits A (.obj (nm t.type) rec) ∧ Enc (fmtOf nm ext fs) ctx t.type (.obj (nm t.type) rec) v.data [] ∧
          ∀ u, .union u ∈ s.ms → ∃ x, refVal (fmtOf nm ext fs) ctx rec u.tag = some x ∧
            selectCase (fmtOf nm ext fs).K u.cases x = some (ch u) := by
  obtain ⟨ctx, hctx⟩ := ctxOK_zero (fmtOf nm ext fs)
  unfold generateFiles at h
  cases hr : newResolverFiles E.order fs with
  | err m => rw [hr] at h; cases h
  | panic m => rw [hr] at h; cases h
  | ok r =>
    rw [hr] at h
    simp only [] at h
    have hcomp : Props.FilesCompatible fs := by
      by_contra hc
      obtain ⟨m, hm⟩ := (Props.C11_multi_file E.order fs).2 hc
      rw [hm] at hr; cases hr
    obtain ⟨r', hr', h1, h2, h3⟩ := (Props.C11_multi_file E.order fs).1 hcomp
    rw [hr] at hr'
    cases hr'
    have h0 : Base0 (fmtOf nm ext fs) B A C O ctx r :=
      ⟨hok.fmtOK, hg, by funext n; exact h3 n, by funext n; exact h2 n, by funext n; exact h1 n, hctx, hA⟩
    cases hs : suites (E := E) r fuel (fs.flatMap (·.structs)) (St.init seed) with
    | err m => rw [hs] at h; cases h
    | panic m => rw [hs] at h; cases h
    | timeout => rw [hs] at h; cases h
    | ok p =>
      obtain ⟨ss, st⟩ := p
      rw [hs] at h
      cases h
      have hdef : ∀ s ∈ fs.flatMap (·.structs), s.extern = false → (fmtOf nm ext fs).structs s.name = some s :=
        fun s hs he => Verif.Refine.defined_struct hcomp hs he
      have q := suites_combos hkeep h0 hcov hdef (by intro c hc; simp [St.init] at hc) hs
      intro t ht
      obtain ⟨o, ho, rfl⟩ := List.mem_map.1 ht
      obtain ⟨s, hsm, he, hn, hv⟩ := q o ho
      refine ⟨s, by rw [← hn]; exact hdef s hsm he, he, fun ch hgood => ?_⟩
      obtain ⟨w, hw, hq⟩ := hv ch hgood
      exact ⟨_, List.mem_map.2 ⟨w, hw, rfl⟩, fun hB ctx' hctx' hm => hq hB ctx' hctx' hm⟩

end Verif.Tv
