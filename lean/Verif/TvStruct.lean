import Verif.TvUnion
import Verif.GoTypeProg
/-!
# Vectors for structs and files
-/
set_option linter.unusedVariables false
namespace Verif.Tv
open Verif Verif.Ast Verif.Inspect Verif.Intervals Verif.Go Verif.Spec Verif.Wire Verif.Props

variable {E : Env} {π : Par} {r : Resolver} {s : Struct} {N : Nat} {O : String → Prop}

/-! ## Encodings that are not empty -/

theorem encTy_consumes {Γ : Fmt} {P : SRel} {ctx : Ctx} {D : Nat} {o : Fields} (hsuf : SufP P)
    (hP : ∀ n v i r, Consumes Γ n → P n v i r → r.length < i.length) {t : Ty} (ht : TyOK Γ s t) (hc : TyConsumes Γ t)
    {v : Val} {i r : Bytes} (h : EncTy Γ P ctx D o t v i r) : r.length < i.length := by
  have base : ∀ {b : Base} {v : Val} {i r : Bytes}, BaseOK Γ s b → TyConsumes Γ (.base b) → EncBase Γ P b v i r →
      r.length < i.length := by
    intro b v i r hb hc h
    cases hc with
    | int t =>
      obtain ⟨bs, rfl, hl, _⟩ := h
      have := (sizeOK_dvd hb.1).2.2
      simp only [List.length_append]; omega
    | char => obtain ⟨b, rfl, _⟩ := h; simp
    | nested hn => exact hP _ _ _ _ hn h
  cases t with
  | base b => exact base ht hc h
  | ptr => cases hc
  | varArray b c => cases hc
  | nulterm =>
    obtain ⟨bs, _, _, rfl⟩ := h
    simp only [List.length_append, List.length_cons]; omega
  | fixedArray b k =>
    cases hc with
    | array hb hk hx =>
      obtain ⟨vs, _, hl, h⟩ := h
      rw [hk] at hl
      cases vs with
      | nil => simp only [List.length_nil, Option.some.injEq] at hl; omega
      | cons v vs =>
        obtain ⟨m, h1, h2⟩ := h
        have := base ht.1 hb h1
        have := (encList_suffix hsuf h2).length_le
        omega

theorem encMembers_consumes {Γ : Fmt} {P : SRel} {ctx : Ctx} {D : Nat} {o : Fields} (hsuf : SufP P)
    (hP : ∀ n v i r, Consumes Γ n → P n v i r → r.length < i.length) {f : Field} (ht : TyOK Γ s f.type)
    (hc : TyConsumes Γ f.type) : ∀ {ms : List Member}, .leaf (.field f) ∈ ms → ∀ {i r : Bytes},
    EncMembers Γ P ctx D o ms i r → r.length < i.length := by
  intro ms
  induction ms with
  | nil => intro h; cases h
  | cons m ms ih =>
    rintro hf i r ⟨k, h1, h2⟩
    have l1 := (encMember_suffix hsuf h1).length_le
    have l2 := (encMembers_suffix hsuf h2).length_le
    rcases List.mem_cons.1 hf with rfl | hf
    · obtain ⟨v, _, h1⟩ := h1
      have := encTy_consumes hsuf hP ht hc h1
      omega
    · have := ih hf h2
      omega

theorem encStruct_consumes {Γ : Fmt} {ctx : Ctx} (hΓ : FmtOK Γ) : ∀ d n v i r, Consumes Γ n →
    EncStruct Γ ctx d n v i r → r.length < i.length := by
  intro d
  induction d with
  | zero => intro n v i r _ h; exact h.elim
  | succ d ih =>
    rintro n v i r hc ⟨s', hs', h⟩
    cases hc with
    | struct hs he hf ht =>
      rw [hs] at hs'
      cases hs'
      rw [if_neg (by simp [he])] at h
      obtain ⟨o, _, _, h⟩ := h
      exact encMembers_consumes (encStruct_suffix d) ih ((hΓ.structs n _ hs he).members _ hf) ht hf h

/-! ## Members -/

theorem genMember_act (hsel : Selects E) (H : Hyp π r s) {S : Struct → TM E (List Vec)} (hS : StructAct π O S)
    (hcs : ∀ c D, π.Γ.contexts c = some D → ∀ f ∈ D.members, ∀ t, f.type = .base (.int t) → SizeOK t)
    {p : List String} {m : Member} (hm : m ∈ s.ms) (hg : MemberGen π.Γ π.B s π.C O p m) :
    Act π.Γ.K s N (OneMember O m) (MemberQ π s p m) (genMember (E := E) r S s m) := by
  cases m with
  | leaf l => exact genLeaf_act hsel H hS (fun f hf => List.mem_flatMap.2 ⟨_, hm, hf⟩) hg
  | union u => exact (genUnion_act hsel H hS hcs hm hg).mono id (fun _ _ _ _ h => h)

theorem MembersGen.split {Γ : Fmt} {B : Nat} {C : String → Prop} {m : Member} {post : List Member} :
    ∀ {pre : List Member}, MembersGen Γ B s C O (pre ++ m :: post) →
    (post ≠ [] → MemberClosed C m) ∧ MemberGen Γ B s C O (needs post) m := by
  intro pre
  induction pre with
  | nil => intro h; exact ⟨h.1, h.2.1⟩
  | cons a pre ih => intro h; exact ih h.2.2

theorem membersLoop_cur {α : Type} (f : α → TM E (List Vec)) (m : α) (ms : List α) (v : Vec) (st : St E) (c : Nat) :
    membersLoop f (m :: ms) [v] st = membersLoop f (m :: ms) [v] { st with cur := c } := rfl

/-! ## Clearing -/

theorem globals_free (σ : CEnv) : LocalFree (globals σ) := fun k => by simp [globals]

theorem globals_range {σ : CEnv} (h : Range σ) : Range (globals σ) := by
  intro c k x hc hx
  simp only [globals, if_neg hc] at hx
  exact h c k x hc hx

theorem globals_of {σ : CEnv} {c k : String} (hc : c ≠ "") : globals σ c k = σ c k := by simp [globals, hc]

theorem globals_idem (σ : CEnv) : globals (globals σ) = globals σ := by
  funext c k
  simp only [globals]
  split <;> rfl

theorem clearAll_ok : ∀ {vs : List Vec} {st st' : St E} {u : Unit}, st.WF → (∀ v ∈ vs, N ≤ v.cst ∧ v.cst < st.maps.length) →
    clearAll vs st = .ok (u, st') →
    st'.WF ∧ st'.cur = st.cur ∧ st'.arrs = st.arrs ∧ st'.maps.length = st.maps.length ∧
    (∀ k, k < N → st'.maps[k]? = st.maps[k]?) ∧
    (∀ k, st'.env k = st.env k ∨ st'.env k = globals (st.env k)) ∧ ∀ v ∈ vs, st'.env v.cst = globals (st.env v.cst) := by
  intro vs
  induction vs with
  | nil =>
    intro st st' u hw _ h
    obtain ⟨_, rfl⟩ := pure_ok h
    exact ⟨hw, rfl, rfl, rfl, fun _ _ => rfl, fun _ => .inl rfl, by simp⟩
  | cons v vs ih =>
    intro st st' u hw hv h
    simp only [clearAll] at h
    obtain ⟨u1, st1, h1, ha⟩ := bind_ok h
    clear h
    obtain ⟨v1, v2⟩ := hv v List.mem_cons_self
    have hset := clearLocalAt_ok hw v2 h1
    obtain ⟨q1, q2, q3, q4, q5, q6, q7⟩ := ih hset.wf (fun w hw' => by
      rw [hset.len]; exact hv w (List.mem_cons_of_mem _ hw')) ha
    have e1 : ∀ k, st1.env k = st.env k ∨ st1.env k = globals (st.env k) := by
      intro k
      by_cases e : k = v.cst
      · subst e; exact .inr hset.env
      · exact .inl (env_eq (hset.old k e))
    have e2 : ∀ k, st1.env k = globals (st.env k) → st'.env k = globals (st.env k) := by
      intro k hk
      rcases q6 k with h | h
      · rw [h, hk]
      · rw [h, hk, globals_idem]
    have e3 : ∀ k, globals (st1.env k) = globals (st.env k) := by
      intro k
      rcases e1 k with h | h
      · rw [h]
      · rw [h, globals_idem]
    refine ⟨q1, q2.trans hset.cur, q3.trans hset.arrs, q4.trans hset.len, ?_, ?_, ?_⟩
    · intro k hk; rw [q5 k hk, hset.old k (by omega)]
    · intro k
      rcases e1 k with h | h
      · rcases q6 k with h' | h'
        · exact .inl (h'.trans h)
        · rw [e3] at h'; exact .inr h'
      · exact .inr (e2 k h)
    · intro w hw'
      rcases List.mem_cons.1 hw' with rfl | hw'
      · exact e2 _ hset.env
      · rw [q7 w hw', e3]

/-! ## Structs -/

theorem fitsF_map {A : Nat} {g : Field → String} {q : Field → Val} : ∀ {fs : List Field}, (∀ f ∈ fs, Fits A (q f)) →
    FitsF A (fs.map fun f => (g f, q f)) := by
  intro fs
  induction fs with
  | nil => intro _; simp [FitsF]
  | cons f fs ih => intro h; exact ⟨h f List.mem_cons_self, ih fun f hf => h f (List.mem_cons_of_mem _ hf)⟩

theorem getF_map {g : Field → String} {q : Field → Val} : ∀ {fs : List Field}, (fs.map g).Nodup → ∀ f ∈ fs,
    getF (fs.map fun f => (g f, q f)) (g f) = some (q f) := by
  intro fs
  induction fs with
  | nil => intro _ f hf; simp at hf
  | cons a fs ih =>
    intro hn f hf
    simp only [List.map_cons, List.nodup_cons] at hn
    rcases List.mem_cons.1 hf with rfl | hf
    · simp [getF]
    · have hne : (g f == g a) = false := by
        simp only [beq_eq_false_iff_ne]
        intro e; exact hn.1 (e ▸ List.mem_map.2 ⟨f, hf, rfl⟩)
      simp only [List.map_cons, getF, List.lookup, hne]
      exact ih hn.2 f hf

/-- What is assumed about format, resolver and contexts. -/
structure Base0 (Γ : Fmt) (B A : Nat) (C O : String → Prop) (ctx : Ctx) (r : Resolver) : Prop where
  fmt : FmtOK Γ
  gen : FmtGen Γ B C O
  const : r.constant = Γ.K
  ctxs : r.context = Γ.contexts
  strs : r.struct = Γ.structs
  ctx : CtxOK Γ ctx
  A : 2 ^ 32 ≤ A + 1

theorem structure_act (hsel : Selects E) {Γ : Fmt} {B A : Nat} {C O : String → Prop} {ctx : Ctx}
    (h0 : Base0 Γ B A C O ctx r) : ∀ fuel, StructAct ⟨Γ, A, B, C, ctx, EncStruct Γ ctx fuel⟩ O
      (structure_ (E := E) r fuel) := by
  intro fuel
  induction fuel with
  | zero => intro n s' _ _ st vs st' _ _ h; cases h
  | succ fuel ih =>
    intro n s hs he st vs st' hw hcur h
    have hsg := h0.gen.structs n s hs he
    have hso := h0.fmt.structs n s hs he
    have hnm : ((fieldsOf s.ms).map (fun f => Γ.nm f.name)).Nodup := hso.fields
    have hnames : ((fieldsOf s.ms).map (·.name)).Nodup := by
      refine List.Nodup.of_map Γ.nm ?_
      rw [List.map_map]
      exact hnm
    have H : Hyp ⟨Γ, A, B, C, ctx, EncStruct Γ ctx fuel⟩ r s :=
      ⟨h0.const, h0.ctxs, h0.strs, hnames, hsg.named, h0.ctx, h0.A, h0.gen.bound, encStruct_consumes h0.fmt fuel⟩
    simp only [structure_] at h
    obtain ⟨c, st1, h1, ha⟩ := bind_ok h
    clear h
    obtain ⟨rfl, rfl⟩ := getCur_ok h1
    obtain ⟨g, st2, h2, hb⟩ := bind_ok ha
    clear ha
    obtain ⟨d, st3, h3, hc⟩ := bind_ok hb
    clear hb
    obtain ⟨ws, st4, h4, hd⟩ := bind_ok hc
    clear hc
    obtain ⟨c5, st5, h5, he'⟩ := bind_ok hd
    clear hd
    obtain ⟨rfl, rfl⟩ := getCur_ok h5
    obtain ⟨u6, st6, h6, hf⟩ := bind_ok he'
    clear he'
    obtain ⟨u7, st7, h7, hg⟩ := bind_ok hf
    clear hf
    obtain ⟨rfl, rfl⟩ := pure_ok hg
    have hnew := cloneGlobalRef_ok hw h2
    obtain ⟨rfl, rfl⟩ := newSlice_ok h3
    have hrev : ∃ m rev, s.ms.reverse = m :: rev := by
      cases hr : s.ms.reverse with
      | nil => exact (hsg.nonempty (List.reverse_eq_nil_iff.1 hr)).elim
      | cons m rev => exact ⟨m, rev, rfl⟩
    obtain ⟨m, rev, hrev⟩ := hrev
    rw [hrev, membersLoop_cur _ _ _ _ _ g, ← hrev] at h4
    have hgl : g < st2.maps.length := by rw [hnew.len, hnew.ref]; omega
    have hi3 : Inv st1.maps.length ({ st2 with arrs := st2.arrs ++ [[]], cur := g } : St E) :=
      ⟨hnew.wf, by rw [hnew.ref], hgl⟩
    have henv3 : ({ st2 with arrs := st2.arrs ++ [[]], cur := g } : St E).env g = globals (st1.env st1.cur) := hnew.env
    have hlive3 : Live st1.maps.length ({ st2 with arrs := st2.arrs ++ [[]], cur := g } : St E)
        ⟨⟨st2.arrs.length, 0⟩, g⟩ := ⟨⟨by simp, by simp⟩, by rw [hnew.ref], hgl⟩
    have hread3 : ({ st2 with arrs := st2.arrs ++ [[]], cur := g } : St E).read ⟨st2.arrs.length, 0⟩ = [] := by
      simp [St.read]
    have hm3 : Range (st1.env st1.cur) → MapOK Γ.K s (globals (st1.env st1.cur)) := fun hr =>
      (globals_free _).mapOK (globals_range hr)
    obtain ⟨q1, q2, q3, q4, q5, q6⟩ := membersLoop_ok (K := Γ.K) (s := s) (N := st1.maps.length) hsel (one := O n)
      (f := genMember (E := E) r (structure_ r fuel) s)
      (R := fun ms σ d => Range (st1.env st1.cur) →
        MembersR ⟨Γ, A, B, C, ctx, EncStruct Γ ctx fuel⟩ s [] (globals (st1.env st1.cur)) ms σ d)
      (fun ms σ σ' d g h hr => MembersR.mono _ _ _ g (h hr)) (all := s.ms)
      (fun pre m post e => by
        obtain ⟨g1, g2⟩ := MembersGen.split (pre := pre) (m := m) (post := post) (by rw [e]; exact hsg.members)
        have hm : m ∈ s.ms := by rw [← e]; simp
        refine ⟨_, (genMember_act hsel H ih h0.gen.contexts hm g2).mono (fun ho => h0.gen.one n s ho hs he m hm)
          (fun _ _ _ _ h => h), ?_⟩
        intro σ0 d2 d1 σ hR hQ hr
        refine MembersR.step ?_ g1 (hR hr) (by rw [List.append_nil]; exact hQ)
        refine hnames.sublist (List.Sublist.map _ ?_)
        rw [← e]
        simp only [fieldsOf, List.flatMap_append]
        exact List.sublist_append_right _ _)
      (M := st1.arrs.length) (rev := s.ms.reverse) (ms0 := []) (by simp) hi3 (by simp [hnew.arrs]) (by simp [arrsOf])
      (fun w hw' => by
        cases List.mem_singleton.1 hw'
        refine ⟨by simp [hnew.arrs], hlive3, fun hr _ => ?_⟩
        rw [henv3]
        have e : ({ st2 with arrs := st2.arrs ++ [[]], cur := g } : St E).read
            (⟨⟨st2.arrs.length, ([] : Bytes).length⟩, g⟩ : Vec).data = [] := hread3
        rw [e]
        refine ⟨hm3 hr, .of_sub fun _ _ _ h => h, ?_⟩
        intro _ tail _ D
        exact ⟨fun _ => .nil, by simp [fieldsOf], fun o _ _ => rfl⟩) h4
    have hset := clearLocalAt_ok q1.wf q1.cur_lt h6
    obtain ⟨c1, c2, c3, c4, c5, c6, c7⟩ := clearAll_ok (N := st1.maps.length) hset.wf (fun v hv => by
      rw [hset.len]; exact ⟨(q4 v hv).2.1.ge, (q4 v hv).2.1.lt⟩) h7
    have hglob : ∀ k, globals (st6.env k) = globals (st5.env k) := by
      intro k
      by_cases e : k = st5.cur
      · subst e; rw [hset.env, globals_idem]
      · rw [env_eq (hset.old k e)]
    have hvenv : ∀ v ∈ vs, st'.env v.cst = globals (st5.env v.cst) := fun v hv => by rw [c7 v hv, hglob]
    have hcurenv : st'.env st'.cur = globals (st5.env st5.cur) := by
      rw [c2, hset.cur]
      rcases c6 st5.cur with h | h
      · rw [h, hset.env]
      · rw [h, hset.env, globals_idem]
    have harr : st'.arrs = st5.arrs := c3.trans hset.arrs
    have hlen : st'.maps.length = st5.maps.length := c4.trans hset.len
    have hread : ∀ d, st'.read d = st5.read d := fun d => read_eq (by rw [harr])
    have harrs2 : ({ st2 with arrs := st2.arrs ++ [[]], cur := g } : St E).arrs = st1.arrs ++ [[]] := by
      simp only [hnew.arrs]
    refine ⟨⟨c1, ?_, ?_⟩, ?_, ?_, ?_, q3, ?_, ?_,
      ⟨by rw [hcurenv]; exact globals_free _, fun v hv => by rw [hvenv v hv]; exact globals_free _⟩, ?_, ?_⟩
    · rw [c2, hset.cur]; exact q1.cur_ge
    · rw [c2, hset.cur, hlen]; exact q1.cur_lt
    · have := q2.arrs_le
      rw [harrs2] at this
      rw [harr]
      simp only [List.length_append, List.length_singleton] at this
      omega
    · intro a ha
      have := q2.arrs a (by rw [harrs2]; simp only [List.length_append]; omega)
      rw [harr, this, harrs2, List.getElem?_append_left ha]
    · intro k hk
      rw [c5 k hk, hset.old k (by have := q1.cur_ge; omega)]
      rw [q2.low k hk (by show k < st2.maps.length; rw [hnew.len]; omega)]
      exact hnew.old k hk
    · intro v hv
      obtain ⟨v1, v2, _⟩ := q4 v hv
      refine ⟨v1, v2.data.of_eq (by rw [harr]) (by rw [harr]), v2.ge, by rw [hlen]; exact v2.lt⟩
    · intro hr v hv hd
      obtain ⟨_, _, v3⟩ := q4 v hv
      rw [hread] at hd ⊢
      obtain ⟨m1, m2, m3⟩ := v3 hr hd
      rw [hvenv v hv]
      refine ⟨globals_free _, globals_range m1.range, ?_, ?_⟩
      · intro c k x hc hx
        rw [globals_of hc]
        exact m2.glob c k x hc (by rw [globals_of hc]; exact hx)
      · intro hsat tail ht
        have hsat' : Sat Γ ctx (st5.env v.cst) := fun c k x hc hx => hsat c k x hc (by rw [globals_of hc]; exact hx)
        obtain ⟨q, f1, f2⟩ := m3 hsat' tail (fun hne m hm => by
          obtain ⟨s', hs', _, hcl⟩ := h0.gen.closed n (ht hne)
          rw [hs] at hs'; cases hs'
          exact hcl m hm) (st5.read v.data ++ tail).length
        refine ⟨.obj (Γ.nm n) ((fieldsOf s.ms).map fun f => (Γ.nm f.name, q f.name)), ?_, s, hs, ?_⟩
        · simp only [Fits]; exact fitsF_map f1
        · rw [if_neg (by simp [he])]
          refine ⟨_, rfl, ?_, f2 _ ?_ ?_⟩
          · simp [HasFields]
          · exact fun f hf => getF_map (q := fun f => q f.name) hnm f hf
          · intro k hk
            rw [hsg.met] at hk
            cases hk
    · intro ho; exact q5 ho (by simp)
    · intro ho hr
      have hm := q6 ho ⟨by rw [show ({ st2 with arrs := st2.arrs ++ [[]], cur := g } : St E).cur = g from rfl, henv3]; exact hm3 hr,
        fun w hw' => by cases List.mem_singleton.1 hw'; rw [henv3]; exact hm3 hr⟩
      refine ⟨?_, fun v hv => ?_⟩
      · rw [hcurenv]; exact ⟨globals_free _, globals_range hm.1.range⟩
      · rw [hvenv v hv]; exact ⟨globals_free _, globals_range (hm.2 v hv).range⟩

/-! ## Files -/

/-- What a vector in the corpus is. -/
def VectorQ (Γ : Fmt) (B A : Nat) (ctx : Ctx) (n : String) (d : Bytes) (σ : CEnv) : Prop :=
  d.length < B → Sat Γ ctx σ → ∃ v, Fits A v ∧ Enc Γ ctx n v d []

theorem suites_ok (hsel : Selects E) {Γ : Fmt} {B A : Nat} {C O : String → Prop} {ctx : Ctx}
    (h0 : Base0 Γ B A C O ctx r) {fuel : Nat} : ∀ {ss : List Struct} {st st' : St E} {out : List SuiteRef},
    (∀ s ∈ ss, s.extern = false → Γ.structs s.name = some s) → st.WF →
    suites r fuel ss st = .ok (out, st') →
    st'.WF ∧ st.arrs.length ≤ st'.arrs.length ∧ st.maps.length ≤ st'.maps.length ∧
    (∀ a, a < st.arrs.length → st'.arrs[a]? = st.arrs[a]?) ∧ (∀ k, k < st.maps.length → st'.maps[k]? = st.maps[k]?) ∧
    ∀ o ∈ out, ∃ s ∈ ss, s.extern = false ∧ s.name = o.type ∧
      ∀ v ∈ o.vectors, VectorQ Γ B A ctx o.type (st'.read v.data) (st'.env v.cst) := by
  intro ss
  induction ss with
  | nil =>
    intro st st' out _ hw h
    obtain ⟨rfl, rfl⟩ := pure_ok h
    exact ⟨hw, Nat.le_refl _, Nat.le_refl _, fun _ _ => rfl, fun _ _ => rfl, by simp⟩
  | cons s ss ih =>
    intro st st' out hss hw h
    have hss' : ∀ s ∈ ss, s.extern = false → Γ.structs s.name = some s := fun s hs => hss s (List.mem_cons_of_mem _ hs)
    simp only [suites] at h
    cases he : s.extern with
    | true =>
      rw [if_pos he] at h
      obtain ⟨q1, q2, q3, q4, q5, q6⟩ := ih hss' hw h
      refine ⟨q1, q2, q3, q4, q5, fun o ho => ?_⟩
      obtain ⟨t, ht, rest⟩ := q6 o ho
      exact ⟨t, List.mem_cons_of_mem _ ht, rest⟩
    | false =>
      rw [if_neg (by simp [he])] at h
      obtain ⟨c, st1, h1, ha⟩ := bind_ok h
      clear h
      obtain ⟨⟨⟩, st2, h2, hb⟩ := bind_ok ha
      clear ha
      simp only [setCur, Out.ok.injEq, Prod.mk.injEq, true_and] at h2
      obtain ⟨vs, st3, h3, hc⟩ := bind_ok hb
      clear hb
      obtain ⟨rest, st4, h4, hd⟩ := bind_ok hc
      clear hc
      obtain ⟨rfl, rfl⟩ := pure_ok hd
      have hnew := newAt_of (st := st) (st1 := st) hw Cst.wf_empty rfl rfl rfl h1
      have hcl : c < st1.maps.length := by rw [hnew.len, hnew.ref]; omega
      subst h2
      have hfree : Range (({ st1 with cur := c } : St E).env c) := by
        have : ({ st1 with cur := c } : St E).env c = Cst.empty.lookup := hnew.env
        rw [this]
        intro c k x _ hx
        rw [Cst.lookup_empty] at hx; cases hx
      have A3 := structure_act hsel h0 fuel s.name s (hss s List.mem_cons_self he) he
        { st1 with cur := c } vs st3 hnew.wf hcl h3
      obtain ⟨q1, q2, q3, q4, q5, q6⟩ := ih hss' A3.inv.wf h4
      have m3 : st1.maps.length ≤ st3.maps.length := A3.maps_le
      have l3 : st1.arrs.length ≤ st3.arrs.length := A3.arrs_le
      rw [hnew.arrs] at l3
      rw [hnew.len] at m3
      refine ⟨q1, by omega, by omega, ?_, ?_, ?_⟩
      · intro a ha
        have := A3.arrs a (by show a < st1.arrs.length; rw [hnew.arrs]; exact ha)
        rw [q4 a (by omega), this]
        show st1.arrs[a]? = _
        rw [hnew.arrs]
      · intro k hk
        have := A3.maps k (by show k < st1.maps.length; rw [hnew.len]; omega)
        rw [q5 k (by omega), this]
        exact hnew.old k hk
      · intro o ho
        rcases List.mem_cons.1 ho with rfl | ho
        · refine ⟨s, List.mem_cons_self, he, rfl, fun v hv => ?_⟩
          obtain ⟨_, hl⟩ := A3.vec v hv
          rw [read_eq (q4 _ hl.data.1), env_eq (q5 _ hl.lt)]
          intro hd hsat
          obtain ⟨_, _, _, hgood⟩ := A3.sem hfree v hv hd
          obtain ⟨val, f1, f2⟩ := hgood hsat [] (fun h => (h rfl).elim)
          rw [List.append_nil] at f2
          exact ⟨val, f1, fuel, f2⟩
        · obtain ⟨t, ht, rest⟩ := q6 o ho
          exact ⟨t, List.mem_cons_of_mem _ ht, rest⟩

/-- Vectors in the corpus are encodings. -/
theorem generateFiles_ok (hsel : Selects E) {nm : String → String} {ext : Go.Ext} {fs : List File} {fuel : Nat}
    {seed : E.R.σ} {corpus : Corpus} (h : generateFiles E fuel seed fs = .ok corpus) (hok : FilesOK nm ext fs)
    {B A : Nat} {C O : String → Prop} (hg : FmtGen (fmtOf nm ext fs) B C O) (hA : 2 ^ 32 ≤ A + 1) {ctx : Ctx}
    (hctx : CtxOK (fmtOf nm ext fs) ctx) : ∀ t ∈ corpus,
    (∃ s, (fmtOf nm ext fs).structs t.type = some s ∧ s.extern = false) ∧ ∀ v ∈ t.vectors,
      Meets (fmtOf nm ext fs) ctx v.cst → v.data.length < B →
      ∃ val, Fits A val ∧ Enc (fmtOf nm ext fs) ctx t.type val v.data [] := by
  unfold generateFiles at h
  cases hr : newResolverFiles E.order fs with
  | err m => rw [hr] at h; cases h
  | panic m => rw [hr] at h; cases h
  | ok r =>
    rw [hr] at h
    simp only [] at h
    have hcomp : Props.FilesCompatible fs := by
      by_contra hc
      obtain ⟨m, hm⟩ := (Props.C11_multi_file E.order fs).2 hc
      rw [hm] at hr; cases hr
    obtain ⟨r', hr', h1, h2, h3⟩ := (Props.C11_multi_file E.order fs).1 hcomp
    rw [hr] at hr'
    cases hr'
    have h0 : Base0 (fmtOf nm ext fs) B A C O ctx r :=
      ⟨hok.fmtOK, hg, by funext n; exact h3 n, by funext n; exact h2 n, by funext n; exact h1 n, hctx, hA⟩
    cases hs : suites (E := E) r fuel (fs.flatMap (·.structs)) (St.init seed) with
    | err m => rw [hs] at h; cases h
    | panic m => rw [hs] at h; cases h
    | timeout => rw [hs] at h; cases h
    | ok p =>
      obtain ⟨ss, st⟩ := p
      rw [hs] at h
      cases h
      have hdef : ∀ s ∈ fs.flatMap (·.structs), s.extern = false → (fmtOf nm ext fs).structs s.name = some s :=
        fun s hs he => Verif.Refine.defined_struct hcomp hs he
      obtain ⟨_, _, _, _, _, q⟩ := suites_ok hsel h0 hdef (by intro c hc; simp [St.init] at hc) hs
      intro t ht
      obtain ⟨o, ho, rfl⟩ := List.mem_map.1 ht
      obtain ⟨s, hsm, he, hn, hv⟩ := q o ho
      refine ⟨⟨s, by rw [← hn]; exact hdef s hsm he, he⟩, fun v hv' hm hB => ?_⟩
      obtain ⟨w, hw, rfl⟩ := List.mem_map.1 hv'
      exact hv w hw hB hm

end Verif.Tv
