import Verif.TvSize
/-!
# Vectors that record context values

If a struct uses a context variable in all its vectors — as a number of elements or a tag outside of union cases, or in
every case of a union — then all its vectors have constraints, so that no test is emitted for it.
-/
set_option linter.unusedVariables false
namespace Verif.Tv
open Verif Verif.Ast Verif.Inspect Verif.Intervals Verif.Go Verif.Spec Verif.Wire

/-! ## Specification -/

/-- A leaf that uses a context variable as number of elements, or is a struct that uses one. `U` are structs that do. -/
def LeafUses (U : String → Prop) : Leaf → Prop
  | .field f => match f.type with
    | .varArray _ (some (.idRef r)) => r.scope ≠ ""
    | .base (.struct n) => U n
    | _ => False
  | _ => False

/-- A reference to a context variable. -/
def LenUses : Option LengthConstraint → Prop
  | some (.idRef r) => r.scope ≠ ""
  | _ => False

/-- A member that uses a context variable: as above, or as tag or length of a union, or in all cases of a union. -/
def MemberUses (U : String → Prop) : Member → Prop
  | .leaf l => LeafUses U l
  | .union u => u.tag.scope ≠ "" ∨ LenUses u.length ∨ ∀ c ∈ u.cases, ∃ l ∈ c.members, LeafUses U l

/-- Structs `U` use context variables. -/
def FmtUses (Γ : Fmt) (U : String → Prop) : Prop :=
  ∀ n s, U n → Γ.structs n = some s → s.extern = false → ∃ m ∈ s.ms, MemberUses U m

/-! ## Stores -/

variable {E : Env} {r : Resolver} {N : Nat}

/-- A context value is recorded. -/
def HasCtx (σ : CEnv) : Prop := ∃ c k x, c ≠ "" ∧ σ c k = some x

theorem HasCtx.mono {σ τ : CEnv} (h : HasCtx σ) (hs : ∀ c k x, c ≠ "" → σ c k = some x → ∃ y, τ c k = some y) : HasCtx τ := by
  obtain ⟨c, k, x, hc, hx⟩ := h
  obtain ⟨y, hy⟩ := hs c k x hc hx
  exact ⟨c, k, y, hc, hy⟩

theorem HasCtx.globals {σ : CEnv} (h : HasCtx σ) : HasCtx (globals σ) :=
  h.mono fun c k x hc hx => ⟨x, by unfold Tv.globals; rw [if_neg hc]; exact hx⟩

theorem HasCtx.over_left {σ τ : CEnv} (h : HasCtx σ) : HasCtx (over σ τ) :=
  h.mono fun c k x hc hx => by
    unfold Tv.over
    cases ht : τ c k with
    | some y => exact ⟨y, rfl⟩
    | none => exact ⟨x, hx⟩

theorem HasCtx.over_right {σ τ : CEnv} (h : HasCtx τ) : HasCtx (over σ τ) :=
  h.mono fun c k x hc hx => by
    unfold Tv.over
    rw [hx]
    exact ⟨x, rfl⟩

theorem HasCtx.orCreate {σ : CEnv} (h : HasCtx σ) (ref : IDRef) (v : Int) : HasCtx (orCreate σ ref v) :=
  h.mono fun c k x hc hx => by
    unfold Tv.orCreate
    split
    · exact ⟨_, rfl⟩
    · exact ⟨x, hx⟩

theorem HasCtx.create {σ : CEnv} {ref : IDRef} (h : ref.scope ≠ "") (v : Int) : HasCtx (Tv.orCreate σ ref v) :=
  ⟨ref.scope, ref.name, _, h, by unfold Tv.orCreate; rw [if_pos ⟨rfl, rfl⟩]⟩

/-- Stores before `N` keep context values. -/
structure Keep (N : Nat) (st st' : St E) : Prop where
  wf : st'.WF
  le : st.maps.length ≤ st'.maps.length
  old : ∀ a, a < N → HasCtx (st.env a) → HasCtx (st'.env a)

theorem Keep.refl {st : St E} (h : st.WF) : Keep N st st := ⟨h, Nat.le_refl _, fun _ _ h => h⟩

theorem Keep.trans {st st1 st2 : St E} (h : Keep N st st1) (h' : Keep N st1 st2) : Keep N st st2 :=
  ⟨h'.wf, Nat.le_trans h.le h'.le, fun a ha hx => h'.old a ha (h.old a ha hx)⟩

theorem Keep.mono {N' : Nat} {st st' : St E} (h : Keep N st st') (hN : N' ≤ N) : Keep N' st st' :=
  ⟨h.wf, h.le, fun a ha => h.old a (Nat.lt_of_lt_of_le ha hN)⟩

theorem Keep.of_maps {st st' : St E} (h : st.WF) (e : st'.maps = st.maps) : Keep N st st' :=
  ⟨by unfold St.WF; rw [e]; exact h, by rw [e], fun a _ hx => by
    rw [env_eq (st := st) (st' := st') (by rw [e])]; exact hx⟩

theorem NewAt.keep {st st' : St E} {t : Nat} {σ : CEnv} (h : NewAt st st' t σ) : Keep st.maps.length st st' :=
  ⟨h.wf, by rw [h.len]; omega, fun a ha hx => by rw [env_eq (h.old a ha)]; exact hx⟩

theorem SetAt.keep {st st' : St E} {t : Nat} {σ : CEnv} (h : SetAt st st' t σ) (hσ : HasCtx (st.env t) → HasCtx σ) :
    Keep N st st' := by
  refine ⟨h.wf, by rw [h.len], fun a ha hx => ?_⟩
  by_cases e : a = t
  · subst e; rw [h.env]; exact hσ hx
  · rw [env_eq (h.old a e)]; exact hx

/-- What holds before and after actions. -/
structure Runs (st : St E) : Prop where
  wf : st.WF
  lt : st.cur < st.maps.length

theorem Runs.of_maps {st st' : St E} (h : Runs st) (e : st'.maps = st.maps) (ec : st'.cur = st.cur) : Runs st' :=
  ⟨by unfold St.WF; rw [e]; exact h.wf, by rw [e, ec]; exact h.lt⟩

/-- A vector that records a context value, if `b`. -/
structure Rec (b : Prop) (st : St E) (v : Vec) : Prop where
  lt : v.cst < st.maps.length
  has : b → HasCtx (st.env v.cst)

theorem Rec.after {b : Prop} {st st' : St E} {v : Vec} (h : Rec b st v) (g : Keep st.maps.length st st') : Rec b st' v :=
  ⟨Nat.lt_of_lt_of_le h.lt g.le, fun hb => g.old _ h.lt (h.has hb)⟩

theorem Rec.imp {b b' : Prop} {st : St E} {v : Vec} (h : Rec b st v) (hb : b' → b) : Rec b' st v := ⟨h.lt, fun x => h.has (hb x)⟩

/-- After an action. -/
structure URun (b : Prop) (st st' : St E) (vs : List Vec) : Prop where
  keep : Keep st.maps.length st st'
  runs : Runs st'
  vecs : ∀ v ∈ vs, Rec b st' v

/-- An action whose vectors record a context value, if `b` or if one was recorded before. -/
def UAct (b : Prop) (x : TM E (List Vec)) : Prop :=
  ∀ st vs st', Runs st → x st = .ok (vs, st') → URun (b ∨ HasCtx (st.env st.cur)) st st' vs

theorem UAct.quiet {α : Type} {b : Prop} {x : TM E α} {f : α → TM E (List Vec)} (hq : Quiet x)
    (hf : ∀ st a st', x st = .ok (a, st') → UAct b (f a)) : UAct b (x >>= f) := by
  intro st vs st' hr h
  obtain ⟨a, st1, h1, h2⟩ := bind_ok h
  obtain ⟨e1, e2⟩ := hq st a st1 h1
  have A := hf st a st1 h1 st1 vs st' (hr.of_maps e1 e2) h2
  have hk := A.keep
  rw [e1] at hk
  refine ⟨(Keep.of_maps hr.wf e1).trans hk, A.runs, fun v hv => (A.vecs v hv).imp ?_⟩
  rw [env_eq (st := st) (st' := st1) (by rw [e1]), e2]
  exact id

theorem UAct.nil {b : Prop} : UAct b (pure [] : TM E (List Vec)) := by
  intro st vs st' hr h
  obtain ⟨rfl, rfl⟩ := pure_ok h
  exact ⟨.refl hr.wf, hr, by simp⟩

theorem UAct.imp {b b' : Prop} {x : TM E (List Vec)} (h : UAct b x) (hb : b' → b) : UAct b' x := fun st vs st' hr hx =>
  let A := h st vs st' hr hx
  ⟨A.keep, A.runs, fun v hv => (A.vecs v hv).imp (Or.imp_left hb)⟩

theorem uact_vector {b : Bytes} : UAct False (do let v ← vector b; pure [v] : TM E (List Vec)) := by
  intro st vs st' hr h
  cases h
  refine ⟨.of_maps hr.wf rfl, hr.of_maps rfl rfl, fun v hv => ?_⟩
  cases List.mem_singleton.1 hv
  exact ⟨hr.lt, fun hb => hb.resolve_left id⟩

theorem uact_genInt (name : String) (t : IntType) : UAct False (genInt r name t : TM E _) := by
  refine UAct.quiet .getCur fun _ c _ _ => UAct.quiet (.getMap c) fun _ m _ _ => ?_
  cases m.lookup "" name with
  | some x => exact UAct.quiet (.pure _) fun _ _ _ _ => uact_vector
  | none =>
    cases t.constraint with
    | some l => exact UAct.quiet (.ofRes _) fun _ _ _ _ => UAct.quiet (.randomIn _) fun _ _ _ _ => UAct.quiet (.pure _) fun _ _ _ _ => uact_vector
    | none => exact UAct.quiet (.randread _) fun _ _ _ _ => uact_vector

/-- Nested structs, for `S` standing for `structure_`. -/
def SUses (U : String → Prop) (r : Resolver) (S : Struct → TM E (List Vec)) : Prop :=
  ∀ k s, r.struct k = some s → s.extern = false → UAct (U k) (S s)

theorem uact_genStructRef {U : String → Prop} {S : Struct → TM E (List Vec)} (hS : SUses U r S) (k : String) :
    UAct (U k) (genStructRef r S k) := by
  refine UAct.quiet (.ofRes _) fun st s st' h => ?_
  obtain ⟨h1', _⟩ := ofRes_ok h
  unfold Resolver.structNonExtern at h1'
  cases hn : r.struct k with
  | none => rw [hn] at h1'; cases h1'
  | some s' =>
    rw [hn] at h1'
    simp only [] at h1'
    cases he : s'.extern with
    | true => rw [he] at h1'; cases h1'
    | false =>
      rw [he] at h1'
      simp only [Bool.false_eq_true, if_false] at h1'
      cases h1'
      exact hS k s hn he

theorem uact_genBase {U : String → Prop} {S : Struct → TM E (List Vec)} (hS : SUses U r S) (name : String) :
    ∀ b, UAct (match b with | .struct n => U n | _ => False) (genBase r S name b)
  | .int t => uact_genInt name t
  | .char => uact_genInt (r := r) name U8
  | .struct k => uact_genStructRef hS k

theorem crossOne_uses {b : Prop} {u : Vec} : ∀ {vs ws : List Vec} {st st' : St E}, Runs st → u.cst < st.maps.length →
    (∀ v ∈ vs, Rec b st v) → crossOne u vs st = .ok (ws, st') → URun b st st' ws := by
  intro vs
  induction vs with
  | nil =>
    intro ws st st' hr hu hv h
    obtain ⟨rfl, rfl⟩ := pure_ok h
    exact ⟨.refl hr.wf, hr, by simp⟩
  | cons w vs ih =>
    intro ws st st' hr hu hv h
    simp only [crossOne] at h
    obtain ⟨c, st1, h1, ha⟩ := bind_ok h
    clear h
    obtain ⟨d, st2, h2, hb⟩ := bind_ok ha
    clear ha
    cases h2
    obtain ⟨s, st3, h3, hc⟩ := bind_ok hb
    clear hb
    obtain ⟨rest, st4, h4, hd⟩ := bind_ok hc
    clear hc
    obtain ⟨rfl, rfl⟩ := pure_ok hd
    obtain ⟨_, hn⟩ := mergeRef_ok hr.wf h1
    obtain ⟨e1, e2⟩ := Quiet.appendSlice _ _ _ _ _ h3
    have g1 := hn.keep
    have g2 : Keep st.maps.length st st3 := g1.trans (.of_maps hn.wf e1)
    have hr1 : Runs st1 := ⟨hn.wf, by rw [hn.cur]; exact Nat.lt_of_lt_of_le hr.lt g1.le⟩
    have hr3 : Runs st3 := hr1.of_maps e1 e2
    have A := ih hr3 (Nat.lt_of_lt_of_le hu g2.le) (fun v hv' => (hv v (List.mem_cons_of_mem _ hv')).after g2) h4
    have hw := hv w List.mem_cons_self
    have hlen : st3.maps.length = st.maps.length + 1 := by rw [e1, hn.len]
    refine ⟨g2.trans (A.keep.mono (by omega)), A.runs, fun v hv' => ?_⟩
    rcases List.mem_cons.1 hv' with rfl | hv'
    · refine Rec.after (st := st3) ⟨?_, fun hb => ?_⟩ A.keep
      · show c < _; rw [hlen, hn.ref]; omega
      · show HasCtx (st3.env c)
        rw [env_eq (st := st1) (by rw [e1]), hn.env]
        exact (hw.has hb).over_right
    · exact A.vecs v hv'

theorem cross_uses {b : Prop} : ∀ {us vs ws : List Vec} {st st' : St E}, Runs st → (∀ u ∈ us, u.cst < st.maps.length) →
    (∀ v ∈ vs, Rec b st v) → cross us vs st = .ok (ws, st') → URun b st st' ws := by
  intro us
  induction us with
  | nil =>
    intro vs ws st st' hr hu hv h
    obtain ⟨rfl, rfl⟩ := pure_ok h
    exact ⟨.refl hr.wf, hr, by simp⟩
  | cons u us ih =>
    intro vs ws st st' hr hu hv h
    simp only [cross] at h
    obtain ⟨p, st1, h1, ha⟩ := bind_ok h
    clear h
    obtain ⟨rest, st2, h2, hb⟩ := bind_ok ha
    clear ha
    obtain ⟨rfl, rfl⟩ := pure_ok hb
    have A := crossOne_uses hr (hu u List.mem_cons_self) hv h1
    have A' := ih A.runs (fun v hv => Nat.lt_of_lt_of_le (hu v (List.mem_cons_of_mem _ hv)) A.keep.le)
      (fun v hv' => (hv v hv').after A.keep) h2
    refine ⟨A.keep.trans (A'.keep.mono A.keep.le), A'.runs, fun v hv => ?_⟩
    rcases List.mem_append.1 hv with hv | hv
    · exact (A.vecs v hv).after A'.keep
    · exact A'.vecs v hv

theorem arrayLoop_uses (hsel : Selects E) {b b' : Prop} {elem : TM E (List Vec)} (he : UAct b elem) : ∀ {k : Nat} {vs ws : List Vec}
    {st st' : St E}, Runs st → (∀ v ∈ vs, Rec b' st v) → arrayLoop elem k vs st = .ok (ws, st') → URun b' st st' ws := by
  intro k
  induction k with
  | zero =>
    intro vs ws st st' hr hv h
    obtain ⟨rfl, rfl⟩ := pure_ok h
    exact ⟨.refl hr.wf, hr, hv⟩
  | succ k ih =>
    intro vs ws st st' hr hv h
    simp only [arrayLoop] at h
    obtain ⟨w, st1, h1, ha⟩ := bind_ok h
    clear h
    obtain ⟨x, st2, h2, hb⟩ := bind_ok ha
    clear ha
    obtain ⟨y, st3, h3, hc⟩ := bind_ok hb
    clear hb
    have A1 := he _ _ _ hr h1
    have A2 := cross_uses A1.runs (fun u hu => (A1.vecs u hu).lt) (fun v hv' => (hv v hv').after A1.keep) h2
    obtain ⟨hsp, e3⟩ := select_ok hsel h3
    have e : st3.maps = st2.maps ∧ st3.cur = st2.cur := by cases h3; exact ⟨rfl, rfl⟩
    have hr3 : Runs st3 := A2.runs.of_maps e.1 e.2
    have g23 : ∀ M, Keep M st2 st3 := fun M => .of_maps A2.runs.wf e.1
    have A3 := ih hr3 (fun v hv' => (A2.vecs v (hsp.subset hv')).after (g23 _)) hc
    have hl1 := A1.keep.le
    have hl2 := A2.keep.le
    exact ⟨((A1.keep.trans (A2.keep.mono hl1)).trans (g23 _)).trans (A3.keep.mono (by rw [e.1]; omega)), A3.runs, A3.vecs⟩

/-- A number of elements given by a context variable. -/
def CountUses : Count → Prop
  | .con (some (.idRef ref)) => ref.scope ≠ ""
  | _ => False

theorem genArray_uses (hsel : Selects E) {U : String → Prop} {S : Struct → TM E (List Vec)} (hS : SUses U r S) (b : Base)
    (c : Count) : UAct (CountUses c) (genArray r S b c) := by
  intro st vs st' hr h
  unfold genArray at h
  obtain ⟨iv, st1, h1, ha⟩ := bind_ok h
  clear h
  obtain ⟨k, st2, h2, hd⟩ := bind_ok ha
  clear ha
  have e : st1.maps = st.maps ∧ st1.cur = st.cur ∧ iv.cst = st.cur := by cases h1; exact ⟨rfl, rfl, rfl⟩
  obtain ⟨e1, e2, e3⟩ := e
  have hr1 : Runs st1 := hr.of_maps e1 e2
  have hiv1 : HasCtx (st.env st.cur) → HasCtx (st1.env iv.cst) := by
    rw [env_eq (st := st) (st' := st1) (by rw [e1]), e3]; exact id
  have step : Runs st2 ∧ Keep st1.maps.length st1 st2 ∧
      Rec (CountUses c ∨ HasCtx (st.env st.cur)) st2 iv := by
    match c, h2 with
    | .size i, h2 =>
      obtain ⟨h3, rfl⟩ := ofRes_ok h2
      exact ⟨hr1, .refl hr1.wf, by rw [e3, ← e2]; exact hr1.lt, fun hb => hiv1 (hb.resolve_left id)⟩
    | .con none, h2 =>
      obtain ⟨j, st3, h3, h4⟩ := bind_ok h2
      obtain ⟨rfl, rfl⟩ := pure_ok h4
      obtain ⟨f1, f2⟩ := Quiet.randbtw _ _ _ _ _ h3
      refine ⟨hr1.of_maps f1 f2, .of_maps hr1.wf f1, by rw [e3, ← e2, f1]; exact hr1.lt, fun hb => ?_⟩
      rw [env_eq (st := st1) (by rw [f1])]
      exact hiv1 (hb.resolve_left id)
    | .con (some (.leftover _)), h2 => cases h2
    | .con (some (.idRef ref)), h2 =>
      simp only [arrayCount] at h2
      obtain ⟨j, st3, h3, h4⟩ := bind_ok h2
      obtain ⟨f1, f2⟩ := Quiet.randbtw _ _ _ _ _ h3
      have hr3 := hr1.of_maps f1 f2
      have hlt : iv.cst < st3.maps.length := by rw [e3, ← e2, ← f2]; exact hr3.lt
      obtain ⟨hx, hset⟩ := lookupOrCreateAt_ok hr3.wf hlt h4
      refine ⟨⟨hset.wf, by rw [hset.cur, hset.len]; exact hr3.lt⟩,
        (Keep.of_maps hr1.wf f1).trans (hset.keep fun hh => hh.orCreate _ _), by rw [hset.len]; exact hlt, fun hb => ?_⟩
      rw [hset.env]
      rcases hb with hb | hb
      · exact .create hb _
      · refine HasCtx.orCreate ?_ _ _
        rw [env_eq (st := st1) (by rw [f1])]
        exact hiv1 hb
  obtain ⟨s2, s3, s4⟩ := step
  have A := arrayLoop_uses hsel (uact_genBase hS "" b) s2 (fun v hv => by cases List.mem_singleton.1 hv; exact s4) hd
  have g : Keep st.maps.length st st2 := by
    rw [e1] at s3
    exact (Keep.of_maps hr.wf e1).trans s3
  exact ⟨g.trans (A.keep.mono g.le), A.runs, A.vecs⟩

theorem genLeaf_uses (hsel : Selects E) {U : String → Prop} {S : Struct → TM E (List Vec)} (hS : SUses U r S) (l : Leaf) :
    UAct (LeafUses U l) (genLeaf r S l) := by
  cases l with
  | field f =>
    obtain ⟨k, t⟩ := f
    cases t with
    | base b =>
      cases b with
      | int t => exact uact_genInt k t
      | char => exact uact_genInt (r := r) k U8
      | struct n => exact uact_genStructRef hS n
    | ptr => exact uact_vector (b := [])
    | nulterm =>
      exact UAct.quiet ((Quiet.randbtw _ _).bind fun _ => (Quiet.randletters _).bind fun _ => .pure _) fun _ _ _ _ => uact_vector
    | fixedArray b i => exact genArray_uses hsel hS b (.size i)
    | varArray b c =>
      refine (genArray_uses hsel hS b (.con c)).imp ?_
      cases c with
      | none => exact id
      | some lc => cases lc <;> exact id
  | ignore =>
    intro st vs st' hr h
    simp only [genLeaf] at h
    obtain ⟨v, st1, h1, ha⟩ := bind_ok h
    clear h
    obtain ⟨k, st2, h2, hb⟩ := bind_ok ha
    clear ha
    obtain ⟨b, st3, h3, hc⟩ := bind_ok hb
    clear hb
    obtain ⟨v', st4, h4, hd⟩ := bind_ok hc
    clear hc
    obtain ⟨rfl, rfl⟩ := pure_ok hd
    cases h1
    obtain ⟨f1, f2⟩ := Quiet.randbtw _ _ _ _ _ h2
    obtain ⟨f3, f4⟩ := Quiet.randread _ _ _ _ h3
    cases h4
    have em : st3.maps = st.maps := f3.trans f1
    have ec : st3.cur = st.cur := f4.trans f2
    refine ⟨.of_maps hr.wf em, hr.of_maps em ec, fun x hx => ?_⟩
    have henv : ∀ a, (({ st3 with arrs := st3.arrs ++ [b] } : St E)).env a = st.env a := fun a => env_eq (by rw [← em])
    have hcst : x.cst = st.cur := by
      rcases List.mem_cons.1 hx with rfl | hx
      · rfl
      · cases List.mem_singleton.1 hx; exact ec
    refine ⟨by rw [hcst]; show st.cur < st3.maps.length; rw [em]; exact hr.lt, fun hb => ?_⟩
    rw [hcst, henv]
    exact hb.resolve_left id
  | fail => exact UAct.nil
  | eos => exact uact_vector (b := [])

theorem appendAll_uses {b : Prop} {d : Slice} : ∀ {vs ws : List Vec} {st st' : St E}, Runs st →
    (∀ v ∈ vs, Rec b st v) → appendAll d vs st = .ok (ws, st') →
    st'.maps = st.maps ∧ st'.cur = st.cur ∧ ∀ v ∈ ws, Rec b st' v := by
  intro vs
  induction vs with
  | nil =>
    intro ws st st' hr hv h
    obtain ⟨rfl, rfl⟩ := pure_ok h
    exact ⟨rfl, rfl, by simp⟩
  | cons v vs ih =>
    intro ws st st' hr hv h
    simp only [appendAll] at h
    obtain ⟨b, st1, h1, ha⟩ := bind_ok h
    clear h
    cases h1
    obtain ⟨s, st2, h2, hb⟩ := bind_ok ha
    clear ha
    obtain ⟨rest, st3, h3, hc⟩ := bind_ok hb
    clear hb
    obtain ⟨rfl, rfl⟩ := pure_ok hc
    obtain ⟨e1, e2⟩ := Quiet.appendSlice _ _ _ _ _ h2
    have g : Keep st.maps.length st st2 := .of_maps hr.wf e1
    obtain ⟨q1, q2, q3⟩ := ih (hr.of_maps e1 e2) (fun v hv' => (hv v (List.mem_cons_of_mem _ hv')).after g) h3
    refine ⟨q1.trans e1, q2.trans e2, fun x hx => ?_⟩
    rcases List.mem_cons.1 hx with rfl | hx
    · have hv0 := hv v List.mem_cons_self
      refine ⟨by show v.cst < _; rw [q1, e1]; exact hv0.lt, fun hb => ?_⟩
      show HasCtx (St.env _ v.cst)
      rw [env_eq (st := st) (by rw [q1, e1])]; exact hv0.has hb
    · exact q3 x hx

theorem extendAll_uses {b b' : Prop} {act : TM E (List Vec)} (hact : UAct b act) : ∀ {vs ws : List Vec} {st st' : St E},
    Runs st → (∀ v ∈ vs, Rec b' st v) → extendAll act vs st = .ok (ws, st') → URun (b ∨ b') st st' ws := by
  intro vs
  induction vs with
  | nil =>
    intro ws st st' hr hv h
    obtain ⟨rfl, rfl⟩ := pure_ok h
    exact ⟨.refl hr.wf, hr, by simp⟩
  | cons v vs ih =>
    intro ws st st' hr hv h
    simp only [extendAll] at h
    obtain ⟨u, st1, h1, ha⟩ := bind_ok h
    clear h
    cases h1
    obtain ⟨mvs, st2, h2, hb⟩ := bind_ok ha
    clear ha
    obtain ⟨ext, st3, h3, hc⟩ := bind_ok hb
    clear hb
    obtain ⟨rest, st4, h4, hd⟩ := bind_ok hc
    clear hc
    obtain ⟨rfl, rfl⟩ := pure_ok hd
    have hv0 := hv v List.mem_cons_self
    have A := hact _ _ _ (show Runs { st with cur := v.cst } from ⟨hr.wf, hv0.lt⟩) h2
    have A0 : Keep st.maps.length st st2 := ⟨A.keep.wf, A.keep.le, A.keep.old⟩
    obtain ⟨e1, e2, e3⟩ := appendAll_uses A.runs A.vecs h3
    have g13 : Keep st.maps.length st st3 := A0.trans (.of_maps A0.wf e1)
    have hr3 := A.runs.of_maps e1 e2
    have A' := ih hr3 (fun v hv' => (hv v (List.mem_cons_of_mem _ hv')).after g13) h4
    refine ⟨g13.trans (A'.keep.mono g13.le), A'.runs, fun x hx => ?_⟩
    rcases List.mem_append.1 hx with hx | hx
    · exact ((e3 x hx).after A'.keep).imp (Or.imp_right fun hb => hv0.has hb)
    · exact A'.vecs x hx

theorem membersLoop_uses (hsel : Selects E) {β : Type} {f : β → TM E (List Vec)} {g : β → Prop} : ∀ {ms : List β},
    (∀ m ∈ ms, UAct (g m) (f m)) → ∀ {vs ws : List Vec} {st st' : St E} {b : Prop}, Runs st → (∀ v ∈ vs, Rec b st v) →
    membersLoop f ms vs st = .ok (ws, st') → URun (b ∨ ∃ m ∈ ms, g m) st st' ws := by
  intro ms
  induction ms with
  | nil =>
    intro _ vs ws st st' b hr hv h
    obtain ⟨rfl, rfl⟩ := pure_ok h
    exact ⟨.refl hr.wf, hr, fun v hv' => (hv v hv').imp (by rintro (hb | ⟨m, hm, _⟩); exacts [hb, by cases hm])⟩
  | cons m ms ih =>
    intro hf vs ws st st' b hr hv h
    simp only [membersLoop] at h
    obtain ⟨ext, st1, h1, ha⟩ := bind_ok h
    clear h
    obtain ⟨sel, st2, h2, hb⟩ := bind_ok ha
    clear ha
    have A := extendAll_uses (hf m List.mem_cons_self) hr hv h1
    obtain ⟨hsp, _⟩ := select_ok hsel h2
    have e : st2.maps = st1.maps ∧ st2.cur = st1.cur := by cases h2; exact ⟨rfl, rfl⟩
    have g12 : ∀ M, Keep M st1 st2 := fun M => .of_maps A.runs.wf e.1
    have A' := ih (fun m hm => hf m (List.mem_cons_of_mem _ hm)) (A.runs.of_maps e.1 e.2)
      (fun v hv' => (A.vecs v (hsp.subset hv')).after (g12 _)) hb
    refine ⟨(A.keep.trans (g12 _)).trans (A'.keep.mono (by rw [e.1]; exact A.keep.le)), A'.runs, fun v hv' =>
      (A'.vecs v hv').imp ?_⟩
    rintro (hb | ⟨x, hx, hg⟩)
    · exact .inl (.inr hb)
    · rcases List.mem_cons.1 hx with rfl | hx
      · exact .inl (.inl hg)
      · exact .inr ⟨x, hx, hg⟩

/-- A new store, made current. -/
theorem Runs.fresh {st st' : St E} {c : Nat} {σ : CEnv} (h : NewAt st st' c σ) : Runs { st' with cur := c } :=
  ⟨h.wf, by show c < st'.maps.length; rw [h.ref, h.len]; omega⟩

theorem branchesLoop_uses (hsel : Selects E) {U : String → Prop} {S : Struct → TM E (List Vec)} (hS : SUses U r S)
    {tag : IDRef} {base : Nat} {b0 : Prop} : ∀ {bs : List Branch} {ws : List Vec} {st st' : St E},
    Runs st → base < st.maps.length → (b0 → HasCtx (st.env base)) → branchesLoop r S tag base bs st = .ok (ws, st') →
    URun ((tag.scope ≠ "" ∨ ∀ b ∈ bs, ∃ l ∈ b.case.members, LeafUses U l) ∨ b0) st st' ws := by
  intro bs
  induction bs with
  | nil =>
    intro ws st st' hr _ _ h
    obtain ⟨rfl, rfl⟩ := pure_ok h
    exact ⟨.refl hr.wf, hr, by simp⟩
  | cons b bs ih =>
    intro ws st st' hr hlt hcnt h
    simp only [branchesLoop] at h
    obtain ⟨c, st1, h1, ha⟩ := bind_ok h
    clear h
    have hn := cloneRef_ok hr.wf h1
    obtain ⟨u, st2, h2, h⟩ := bind_ok ha
    clear ha
    cases h2
    obtain ⟨x, st3, h3, ha⟩ := bind_ok h
    clear h
    obtain ⟨e1, e2⟩ := Quiet.randomIn _ _ _ _ h3
    have hr3 : Runs st3 := (Runs.fresh hn).of_maps e1 e2
    obtain ⟨y, st4, h4, h⟩ := bind_ok ha
    clear ha
    have hc3 : c < st3.maps.length := by rw [e1]; show c < st1.maps.length; rw [hn.ref, hn.len]; omega
    have ec : st3.cur = c := e2
    obtain ⟨_, hset⟩ := lookupOrCreateAt_ok hr3.wf hc3 h4
    have hr4 : Runs st4 := ⟨hset.wf, by rw [hset.cur, hset.len]; exact hr3.lt⟩
    have g04 : Keep st.maps.length st st4 := by
      have g1 : Keep st.maps.length st st3 :=
        hn.keep.trans ⟨hr3.wf, by rw [e1], fun a _ hx => by
          rw [env_eq (st := st1) (by rw [e1])]; exact hx⟩
      exact g1.trans (hset.keep fun hh => hh.orCreate _ _)
    obtain ⟨v, st5, h5, ha⟩ := bind_ok h
    clear h
    have e5 : st5.maps = st4.maps ∧ st5.cur = st4.cur ∧ v.cst = st4.cur := by cases h5; exact ⟨rfl, rfl, rfl⟩
    obtain ⟨f1, f2, f3⟩ := e5
    have hr5 := hr4.of_maps f1 f2
    have hv : Rec (tag.scope ≠ "" ∨ b0) st5 v := by
      refine ⟨by rw [f3, ← f2]; exact hr5.lt, fun hb => ?_⟩
      rw [f3, env_eq (st := st4) (by rw [f1]), hset.cur, ec, hset.env]
      rcases hb with hb | hb
      · exact .create hb _
      · refine HasCtx.orCreate ?_ _ _
        rw [env_eq (st := st1) (by rw [e1]), hn.env]
        exact hcnt hb
    have g05 : Keep st.maps.length st st5 := g04.trans (.of_maps hr4.wf f1)
    obtain ⟨vs, st6, h6, h⟩ := bind_ok ha
    clear ha
    have A := membersLoop_uses hsel (g := LeafUses U)
      (fun l hl => genLeaf_uses hsel hS l) hr5 (fun x hx => by
        cases List.mem_singleton.1 hx; exact hv) h6
    have g06 : Keep st.maps.length st st6 := g05.trans (A.keep.mono g05.le)
    obtain ⟨rest, st7, h7, ha⟩ := bind_ok h
    clear h
    obtain ⟨rfl, rfl⟩ := pure_ok ha
    have A' := ih A.runs (Nat.lt_of_lt_of_le hlt g06.le) (fun hb => g06.old _ hlt (hcnt hb)) h7
    refine ⟨g06.trans (A'.keep.mono g06.le), A'.runs, fun x hx => ?_⟩
    rcases List.mem_append.1 hx with hx | hx
    · refine ((A.vecs x hx).after A'.keep).imp ?_
      rintro ((hb | hb) | hb)
      · exact .inl (.inl hb)
      · obtain ⟨l, hl, hu⟩ := hb b List.mem_cons_self
        exact .inr ⟨l, List.mem_reverse.2 hl, hu⟩
      · exact .inl (.inr hb)
    · exact (A'.vecs x hx).imp (Or.imp_left (Or.imp_right fun hb b hb' => hb b (List.mem_cons_of_mem _ hb')))

theorem lenLoop_uses {b : Prop} {ref : IDRef} : ∀ {vs ws : List Vec} {st st' : St E}, Runs st →
    (∀ v ∈ vs, Rec b st v) → lenLoop ref vs st = .ok (ws, st') → URun (ref.scope ≠ "" ∨ b) st st' ws := by
  intro vs
  induction vs with
  | nil =>
    intro ws st st' hr hv h
    obtain ⟨rfl, rfl⟩ := pure_ok h
    exact ⟨.refl hr.wf, hr, by simp⟩
  | cons v vs ih =>
    intro ws st st' hr hv h
    simp only [lenLoop] at h
    obtain ⟨c, st1, h1, ha⟩ := bind_ok h
    clear h
    have hn := cloneRef_ok hr.wf h1
    obtain ⟨m, st2, h2, hb⟩ := bind_ok ha
    clear ha
    have hc1 : c < st1.maps.length := by rw [hn.ref, hn.len]; omega
    obtain ⟨_, hset⟩ := lookupOrCreateAt_ok hn.wf hc1 h2
    have g2 : Keep st.maps.length st st2 := hn.keep.trans (hset.keep fun hh => hh.orCreate _ _)
    have hv0 := hv v List.mem_cons_self
    have hr2 : Runs st2 := by
      have ecur : st2.cur = st.cur := hset.cur.trans hn.cur
      exact ⟨hset.wf, by rw [ecur]; exact Nat.lt_of_lt_of_le hr.lt g2.le⟩
    obtain ⟨rest, st3, h3, hc⟩ := bind_ok hb
    clear hb
    obtain ⟨rfl, rfl⟩ := pure_ok hc
    have A := ih hr2 (fun v hv' => (hv v (List.mem_cons_of_mem _ hv')).after g2) h3
    refine ⟨g2.trans (A.keep.mono g2.le), A.runs, fun x hx => ?_⟩
    split at hx
    · exact A.vecs x hx
    · rcases List.mem_cons.1 hx with rfl | hx
      · refine Rec.after (st := st2) ⟨by show c < _; rw [hset.len]; exact hc1, fun hb => ?_⟩ A.keep
        show HasCtx (st2.env c)
        rw [hset.env, hn.env]
        rcases hb with hb | hb
        · exact .create hb _
        · exact (hv0.has hb).orCreate _ _
      · exact A.vecs x hx

theorem genMember_uses (hsel : Selects E) {U : String → Prop} {S : Struct → TM E (List Vec)} (hS : SUses U r S) {s : Struct}
    (m : Member) : UAct (MemberUses U m) (genMember r S s m) := by
  cases m with
  | leaf l => exact genLeaf_uses hsel hS l
  | union u =>
    intro st vs st' hr h
    simp only [genMember] at h
    unfold genUnion at h
    obtain ⟨bs, st1, h1, ha⟩ := bind_ok h
    clear h
    obtain ⟨h1', rfl⟩ := ofRes_ok h1
    obtain ⟨c, st2, h2, hb⟩ := bind_ok ha
    clear ha
    obtain ⟨rfl, rfl⟩ := getCur_ok h2
    obtain ⟨mp, st3, h3, hc'⟩ := bind_ok hb
    clear hb
    obtain ⟨rfl, rfl⟩ := getMap_ok h3
    cases ho : branchOptions bs ((st3.map st3.cur).lookupRef u.tag) with
    | none =>
      rw [ho] at hc'
      exact UAct.nil (b := MemberUses U (.union u)) _ _ _ hr hc'
    | some opts =>
      rw [ho] at hc'
      obtain ⟨base, st4, h4, hd'⟩ := bind_ok hc'
      clear hc'
      have hn := cloneRef_ok hr.wf h4
      obtain ⟨res, st5, h5, he⟩ := bind_ok hd'
      clear hd'
      have g1 := hn.keep
      have hr4 : Runs st4 := ⟨hn.wf, by rw [hn.cur]; exact Nat.lt_of_lt_of_le hr.lt g1.le⟩
      have A := branchesLoop_uses (b0 := HasCtx (st3.env st3.cur)) hsel hS hr4 (by rw [hn.ref, hn.len]; omega)
        (by rw [hn.env]; exact id) h5
      have g15 : Keep st3.maps.length st3 st5 := g1.trans (A.keep.mono g1.le)
      have hall : (∀ c ∈ u.cases, ∃ l ∈ c.members, LeafUses U l) → ∀ b ∈ opts, ∃ l ∈ b.case.members, LeafUses U l :=
        fun h b hb => h _ (newBranches_cases h1' b (branchOptions_sub ho b hb))
      cases hl : u.length with
      | none =>
        rw [hl] at he
        obtain ⟨rfl, rfl⟩ := pure_ok he
        refine ⟨g15, A.runs, fun v hv => (A.vecs v hv).imp (Or.imp_left ?_)⟩
        rintro (h | h | h)
        · exact .inl h
        · rw [hl] at h; exact h.elim
        · exact .inr (hall h)
      | some lc =>
        rw [hl] at he
        cases lc with
        | leftover k => cases he
        | idRef ref =>
          have A' := lenLoop_uses A.runs A.vecs he
          refine ⟨g15.trans (A'.keep.mono g15.le), A'.runs, fun v hv => (A'.vecs v hv).imp ?_⟩
          rintro ((h | h | h) | h)
          · exact .inr (.inl (.inl h))
          · rw [hl] at h; exact .inl h
          · exact .inr (.inl (.inr (hall h)))
          · exact .inr (.inr h)

theorem clearAll_keep : ∀ {vs : List Vec} {st st' : St E} {u : Unit}, Runs st → (∀ v ∈ vs, v.cst < st.maps.length) →
    clearAll vs st = .ok (u, st') → Runs st' ∧ ∀ N, Keep N st st'
  | [], st, st', u, hr, _, h => by
    obtain ⟨_, rfl⟩ := pure_ok h
    exact ⟨hr, fun _ => .refl hr.wf⟩
  | v :: vs, st, st', u, hr, hv, h => by
    simp only [clearAll] at h
    obtain ⟨u', st1, h1, h2⟩ := bind_ok h
    have hset := clearLocalAt_ok hr.wf (hv v List.mem_cons_self) h1
    have g : ∀ N, Keep N st st1 := fun N => hset.keep fun hh => hh.globals
    have hr1 : Runs st1 := ⟨hset.wf, by rw [hset.cur, hset.len]; exact hr.lt⟩
    obtain ⟨q1, q2⟩ := clearAll_keep hr1 (fun x hx => by rw [hset.len]; exact hv x (List.mem_cons_of_mem _ hx)) h2
    exact ⟨q1, fun N => (g N).trans (q2 N)⟩

theorem structure_uses (hsel : Selects E) {Γ : Fmt} {U : String → Prop} (hU : FmtUses Γ U) (hst : r.struct = Γ.structs) :
    ∀ fuel k s, Γ.structs k = some s → s.extern = false → UAct (U k) (structure_ (E := E) r fuel s) := by
  intro fuel
  induction fuel with
  | zero => intro k s _ _ st vs st' _ h; cases h
  | succ fuel ih =>
    intro k s hs he st vs st' hr h
    simp only [structure_] at h
    obtain ⟨c, st1, h1, ha⟩ := bind_ok h
    clear h
    obtain ⟨rfl, rfl⟩ := getCur_ok h1
    obtain ⟨g, st2, h2, hb⟩ := bind_ok ha
    clear ha
    have hn := cloneGlobalRef_ok hr.wf h2
    obtain ⟨d, st3, h3, hc⟩ := bind_ok hb
    clear hb
    cases h3
    obtain ⟨ws, st4, h4, hd⟩ := bind_ok hc
    clear hc
    have hS : SUses U r (structure_ (E := E) r fuel) := fun j s1 hj hej => ih j s1 (by rw [← hst]; exact hj) hej
    have hg : g < st2.maps.length := by rw [hn.ref, hn.len]; omega
    have hr2 : Runs ({ st2 with arrs := st2.arrs ++ [[]] } : St E) := ⟨hn.wf, by
      show st2.cur < st2.maps.length
      rw [hn.cur]; exact Nat.lt_of_lt_of_le hr.lt hn.keep.le⟩
    have A := membersLoop_uses hsel (g := MemberUses U) (b := HasCtx (st1.env st1.cur))
      (fun m hm => genMember_uses hsel hS (s := s) m) hr2
      (fun v hv => by
        cases List.mem_singleton.1 hv
        refine ⟨hg, fun hb => ?_⟩
        show HasCtx (st2.env g)
        rw [hn.env]; exact hb.globals) h4
    have g14 : Keep st1.maps.length st1 st4 := by
      have hA : Keep st1.maps.length st2 st4 := by
        refine ⟨A.keep.wf, A.keep.le, fun a ha => A.keep.old a ?_⟩
        show a < st2.maps.length
        rw [hn.len]; omega
      exact hn.keep.trans hA
    obtain ⟨c5, st5, h5, hb⟩ := bind_ok hd
    clear hd
    obtain ⟨rfl, rfl⟩ := getCur_ok h5
    obtain ⟨u, st6, h6, hc⟩ := bind_ok hb
    clear hb
    obtain ⟨u', st7, h7, hd⟩ := bind_ok hc
    clear hc
    obtain ⟨rfl, rfl⟩ := pure_ok hd
    have hset := clearLocalAt_ok A.runs.wf A.runs.lt h6
    have gset : ∀ N, Keep N st5 st6 := fun N => hset.keep fun hh => hh.globals
    have hr6 : Runs st6 := ⟨hset.wf, by rw [hset.cur, hset.len]; exact A.runs.lt⟩
    obtain ⟨q1, q2⟩ := clearAll_keep hr6 (fun v hv => by rw [hset.len]; exact (A.vecs v hv).lt) h7
    refine ⟨(g14.trans (gset _)).trans (q2 _), q1, fun v hv => (((A.vecs v hv).after (gset _)).after (q2 _)).imp ?_⟩
    rintro (h | h)
    · obtain ⟨m, hm, hu⟩ := hU k s h hs he
      exact .inr ⟨m, List.mem_reverse.2 hm, hu⟩
    · exact .inl h

theorem suites_uses (hsel : Selects E) {Γ : Fmt} {U : String → Prop} (hU : FmtUses Γ U) (hst : r.struct = Γ.structs) {fuel : Nat} :
    ∀ {ss : List Struct} {out : List SuiteRef} {st st' : St E},
    (∀ s ∈ ss, s.extern = false → Γ.structs s.name = some s) → st.WF → suites r fuel ss st = .ok (out, st') →
    Keep st.maps.length st st' ∧ ∀ o ∈ out, ∀ v ∈ o.vectors, Rec (U o.type) st' v := by
  intro ss
  induction ss with
  | nil =>
    intro out st st' _ hwf h
    obtain ⟨rfl, rfl⟩ := pure_ok h
    exact ⟨.refl hwf, by simp⟩
  | cons s ss ih =>
    intro out st st' hss hwf h
    simp only [suites] at h
    have hss' := fun s hs => hss s (List.mem_cons_of_mem _ hs)
    cases he : s.extern with
    | true =>
      rw [he] at h
      simp only [if_true] at h
      exact ih hss' hwf h
    | false =>
      rw [he] at h
      simp only [Bool.false_eq_true, if_false] at h
      obtain ⟨c, st1, h1, ha⟩ := bind_ok h
      clear h
      obtain ⟨u, st2, h2, hb⟩ := bind_ok ha
      clear ha
      cases h2
      obtain ⟨vs, st3, h3, hc⟩ := bind_ok hb
      clear hb
      obtain ⟨rest, st4, h4, hd⟩ := bind_ok hc
      clear hc
      obtain ⟨rfl, rfl⟩ := pure_ok hd
      have hs := hss s List.mem_cons_self he
      have hn := newAt_of hwf Cst.wf_empty rfl rfl rfl h1
      have A := structure_uses hsel hU hst fuel s.name s hs he _ _ _ (Runs.fresh hn) h3
      obtain ⟨k4, B⟩ := ih hss' A.runs.wf h4
      have hA : Keep st.maps.length st1 st3 := ⟨A.keep.wf, A.keep.le, fun a ha => A.keep.old a (by
        show a < st1.maps.length; rw [hn.len]; omega)⟩
      have g03 : Keep st.maps.length st st3 := hn.keep.trans hA
      refine ⟨g03.trans (k4.mono g03.le), ?_⟩
      intro o ho v hv
      rcases List.mem_cons.1 ho with rfl | ho
      · exact ((A.vecs v hv).imp .inl).after k4
      · exact B o ho v hv

/-- All vectors of structs that use context variables record a context value. -/
theorem generateFiles_uses (hsel : Selects E) {nm : String → String} {ext : Go.Ext} {fs : List File} {fuel : Nat}
    {seed : E.R.σ} {corpus : Corpus} (h : generateFiles E fuel seed fs = .ok corpus) {U : String → Prop}
    (hU : FmtUses (fmtOf nm ext fs) U) : ∀ t ∈ corpus, U t.type → ∀ v ∈ t.vectors, HasCtx v.cst.lookup := by
  unfold generateFiles at h
  cases hr : newResolverFiles E.order fs with
  | err m => rw [hr] at h; cases h
  | panic m => rw [hr] at h; cases h
  | ok r =>
    rw [hr] at h
    simp only [] at h
    have hcomp : Props.FilesCompatible fs := by
      by_contra hc
      obtain ⟨m, hm⟩ := (Props.C11_multi_file E.order fs).2 hc
      rw [hm] at hr; cases hr
    obtain ⟨r', hr', h1, h2, h3⟩ := (Props.C11_multi_file E.order fs).1 hcomp
    rw [hr] at hr'
    cases hr'
    cases hs : suites (E := E) r fuel (fs.flatMap (·.structs)) (St.init seed) with
    | err m => rw [hs] at h; cases h
    | panic m => rw [hs] at h; cases h
    | timeout => rw [hs] at h; cases h
    | ok p =>
      obtain ⟨ss, st⟩ := p
      rw [hs] at h
      cases h
      intro t ht hu v hv
      obtain ⟨o, ho, rfl⟩ := List.mem_map.1 ht
      obtain ⟨x, hx, rfl⟩ := List.mem_map.1 hv
      exact ((suites_uses (Γ := fmtOf nm ext fs) hsel hU (by funext n; exact h1 n)
        (fun s hs he => Verif.Refine.defined_struct hcomp hs he) (by intro c hc; simp [St.init] at hc) hs).2 o ho x hx).has hu

end Verif.Tv
