import Verif.TvStruct
/-!
# Which variables vectors have values for, and when there are vectors at all
-/
set_option linter.unusedVariables false
namespace Verif.Tv
open Verif Verif.Ast Verif.Inspect Verif.Intervals Verif.Go Verif.Spec Verif.Wire Verif.Props

variable {E : Env} {α β : Type} {r : Resolver}

/-- A selector that keeps all vectors, as tv/selector.go:19 `Exhaustive` does. -/
def Keeps (E : Env) : Prop := ∀ k vs, (E.sel k vs).Perm vs

theorem Keeps.selects (h : Keeps E) : Selects E := fun k vs => (h k vs).subperm

/-- A variable: scope and name. The scope is empty for fields of the same struct. -/
abbrev Key := String × String

/-- The variable a reference is to. -/
abbrev refKey (ref : IDRef) : Key := (ref.scope, ref.name)

/-- Entries are for variables in `L`. -/
def Keys (L : List Key) (σ : CEnv) : Prop := ∀ c k x, σ c k = some x → (c, k) ∈ L

theorem Keys.sub {L L' : List Key} {σ : CEnv} (h : Keys L σ) (hL : L ⊆ L') : Keys L' σ :=
  fun c k x hx => hL (h c k x hx)

theorem Keys.none {L : List Key} {σ : CEnv} (h : Keys L σ) {c k : String} (hk : (c, k) ∉ L) : σ c k = none := by
  cases hx : σ c k with
  | none => rfl
  | some x => exact (hk (h c k x hx)).elim

theorem Keys.over {L : List Key} {σ τ : CEnv} (h : Keys L σ) (h' : Keys L τ) : Keys L (over σ τ) := by
  intro c k x hx
  unfold Tv.over at hx
  cases ht : τ c k with
  | none => rw [ht] at hx; exact h c k x hx
  | some y => exact h' c k y ht

theorem Keys.orCreate {L : List Key} {σ : CEnv} (h : Keys L σ) {ref : IDRef} (hr : refKey ref ∈ L) {v : Int} :
    Keys L (orCreate σ ref v) := by
  intro c k x hx
  unfold Tv.orCreate at hx
  split at hx
  · rename_i e
    rw [e.1, e.2]
    exact hr
  · exact h c k x hx

/-- Those of contexts. -/
def globs (L : List Key) : List Key := L.filter fun k => k.1 ≠ ""

theorem mem_globs {L : List Key} {k : Key} : k ∈ globs L ↔ k ∈ L ∧ k.1 ≠ "" := by simp [globs]

theorem globs_sub (L : List Key) : globs L ⊆ L := fun _ h => (mem_globs.1 h).1

theorem Keys.globals {L : List Key} {σ : CEnv} (h : Keys L σ) : Keys (globs L) (globals σ) := by
  intro c k x hx
  unfold Tv.globals at hx
  split at hx
  · cases hx
  · rename_i e
    exact mem_globs.2 ⟨h c k x hx, e⟩

/-- Nothing in common. -/
def Disj (T L : List Key) : Prop := ∀ k ∈ T, k ∉ L

instance (T L : List Key) : Decidable (Disj T L) := inferInstanceAs (Decidable (∀ k ∈ T, k ∉ L))

theorem Disj.sub {T T' L L' : List Key} (h : Disj T L) (hT : T' ⊆ T) (hL : L' ⊆ L) : Disj T' L' :=
  fun k hk hk' => h k (hT hk) (hL hk')

theorem Disj.app {T L L' : List Key} (h : Disj T L) (h' : Disj T L') : Disj T (L ++ L') := fun k hk hm =>
  (List.mem_append.1 hm).elim (h k hk) (h' k hk)

/-- What an action does to stores: old ones get entries for variables in `F` only, and the vectors' stores have,
besides those of the current store, entries for variables in `R` only; so has the new current store. If the current store has entries for
variables in `L` only and `W L`, there are vectors. -/
structure KAfter (F R : List Key) (W : List Key → Prop) (st st' : St E) (vs : List Vec) : Prop where
  wf : st'.WF
  cur_lt : st'.cur < st'.maps.length
  le : st.maps.length ≤ st'.maps.length
  lt : ∀ v ∈ vs, v.cst < st'.maps.length
  old : ∀ a, a < st.maps.length → ∀ L, F ⊆ L → Keys L (st.env a) → Keys L (st'.env a)
  vec : ∀ L, R ⊆ L → Keys L (st.env st.cur) → ∀ v ∈ vs, Keys L (st'.env v.cst)
  cur : ∀ L, R ⊆ L → Keys L (st.env st.cur) → Keys L (st'.env st'.cur)
  ne : ∀ L, W L → Keys L (st.env st.cur) → vs ≠ []

/-- Actions that do that. -/
def KAct (F R : List Key) (W : List Key → Prop) (x : TM E (List Vec)) : Prop :=
  ∀ st vs st', st.WF → st.cur < st.maps.length → x st = .ok (vs, st') → KAfter F R W st st' vs

theorem KAct.mono {F R F' R' : List Key} {W W' : List Key → Prop} {x : TM E (List Vec)} (h : KAct F R W x) (hF : F ⊆ F')
    (hR : R ⊆ R') (hW : ∀ L, W' L → W L) : KAct F' R' W' x := by
  intro st vs st' hw hc hx
  have A := h st vs st' hw hc hx
  exact ⟨A.wf, A.cur_lt, A.le, A.lt, fun a ha L hL => A.old a ha L (fun _ hk => hL (hF hk)),
    fun L hL => A.vec L (fun _ hk => hL (hR hk)), fun L hL => A.cur L (fun _ hk => hL (hR hk)), fun L hσ => A.ne L (hW _ hσ)⟩

/-! ## Actions that leave stores alone -/

/-- Stores and the current one are unchanged. -/
def Quiet (x : TM E α) : Prop := ∀ st a st', x st = .ok (a, st') → st'.maps = st.maps ∧ st'.cur = st.cur

/-- Moreover there are vectors, with the current store. -/
def Plain (x : TM E (List Vec)) : Prop := ∀ st vs st', x st = .ok (vs, st') →
  st'.maps = st.maps ∧ st'.cur = st.cur ∧ vs ≠ [] ∧ ∀ v ∈ vs, v.cst = st.cur

theorem Quiet.bind {x : TM E α} {f : α → TM E β} (h : Quiet x) (hf : ∀ a, Quiet (f a)) : Quiet (x >>= f) := by
  intro st b st' hb
  obtain ⟨a, st1, h1, h2⟩ := bind_ok hb
  obtain ⟨a1, a2⟩ := h _ _ _ h1
  obtain ⟨b1, b2⟩ := hf a _ _ _ h2
  exact ⟨b1.trans a1, b2.trans a2⟩

theorem Quiet.plain {x : TM E α} {f : α → TM E (List Vec)} (h : Quiet x) (hf : ∀ a, Plain (f a)) : Plain (x >>= f) := by
  intro st b st' hb
  obtain ⟨a, st1, h1, h2⟩ := bind_ok hb
  obtain ⟨a1, a2⟩ := h _ _ _ h1
  obtain ⟨b1, b2, b3, b4⟩ := hf a _ _ _ h2
  exact ⟨b1.trans a1, b2.trans a2, b3, fun v hv => (b4 v hv).trans a2⟩

theorem Quiet.pure (a : α) : Quiet (Pure.pure a : TM E α) := fun st b st' h => by
  obtain ⟨_, rfl⟩ := pure_ok h; exact ⟨rfl, rfl⟩

theorem Quiet.ofRes (a : Res α) : Quiet (TM.ofRes a : TM E α) := fun st b st' h => by
  obtain ⟨_, rfl⟩ := ofRes_ok h; exact ⟨rfl, rfl⟩

theorem Quiet.getCur : Quiet (Tv.getCur : TM E Nat) := fun st b st' h => by cases h; exact ⟨rfl, rfl⟩

theorem Quiet.getMap (c : Nat) : Quiet (Tv.getMap c : TM E Cst) := fun st b st' h => by cases h; exact ⟨rfl, rfl⟩

theorem Quiet.randbtw (a b : Nat) : Quiet (Tv.randbtw a b : TM E _) := fun st b st' h => by cases h; exact ⟨rfl, rfl⟩

theorem Quiet.randread (n : Nat) : Quiet (Tv.randread n : TM E _) := fun st b st' h => by cases h; exact ⟨rfl, rfl⟩

theorem Quiet.randomIn (s : Set) : Quiet (Tv.randomIn s : TM E _) := fun st b st' h => by
  unfold Tv.randomIn at h
  split at h <;> cases h
  exact ⟨rfl, rfl⟩

theorem Quiet.randletters : ∀ n, Quiet (Tv.randletters n : TM E _)
  | 0 => pure _
  | n + 1 => (randbtw _ _).bind fun _ => (randletters n).bind fun _ => pure _

theorem Quiet.appendSlice (d : Slice) (b : Bytes) : Quiet (Tv.appendSlice d b : TM E _) := fun st b st' h => by
  unfold Tv.appendSlice at h
  simp only [] at h
  split at h <;> (cases h; exact ⟨rfl, rfl⟩)

theorem Quiet.getSlice (b : Slice) : Quiet (Tv.getSlice b : TM E _) := fun st b st' h => by cases h; exact ⟨rfl, rfl⟩

theorem plain_vector (b : Bytes) : Plain (do let v ← vector b; pure [v] : TM E (List Vec)) := by
  intro st vs st' h
  cases h
  exact ⟨rfl, rfl, by simp, fun v hv => by cases List.mem_singleton.1 hv; rfl⟩

theorem plain_genInt (name : String) (t : IntType) : Plain (genInt r name t : TM E _) := by
  refine Quiet.getCur.plain fun c => (Quiet.getMap c).plain fun m => ?_
  cases m.lookup "" name with
  | some x => exact (Quiet.pure _).plain plain_vector
  | none =>
    cases t.constraint with
    | some l => exact (Quiet.ofRes _).plain fun _ => (Quiet.randomIn _).plain fun _ => (Quiet.pure _).plain plain_vector
    | none => exact (Quiet.randread _).plain plain_vector

theorem Plain.kact {x : TM E (List Vec)} (h : Plain x) {F R : List Key} {W : List Key → Prop} : KAct F R W x := by
  intro st vs st' hw hc hx
  obtain ⟨a1, a2, a3, a4⟩ := h _ _ _ hx
  have he : ∀ a, st'.env a = st.env a := fun a => env_eq (by rw [a1])
  refine ⟨by unfold St.WF; rw [a1]; exact hw, by rw [a1, a2]; exact hc, by rw [a1], ?_, ?_, ?_, ?_, fun _ _ _ => a3⟩
  · intro v hv; rw [a4 v hv, a1]; exact hc
  · intro a _ L _ hk; rw [he]; exact hk
  · intro L _ hk v hv; rw [he, a4 v hv]; exact hk
  · intro L _ hk; rw [he, a2]; exact hk

/-! ## Arrays -/

/-- Context variables, by struct: those generating the struct may give values, and among them those that decide
its unions. Structs within it are taken into account. -/
structure Glob where
  uses : String → List Key
  tags : String → List Key

/-- Context variables an element may give values. -/
def baseUses (G : Glob) : Base → List Key
  | .struct n => G.uses n
  | _ => []

/-- Context variables that decide unions of an element. -/
def baseTags (G : Glob) : Base → List Key
  | .struct n => G.tags n
  | _ => []

/-- Actions for nested structs: they give values to context variables only, and there are vectors if none of those
that decide unions have values. -/
def SKeys (G : Glob) (Γ : Fmt) (S : Struct → TM E (List Vec)) : Prop :=
  ∀ n s, Γ.structs n = some s → s.extern = false → KAct [] (G.uses n) (Disj (G.tags n)) (S s)

variable {Γ : Fmt} {G : Glob}

theorem genStructRef_keys {S : Struct → TM E (List Vec)} (hS : SKeys G Γ S) (hr : r.struct = Γ.structs) (n : String) :
    KAct [] (G.uses n) (Disj (G.tags n)) (genStructRef r S n) := by
  have key : ∀ {st st' : St E} {vs : List Vec}, genStructRef r S n st = .ok (vs, st') →
      ∃ s, Γ.structs n = some s ∧ s.extern = false ∧ S s st = .ok (vs, st') := by
    intro st st' vs h
    unfold genStructRef at h
    obtain ⟨s, st1, h1, h2⟩ := bind_ok h
    obtain ⟨h1', rfl⟩ := ofRes_ok h1
    unfold Resolver.structNonExtern at h1'
    rw [hr] at h1'
    cases hn : Γ.structs n with
    | none => rw [hn] at h1'; cases h1'
    | some s' =>
      rw [hn] at h1'
      simp only [] at h1'
      cases he : s'.extern with
      | true => rw [he] at h1'; cases h1'
      | false =>
        rw [he] at h1'
        simp only [Bool.false_eq_true, if_false] at h1'
        cases h1'
        exact ⟨s, rfl, he, h2⟩
  intro st vs st' hw hc h
  obtain ⟨s, h1, h2, h3⟩ := key h
  exact hS n s h1 h2 _ _ _ hw hc h3

theorem genBase_keys {S : Struct → TM E (List Vec)} (hS : SKeys G Γ S) (hr : r.struct = Γ.structs) (name : String) :
    ∀ b, KAct [] (baseUses G b) (Disj (baseTags G b)) (genBase r S name b)
  | .int t => (plain_genInt name t).kact
  | .char => (plain_genInt (r := r) name U8).kact
  | .struct n => genStructRef_keys hS hr n

theorem crossOne_keys (u : Vec) : ∀ {vs ws : List Vec} {st st' : St E}, st.WF → u.cst < st.maps.length →
    (∀ v ∈ vs, v.cst < st.maps.length) → crossOne u vs st = .ok (ws, st') →
    st'.WF ∧ st'.cur = st.cur ∧ st.maps.length ≤ st'.maps.length ∧
    (∀ a, a < st.maps.length → st'.maps[a]? = st.maps[a]?) ∧ (∀ w ∈ ws, w.cst < st'.maps.length) ∧
    (∀ L, Keys L (st.env u.cst) → (∀ v ∈ vs, Keys L (st.env v.cst)) → ∀ w ∈ ws, Keys L (st'.env w.cst)) ∧
    (vs ≠ [] → ws ≠ []) := by
  intro vs
  induction vs with
  | nil =>
    intro ws st st' hw _ _ h
    obtain ⟨rfl, rfl⟩ := pure_ok h
    exact ⟨hw, rfl, Nat.le_refl _, fun _ _ => rfl, by simp, by simp, fun h => h⟩
  | cons v vs ih =>
    intro ws st st' hw hu hv h
    simp only [crossOne] at h
    obtain ⟨m, st1, h1, ha⟩ := bind_ok h
    clear h
    obtain ⟨d, st2, h2, hb⟩ := bind_ok ha
    clear ha
    obtain ⟨sl, st3, h3, hc⟩ := bind_ok hb
    clear hb
    obtain ⟨rest, st4, h4, hd⟩ := bind_ok hc
    clear hc
    obtain ⟨rfl, rfl⟩ := pure_ok hd
    obtain ⟨_, hnew⟩ := mergeRef_ok hw h1
    obtain ⟨a1, a2⟩ := Quiet.getSlice _ _ _ _ h2
    obtain ⟨b1, b2⟩ := Quiet.appendSlice _ _ _ _ _ h3
    have e3 : st3.maps = st1.maps := b1.trans a1
    have hw3 : st3.WF := by unfold St.WF; rw [e3]; exact hnew.wf
    have hl3 : st3.maps.length = st.maps.length + 1 := by rw [e3, hnew.len]
    have hold : ∀ a, a < st.maps.length → st3.maps[a]? = st.maps[a]? := fun a ha => by rw [e3]; exact hnew.old a ha
    obtain ⟨q1, q2, q3, q4, q5, q6, q7⟩ := ih hw3 (by omega)
      (fun w hw' => by have := hv w (List.mem_cons_of_mem _ hw'); omega) h4
    refine ⟨q1, q2.trans ((b2.trans a2).trans hnew.cur), by omega, fun a ha => ?_, ?_, ?_, fun _ => by simp⟩
    · rw [q4 a (by omega), hold a ha]
    · intro w hw'
      rcases List.mem_cons.1 hw' with rfl | hw'
      · show m < _
        rw [hnew.ref]; omega
      · exact q5 w hw'
    · intro L hL1 hL2 w hw'
      rcases List.mem_cons.1 hw' with rfl | hw'
      · show Keys L (st'.env m)
        rw [env_eq (q4 m (by rw [hnew.ref]; omega)), env_eq (st := st1) (by rw [e3]), hnew.env]
        exact hL1.over (hL2 v List.mem_cons_self)
      · refine q6 L ?_ (fun v' hv' => ?_) w hw'
        · rw [env_eq (hold _ hu)]; exact hL1
        · rw [env_eq (hold _ (hv v' (List.mem_cons_of_mem _ hv')))]
          exact hL2 v' (List.mem_cons_of_mem _ hv')

theorem cross_keys : ∀ {us vs ws : List Vec} {st st' : St E}, st.WF → (∀ u ∈ us, u.cst < st.maps.length) →
    (∀ v ∈ vs, v.cst < st.maps.length) → cross us vs st = .ok (ws, st') →
    st'.WF ∧ st'.cur = st.cur ∧ st.maps.length ≤ st'.maps.length ∧
    (∀ a, a < st.maps.length → st'.maps[a]? = st.maps[a]?) ∧ (∀ w ∈ ws, w.cst < st'.maps.length) ∧
    (∀ L, (∀ u ∈ us, Keys L (st.env u.cst)) → (∀ v ∈ vs, Keys L (st.env v.cst)) → ∀ w ∈ ws, Keys L (st'.env w.cst)) ∧
    (us ≠ [] → vs ≠ [] → ws ≠ []) := by
  intro us
  induction us with
  | nil =>
    intro vs ws st st' hw _ _ h
    obtain ⟨rfl, rfl⟩ := pure_ok h
    exact ⟨hw, rfl, Nat.le_refl _, fun _ _ => rfl, by simp, by simp, fun h => (h rfl).elim⟩
  | cons u us ih =>
    intro vs ws st st' hw hu hv h
    simp only [cross] at h
    obtain ⟨p, st1, h1, ha⟩ := bind_ok h
    clear h
    obtain ⟨rest, st2, h2, hb⟩ := bind_ok ha
    clear ha
    obtain ⟨rfl, rfl⟩ := pure_ok hb
    obtain ⟨c1, c2, c3, c4, c5, c6, c7⟩ := crossOne_keys u hw (hu u List.mem_cons_self) hv h1
    obtain ⟨q1, q2, q3, q4, q5, q6, q7⟩ := ih c1
      (fun w hw' => by have := hu w (List.mem_cons_of_mem _ hw'); omega)
      (fun w hw' => by have := hv w hw'; omega) h2
    refine ⟨q1, q2.trans c2, by omega, fun a ha => ?_, ?_, ?_, ?_⟩
    · rw [q4 a (by omega), c4 a ha]
    · intro w hw'
      rcases List.mem_append.1 hw' with hw' | hw'
      · have := c5 w hw'; omega
      · exact q5 w hw'
    · intro L hL1 hL2 w hw'
      rcases List.mem_append.1 hw' with hw' | hw'
      · rw [env_eq (q4 _ (c5 w hw'))]
        exact c6 L (hL1 u List.mem_cons_self) hL2 w hw'
      · refine q6 L (fun v' hv' => ?_) (fun v' hv' => ?_) w hw'
        · rw [env_eq (c4 _ (hu v' (List.mem_cons_of_mem _ hv')))]; exact hL1 v' (List.mem_cons_of_mem _ hv')
        · rw [env_eq (c4 _ (hv v' hv'))]; exact hL2 v' hv'
    · intro _ hne e
      exact c7 hne (List.append_eq_nil_iff.1 e).1

theorem select_keeps (hk : Keeps E) {vs ws : List Vec} {st st' : St E} (h : select vs st = .ok (ws, st')) :
    ws.Perm vs ∧ st' = { st with calls := st.calls + 1 } := by
  simp only [select, Out.ok.injEq, Prod.mk.injEq] at h
  obtain ⟨rfl, rfl⟩ := h
  exact ⟨hk _ _, rfl⟩

theorem perm_ne {vs ws : List Vec} (h : ws.Perm vs) (hn : vs ≠ []) : ws ≠ [] := by
  rintro rfl
  exact hn h.symm.eq_nil

theorem arrayLoop_keys (hk : Keeps E) {elem : TM E (List Vec)} {R : List Key} {good : Prop}
    (hel : KAct [] R (fun _ => good) elem) :
    ∀ {n : Nat} {vs ws : List Vec} {st st' : St E}, st.WF → st.cur < st.maps.length → (∀ v ∈ vs, v.cst < st.maps.length) →
    arrayLoop elem n vs st = .ok (ws, st') →
    st'.WF ∧ st'.cur < st'.maps.length ∧ st.maps.length ≤ st'.maps.length ∧ (∀ w ∈ ws, w.cst < st'.maps.length) ∧
    (∀ a, a < st.maps.length → ∀ L, Keys L (st.env a) → Keys L (st'.env a)) ∧
    (∀ L, R ⊆ L → Keys L (st.env st.cur) → (∀ v ∈ vs, Keys L (st.env v.cst)) → ∀ w ∈ ws, Keys L (st'.env w.cst)) ∧
    (good → ∀ L, R ⊆ L → Keys L (st.env st.cur) → vs ≠ [] → ws ≠ []) ∧
    (∀ L, R ⊆ L → Keys L (st.env st.cur) → Keys L (st'.env st'.cur)) := by
  intro n
  induction n with
  | zero =>
    intro vs ws st st' hw hc hv h
    obtain ⟨rfl, rfl⟩ := pure_ok h
    exact ⟨hw, hc, Nat.le_refl _, hv, fun _ _ _ h => h, fun _ _ _ h => h, fun _ _ _ _ h => h, fun _ _ h => h⟩
  | succ n ih =>
    intro vs ws st st' hw hc hv h
    simp only [arrayLoop] at h
    obtain ⟨us, st1, h1, ha⟩ := bind_ok h
    clear h
    obtain ⟨xs, st2, h2, hb⟩ := bind_ok ha
    clear ha
    obtain ⟨ys, st3, h3, hd⟩ := bind_ok hb
    clear hb
    have A := hel _ _ _ hw hc h1
    have hle := A.le
    obtain ⟨c1, c2, c3, c4, c5, c6, c7⟩ := cross_keys A.wf A.lt (fun v hv' => by have := hv v hv'; omega) h2
    obtain ⟨hp, rfl⟩ := select_keeps hk h3
    obtain ⟨q1, q2, q3, q4, q5, q6, q7, q8⟩ := ih (st := { st2 with calls := st2.calls + 1 }) c1
      (by show st2.cur < st2.maps.length; rw [c2]; have := A.cur_lt; omega) (fun v hv' => c5 v (hp.subset hv')) hd
    have henv : ∀ a, ({ st2 with calls := st2.calls + 1 } : St E).env a = st2.env a := fun _ => rfl
    have hl : st2.maps.length ≤ st'.maps.length := q3
    have hold : ∀ a, a < st.maps.length → ∀ L, Keys L (st.env a) → Keys L (st2.env a) := by
      intro a ha L hL
      rw [env_eq (c4 a (by omega))]
      exact A.old a ha L (by simp) hL
    have hcur : ∀ L, R ⊆ L → Keys L (st.env st.cur) → Keys L (st2.env st2.cur) := by
      intro L hR hL
      rw [c2, env_eq (c4 _ A.cur_lt)]
      exact A.cur L hR hL
    refine ⟨q1, q2, by omega, q4, ?_, ?_, ?_, fun L hR hL => q8 L hR (hcur L hR hL)⟩
    · intro a ha L hL
      exact q5 a (by show a < st2.maps.length; omega) L (hold a ha L hL)
    · intro L hR hL1 hL2
      refine q6 L hR (hcur L hR hL1) ?_
      intro v hv'
      show Keys L (st2.env v.cst)
      refine c6 L (A.vec L hR hL1) (fun w hw' => ?_) v (hp.subset hv')
      exact A.old _ (hv w hw') L (by simp) (hL2 w hw')
    · intro hg L hR hL hne
      exact q7 hg L hR (hcur L hR hL) (perm_ne hp (c7 (A.ne L hg hL) hne))

/-- Variables the number of elements refers to. -/
def countKeys : Count → List Key
  | .con (some (.idRef ref)) => [refKey ref]
  | _ => []

theorem arrayCount_keys {iv : Vec} {c : Count} {n : Int} {st st' : St E} (hw : st.WF) (hiv : iv.cst < st.maps.length)
    (h : arrayCount r iv c st = .ok (n, st')) :
    st'.WF ∧ st'.cur = st.cur ∧ st'.maps.length = st.maps.length ∧
    ∀ a L, countKeys c ⊆ L → Keys L (st.env a) → Keys L (st'.env a) := by
  have quiet : st'.maps = st.maps → st'.cur = st.cur → st'.WF ∧ st'.cur = st.cur ∧ st'.maps.length = st.maps.length ∧
      ∀ a L, countKeys c ⊆ L → Keys L (st.env a) → Keys L (st'.env a) := by
    intro e1 e2
    refine ⟨by unfold St.WF; rw [e1]; exact hw, e2, by rw [e1], fun a L _ hL => ?_⟩
    rw [env_eq (st := st) (st' := st') (by rw [e1])]; exact hL
  match c, h with
  | .size i, h =>
    obtain ⟨h1, rfl⟩ := ofRes_ok h
    exact quiet rfl rfl
  | .con none, h =>
    have : Quiet (arrayCount (E := E) r iv (.con none)) := (Quiet.randbtw _ _).bind fun _ => Quiet.pure _
    obtain ⟨e1, e2⟩ := this _ _ _ h
    exact quiet e1 e2
  | .con (some (.leftover k)), h => cases h
  | .con (some (.idRef ref)), h =>
    simp only [arrayCount] at h
    obtain ⟨k, st1, h1, ha⟩ := bind_ok h
    clear h
    obtain ⟨e1, e2⟩ := Quiet.randbtw _ _ _ _ _ h1
    have hw1 : st1.WF := by unfold St.WF; rw [e1]; exact hw
    obtain ⟨_, hset⟩ := lookupOrCreateAt_ok hw1 (by rw [e1]; exact hiv) ha
    refine ⟨hset.wf, hset.cur.trans e2, by rw [hset.len, e1], fun a L hL hk => ?_⟩
    have e : ∀ a, st1.env a = st.env a := fun a => env_eq (by rw [e1])
    by_cases ea : a = iv.cst
    · subst ea
      rw [hset.env, e]
      exact hk.orCreate (hL (by simp [countKeys]))
    · rw [env_eq (hset.old a ea), e]; exact hk

theorem genArray_keys (hk : Keeps E) {S : Struct → TM E (List Vec)} (hS : SKeys G Γ S) (hr : r.struct = Γ.structs)
    (b : Base) (c : Count) :
    KAct (countKeys c) (countKeys c ++ baseUses G b) (fun _ => baseTags G b = []) (genArray r S b c) := by
  intro st vs st' hw hc h
  unfold genArray at h
  obtain ⟨iv, st1, h1, ha⟩ := bind_ok h
  clear h
  obtain ⟨n, st2, h2, hd⟩ := bind_ok ha
  clear ha
  have e : st1.maps = st.maps ∧ st1.cur = st.cur ∧ iv.cst = st.cur := by cases h1; exact ⟨rfl, rfl, rfl⟩
  obtain ⟨e1, e2, e3⟩ := e
  have hw1 : st1.WF := by unfold St.WF; rw [e1]; exact hw
  obtain ⟨b1, b2, b3, b4⟩ := arrayCount_keys hw1 (by rw [e1, e3]; exact hc) h2
  have hlen : st2.maps.length = st.maps.length := by rw [b3, e1]
  have henv : ∀ a L, countKeys c ⊆ L → Keys L (st.env a) → Keys L (st2.env a) := by
    intro a L hL h
    refine b4 a L hL ?_
    rw [env_eq (st := st) (by rw [e1])]
    exact h
  have k1 := genBase_keys hS hr "" b
  obtain ⟨q1, q2, q3, q4, q5, q6, q7, q8⟩ := arrayLoop_keys hk (good := baseTags G b = [])
    (KAct.mono k1 (fun _ h => h) (fun _ h => h) (fun L hb k hk' => by rw [hb] at hk'; simp at hk')) b1
    (by rw [b2, e2, hlen]; exact hc) (fun v hv => by cases List.mem_singleton.1 hv; rw [e3, hlen]; exact hc) hd
  refine ⟨q1, q2, by omega, q4, ?_, ?_, ?_, ?_⟩
  · intro a ha L hL h
    exact q5 a (by omega) L (henv a L hL h)
  · intro L hL h
    refine q6 L (fun _ h => hL (List.mem_append_right _ h)) ?_ ?_
    · rw [b2, e2]; exact henv _ L (fun _ h => hL (List.mem_append_left _ h)) h
    · intro v hv
      cases List.mem_singleton.1 hv
      rw [e3]
      exact henv _ L (fun _ h => hL (List.mem_append_left _ h)) h
  · intro L hL h
    refine q8 L (fun _ h => hL (List.mem_append_right _ h)) ?_
    rw [b2, e2]; exact henv _ L (fun _ h => hL (List.mem_append_left _ h)) h
  · intro L hg h
    refine q7 hg (L ++ (countKeys c ++ baseUses G b))
      (fun _ h => List.mem_append_right _ (List.mem_append_right _ h)) ?_ (by simp)
    rw [b2, e2]
    exact henv _ _ (fun _ h => List.mem_append_right _ (List.mem_append_left _ h)) (h.sub (List.subset_append_left _ _))

/-! ## Leaves -/

/-- Variables a leaf refers to. -/
def leafOwn : Leaf → List Key
  | .field ⟨_, .varArray _ c⟩ => countKeys (.con c)
  | _ => []

/-- Context variables that structs within a leaf may give values. -/
def leafUses (G : Glob) : Leaf → List Key
  | .field ⟨_, .base b⟩ => baseUses G b
  | .field ⟨_, .fixedArray b _⟩ => baseUses G b
  | .field ⟨_, .varArray b _⟩ => baseUses G b
  | _ => []

/-- Variables that generating a leaf may give values. -/
def leafKeys (G : Glob) (l : Leaf) : List Key := leafOwn l ++ leafUses G l

/-- Context variables that decide unions within a leaf. -/
def leafTags (G : Glob) : Leaf → List Key
  | .field ⟨_, .base b⟩ => baseTags G b
  | _ => []

/-- Elements of arrays have no unions that contexts decide. -/
def LeafPlain (G : Glob) : Leaf → Prop
  | .field ⟨_, .fixedArray b _⟩ => baseTags G b = []
  | .field ⟨_, .varArray b _⟩ => baseTags G b = []
  | _ => True

theorem leafTags_own {l : Leaf} (h : leafTags G l ≠ []) : leafOwn l = [] := by
  cases l with
  | field f =>
    obtain ⟨n, t⟩ := f
    cases t <;> first | rfl | exact (h rfl).elim
  | _ => rfl

theorem genLeaf_keys (hk : Keeps E) {S : Struct → TM E (List Vec)} (hS : SKeys G Γ S) (hr : r.struct = Γ.structs) (l : Leaf) :
    KAct (leafOwn l) (leafKeys G l) (fun L => l ≠ .fail ∧ LeafPlain G l ∧ Disj (leafTags G l) L) (genLeaf r S l) := by
  cases l with
  | field f =>
    obtain ⟨n, t⟩ := f
    cases t with
    | base b => exact (genBase_keys hS hr n b).mono (by simp) (by simp [leafKeys, leafOwn, leafUses]) (fun _ h => h.2.2)
    | ptr => exact (plain_vector []).kact
    | nulterm =>
      have : Quiet (randnulterm (E := E)) := (Quiet.randbtw _ _).bind fun _ => (Quiet.randletters _).bind fun _ => Quiet.pure _
      exact (this.plain plain_vector).kact
    | fixedArray b k =>
      exact KAct.mono (genArray_keys hk hS hr b (.size k)) (by simp [countKeys])
        (by simp [countKeys, leafKeys, leafOwn, leafUses]) (fun _ h => h.2.1)
    | varArray b c => exact KAct.mono (genArray_keys hk hS hr b (.con c)) (fun _ h => h) (fun _ h => h) (fun _ h => h.2.1)
  | fail =>
    intro st vs st' hw hc h
    obtain ⟨rfl, rfl⟩ := pure_ok h
    exact ⟨hw, hc, Nat.le_refl _, by simp, fun _ _ _ _ h => h, by simp, fun _ _ h => h, fun _ h => (h.1 rfl).elim⟩
  | eos => exact (plain_vector []).kact
  | ignore =>
    refine Plain.kact ?_
    intro st vs st' h
    cases h
    refine ⟨rfl, rfl, by simp, fun v hv => ?_⟩
    simp only [List.mem_cons, List.not_mem_nil, or_false] at hv
    rcases hv with rfl | rfl <;> rfl

/-! ## Members -/

theorem appendAll_cst (d : Slice) : ∀ {mvs ext : List Vec} {st st' : St E}, appendAll d mvs st = .ok (ext, st') →
    st'.maps = st.maps ∧ st'.cur = st.cur ∧ ext.map (·.cst) = mvs.map (·.cst) := by
  intro mvs
  induction mvs with
  | nil =>
    intro ext st st' h
    obtain ⟨rfl, rfl⟩ := pure_ok h
    exact ⟨rfl, rfl, rfl⟩
  | cons mv mvs ih =>
    intro ext st st' h
    simp only [appendAll] at h
    obtain ⟨b, st1, h1, ha⟩ := bind_ok h
    clear h
    obtain ⟨sl, st2, h2, hb⟩ := bind_ok ha
    clear ha
    obtain ⟨rest, st3, h3, hc⟩ := bind_ok hb
    clear hb
    obtain ⟨rfl, rfl⟩ := pure_ok hc
    obtain ⟨a1, a2⟩ := Quiet.getSlice _ _ _ _ h1
    obtain ⟨b1, b2⟩ := Quiet.appendSlice _ _ _ _ _ h2
    obtain ⟨c1, c2, c3⟩ := ih h3
    exact ⟨c1.trans (b1.trans a1), c2.trans (b2.trans a2), by simp [c3]⟩

theorem extendAll_keys {act : TM E (List Vec)} {F R L L' : List Key} {W : List Key → Prop} {good : Prop}
    (hact : KAct F R W act) (hF : F ⊆ L) (hL : L ⊆ L') (hR : R ⊆ L') (hW : good → W L) :
    ∀ {vs : List Vec} {st st' : St E} {ext : List Vec}, st.WF → st.cur < st.maps.length →
    (∀ v ∈ vs, v.cst < st.maps.length ∧ Keys L (st.env v.cst)) → extendAll act vs st = .ok (ext, st') →
    st'.WF ∧ st'.cur < st'.maps.length ∧ st.maps.length ≤ st'.maps.length ∧
    (∀ a, a < st.maps.length → ∀ M, F ⊆ M → Keys M (st.env a) → Keys M (st'.env a)) ∧
    (∀ e ∈ ext, e.cst < st'.maps.length ∧ Keys L' (st'.env e.cst)) ∧ (good → vs ≠ [] → ext ≠ []) ∧
    (∀ M, L' ⊆ M → Keys M (st.env st.cur) → Keys M (st'.env st'.cur)) := by
  intro vs
  induction vs with
  | nil =>
    intro st st' ext hw hc _ h
    obtain ⟨rfl, rfl⟩ := pure_ok h
    exact ⟨hw, hc, Nat.le_refl _, fun _ _ _ _ h => h, by simp, fun _ h => h, fun _ _ h => h⟩
  | cons v vs ih =>
    intro st st' ext hw hc hv h
    simp only [extendAll] at h
    obtain ⟨u, st0, h0, ha⟩ := bind_ok h
    clear h
    simp only [setCur, Out.ok.injEq, Prod.mk.injEq, true_and] at h0
    obtain ⟨mvs, st1, h1, hb⟩ := bind_ok ha
    clear ha
    obtain ⟨ex, st2, h2, hc'⟩ := bind_ok hb
    clear hb
    obtain ⟨rest, st3, h3, hd⟩ := bind_ok hc'
    clear hc'
    obtain ⟨rfl, rfl⟩ := pure_ok hd
    obtain ⟨v1, v2⟩ := hv v List.mem_cons_self
    subst h0
    have A := hact _ _ _ (show ({ st with cur := v.cst } : St E).WF from hw) v1 h1
    have hle : st.maps.length ≤ st1.maps.length := A.le
    obtain ⟨c1, c2, c3⟩ := appendAll_cst _ h2
    have henv : ∀ a, st2.env a = st1.env a := fun a => env_eq (by rw [c1])
    have hold : ∀ a, a < st.maps.length → ∀ M, F ⊆ M → Keys M (st.env a) → Keys M (st2.env a) := by
      intro a ha M hM hk
      rw [henv]
      exact A.old a ha M hM hk
    have hex : ∀ e ∈ ex, e.cst < st2.maps.length ∧ Keys L' (st2.env e.cst) := by
      intro e he
      have : e.cst ∈ mvs.map (·.cst) := by rw [← c3]; exact List.mem_map.2 ⟨e, he, rfl⟩
      obtain ⟨w, hw', e'⟩ := List.mem_map.1 this
      rw [← e', henv, c1]
      exact ⟨A.lt w hw', A.vec L' hR (v2.sub hL) w hw'⟩
    obtain ⟨q1, q2, q3, q4, q5, q6, q7⟩ := ih (by unfold St.WF; rw [c1]; exact A.wf) (by rw [c1, c2]; exact A.cur_lt)
      (fun w hw' => by
        obtain ⟨w1, w2⟩ := hv w (List.mem_cons_of_mem _ hw')
        exact ⟨by rw [c1]; omega, hold _ w1 L hF w2⟩) h3
    have hle2 : st1.maps.length ≤ st'.maps.length := by rw [← c1]; exact q3
    refine ⟨q1, q2, by omega, ?_, ?_, ?_, ?_⟩
    · intro a ha M hM hk
      exact q4 a (by rw [c1]; omega) M hM (hold a ha M hM hk)
    · intro e he
      rcases List.mem_append.1 he with he | he
      · obtain ⟨e1, e2⟩ := hex e he
        exact ⟨Nat.lt_of_lt_of_le e1 q3, q4 _ e1 L' (fun _ h => hL (hF h)) e2⟩
      · exact q5 e he
    · intro hgood _ e
      have hm : mvs ≠ [] := A.ne L (hW hgood) v2
      have hx := (List.append_eq_nil_iff.1 e).1
      rw [hx] at c3
      exact hm (List.map_eq_nil_iff.1 c3.symm)
    · intro M hM _
      refine q7 M hM ?_
      rw [henv, c2]
      exact A.cur M (fun _ h => hM (hR h)) (v2.sub fun _ h => hM (hL h))

/-- Conditions under which a loop over members gives vectors and keeps variables in `refs`. -/
def StepKeys (good : Prop) (refs : List β → List Key) (f : β → TM E (List Vec)) (m : β) (post : List β) : Prop :=
  ∃ F R L W, KAct F R W (f m) ∧ F ⊆ L ∧ refs post ⊆ L ∧ L ⊆ refs (m :: post) ∧ R ⊆ refs (m :: post) ∧
    (good → W L)

theorem membersLoop_keys (hk : Keeps E) {f : β → TM E (List Vec)} {refs : List β → List Key} {all : List β}
    {good : Prop} (H : ∀ pre m post, pre ++ m :: post = all → StepKeys good refs f m post) :
    ∀ {rev ms0 : List β} {vs : List Vec} {st st' : St E} {ws : List Vec}, rev.reverse ++ ms0 = all →
    st.WF → st.cur < st.maps.length → (∀ v ∈ vs, v.cst < st.maps.length ∧ Keys (refs ms0) (st.env v.cst)) →
    membersLoop f rev vs st = .ok (ws, st') →
    st'.WF ∧ st'.cur < st'.maps.length ∧ st.maps.length ≤ st'.maps.length ∧
    (∀ a, a < st.maps.length → ∀ M, refs all ⊆ M → Keys M (st.env a) → Keys M (st'.env a)) ∧
    (∀ e ∈ ws, e.cst < st'.maps.length ∧ Keys (refs all) (st'.env e.cst)) ∧ refs ms0 ⊆ refs all ∧
    (good → vs ≠ [] → ws ≠ []) ∧ (∀ M, refs all ⊆ M → Keys M (st.env st.cur) → Keys M (st'.env st'.cur)) := by
  intro rev
  induction rev with
  | nil =>
    intro ms0 vs st st' ws e hw hc hv h
    obtain ⟨rfl, rfl⟩ := pure_ok h
    simp only [List.reverse_nil, List.nil_append] at e
    subst e
    exact ⟨hw, hc, Nat.le_refl _, fun _ _ _ _ h => h, hv, fun _ h => h, fun _ h => h, fun _ _ h => h⟩
  | cons m rev ih =>
    intro ms0 vs st st' ws e hw hc hv h
    simp only [membersLoop] at h
    obtain ⟨ext, st1, h1, ha⟩ := bind_ok h
    clear h
    obtain ⟨sel, st2, h2, hb⟩ := bind_ok ha
    clear ha
    have e' : rev.reverse ++ (m :: ms0) = all := by rw [← e]; simp
    obtain ⟨F, R, L, W, s1, s2, s3, s4, s5, s6⟩ := H _ m ms0 e'
    obtain ⟨p1, p2, p3, p4, p5, p6, p7⟩ := extendAll_keys s1 s2 s4 s5 s6 hw hc
      (fun v hv' => ⟨(hv v hv').1, (hv v hv').2.sub s3⟩) h1
    obtain ⟨hp, rfl⟩ := select_keeps hk h2
    obtain ⟨q1, q2, q3, q4, q5, q6, q7, q8⟩ := ih e' (st := { st1 with calls := st1.calls + 1 }) p1 p2
      (fun v hv' => p5 v (hp.subset hv')) hb
    have hL : L ⊆ refs all := fun _ h => q6 (s4 h)
    exact ⟨q1, q2, Nat.le_trans p3 q3,
      fun a ha M hM h => q4 a (Nat.lt_of_lt_of_le ha p3) M hM (p4 a ha M (fun _ h => hM (hL (s2 h))) h),
      q5, fun _ h => hL (s3 h), fun hg hne => q7 hg (perm_ne hp (p6 hg hne)),
      fun M hM h => q8 M hM (p7 M (fun _ h => hM (q6 h)) h)⟩

end Verif.Tv
