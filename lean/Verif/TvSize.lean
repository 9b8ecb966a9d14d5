import Verif.TvKeys
/-!
# A bound on the size of test vectors

The number of bytes of a vector is bounded by a number computed from the format, provided that what gives the number of
elements of an array is no tag: then all numbers of elements are drawn between 1 and 20, or are lengths of unions.
-/
set_option linter.unusedVariables false
namespace Verif.Tv
open Verif Verif.Ast Verif.Inspect Verif.Intervals Verif.Go Verif.Spec Verif.Wire Verif.Props

/-! ## Specification -/

/-- Variables that give numbers of elements. -/
def countsOf : Member → List Key
  | .leaf l => leafOwn l
  | .union u => u.cases.flatMap fun c => c.members.flatMap leafOwn

/-- The variable a union is selected by. -/
def tagOf : Member → List Key
  | .leaf _ => []
  | .union u => [refKey u.tag]

/-- Most bytes of an element, given most bytes of structs. -/
def baseSize (w : String → Nat) : Base → Nat
  | .int t => t.size / 8
  | .char => 1
  | .struct n => w n

/-- Most bytes of a field, given most bytes that unions record as their length (`M`). Numbers of elements, where not given
by the length of a union, are at most 20; strings have at most 20 letters. -/
def tySize (K : String → Option Int) (M : Key → Nat) (w : String → Nat) : Ty → Nat
  | .base b => baseSize w b
  | .ptr => 0
  | .nulterm => 21
  | .fixedArray b n => ((ival K n).getD 0).toNat * baseSize w b
  | .varArray b (some (.idRef ref)) => max 20 (M (refKey ref)) * baseSize w b
  | .varArray b _ => 20 * baseSize w b

/-- Most bytes of a leaf. -/
def leafSize (K : String → Option Int) (M : Key → Nat) (w : String → Nat) : Leaf → Nat
  | .field f => tySize K M w f.type
  | .ignore => 7
  | _ => 0

/-- Most bytes of the leaves of a case. -/
def leavesSize (K : String → Option Int) (M : Key → Nat) (w : String → Nat) : List Leaf → Nat
  | [] => 0
  | l :: ls => leafSize K M w l + leavesSize K M w ls

/-- Most bytes of a union. -/
def casesSize (K : String → Option Int) (M : Key → Nat) (w : String → Nat) : List UnionCase → Nat
  | [] => 0
  | c :: cs => max (leavesSize K M w c.members) (casesSize K M w cs)

/-- Most bytes of a member. -/
def memberSize (K : String → Option Int) (M : Key → Nat) (w : String → Nat) : Member → Nat
  | .leaf l => leafSize K M w l
  | .union u => casesSize K M w u.cases

/-- Most bytes of members. -/
def membersSize (K : String → Option Int) (M : Key → Nat) (w : String → Nat) : List Member → Nat
  | [] => 0
  | m :: ms => memberSize K M w m + membersSize K M w ms

/-- Variables whose values are bounded: those that give numbers of elements, in a struct and in contexts, and the
variables of contexts in `L`. -/
def Counts (Γ : Fmt) (L : Key → Prop) (s : Struct) (k : Key) : Prop :=
  k ∈ s.ms.flatMap countsOf ∨ (k.1 ≠ "" ∧ (L k ∨ ∃ n' s', Γ.structs n' = some s' ∧ s'.extern = false ∧ k ∈ s'.ms.flatMap countsOf))

/-- A format whose structs have at most `w` bytes in vectors: what gives numbers of elements (or is in `L`) is not the tag of
a union, and if it is the length of a union, the union has at most `M` bytes. -/
structure FmtSized (Γ : Fmt) (L : Key → Prop) (M : Key → Nat) (w : String → Nat) : Prop where
  tags : ∀ n s, Γ.structs n = some s → s.extern = false → ∀ k ∈ s.ms.flatMap tagOf, ¬ Counts Γ L s k
  lens : ∀ n s, Γ.structs n = some s → s.extern = false → ∀ u, .union u ∈ s.ms → ∀ ref, u.length = some (.idRef ref) →
    Counts Γ L s (refKey ref) → casesSize Γ.K M w u.cases ≤ max 20 (M (refKey ref))
  size : ∀ n s, Γ.structs n = some s → s.extern = false → membersSize Γ.K M w s.ms ≤ w n

/-! ## Stores -/

variable {E : Env} {r : Resolver} {P : Key → Prop} {M : Key → Nat} {n N : Nat}

/-- Stores before `N` only lose entries, or get entries between 1 and 20. -/
structure Gains (N : Nat) (st st' : St E) : Prop where
  wf : st'.WF
  le : st.maps.length ≤ st'.maps.length
  old : ∀ a, a < N → ∀ c k x, st'.env a c k = some x → st.env a c k = some x ∨ (1 ≤ x ∧ x ≤ 20)

/-- The values of some variables are bounded. -/
def CntOK (P : Key → Prop) (M : Key → Nat) (σ : CEnv) : Prop :=
  ∀ c k x, P (c, k) → σ c k = some x → 0 ≤ x ∧ x ≤ (max 20 (M (c, k)) : Nat)

theorem Gains.refl {st : St E} (h : st.WF) : Gains N st st := ⟨h, Nat.le_refl _, fun _ _ _ _ _ h => .inl h⟩

theorem Gains.trans {st st1 st2 : St E} (h : Gains N st st1) (h' : Gains N st1 st2) : Gains N st st2 :=
  ⟨h'.wf, Nat.le_trans h.le h'.le, fun a ha c k x hx => (h'.old a ha c k x hx).elim (h.old a ha c k x) .inr⟩

theorem Gains.mono {N' : Nat} {st st' : St E} (h : Gains N st st') (hN : N' ≤ N) : Gains N' st st' :=
  ⟨h.wf, h.le, fun a ha => h.old a (Nat.lt_of_lt_of_le ha hN)⟩

theorem Gains.cnt {st st' : St E} (h : Gains N st st') {a : Nat} (ha : a < N) (hc : CntOK P M (st.env a)) :
    CntOK P M (st'.env a) := fun c k x hP hx => (h.old a ha c k x hx).elim (hc c k x hP) fun h => ⟨by omega, by omega⟩

theorem Gains.of_maps {st st' : St E} (h : st.WF) (e : st'.maps = st.maps) : Gains N st st' :=
  ⟨by unfold St.WF; rw [e]; exact h, by rw [e], fun a _ c k x hx => .inl (by
    rw [env_eq (st := st) (st' := st') (by rw [e])] at hx; exact hx)⟩

theorem NewAt.gains {st st' : St E} {t : Nat} {σ : CEnv} (h : NewAt st st' t σ) : Gains st.maps.length st st' :=
  ⟨h.wf, by rw [h.len]; omega, fun a ha c k x hx => .inl (by rw [env_eq (h.old a ha)] at hx; exact hx)⟩

theorem SetAt.gains {st st' : St E} {t : Nat} {σ : CEnv} (h : SetAt st st' t σ)
    (hσ : t < N → ∀ c k x, σ c k = some x → st.env t c k = some x ∨ (1 ≤ x ∧ x ≤ 20)) : Gains N st st' := by
  refine ⟨h.wf, by rw [h.len], fun a ha c k x hx => ?_⟩
  by_cases e : a = t
  · subst e; rw [h.env] at hx; exact hσ ha c k x hx
  · rw [env_eq (h.old a e)] at hx; exact .inl hx

theorem CntOK.globals {σ : CEnv} (h : CntOK P M σ) : CntOK P M (globals σ) := by
  intro c k x hP hx
  unfold Tv.globals at hx
  split at hx
  · cases hx
  · exact h c k x hP hx

theorem CntOK.over {σ τ : CEnv} (h : CntOK P M σ) (h' : CntOK P M τ) : CntOK P M (over σ τ) := by
  intro c k x hP hx
  unfold Tv.over at hx
  cases ht : τ c k with
  | some y => rw [ht] at hx; cases hx; exact h' c k _ hP ht
  | none => rw [ht] at hx; exact h c k x hP hx

theorem CntOK.orCreate {σ : CEnv} (h : CntOK P M σ) {ref : IDRef} {v : Int} (hv : P (refKey ref) → 0 ≤ v ∧ v ≤ (max 20 (M (refKey ref)) : Nat)) :
    CntOK P M (orCreate σ ref v) := by
  intro c k x hP hx
  unfold Tv.orCreate at hx
  split at hx
  · rename_i e
    obtain ⟨rfl, rfl⟩ := e
    cases hx
    cases he : σ ref.scope ref.name with
    | none => exact hv hP
    | some y => exact h _ _ y hP he
  · exact h c k x hP hx

/-! ## Actions -/

/-- A vector of at most `n` bytes. -/
structure Sized (P : Key → Prop) (M : Key → Nat) (n : Nat) (st : St E) (v : Vec) : Prop where
  lt : v.cst < st.maps.length
  cnt : CntOK P M (st.env v.cst)
  len : v.data.len ≤ n

theorem Sized.gains {st st' : St E} {v : Vec} (h : Sized P M n st v) (g : Gains N st st') (hv : v.cst < N) :
    Sized P M n st' v := ⟨Nat.lt_of_lt_of_le h.lt g.le, g.cnt hv h.cnt, h.len⟩

theorem Sized.after {st st' : St E} {v : Vec} (h : Sized P M n st v) (g : Gains st.maps.length st st') : Sized P M n st' v :=
  h.gains g h.lt

/-- What holds before and after actions. -/
structure Ready (P : Key → Prop) (M : Key → Nat) (st : St E) : Prop where
  wf : st.WF
  lt : st.cur < st.maps.length
  cnt : CntOK P M (st.env st.cur)

theorem Ready.of_maps {st st' : St E} (h : Ready P M st) (e : st'.maps = st.maps) (ec : st'.cur = st.cur) : Ready P M st' :=
  ⟨by unfold St.WF; rw [e]; exact h.wf, by rw [e, ec]; exact h.lt, by
    rw [env_eq (st := st) (st' := st') (by rw [e]), ec]; exact h.cnt⟩

/-- What holds after an action that produces vectors. -/
structure SzAfter (P : Key → Prop) (M : Key → Nat) (n : Nat) (st st' : St E) (vs : List Vec) : Prop where
  gains : Gains st.maps.length st st'
  ready : Ready P M st'
  vecs : ∀ v ∈ vs, Sized P M n st' v

/-- An action that produces vectors of at most `n` bytes. -/
def ZAct (P : Key → Prop) (M : Key → Nat) (n : Nat) (x : TM E (List Vec)) : Prop :=
  ∀ st vs st', Ready P M st → x st = .ok (vs, st') → SzAfter P M n st st' vs

theorem ZAct.mono {m : Nat} {x : TM E (List Vec)} (h : ZAct P M n x) (hm : n ≤ m) : ZAct P M m x := fun st vs st' hr hx =>
  let A := h st vs st' hr hx
  ⟨A.gains, A.ready, fun v hv => ⟨(A.vecs v hv).lt, (A.vecs v hv).cnt, Nat.le_trans (A.vecs v hv).len hm⟩⟩

theorem ZAct.quiet {α : Type} {x : TM E α} {f : α → TM E (List Vec)} (hq : Quiet x)
    (hf : ∀ st a st', x st = .ok (a, st') → ZAct P M n (f a)) : ZAct P M n (x >>= f) := by
  intro st vs st' hr h
  obtain ⟨a, st1, h1, h2⟩ := bind_ok h
  obtain ⟨e1, e2⟩ := hq st a st1 h1
  have A := hf st a st1 h1 st1 vs st' (hr.of_maps e1 e2) h2
  refine ⟨?_, A.ready, A.vecs⟩
  have := A.gains
  rw [e1] at this
  exact (Gains.of_maps hr.wf e1).trans this

theorem ZAct.nil : ZAct P M n (pure [] : TM E (List Vec)) := by
  intro st vs st' hr h
  obtain ⟨rfl, rfl⟩ := pure_ok h
  exact ⟨.refl hr.wf, hr, by simp⟩

theorem zact_vector {b : Bytes} (hb : b.length ≤ n) : ZAct P M n (do let v ← vector b; pure [v] : TM E (List Vec)) := by
  intro st vs st' hr h
  cases h
  refine ⟨.of_maps hr.wf rfl, hr.of_maps rfl rfl, fun v hv => ?_⟩
  cases List.mem_singleton.1 hv
  exact ⟨hr.lt, hr.cnt, hb⟩

theorem Quiet.vector (b : Bytes) : Quiet (Tv.vector b : TM E _) := fun st a st' h => by cases h; exact ⟨rfl, rfl⟩

theorem read_le (st : St E) (d : Slice) : (st.read d).length ≤ d.len := by
  simp only [St.read, List.length_take]
  exact Nat.min_le_left _ _

theorem appendSlice_len {st st' : St E} {d d' : Slice} {b : Bytes} (h : appendSlice d b st = .ok (d', st')) :
    d'.len = d.len + b.length := by
  unfold appendSlice at h
  simp only [] at h
  split at h <;> (cases h; rfl)

theorem zact_genInt (name : String) (t : IntType) : ZAct P M (t.size / 8) (genInt r name t : TM E _) := by
  refine ZAct.quiet .getCur fun _ c _ _ => ZAct.quiet (.getMap c) fun _ m _ _ => ?_
  cases m.lookup "" name with
  | some x =>
    refine ZAct.quiet (.pure _) fun st a st' h => ?_
    obtain ⟨rfl, _⟩ := pure_ok h
    exact zact_vector (Nat.le_of_eq (Props.intbytesN_length _ _))
  | none =>
    cases t.constraint with
    | some l =>
      refine ZAct.quiet (.ofRes _) fun _ _ _ _ => ZAct.quiet (.randomIn _) fun _ _ _ _ => ZAct.quiet (.pure _) fun st a st' h => ?_
      obtain ⟨rfl, _⟩ := pure_ok h
      exact zact_vector (Nat.le_of_eq (Props.intbytesN_length _ _))
    | none =>
      refine ZAct.quiet (.randread _) fun st a st' h => ?_
      cases h
      exact zact_vector (Nat.le_of_eq (E.R.read_length _ _))

/-- Nested structs, for `S` standing for `structure_`. -/
def SSized (P : Key → Prop) (M : Key → Nat) (w : String → Nat) (r : Resolver) (S : Struct → TM E (List Vec)) : Prop :=
  ∀ k s, r.struct k = some s → s.extern = false → ZAct P M (w k) (S s)

theorem zact_genStructRef {w : String → Nat} {S : Struct → TM E (List Vec)} (hS : SSized P M w r S) (k : String) :
    ZAct P M (w k) (genStructRef r S k) := by
  refine ZAct.quiet (.ofRes _) fun st s st' h => ?_
  obtain ⟨h1', _⟩ := ofRes_ok h
  unfold Resolver.structNonExtern at h1'
  cases hn : r.struct k with
  | none => rw [hn] at h1'; cases h1'
  | some s' =>
    rw [hn] at h1'
    simp only [] at h1'
    cases he : s'.extern with
    | true => rw [he] at h1'; cases h1'
    | false =>
      rw [he] at h1'
      simp only [Bool.false_eq_true, if_false] at h1'
      cases h1'
      exact hS k s hn he

theorem zact_genBase {w : String → Nat} {S : Struct → TM E (List Vec)} (hS : SSized P M w r S) (name : String) :
    ∀ b, ZAct P M (baseSize w b) (genBase r S name b)
  | .int t => zact_genInt name t
  | .char => zact_genInt (r := r) name U8
  | .struct k => zact_genStructRef hS k

theorem crossOne_size {m : Nat} {u : Vec} : ∀ {vs ws : List Vec} {st st' : St E}, Ready P M st → Sized P M n st u →
    (∀ v ∈ vs, Sized P M m st v) → crossOne u vs st = .ok (ws, st') → SzAfter P M (n + m) st st' ws := by
  intro vs
  induction vs with
  | nil =>
    intro ws st st' hr hu hv h
    obtain ⟨rfl, rfl⟩ := pure_ok h
    exact ⟨.refl hr.wf, hr, by simp⟩
  | cons w b ih =>
    intro ws st st' hr hu hv h
    simp only [crossOne] at h
    obtain ⟨c, st1, h1, ha⟩ := bind_ok h
    clear h
    obtain ⟨d, st2, h2, hb⟩ := bind_ok ha
    clear ha
    cases h2
    obtain ⟨s, st3, h3, hc⟩ := bind_ok hb
    clear hb
    obtain ⟨rest, st4, h4, hd⟩ := bind_ok hc
    clear hc
    obtain ⟨rfl, rfl⟩ := pure_ok hd
    obtain ⟨_, hn⟩ := mergeRef_ok hr.wf h1
    obtain ⟨e1, e2⟩ := Quiet.appendSlice _ _ _ _ _ h3
    have hl := appendSlice_len h3
    have g1 := hn.gains
    have g2 : Gains st.maps.length st st3 := g1.trans (.of_maps hn.wf e1)
    have hr1 : Ready P M st1 := ⟨hn.wf, by rw [hn.cur]; exact Nat.lt_of_lt_of_le hr.lt g1.le, by
      rw [hn.cur]; exact g1.cnt hr.lt hr.cnt⟩
    have hr3 : Ready P M st3 := hr1.of_maps e1 e2
    have A := ih hr3 (hu.after g2) (fun v hv' => (hv v (List.mem_cons_of_mem _ hv')).after g2) h4
    have hw := hv w List.mem_cons_self
    have hlen : st3.maps.length = st.maps.length + 1 := by rw [e1, hn.len]
    refine ⟨g2.trans (A.gains.mono (by omega)), A.ready, fun v hv' => ?_⟩
    rcases List.mem_cons.1 hv' with rfl | hv'
    · refine Sized.after (st := st3) ⟨?_, ?_, ?_⟩ A.gains
      · show c < _; rw [hlen, hn.ref]; omega
      · show CntOK P M (st3.env c)
        rw [env_eq (st := st1) (by rw [e1]), hn.env]
        exact hu.cnt.over hw.cnt
      · show s.len ≤ _
        rw [hl]
        have := read_le st1 w.data
        have := hu.len
        have := hw.len
        omega
    · exact A.vecs v hv'

theorem cross_size {m : Nat} : ∀ {us vs ws : List Vec} {st st' : St E}, Ready P M st → (∀ u ∈ us, Sized P M n st u) →
    (∀ v ∈ vs, Sized P M m st v) → cross us vs st = .ok (ws, st') → SzAfter P M (n + m) st st' ws := by
  intro us
  induction us with
  | nil =>
    intro vs ws st st' hr hu hv h
    obtain ⟨rfl, rfl⟩ := pure_ok h
    exact ⟨.refl hr.wf, hr, by simp⟩
  | cons u us ih =>
    intro vs ws st st' hr hu hv h
    simp only [cross] at h
    obtain ⟨p, st1, h1, ha⟩ := bind_ok h
    clear h
    obtain ⟨rest, st2, h2, hb⟩ := bind_ok ha
    clear ha
    obtain ⟨rfl, rfl⟩ := pure_ok hb
    have A := crossOne_size hr (hu u List.mem_cons_self) hv h1
    have A' := ih A.ready (fun v hv => (hu v (List.mem_cons_of_mem _ hv)).after A.gains) (fun v hv' => (hv v hv').after A.gains) h2
    refine ⟨A.gains.trans (A'.gains.mono A.gains.le), A'.ready, fun v hv => ?_⟩
    rcases List.mem_append.1 hv with hv | hv
    · exact (A.vecs v hv).after A'.gains
    · exact A'.vecs v hv

theorem arrayLoop_size (hsel : Selects E) {m : Nat} {elem : TM E (List Vec)} (he : ZAct P M m elem) : ∀ {k : Nat} {vs ws : List Vec}
    {st st' : St E} {n : Nat}, Ready P M st → (∀ v ∈ vs, Sized P M n st v) → arrayLoop elem k vs st = .ok (ws, st') →
    SzAfter P M (n + k * m) st st' ws := by
  intro k
  induction k with
  | zero =>
    intro vs ws st st' n hr hv h
    obtain ⟨rfl, rfl⟩ := pure_ok h
    exact ⟨.refl hr.wf, hr, fun v hv' => by simpa using hv v hv'⟩
  | succ k ih =>
    intro vs ws st st' n hr hv h
    simp only [arrayLoop] at h
    obtain ⟨w, st1, h1, ha⟩ := bind_ok h
    clear h
    obtain ⟨x, st2, h2, hb⟩ := bind_ok ha
    clear ha
    obtain ⟨y, st3, h3, hc⟩ := bind_ok hb
    clear hb
    have A1 := he _ _ _ hr h1
    have A2 := cross_size A1.ready A1.vecs (fun v hv' => (hv v hv').after A1.gains) h2
    obtain ⟨hsp, e3⟩ := select_ok hsel h3
    have e : st3.maps = st2.maps ∧ st3.cur = st2.cur := by cases h3; exact ⟨rfl, rfl⟩
    have hr3 : Ready P M st3 := A2.ready.of_maps e.1 e.2
    have g23 : ∀ M, Gains M st2 st3 := fun M => .of_maps A2.ready.wf e.1
    have A3 := ih (n := m + n) hr3 (fun v hv' => (A2.vecs v (hsp.subset hv')).after (g23 _)) hc
    have hl1 := A1.gains.le
    have hl2 := A2.gains.le
    refine ⟨((A1.gains.trans (A2.gains.mono hl1)).trans (g23 _)).trans (A3.gains.mono (by rw [e.1]; omega)), A3.ready,
      fun v hv' => ?_⟩
    have := A3.vecs v hv'
    refine ⟨this.lt, this.cnt, Nat.le_trans this.len ?_⟩
    rw [Nat.succ_mul]; omega

theorem randbtw_le {E : Env} {a b k : Nat} (hab : a ≤ b) {st st' : St E} (h : randbtw a b st = .ok (k, st')) : k ≤ b := by
  simp only [randbtw, Out.ok.injEq, Prod.mk.injEq] at h
  have : (E.R.intn (b - a + 1) st.rnd).1 < b - a + 1 := E.R.intn_lt (b - a + 1) st.rnd (by omega)
  have e := h.1
  generalize (E.R.intn (b - a + 1) st.rnd).1 = z at *
  omega

theorem randbtw_ge {a b k : Nat} {st st' : St E} (h : randbtw a b st = .ok (k, st')) : a ≤ k := by
  simp only [randbtw, Out.ok.injEq, Prod.mk.injEq] at h
  have := h.1
  omega

theorem randletters_len : ∀ {m : Nat} {b : Bytes} {st st' : St E}, randletters m st = .ok (b, st') → b.length = m
  | 0, b, st, st', h => by obtain ⟨rfl, _⟩ := pure_ok h; rfl
  | m + 1, b, st, st', h => by
    simp only [randletters] at h
    obtain ⟨i, st1, _, ha⟩ := bind_ok h
    obtain ⟨rest, st2, h2, hb⟩ := bind_ok ha
    obtain ⟨rfl, _⟩ := pure_ok hb
    simp [randletters_len h2]

/-- Most elements. -/
def maxCount (K : String → Option Int) (M : Key → Nat) : Count → Nat
  | .size i => ((ival K i).getD 0).toNat
  | .con (some (.idRef ref)) => max 20 (M (refKey ref))
  | .con _ => 20

theorem genArray_size (hsel : Selects E) {w : String → Nat} {S : Struct → TM E (List Vec)} (hS : SSized P M w r S) (b : Base)
    (c : Count) (hc : ∀ k ∈ countKeys c, P k) : ZAct P M (maxCount r.constant M c * baseSize w b) (genArray r S b c) := by
  intro st vs st' hr h
  unfold genArray at h
  obtain ⟨iv, st1, h1, ha⟩ := bind_ok h
  clear h
  obtain ⟨k, st2, h2, hd⟩ := bind_ok ha
  clear ha
  have e : st1.maps = st.maps ∧ st1.cur = st.cur ∧ iv.cst = st.cur ∧ iv.data.len = 0 := by cases h1; exact ⟨rfl, rfl, rfl, rfl⟩
  obtain ⟨e1, e2, e3, e4⟩ := e
  have hr1 : Ready P M st1 := hr.of_maps e1 e2
  have step : k.toNat ≤ maxCount r.constant M c ∧ Ready P M st2 ∧ Gains st1.maps.length st1 st2 ∧ st2.cur = st1.cur := by
    match c, h2, hc with
    | .size i, h2, _ =>
      obtain ⟨h3, rfl⟩ := ofRes_ok h2
      refine ⟨?_, hr1, .refl hr1.wf, rfl⟩
      rw [integer_eq] at h3
      simp only [maxCount]
      cases hi : ival r.constant i with
      | none => rw [hi] at h3; cases h3
      | some x => rw [hi] at h3; cases h3; exact Nat.le_refl _
    | .con none, h2, _ =>
      obtain ⟨j, st3, h3, h4⟩ := bind_ok h2
      obtain ⟨rfl, rfl⟩ := pure_ok h4
      have := randbtw_le (by omega) h3
      obtain ⟨f1, f2⟩ := Quiet.randbtw _ _ _ _ _ h3
      exact ⟨by simpa [maxCount] using this, hr1.of_maps f1 f2, .of_maps hr1.wf f1, f2⟩
    | .con (some (.leftover _)), h2, _ => cases h2
    | .con (some (.idRef ref)), h2, hc =>
      simp only [arrayCount] at h2
      obtain ⟨j, st3, h3, h4⟩ := bind_ok h2
      have hj := randbtw_le (by omega) h3
      have hj' := randbtw_ge h3
      obtain ⟨f1, f2⟩ := Quiet.randbtw _ _ _ _ _ h3
      have hr3 := hr1.of_maps f1 f2
      have hlt : iv.cst < st3.maps.length := by rw [e3, ← e2, ← f2]; exact hr3.lt
      obtain ⟨hx, hset⟩ := lookupOrCreateAt_ok hr3.wf hlt h4
      have hP : P (refKey ref) := hc _ (by simp [countKeys])
      have hcur : iv.cst = st3.cur := by rw [e3, ← e2, ← f2]
      have hcnt : CntOK P M (orCreate (st3.env iv.cst) ref j) := (hcur ▸ hr3.cnt).orCreate fun _ => ⟨by omega, by omega⟩
      refine ⟨?_, ⟨hset.wf, by rw [hset.cur, hset.len]; exact hr3.lt, by rw [hset.cur, ← hcur, hset.env]; exact hcnt⟩,
        (Gains.of_maps hr1.wf f1).trans (hset.gains fun _ c k x hx => ?_), hset.cur.trans f2⟩
      · show k.toNat ≤ max 20 (M (refKey ref))
        rw [hx]
        cases hv : st3.env iv.cst ref.scope ref.name with
        | none => simp; omega
        | some y =>
          have := (hcur ▸ hr3.cnt : CntOK P M (st3.env iv.cst)) _ _ y hP hv
          have e : M (refKey ref) = M (ref.scope, ref.name) := rfl
          simp only [Option.getD_some]; omega
      · unfold orCreate at hx
        split at hx
        · rename_i e
          obtain ⟨rfl, rfl⟩ := e
          cases hx
          cases hv : st3.env iv.cst ref.scope ref.name with
          | none => exact .inr ⟨by simp; omega, by simp; omega⟩
          | some y => exact .inl rfl
        · exact .inl hx
  obtain ⟨s1, s2, s3, s4⟩ := step
  have hiv : Sized P M 0 st2 iv := by
    refine ⟨?_, ?_, by omega⟩
    · rw [e3, ← e2, ← s4]; exact s2.lt
    · rw [e3, ← e2, ← s4]; exact s2.cnt
  have A := arrayLoop_size hsel (zact_genBase hS "" b) s2 (fun v hv => by cases List.mem_singleton.1 hv; exact hiv) hd
  have g : Gains st.maps.length st st2 := by
    rw [e1] at s3
    exact (Gains.of_maps hr.wf e1).trans s3
  refine ⟨g.trans (A.gains.mono g.le), A.ready, fun v hv => ?_⟩
  have := A.vecs v hv
  refine ⟨this.lt, this.cnt, Nat.le_trans this.len ?_⟩
  rw [Nat.zero_add]
  exact Nat.mul_le_mul_right _ s1

theorem genLeaf_size (hsel : Selects E) {w : String → Nat} {S : Struct → TM E (List Vec)} (hS : SSized P M w r S) (l : Leaf)
    (hl : ∀ k ∈ leafOwn l, P k) : ZAct P M (leafSize r.constant M w l) (genLeaf r S l) := by
  cases l with
  | field f =>
    obtain ⟨k, t⟩ := f
    cases t with
    | base b => exact zact_genBase hS k b
    | ptr => exact zact_vector (b := []) (Nat.le_refl _)
    | nulterm =>
      refine ZAct.quiet ?_ fun st b st' h => ?_
      · exact (Quiet.randbtw _ _).bind fun _ => (Quiet.randletters _).bind fun _ => .pure _
      · obtain ⟨i, st1, h1, ha⟩ := bind_ok h
        obtain ⟨s, st2, h2, hb⟩ := bind_ok ha
        obtain ⟨rfl, _⟩ := pure_ok hb
        have := randbtw_le (by omega) h1
        refine zact_vector ?_
        rw [List.length_append, randletters_len h2]
        show i + 1 ≤ 21
        omega
    | fixedArray b i => exact genArray_size hsel hS b (.size i) (by simp [countKeys])
    | varArray b c =>
      match c, hl with
      | none, hl => exact genArray_size hsel hS b (.con none) hl
      | some (.leftover i), hl => exact genArray_size hsel hS b (.con (some (.leftover i))) hl
      | some (.idRef ref), hl => exact genArray_size hsel hS b (.con (some (.idRef ref))) hl
  | ignore =>
    intro st vs st' hr h
    simp only [genLeaf] at h
    obtain ⟨v, st1, h1, ha⟩ := bind_ok h
    clear h
    obtain ⟨k, st2, h2, hb⟩ := bind_ok ha
    clear ha
    obtain ⟨b, st3, h3, hc⟩ := bind_ok hb
    clear hb
    obtain ⟨v', st4, h4, hd⟩ := bind_ok hc
    clear hc
    obtain ⟨rfl, rfl⟩ := pure_ok hd
    have hk := randbtw_le (by omega) h2
    cases h1
    obtain ⟨f1, f2⟩ := Quiet.randbtw _ _ _ _ _ h2
    obtain ⟨f3, f4⟩ := Quiet.randread _ _ _ _ h3
    have hb : b.length = k := by cases h3; exact E.R.read_length _ _
    cases h4
    have em : st3.maps = st.maps := f3.trans f1
    have ec : st3.cur = st.cur := f4.trans f2
    refine ⟨.of_maps hr.wf em, hr.of_maps em ec, fun x hx => ?_⟩
    have henv : ∀ a, (({ st3 with arrs := st3.arrs ++ [b] } : St E)).env a = st.env a := fun a => env_eq (by rw [← em])
    rcases List.mem_cons.1 hx with rfl | hx
    · exact ⟨by show st.cur < st3.maps.length; rw [em]; exact hr.lt, by rw [henv]; exact hr.cnt, Nat.zero_le _⟩
    · cases List.mem_singleton.1 hx
      refine ⟨by show st3.cur < st3.maps.length; rw [em, ec]; exact hr.lt, ?_, ?_⟩
      · rw [henv]; show CntOK P M (st.env st3.cur); rw [ec]; exact hr.cnt
      · show b.length ≤ 7; omega
  | fail => exact ZAct.nil
  | eos => exact zact_vector (b := []) (Nat.le_refl _)

theorem appendAll_size {m : Nat} {d : Slice} (hd : d.len ≤ m) : ∀ {vs ws : List Vec} {st st' : St E}, Ready P M st →
    (∀ v ∈ vs, Sized P M n st v) → appendAll d vs st = .ok (ws, st') →
    st'.maps = st.maps ∧ st'.cur = st.cur ∧ ∀ v ∈ ws, Sized P M (n + m) st' v := by
  intro vs
  induction vs with
  | nil =>
    intro ws st st' hr hv h
    obtain ⟨rfl, rfl⟩ := pure_ok h
    exact ⟨rfl, rfl, by simp⟩
  | cons v vs ih =>
    intro ws st st' hr hv h
    simp only [appendAll] at h
    obtain ⟨b, st1, h1, ha⟩ := bind_ok h
    clear h
    cases h1
    obtain ⟨s, st2, h2, hb⟩ := bind_ok ha
    clear ha
    obtain ⟨rest, st3, h3, hc⟩ := bind_ok hb
    clear hb
    obtain ⟨rfl, rfl⟩ := pure_ok hc
    obtain ⟨e1, e2⟩ := Quiet.appendSlice _ _ _ _ _ h2
    have hl := appendSlice_len h2
    have g : Gains st.maps.length st st2 := .of_maps hr.wf e1
    obtain ⟨q1, q2, q3⟩ := ih (hr.of_maps e1 e2) (fun v hv' => (hv v (List.mem_cons_of_mem _ hv')).after g) h3
    refine ⟨q1.trans e1, q2.trans e2, fun x hx => ?_⟩
    rcases List.mem_cons.1 hx with rfl | hx
    · have hv0 := hv v List.mem_cons_self
      refine ⟨by show v.cst < _; rw [q1, e1]; exact hv0.lt, ?_, ?_⟩
      · show CntOK P M (St.env _ v.cst)
        rw [env_eq (st := st) (by rw [q1, e1])]; exact hv0.cnt
      · show s.len ≤ _
        have := read_le st d
        have := hv0.len
        omega
    · exact q3 x hx

theorem extendAll_size {m : Nat} {act : TM E (List Vec)} (hact : ZAct P M n act) : ∀ {vs ws : List Vec} {st st' : St E},
    Ready P M st → (∀ v ∈ vs, Sized P M m st v) → extendAll act vs st = .ok (ws, st') → SzAfter P M (n + m) st st' ws := by
  intro vs
  induction vs with
  | nil =>
    intro ws st st' hr hv h
    obtain ⟨rfl, rfl⟩ := pure_ok h
    exact ⟨.refl hr.wf, hr, by simp⟩
  | cons v vs ih =>
    intro ws st st' hr hv h
    simp only [extendAll] at h
    obtain ⟨u, st1, h1, ha⟩ := bind_ok h
    clear h
    cases h1
    obtain ⟨mvs, st2, h2, hb⟩ := bind_ok ha
    clear ha
    obtain ⟨ext, st3, h3, hc⟩ := bind_ok hb
    clear hb
    obtain ⟨rest, st4, h4, hd⟩ := bind_ok hc
    clear hc
    obtain ⟨rfl, rfl⟩ := pure_ok hd
    have hv0 := hv v List.mem_cons_self
    have A := hact _ _ _ (show Ready P M { st with cur := v.cst } from ⟨hr.wf, hv0.lt, hv0.cnt⟩) h2
    have A0 : Gains st.maps.length st st2 := ⟨A.gains.wf, A.gains.le, A.gains.old⟩
    obtain ⟨e1, e2, e3⟩ := appendAll_size hv0.len A.ready A.vecs h3
    have g13 : Gains st.maps.length st st3 := A0.trans (.of_maps A0.wf e1)
    have hr3 := A.ready.of_maps e1 e2
    have A' := ih hr3 (fun v hv' => (hv v (List.mem_cons_of_mem _ hv')).after g13) h4
    refine ⟨g13.trans (A'.gains.mono g13.le), A'.ready, fun x hx => ?_⟩
    rcases List.mem_append.1 hx with hx | hx
    · exact (e3 x hx).after A'.gains
    · exact A'.vecs x hx

theorem membersLoop_size (hsel : Selects E) {β : Type} {f : β → TM E (List Vec)} {g : β → Nat} : ∀ {ms : List β},
    (∀ m ∈ ms, ZAct P M (g m) (f m)) → ∀ {vs ws : List Vec} {st st' : St E} {n : Nat}, Ready P M st → (∀ v ∈ vs, Sized P M n st v) →
    membersLoop f ms vs st = .ok (ws, st') → SzAfter P M (n + (ms.map g).sum) st st' ws := by
  intro ms
  induction ms with
  | nil =>
    intro _ vs ws st st' n hr hv h
    obtain ⟨rfl, rfl⟩ := pure_ok h
    exact ⟨.refl hr.wf, hr, fun v hv' => by simpa using hv v hv'⟩
  | cons m ms ih =>
    intro hf vs ws st st' n hr hv h
    simp only [membersLoop] at h
    obtain ⟨ext, st1, h1, ha⟩ := bind_ok h
    clear h
    obtain ⟨sel, st2, h2, hb⟩ := bind_ok ha
    clear ha
    have A := extendAll_size (hf m List.mem_cons_self) hr hv h1
    obtain ⟨hsp, _⟩ := select_ok hsel h2
    have e : st2.maps = st1.maps ∧ st2.cur = st1.cur := by cases h2; exact ⟨rfl, rfl⟩
    have g12 : ∀ M, Gains M st1 st2 := fun M => .of_maps A.ready.wf e.1
    have A' := ih (fun m hm => hf m (List.mem_cons_of_mem _ hm)) (A.ready.of_maps e.1 e.2)
      (fun v hv' => (A.vecs v (hsp.subset hv')).after (g12 _)) hb
    refine ⟨(A.gains.trans (g12 _)).trans (A'.gains.mono (by rw [e.1]; exact A.gains.le)), A'.ready, fun v hv' => ?_⟩
    have := A'.vecs v hv'
    refine ⟨this.lt, this.cnt, Nat.le_trans this.len ?_⟩
    simp only [List.map_cons, List.sum_cons]
    omega

theorem leavesSize_sum (K : String → Option Int) (M : Key → Nat) (w : String → Nat) : ∀ ls, (ls.map (leafSize K M w)).sum = leavesSize K M w ls
  | [] => rfl
  | l :: ls => by simp [leavesSize, leavesSize_sum K M w ls]

theorem membersSize_sum (K : String → Option Int) (M : Key → Nat) (w : String → Nat) : ∀ ls, (ls.map (memberSize K M w)).sum = membersSize K M w ls
  | [] => rfl
  | l :: ls => by simp [membersSize, membersSize_sum K M w ls]

theorem casesSize_le {K : String → Option Int} {w : String → Nat} : ∀ {cs : List UnionCase} {c : UnionCase}, c ∈ cs →
    leavesSize K M w c.members ≤ casesSize K M w cs
  | d :: cs, c, h => by
    rcases List.mem_cons.1 h with rfl | h
    · exact Nat.le_max_left _ _
    · exact Nat.le_trans (casesSize_le h) (Nat.le_max_right _ _)

theorem sum_reverse_map {β : Type} (g : β → Nat) (l : List β) : (l.reverse.map g).sum = (l.map g).sum := by
  rw [List.map_reverse, List.sum_reverse]

/-- A new store, made current. -/
theorem Ready.fresh {st st' : St E} {c : Nat} {σ : CEnv} (h : NewAt st st' c σ) (hσ : CntOK P M σ) :
    Ready P M { st' with cur := c } :=
  ⟨h.wf, by show c < st'.maps.length; rw [h.ref, h.len]; omega, by show CntOK P M (st'.env c); rw [h.env]; exact hσ⟩

theorem branchesLoop_size (hsel : Selects E) {w : String → Nat} {S : Struct → TM E (List Vec)} (hS : SSized P M w r S)
    {tag : IDRef} (ht : ¬ P (refKey tag)) {base : Nat} : ∀ {bs : List Branch} {ws : List Vec} {st st' : St E},
    (∀ b ∈ bs, leavesSize r.constant M w b.case.members ≤ n ∧ ∀ l ∈ b.case.members, ∀ k ∈ leafOwn l, P k) →
    Ready P M st → base < st.maps.length → CntOK P M (st.env base) → branchesLoop r S tag base bs st = .ok (ws, st') →
    SzAfter P M n st st' ws := by
  intro bs
  induction bs with
  | nil =>
    intro ws st st' _ hr _ _ h
    obtain ⟨rfl, rfl⟩ := pure_ok h
    exact ⟨.refl hr.wf, hr, by simp⟩
  | cons b bs ih =>
    intro ws st st' hb hr hlt hcnt h
    simp only [branchesLoop] at h
    obtain ⟨c, st1, h1, ha⟩ := bind_ok h
    clear h
    have hn := cloneRef_ok hr.wf h1
    have hc0 : CntOK P M (st1.env c) := by rw [hn.env]; exact hcnt
    obtain ⟨u, st2, h2, h⟩ := bind_ok ha
    clear ha
    cases h2
    obtain ⟨x, st3, h3, ha⟩ := bind_ok h
    clear h
    obtain ⟨e1, e2⟩ := Quiet.randomIn _ _ _ _ h3
    have hr3 : Ready P M st3 := (Ready.fresh hn (hn.env ▸ hc0)).of_maps e1 e2
    obtain ⟨y, st4, h4, h⟩ := bind_ok ha
    clear ha
    have hc3 : c < st3.maps.length := by rw [e1]; show c < st1.maps.length; rw [hn.ref, hn.len]; omega
    have ec : st3.cur = c := e2
    obtain ⟨_, hset⟩ := lookupOrCreateAt_ok hr3.wf hc3 h4
    have hr4 : Ready P M st4 := by
      refine ⟨hset.wf, by rw [hset.cur, hset.len]; exact hr3.lt, ?_⟩
      rw [hset.cur, ec, hset.env]
      exact CntOK.orCreate (by rw [← ec]; exact hr3.cnt) fun hp => (ht hp).elim
    have g04 : Gains st.maps.length st st4 := by
      have g1 : Gains st.maps.length st st3 :=
        hn.gains.trans ⟨hr3.wf, by rw [e1], fun a _ c k x hx => .inl (by
          rw [env_eq (st := st1) (by rw [e1])] at hx; exact hx)⟩
      exact g1.trans (hset.gains fun hlt' => by rw [hn.ref] at hlt'; omega)
    obtain ⟨v, st5, h5, ha⟩ := bind_ok h
    clear h
    have e5 : st5.maps = st4.maps ∧ st5.cur = st4.cur ∧ v.cst = st4.cur ∧ v.data.len = 0 := by cases h5; exact ⟨rfl, rfl, rfl, rfl⟩
    obtain ⟨f1, f2, f3, f4⟩ := e5
    have hr5 := hr4.of_maps f1 f2
    have hv : Sized P M 0 st5 v := ⟨by rw [f3, ← f2]; exact hr5.lt, by rw [f3, ← f2]; exact hr5.cnt, by omega⟩
    have g05 : Gains st.maps.length st st5 := g04.trans (.of_maps hr4.wf f1)
    obtain ⟨vs, st6, h6, h⟩ := bind_ok ha
    clear ha
    obtain ⟨hb1, hb2⟩ := hb b List.mem_cons_self
    have A := membersLoop_size hsel (g := leafSize r.constant M w)
      (fun l hl => genLeaf_size hsel hS l (hb2 l (List.mem_reverse.1 hl))) hr5 (fun x hx => by
        cases List.mem_singleton.1 hx; exact hv) h6
    have g06 : Gains st.maps.length st st6 := g05.trans (A.gains.mono g05.le)
    obtain ⟨rest, st7, h7, ha⟩ := bind_ok h
    clear h
    obtain ⟨rfl, rfl⟩ := pure_ok ha
    have A' := ih (fun b hb' => hb b (List.mem_cons_of_mem _ hb')) A.ready (Nat.lt_of_lt_of_le hlt g06.le)
      (g06.cnt hlt hcnt) h7
    refine ⟨g06.trans (A'.gains.mono g06.le), A'.ready, fun x hx => ?_⟩
    rcases List.mem_append.1 hx with hx | hx
    · have := A.vecs x hx
      rw [sum_reverse_map, leavesSize_sum] at this
      exact Sized.after ⟨this.lt, this.cnt, by have := this.len; omega⟩ A'.gains
    · exact A'.vecs x hx

theorem lenLoop_size {ref : IDRef} (ht : P (refKey ref) → n ≤ max 20 (M (refKey ref))) : ∀ {vs ws : List Vec} {st st' : St E}, Ready P M st →
    (∀ v ∈ vs, Sized P M n st v) → lenLoop ref vs st = .ok (ws, st') → SzAfter P M n st st' ws := by
  intro vs
  induction vs with
  | nil =>
    intro ws st st' hr hv h
    obtain ⟨rfl, rfl⟩ := pure_ok h
    exact ⟨.refl hr.wf, hr, by simp⟩
  | cons v vs ih =>
    intro ws st st' hr hv h
    simp only [lenLoop] at h
    obtain ⟨c, st1, h1, ha⟩ := bind_ok h
    clear h
    have hn := cloneRef_ok hr.wf h1
    obtain ⟨m, st2, h2, hb⟩ := bind_ok ha
    clear ha
    have hc1 : c < st1.maps.length := by rw [hn.ref, hn.len]; omega
    obtain ⟨_, hset⟩ := lookupOrCreateAt_ok hn.wf hc1 h2
    have g1 := hn.gains
    have g2 : Gains st.maps.length st st2 := g1.trans (hset.gains fun hlt => by rw [hn.ref] at hlt; omega)
    have hv0 := hv v List.mem_cons_self
    have hr2 : Ready P M st2 := by
      have hne : st.cur ≠ c := by rw [hn.ref]; have := hr.lt; omega
      have ecur : st2.cur = st.cur := hset.cur.trans hn.cur
      refine ⟨hset.wf, by rw [ecur]; exact Nat.lt_of_lt_of_le hr.lt g2.le, by rw [ecur]; exact g2.cnt hr.lt hr.cnt⟩
    obtain ⟨rest, st3, h3, hc⟩ := bind_ok hb
    clear hb
    obtain ⟨rfl, rfl⟩ := pure_ok hc
    have A := ih hr2 (fun v hv' => (hv v (List.mem_cons_of_mem _ hv')).after g2) h3
    refine ⟨g2.trans (A.gains.mono g2.le), A.ready, fun x hx => ?_⟩
    split at hx
    · exact A.vecs x hx
    · rcases List.mem_cons.1 hx with rfl | hx
      · refine Sized.after (st := st2) ⟨by show c < _; rw [hset.len]; exact hc1, ?_, hv0.len⟩ A.gains
        show CntOK P M (st2.env c)
        rw [hset.env, hn.env]
        exact hv0.cnt.orCreate fun hp => ⟨by omega, by have := ht hp; have := hv0.len; omega⟩
      · exact A.vecs x hx

theorem branchLoop_cases {r : Resolver} : ∀ {cs : List UnionCase} {d : Set} {o : Option UnionCase} {bs : List Branch} {d' : Set}
    {o' : Option UnionCase}, branchLoop r d o cs = .ok (bs, d', o') →
    (∀ b ∈ bs, b.case ∈ cs) ∧ ∀ c, o' = some c → c ∈ cs ∨ o = some c
  | [], d, o, bs, d', o', h => by cases h; exact ⟨by simp, fun c hc => .inr hc⟩
  | c :: cs, d, o, bs, d', o', h => by
    unfold branchLoop at h
    cases hc : c.case with
    | none =>
      rw [hc] at h
      obtain ⟨h1, h2⟩ := branchLoop_cases h
      refine ⟨fun b hb => List.mem_cons_of_mem _ (h1 b hb), fun x hx => ?_⟩
      rcases h2 x hx with h | h
      · exact .inl (List.mem_cons_of_mem _ h)
      · cases h; exact .inl List.mem_cons_self
    | some l =>
      rw [hc] at h
      obtain ⟨s, _, h⟩ := Res.bind_eq_ok.1 h
      obtain ⟨d1, _, h⟩ := Res.bind_eq_ok.1 h
      obtain ⟨⟨bs1, d2, o2⟩, h3, h⟩ := Res.bind_eq_ok.1 h
      cases h
      obtain ⟨h1, h2⟩ := branchLoop_cases h3
      refine ⟨fun b hb => ?_, fun x hx => (h2 x hx).imp (List.mem_cons_of_mem _) id⟩
      rcases List.mem_cons.1 hb with rfl | hb
      · exact List.mem_cons_self
      · exact List.mem_cons_of_mem _ (h1 b hb)

theorem newBranches_cases {r : Resolver} {s : Struct} {u : UnionMember} {bs : List Branch} (h : newBranches r s u = .ok bs) :
    ∀ b ∈ bs, b.case ∈ u.cases := by
  unfold newBranches at h
  obtain ⟨t, _, h⟩ := Res.bind_eq_ok.1 h
  obtain ⟨d, _, h⟩ := Res.bind_eq_ok.1 h
  obtain ⟨⟨bs1, d2, o2⟩, h3, h⟩ := Res.bind_eq_ok.1 h
  obtain ⟨h1, h2⟩ := branchLoop_cases h3
  cases o2 with
  | none => cases h; exact h1
  | some c =>
    cases h
    intro b hb
    rcases List.mem_append.1 hb with hb | hb
    · exact h1 b hb
    · cases List.mem_singleton.1 hb
      exact (h2 c rfl).resolve_right (by simp)

theorem branchOptions_sub {bs opts : List Branch} {t : Option Int} (h : branchOptions bs t = some opts) : ∀ b ∈ opts, b ∈ bs := by
  unfold branchOptions at h
  split at h
  · cases h; exact fun b hb => hb
  · split at h
    · cases h
    · rename_i b hb
      cases h
      intro b' hb'
      cases List.mem_singleton.1 hb'
      exact List.mem_of_find?_eq_some hb

theorem genMember_size (hsel : Selects E) {w : String → Nat} {S : Struct → TM E (List Vec)} (hS : SSized P M w r S) {s : Struct}
    (m : Member) (hc : ∀ k ∈ countsOf m, P k) (hd : ∀ k ∈ tagOf m, ¬ P k)
    (hlen : ∀ u, m = .union u → ∀ ref, u.length = some (.idRef ref) → P (refKey ref) →
      casesSize r.constant M w u.cases ≤ max 20 (M (refKey ref))) :
    ZAct P M (memberSize r.constant M w m) (genMember r S s m) := by
  cases m with
  | leaf l => exact genLeaf_size hsel hS l hc
  | union u =>
    intro st vs st' hr h
    simp only [genMember] at h
    unfold genUnion at h
    obtain ⟨bs, st1, h1, ha⟩ := bind_ok h
    clear h
    obtain ⟨h1', rfl⟩ := ofRes_ok h1
    obtain ⟨c, st2, h2, hb⟩ := bind_ok ha
    clear ha
    obtain ⟨rfl, rfl⟩ := getCur_ok h2
    obtain ⟨mp, st3, h3, hc'⟩ := bind_ok hb
    clear hb
    obtain ⟨rfl, rfl⟩ := getMap_ok h3
    cases ho : branchOptions bs ((st3.map st3.cur).lookupRef u.tag) with
    | none => rw [ho] at hc'; exact ZAct.nil _ _ _ hr hc'
    | some opts =>
      rw [ho] at hc'
      obtain ⟨base, st4, h4, hd'⟩ := bind_ok hc'
      clear hc'
      have hn := cloneRef_ok hr.wf h4
      obtain ⟨res, st5, h5, he⟩ := bind_ok hd'
      clear hd'
      have g1 := hn.gains
      have hr4 : Ready P M st4 := ⟨hn.wf, by rw [hn.cur]; exact Nat.lt_of_lt_of_le hr.lt g1.le, by
        rw [hn.cur]; exact g1.cnt hr.lt hr.cnt⟩
      have A := branchesLoop_size (n := casesSize r.constant M w u.cases) hsel hS (hd _ (by simp [tagOf]))
        (fun b hb => by
          have hmem := newBranches_cases h1' b (branchOptions_sub ho b hb)
          refine ⟨casesSize_le hmem, fun l hl k hk => hc k ?_⟩
          simp only [countsOf, List.mem_flatMap]
          exact ⟨_, hmem, l, hl, hk⟩) hr4 (by rw [hn.ref, hn.len]; omega) (by rw [hn.env]; exact hr.cnt) h5
      have g15 : Gains st3.maps.length st3 st5 := g1.trans (A.gains.mono g1.le)
      cases hl : u.length with
      | none =>
        rw [hl] at he
        obtain ⟨rfl, rfl⟩ := pure_ok he
        exact ⟨g15, A.ready, A.vecs⟩
      | some lc =>
        rw [hl] at he
        cases lc with
        | leftover k => cases he
        | idRef ref =>
          have A' := lenLoop_size (hlen u rfl ref hl) A.ready A.vecs he
          exact ⟨g15.trans (A'.gains.mono g15.le), A'.ready, A'.vecs⟩

theorem clearAll_gains : ∀ {vs : List Vec} {st st' : St E} {u : Unit}, Ready P M st → (∀ v ∈ vs, v.cst < st.maps.length) →
    clearAll vs st = .ok (u, st') → st'.cur = st.cur ∧ st'.maps.length = st.maps.length ∧ Ready P M st' ∧
    (∀ N, Gains N st st') ∧
    (∀ a, (∀ k, st.env a "" k = none) → ∀ k, st'.env a "" k = none) ∧ ∀ v ∈ vs, ∀ k, st'.env v.cst "" k = none
  | [], st, st', u, hr, _, h => by
    obtain ⟨_, rfl⟩ := pure_ok h
    exact ⟨rfl, rfl, hr, fun _ => .refl hr.wf, fun _ h => h, by simp⟩
  | v :: vs, st, st', u, hr, hv, h => by
    simp only [clearAll] at h
    obtain ⟨u', st1, h1, h2⟩ := bind_ok h
    have hset := clearLocalAt_ok hr.wf (hv v List.mem_cons_self) h1
    have g : ∀ N, Gains N st st1 := fun N => hset.gains fun _ c k x hx => by
      unfold globals at hx
      split at hx
      · cases hx
      · exact .inl hx
    have hr1 : Ready P M st1 := ⟨hset.wf, by rw [hset.cur, hset.len]; exact hr.lt, by
      rw [hset.cur]; exact (g (st.cur + 1)).cnt (Nat.lt_succ_self _) hr.cnt⟩
    obtain ⟨q1, q2, q3, q4, q5, q6⟩ := clearAll_gains hr1
      (fun x hx => by rw [hset.len]; exact hv x (List.mem_cons_of_mem _ hx)) h2
    have hloc : ∀ a, (∀ k, st.env a "" k = none) → ∀ k, st1.env a "" k = none := by
      intro a ha k
      by_cases e : a = v.cst
      · subst e; rw [hset.env]; simp [globals]
      · rw [env_eq (hset.old a e)]; exact ha k
    refine ⟨q1.trans hset.cur, q2.trans hset.len, q3, fun N => (g N).trans (q4 N), fun a ha => q5 a (hloc a ha), fun x hx => ?_⟩
    rcases List.mem_cons.1 hx with rfl | hx
    · exact q5 _ (by intro k; rw [hset.env]; simp [globals])
    · exact q6 x hx

theorem CntOK.of_globals {Γ : Fmt} {L : Key → Prop} {s s' : Struct} {k' : String} (hs : Γ.structs k' = some s) (he : s.extern = false) {σ : CEnv}
    (h : CntOK (Counts Γ L s') M σ) (hl : ∀ k, σ "" k = none) : CntOK (Counts Γ L s) M σ := by
  intro c k x hP hx
  by_cases hc : c = ""
  · subst hc; rw [hl] at hx; cases hx
  · refine h c k x (.inr ⟨hc, ?_⟩) hx
    rcases hP with hP | ⟨_, hP⟩
    · exact .inr ⟨k', s, hs, he, hP⟩
    · exact hP

theorem membersLoop_setCur {β : Type} {f : β → TM E (List Vec)} {ms : List β} {v : Vec} {vs : List Vec} {st : St E} {c : Nat}
    (h : ms ≠ []) : membersLoop f ms (v :: vs) st = membersLoop f ms (v :: vs) { st with cur := c } := by
  cases ms with
  | nil => exact (h rfl).elim
  | cons m ms => rfl

theorem structure_size (hsel : Selects E) {Γ : Fmt} {L : Key → Prop} {w : String → Nat} (hw : FmtSized Γ L M w) (hk : r.constant = Γ.K)
    (hst : r.struct = Γ.structs) : ∀ fuel k s k' s', Γ.structs k = some s → s.extern = false → Γ.structs k' = some s' →
    s'.extern = false → ZAct (Counts Γ L s') M (w k) (structure_ (E := E) r fuel s) := by
  intro fuel
  induction fuel with
  | zero => intro k s k' s' _ _ _ _ st vs st' _ h; cases h
  | succ fuel ih =>
    intro k s k' s' hs he hs' he' st vs st' hr h
    simp only [structure_] at h
    obtain ⟨c, st1, h1, ha⟩ := bind_ok h
    clear h
    obtain ⟨rfl, rfl⟩ := getCur_ok h1
    obtain ⟨g, st2, h2, hb⟩ := bind_ok ha
    clear ha
    have hn := cloneGlobalRef_ok hr.wf h2
    obtain ⟨d, st3, h3, hc⟩ := bind_ok hb
    clear hb
    cases h3
    obtain ⟨ws, st4, h4, hd⟩ := bind_ok hc
    clear hc
    have hloc : ∀ σ : CEnv, ∀ k, globals σ "" k = none := fun σ k => by simp [globals]
    have hS : SSized (Counts Γ L s) M w r (structure_ (E := E) r fuel) := fun j s1 hj hej =>
      ih j s1 k s (by rw [← hst]; exact hj) hej hs he
    have hcg : CntOK (Counts Γ L s) M (globals (st1.env st1.cur)) := hr.cnt.globals.of_globals hs he (hloc _)
    -- what is known at the end of the loop over members
    have main : Gains st1.maps.length st1 st4 ∧ st4.WF ∧ st4.cur < st4.maps.length ∧
        (CntOK (Counts Γ L s) M (st4.env st4.cur) ∨ CntOK (Counts Γ L s') M (st4.env st4.cur)) ∧ ∀ v ∈ ws, Sized (Counts Γ L s) M (w k) st4 v := by
      have hg : g < st2.maps.length := by rw [hn.ref, hn.len]; omega
      have hv0 : Sized (Counts Γ L s) M 0 st2 ⟨⟨st2.arrs.length, 0⟩, g⟩ := ⟨hg, by rw [hn.env]; exact hcg, Nat.le_refl _⟩
      by_cases hms : s.ms = []
      · rw [hms] at h4
        obtain ⟨rfl, rfl⟩ := pure_ok h4
        refine ⟨⟨hn.wf, hn.gains.le, hn.gains.old⟩, hn.wf, ?_, .inr ?_, fun v hv => ?_⟩
        · show st2.cur < st2.maps.length
          rw [hn.cur]; exact Nat.lt_of_lt_of_le hr.lt hn.gains.le
        · show CntOK _ _ (st2.env st2.cur)
          rw [hn.cur]; exact hn.gains.cnt hr.lt hr.cnt
        · cases List.mem_singleton.1 hv
          exact ⟨hv0.lt, hv0.cnt, Nat.zero_le _⟩
      · rw [membersLoop_setCur (c := g) (by simpa using hms)] at h4
        have A := membersLoop_size hsel (g := memberSize r.constant M w) (P := Counts Γ L s) (n := 0)
          (fun m hm => genMember_size hsel hS (s := s) m
            (fun j hj => .inl (List.mem_flatMap.2 ⟨m, List.mem_reverse.1 hm, hj⟩))
            (fun j hj => hw.tags k s hs he j (List.mem_flatMap.2 ⟨m, List.mem_reverse.1 hm, hj⟩))
            (fun u hu ref hl hP => by
              rw [hk]
              exact hw.lens k s hs he u (hu ▸ List.mem_reverse.1 hm) ref hl hP))
          (show Ready (Counts Γ L s) M { st2 with arrs := st2.arrs ++ [[]], cur := g } from
            ⟨hn.wf, hg, by show CntOK _ _ (st2.env g); rw [hn.env]; exact hcg⟩)
          (fun v hv => by cases List.mem_singleton.1 hv; exact ⟨hv0.lt, hv0.cnt, Nat.le_refl _⟩) h4
        refine ⟨?_, A.ready.wf, A.ready.lt, .inl A.ready.cnt, fun v hv => ?_⟩
        · have hA : Gains st1.maps.length st2 st4 := by
            refine ⟨A.gains.wf, A.gains.le, fun a ha => A.gains.old a ?_⟩
            show a < st2.maps.length
            rw [hn.len]; omega
          exact hn.gains.trans hA
        · have := A.vecs v hv
          refine ⟨this.lt, this.cnt, Nat.le_trans this.len ?_⟩
          rw [sum_reverse_map, membersSize_sum, hk, Nat.zero_add]
          exact hw.size k s hs he
    obtain ⟨m1, m2, m3, m4, m5⟩ := main
    obtain ⟨c5, st5, h5, hb⟩ := bind_ok hd
    clear hd
    obtain ⟨rfl, rfl⟩ := getCur_ok h5
    obtain ⟨u, st6, h6, hc⟩ := bind_ok hb
    clear hb
    obtain ⟨u', st7, h7, hd⟩ := bind_ok hc
    clear hc
    obtain ⟨rfl, rfl⟩ := pure_ok hd
    have hset := clearLocalAt_ok m2 m3 h6
    have gset : ∀ N, Gains N st5 st6 := fun N => hset.gains fun _ c k x hx => by
      unfold globals at hx
      split at hx
      · cases hx
      · exact .inl hx
    have hcur6 : ∀ j, st6.env st6.cur "" j = none := by
      intro j
      rw [hset.cur, hset.env]; exact hloc _ j
    have hr6 : Ready (Counts Γ L s') M st6 := by
      refine ⟨hset.wf, by rw [hset.cur, hset.len]; exact m3, ?_⟩
      rcases m4 with m4 | m4
      · refine CntOK.of_globals (s' := s) hs' he' ?_ hcur6
        rw [hset.cur, hset.env]; exact m4.globals
      · rw [hset.cur, hset.env]; exact m4.globals
    obtain ⟨q1, q2, q3, q4, q5, q6⟩ := clearAll_gains hr6 (fun v hv => by rw [hset.len]; exact (m5 v hv).lt) h7
    refine ⟨(m1.trans (gset _)).trans (q4 _), q3, fun v hv => ?_⟩
    have h1 := m5 v hv
    have h2 := (h1.after (gset _)).after (q4 _)
    exact ⟨h2.lt, CntOK.of_globals hs' he' h2.cnt (q6 v hv), h2.len⟩

theorem CntOK.mono {Q : Key → Prop} {σ : CEnv} (h : CntOK P M σ) (hQ : ∀ k, Q k → P k) : CntOK Q M σ :=
  fun c k x hq hx => h c k x (hQ _ hq) hx

theorem suites_size (hsel : Selects E) {Γ : Fmt} {L : Key → Prop} {w : String → Nat} (hw : FmtSized Γ L M w) (hk : r.constant = Γ.K)
    (hst : r.struct = Γ.structs) {fuel : Nat} : ∀ {ss : List Struct} {out : List SuiteRef} {st st' : St E},
    (∀ s ∈ ss, s.extern = false → Γ.structs s.name = some s) → st.WF → suites r fuel ss st = .ok (out, st') →
    Gains st.maps.length st st' ∧
    ∀ o ∈ out, ∀ v ∈ o.vectors, Sized (fun k => k.1 ≠ "" ∧ L k) M (w o.type) st' v := by
  intro ss
  induction ss with
  | nil =>
    intro out st st' _ hwf h
    obtain ⟨rfl, rfl⟩ := pure_ok h
    exact ⟨.refl hwf, by simp⟩
  | cons s ss ih =>
    intro out st st' hss hwf h
    simp only [suites] at h
    have hss' := fun s hs => hss s (List.mem_cons_of_mem _ hs)
    cases he : s.extern with
    | true =>
      rw [he] at h
      simp only [if_true] at h
      exact ih hss' hwf h
    | false =>
      rw [he] at h
      simp only [Bool.false_eq_true, if_false] at h
      obtain ⟨c, st1, h1, ha⟩ := bind_ok h
      clear h
      obtain ⟨u, st2, h2, hb⟩ := bind_ok ha
      clear ha
      cases h2
      obtain ⟨vs, st3, h3, hc⟩ := bind_ok hb
      clear hb
      obtain ⟨rest, st4, h4, hd⟩ := bind_ok hc
      clear hc
      obtain ⟨rfl, rfl⟩ := pure_ok hd
      have hs := hss s List.mem_cons_self he
      have hn := newAt_of hwf Cst.wf_empty rfl rfl rfl h1
      have A := structure_size hsel hw hk hst fuel s.name s s.name s hs he hs he _ _ _
        (Ready.fresh hn fun c k x _ hx => by rw [Cst.lookup_empty] at hx; cases hx) h3
      obtain ⟨g, q⟩ := ih hss' A.ready.wf h4
      have g1 := hn.gains
      have g2 : Gains st.maps.length st st3 := ⟨A.gains.wf, Nat.le_trans g1.le A.gains.le, fun a ha c k x hx =>
        (A.gains.old a (Nat.lt_of_lt_of_le ha g1.le) c k x hx).elim (g1.old a ha c k x) .inr⟩
      refine ⟨g2.trans (g.mono g2.le), fun o ho v hv => ?_⟩
      rcases List.mem_cons.1 ho with rfl | ho
      · have := (A.vecs v hv).after g
        exact ⟨this.lt, this.cnt.mono fun k hk => .inr ⟨hk.1, .inl hk.2⟩, this.len⟩
      · exact q o ho v hv

/-- No vector of a struct has more bytes than computed from the format, and what it records for variables in `L` is bounded. -/
theorem generateFiles_bounds (hsel : Selects E) {nm : String → String} {ext : Go.Ext} {fs : List File} {fuel : Nat}
    {seed : E.R.σ} {corpus : Corpus} (h : generateFiles E fuel seed fs = .ok corpus) {L : Key → Prop} {w : String → Nat}
    (hw : FmtSized (fmtOf nm ext fs) L M w) : ∀ t ∈ corpus, ∀ v ∈ t.vectors, v.data.length ≤ w t.type ∧
      ∀ c k x, c ≠ "" → L (c, k) → v.cst.lookup c k = some x → 0 ≤ x ∧ x ≤ (max 20 (M (c, k)) : Nat) := by
  unfold generateFiles at h
  cases hr : newResolverFiles E.order fs with
  | err m => rw [hr] at h; cases h
  | panic m => rw [hr] at h; cases h
  | ok r =>
    rw [hr] at h
    simp only [] at h
    have hcomp : Props.FilesCompatible fs := by
      by_contra hc
      obtain ⟨m, hm⟩ := (Props.C11_multi_file E.order fs).2 hc
      rw [hm] at hr; cases hr
    obtain ⟨r', hr', h1, h2, h3⟩ := (Props.C11_multi_file E.order fs).1 hcomp
    rw [hr] at hr'
    cases hr'
    cases hs : suites (E := E) r fuel (fs.flatMap (·.structs)) (St.init seed) with
    | err m => rw [hs] at h; cases h
    | panic m => rw [hs] at h; cases h
    | timeout => rw [hs] at h; cases h
    | ok p =>
      obtain ⟨ss, st⟩ := p
      rw [hs] at h
      cases h
      intro t ht v hv
      obtain ⟨o, ho, rfl⟩ := List.mem_map.1 ht
      obtain ⟨x, hx, rfl⟩ := List.mem_map.1 hv
      have q := (suites_size (Γ := fmtOf nm ext fs) hsel hw (by funext n; exact h3 n) (by funext n; exact h1 n)
        (fun s hs he => Verif.Refine.defined_struct hcomp hs he) (by intro c hc; simp [St.init] at hc) hs).2 o ho x hx
      exact ⟨Nat.le_trans (read_le st x.data) q.len, fun c k y hc hL hy => q.cnt c k y ⟨hc, hL⟩ hy⟩

/-- No vector of a struct has more bytes than computed from the format. -/
theorem generateFiles_size (hsel : Selects E) {nm : String → String} {ext : Go.Ext} {fs : List File} {fuel : Nat}
    {seed : E.R.σ} {corpus : Corpus} (h : generateFiles E fuel seed fs = .ok corpus) {L : Key → Prop} {w : String → Nat}
    (hw : FmtSized (fmtOf nm ext fs) L M w) : ∀ t ∈ corpus, ∀ v ∈ t.vectors, v.data.length ≤ w t.type :=
  fun t ht v hv => (generateFiles_bounds hsel h hw t ht v hv).1

end Verif.Tv
