import Verif.TvLeaf
import Verif.TvHeap
import Verif.Props.Inspect
import Verif.GoTypeProg
/-!
# Specification: formats the vector generator works on, and proof that it does

`FmtRuns` has conditions on trunnel source only.  The generator fails on formats outside the class;
counterexamples are in `Verif/Props/TvRuns.lean`.
-/
set_option linter.unusedVariables false
namespace Verif.Tv
open Verif Verif.Ast Verif.Inspect Verif.Intervals Verif.Go Verif.Spec Verif.Wire Verif.Props

/-! ## Specification -/

/-- A list that can be drawn from: it is not empty, its integers are known, none of its ranges is
reversed, and no two have a common value. -/
def ListRuns (K : String → Option Int) (l : IntegerList) : Prop :=
  l.ranges ≠ [] ∧ ListOK K l ∧ (∀ r ∈ l.ranges, ∀ p, bounds K r = some p → p.1 ≤ p.2) ∧ l.ranges.Pairwise (Apart K)

/-- An element or plain field: constraints can be drawn from, nested structs are defined and not extern. -/
def BaseRuns (Γ : Fmt) : Base → Prop
  | .int t => ∀ l, t.constraint = some l → ListRuns Γ.K l
  | .char => True
  | .struct n => ∃ s, Γ.structs n = some s ∧ s.extern = false

/-- An element of an array; `O` are structs with one shape only, `F` structs that refer to no contexts. -/
def ElemRuns (Γ : Fmt) (O F : String → Prop) (b : Base) : Prop := BaseRuns Γ b ∧ ∀ n, b = .struct n → O n ∨ F n

/-- A field type. Arrays up to a distance from the end are not supported. -/
def TyRuns (Γ : Fmt) (O F : String → Prop) : Ty → Prop
  | .base b => BaseRuns Γ b
  | .ptr => True
  | .nulterm => True
  | .fixedArray b n => ElemRuns Γ O F b ∧ ∃ x, ival Γ.K n = some x
  | .varArray b (some (.idRef _)) => ElemRuns Γ O F b
  | .varArray b none => ElemRuns Γ O F b
  | .varArray _ (some (.leftover _)) => False

/-- A leaf. -/
def LeafRuns (Γ : Fmt) (O F : String → Prop) : Leaf → Prop
  | .field f => TyRuns Γ O F f.type
  | _ => True

/-- Fields outside unions. -/
def topFields (s : Struct) : List Field :=
  s.ms.filterMap fun
    | .leaf (.field f) => some f
    | _ => none

/-- The first of these fields with this name is an integer of type `t`. -/
def FirstInt (n : String) (fs : List Field) (t : IntType) : Prop :=
  ∃ f, fs.find? (fun f => f.name = n) = some f ∧ f.type = .base (.int t)

/-- A reference in struct `s` to an integer of type `t`. -/
def RefInt (Γ : Fmt) (s : Struct) (r : IDRef) (t : IntType) : Prop :=
  if r.scope = "" then FirstInt r.name (topFields s) t
  else ∃ C, Γ.contexts r.scope = some C ∧ FirstInt r.name C.members t

/-- The default case of a union, if there is one, is for at least one value of the tag, and not for all
of the 64-bit integers. -/
def DefaultRuns (K : String → Option Int) (cs : List UnionCase) (n : Nat) : Prop :=
  (∃ c ∈ cs, c.case = none) →
    (∃ x : Nat, x < 2 ^ n ∧ ∀ c ∈ cs, ∀ l, c.case = some l → listHas K l x = false) ∧
    ∃ y : Nat, y < 2 ^ 64 ∧ (2 ^ n ≤ y ∨ ∃ c ∈ cs, ∃ l, c.case = some l ∧ listHas K l y = true)

/-- A member of struct `s`. -/
def MemberRuns (Γ : Fmt) (O F : String → Prop) (s : Struct) : Member → Prop
  | .leaf l => LeafRuns Γ O F l
  | .union u => (∃ t, RefInt Γ s u.tag t ∧ t.size ≤ 64 ∧ DefaultRuns Γ.K u.cases t.size) ∧
      (∀ i, u.length ≠ some (.leftover i)) ∧
      (∀ c ∈ u.cases, ∀ l, c.case = some l → ListRuns Γ.K l) ∧
      ∀ c ∈ u.cases, ∀ l ∈ c.members, LeafRuns Γ O F l

/-- A struct whose members are supported. -/
def StructRuns (Γ : Fmt) (O F : String → Prop) (s : Struct) : Prop := ∀ m ∈ s.ms, MemberRuns Γ O F s m

/-- A member with one shape only: neither a union nor `ignore`, nor with structs that are not in `O`. -/
def OneM (O : String → Prop) : Member → Prop
  | .leaf (.field f) => ∀ n, .struct n ∈ tyBases f.type → O n
  | .leaf .ignore => False
  | .leaf _ => True
  | .union _ => False

/-- `O` are structs with members, and with one shape only. -/
def OneRuns (Γ : Fmt) (O : String → Prop) : Prop :=
  ∀ n s, O n → Γ.structs n = some s → s.extern = false → s.ms ≠ [] ∧ ∀ m ∈ s.ms, OneM O m

/-- A leaf that refers to no contexts; nested structs are in `F`. -/
def FreeLeaf (F : String → Prop) : Leaf → Prop
  | .field f => (∀ n, .struct n ∈ tyBases f.type → F n) ∧ ∀ b r, f.type = .varArray b (some (.idRef r)) → r.scope = ""
  | _ => True

/-- A member that refers to no contexts. -/
def FreeM (F : String → Prop) : Member → Prop
  | .leaf l => FreeLeaf F l
  | .union u => u.tag.scope = "" ∧ (∀ r, u.length = some (.idRef r) → r.scope = "") ∧
      ∀ c ∈ u.cases, ∀ l ∈ c.members, FreeLeaf F l

/-- `F` are structs with members that refer to no contexts, not even in nested structs. -/
def FreeRuns (Γ : Fmt) (F : String → Prop) : Prop :=
  ∀ n s, F n → Γ.structs n = some s → s.extern = false → s.ms ≠ [] ∧ ∀ m ∈ s.ms, FreeM F m

/-- A format the generator works on. Structs that are elements of arrays have one shape only (those in `O`) or
refer to no contexts (those in `F`). -/
structure FmtRuns (Γ : Fmt) (O F : String → Prop) : Prop where
  one : OneRuns Γ O
  free : FreeRuns Γ F
  structs : ∀ n s, Γ.structs n = some s → s.extern = false → StructRuns Γ O F s

/-- The random source makes every draw end within the bound: internal/intervals/intervals.go:230
redraws until a value is small enough. -/
def Answers (E : Env) : Prop :=
  ∀ (s : Set) (rnd : E.R.σ), Canonical s.intervals → s.intervals ≠ [] → NotFull s → s.random E.R E.draws rnd ≠ none

/-! ## Outcomes -/

variable {E : Env} {α β : Type}

/-- The outcome is a result and a state with property `Q`, or a timeout if `T` holds. -/
def Post (T : Prop) (Q : α → St E → Prop) : Out (α × St E) → Prop
  | .ok p => Q p.1 p.2
  | .timeout => T
  | _ => False

variable {T : Prop} {P Q : α → St E → Prop} {R : β → St E → Prop}

theorem Post.of {x : Out (α × St E)} {a : α} {st : St E} (h : x = .ok (a, st)) (hq : Q a st) : Post T Q x := by
  subst h; exact hq

theorem Post.bind {x : TM E α} {f : α → TM E β} {st : St E} (h : Post T P (x st))
    (hf : ∀ a st1, P a st1 → Post T R (f a st1)) : Post T R ((x >>= f) st) := by
  change Post T R (TM.bind x f st)
  unfold TM.bind
  cases hx : x st with
  | ok p => rw [hx] at h; exact hf p.1 p.2 h
  | err e => rw [hx] at h; exact h
  | panic m => rw [hx] at h; exact h
  | timeout => rw [hx] at h; exact h

theorem Post.mono {x : Out (α × St E)} (h : Post T P x) (hf : ∀ a st, P a st → Q a st) : Post T Q x := by
  cases x with
  | ok p => exact hf _ _ h
  | err e => exact h
  | panic m => exact h
  | timeout => exact h

/-- Results with a property known of all results. -/
theorem Post.and {x : Out (α × St E)} (h : Post T P x) (hq : ∀ a st, x = .ok (a, st) → Q a st) : Post T Q x := by
  cases x with
  | ok p => exact hq _ _ rfl
  | err e => exact h
  | panic m => exact h
  | timeout => exact h

theorem Post.pure {a : α} {st : St E} (h : Q a st) : Post T Q ((pure a : TM E α) st) := h

theorem Post.res {r : Res α} {a : α} {st : St E} (hr : r = .ok a) (h : Q a st) : Post T Q ((TM.ofRes r : TM E α) st) := by
  subst hr; exact h

/-! ## Primitive actions -/

theorem cloneRef_post {st : St E} {r : Nat} (hw : st.WF) :
    Post T (fun t st' => NewAt st st' t (st.env r)) (cloneRef r st) := by
  refine Post.and (P := fun _ _ => True) ?_ (fun t st' h => cloneRef_ok hw h)
  obtain ⟨m, hm, _⟩ := Cst.clone_spec E.order st.iter (hw.map r)
  unfold cloneRef
  refine Post.bind (P := fun c st1 => st.map r = c ∧ st = st1) ⟨rfl, rfl⟩ ?_
  rintro _ _ ⟨rfl, rfl⟩
  refine Post.bind (P := fun t st1 => st.iter = t) rfl ?_
  rintro _ st1 rfl
  exact Post.bind (P := fun _ _ => True) (Post.res hm trivial) (fun _ _ _ => trivial)

theorem cloneGlobalRef_post {st : St E} {r : Nat} (hw : st.WF) :
    Post T (fun t st' => NewAt st st' t (globals (st.env r))) (cloneGlobalRef r st) := by
  refine Post.and (P := fun _ _ => True) ?_ (fun t st' h => cloneGlobalRef_ok hw h)
  obtain ⟨m, hm, _⟩ := Cst.cloneGlobal_spec E.order st.iter (hw.map r)
  unfold cloneGlobalRef
  refine Post.bind (P := fun c st1 => st.map r = c ∧ st = st1) ⟨rfl, rfl⟩ ?_
  rintro _ _ ⟨rfl, rfl⟩
  refine Post.bind (P := fun t st1 => st.iter = t) rfl ?_
  rintro _ st1 rfl
  exact Post.bind (P := fun _ _ => True) (Post.res hm trivial) (fun _ _ _ => trivial)

theorem mergeRef_post {st : St E} {a b : Nat} (hw : st.WF) (hc : Compat (st.env a) (st.env b)) :
    Post T (fun t st' => NewAt st st' t (over (st.env a) (st.env b))) (mergeRef a b st) := by
  refine Post.and (P := fun _ _ => True) ?_ (fun t st' h => (mergeRef_ok hw h).2)
  unfold mergeRef
  refine Post.bind (P := fun c st1 => st.map a = c ∧ st = st1) ⟨rfl, rfl⟩ ?_
  rintro _ _ ⟨rfl, rfl⟩
  refine Post.bind (P := fun c st1 => st.map b = c ∧ st = st1) ⟨rfl, rfl⟩ ?_
  rintro _ _ ⟨rfl, rfl⟩
  refine Post.bind (P := fun t st1 => True) trivial ?_
  intro t st1 _
  refine Post.bind (P := fun t st1 => True) trivial ?_
  intro t' st2 _
  rcases Cst.merge_spec E.order t t' (hw.map a) (hw.map b) with ⟨_, m, hm, _⟩ | ⟨h, _⟩
  · exact Post.bind (P := fun _ _ => True) (Post.res hm trivial) (fun _ _ _ => trivial)
  · exact (h (fun c k x y h1 h2 => hc c k x y h1 h2)).elim

theorem lookupOrCreateAt_post {st : St E} {a : Nat} {r : IDRef} {v : Int} (hw : st.WF) (ha : a < st.maps.length) :
    Post T (fun x st' => x = (st.env a r.scope r.name).getD v ∧ SetAt st st' a (orCreate (st.env a) r v))
      (lookupOrCreateAt a r v st) := by
  refine Post.and (P := fun _ _ => True) ?_ (fun t st' h => lookupOrCreateAt_ok hw ha h)
  unfold lookupOrCreateAt
  refine Post.bind (P := fun c st1 => st.map a = c ∧ st = st1) ⟨rfl, rfl⟩ ?_
  rintro _ _ ⟨rfl, rfl⟩
  have : ∃ p, (st.map a).lookupOrCreateRef r v = .ok p := by
    unfold Cst.lookupOrCreateRef
    rcases Cst.lookupOrCreate_spec (st.map a) r.scope r.name v with ⟨w, _, h⟩ | ⟨_, h, _⟩
    · exact ⟨_, h⟩
    · exact ⟨_, h⟩
  obtain ⟨p, hp⟩ := this
  refine Post.bind (P := fun _ _ => True) (Post.res hp trivial) (fun p st1 _ => ?_)
  exact trivial

theorem clearLocalAt_post {st : St E} {a : Nat} (hw : st.WF) (ha : a < st.maps.length) :
    Post T (fun _ st' => SetAt st st' a (globals (st.env a))) (clearLocalAt a st) :=
  Post.and (P := fun _ _ => True) trivial (fun u st' h => clearLocalAt_ok hw ha h)

/-- Stores as before. -/
def SameMaps (st st' : St E) : Prop := st'.maps = st.maps ∧ st'.cur = st.cur

theorem SameMaps.env {st st' : St E} (h : SameMaps st st') : st'.env = st.env := by
  funext r; exact env_eq (by rw [h.1])

theorem randread_post {n : Nat} {st : St E} : Post T (fun _ st' => SameMaps st st') (randread n st) := ⟨rfl, rfl⟩

theorem randbtw_post {a b : Nat} {st : St E} : Post T (fun _ st' => SameMaps st st') (randbtw a b st) := ⟨rfl, rfl⟩

theorem SameMaps.trans {a b c : St E} (h : SameMaps a b) (h' : SameMaps b c) : SameMaps a c := ⟨h'.1.trans h.1, h'.2.trans h.2⟩

theorem randletters_post {n : Nat} {st : St E} : Post T (fun _ st' => SameMaps st st') (randletters n st) := by
  induction n generalizing st with
  | zero => exact ⟨rfl, rfl⟩
  | succ n ih =>
    unfold randletters
    refine Post.bind randbtw_post (fun i st1 h1 => ?_)
    exact Post.bind ih (fun l st2 h2 => h1.trans h2)

theorem vector_post {bs : List UInt8} {st : St E} :
    Post T (fun v st' => SameMaps st st' ∧ v.cst = st.cur) (vector bs st) := ⟨⟨rfl, rfl⟩, rfl⟩

theorem appendSlice_post {s : Slice} {bs : List UInt8} {st : St E} :
    Post T (fun _ st' => SameMaps st st') (appendSlice s bs st) := by
  unfold appendSlice
  simp only []
  split <;> exact ⟨rfl, rfl⟩

theorem appendAll_post {d : Slice} {mvs : List Vec} {st : St E} :
    Post T (fun ws st' => SameMaps st st' ∧ ws.map (·.cst) = mvs.map (·.cst)) (appendAll d mvs st) := by
  induction mvs generalizing st with
  | nil => exact ⟨⟨rfl, rfl⟩, rfl⟩
  | cons mv mvs ih =>
    unfold appendAll
    refine Post.bind (P := fun _ st1 => st = st1) rfl ?_
    rintro bs _ rfl
    refine Post.bind appendSlice_post (fun s st1 h1 => ?_)
    refine Post.bind ih (fun ws st2 h2 => ?_)
    exact ⟨h1.trans h2.1, by simp [h2.2]⟩

/-- Draws from canonical sets succeed, or the source does not answer. -/
theorem randomIn_post (hT : Answers E ∨ T) {s : Set} (hc : Canonical s.intervals) (hne : s.intervals ≠ [])
    (hf : NotFull s) {st : St E} : Post T (fun _ st' => SameMaps st st') (randomIn s st) := by
  unfold randomIn
  cases h : s.random E.R E.draws st.rnd with
  | none => exact hT.elim (fun ha => (ha s st.rnd hc hne hf h).elim) id
  | some p =>
    obtain ⟨o, rnd⟩ := p
    obtain ⟨v, rfl, _⟩ := C06_random_mem E.R s hc hne _ _ _ _ h
    exact ⟨rfl, rfl⟩

/-! ## Sets -/

theorem rangeHas_bounds {K : String → Option Int} {x : Int} {r : IntegerRange} (h : rangeHas K x r = true) :
    ∃ p, bounds K r = some p ∧ p.1 ≤ x ∧ x ≤ p.2 := by
  unfold rangeHas at h
  cases hb : bounds K r with
  | none => rw [hb] at h; simp at h
  | some p =>
    obtain ⟨lo, hi⟩ := p
    rw [hb] at h
    simp only [Bool.and_eq_true, decide_eq_true_eq] at h
    exact ⟨_, rfl, h⟩

/-- A supported list is a set that can be drawn from. -/
theorem intervals_runs {r : Resolver} {l : IntegerList} (h : ListRuns r.constant l) :
    ∃ s, r.intervals l = .ok s ∧ Canonical s.intervals ∧ s.intervals ≠ [] ∧ NotFull s := by
  obtain ⟨hne, hok, hord, hap⟩ := h
  have hn := listOK_nonneg hok
  obtain ⟨s, hs⟩ := (C13_intervals r l hn).1.2 ⟨fun rng hr => by
    obtain ⟨lo, hi, hb, _⟩ := hok rng hr
    exact ⟨lo, hi, hb, hord rng hr _ hb⟩, by
    rintro ⟨x, j, k, a, b, hjk, ha, hb, hxa, hxb⟩
    obtain ⟨p, hp, p1, p2⟩ := rangeHas_bounds hxa
    obtain ⟨q, hq, q1, q2⟩ := rangeHas_bounds hxb
    obtain ⟨hj, rfl⟩ := List.getElem?_eq_some_iff.1 ha
    obtain ⟨hk, rfl⟩ := List.getElem?_eq_some_iff.1 hb
    have := List.pairwise_iff_getElem.1 hap j k hj hk hjk p hp q hq
    omega⟩
  obtain ⟨h1, h2, h3⟩ := intervals_canonical hn hs
  refine ⟨s, hs, h1, h2 hne, UInt64.ofNat (2 ^ 63), ?_⟩
  rw [← Bool.not_eq_true, h3]
  intro hl
  unfold listHas at hl
  obtain ⟨rng, hr, hx⟩ := List.any_eq_true.1 hl
  obtain ⟨p, hp, p1, p2⟩ := rangeHas_bounds hx
  obtain ⟨lo, hi, hb, _, _, _, hlt⟩ := hok rng hr
  rw [hb] at hp
  cases hp
  have e : (UInt64.ofNat (2 ^ 63)).toNat = 2 ^ 63 := by rfl
  rw [e] at p2
  simp only [] at p2
  omega

theorem findIntType_first {n : String} {fs : List Field} {t : IntType} (h : FirstInt n fs t) : findIntType n fs = .ok t := by
  obtain ⟨f, hf, ht⟩ := h
  induction fs with
  | nil => cases hf
  | cons g gs ih =>
    unfold findIntType
    by_cases hg : g.name = n
    · rw [List.find?_cons_of_pos (by simpa using hg)] at hf
      cases hf
      simp [hg, ht]
    · rw [List.find?_cons_of_neg (by simpa using hg)] at hf
      simp [hg, ih hf]

/-- What a resolver knows of a format. -/
structure Knows (Γ : Fmt) (r : Resolver) : Prop where
  const : r.constant = Γ.K
  ctxs : r.context = Γ.contexts
  strs : r.struct = Γ.structs

theorem intType_ref {Γ : Fmt} {r : Resolver} (hk : Knows Γ r) {s : Struct} {ref : IDRef} {t : IntType} (h : RefInt Γ s ref t) :
    r.intType ref s = .ok t := by
  unfold RefInt at h
  unfold Resolver.intType
  split
  · rename_i e
    rw [if_pos e] at h
    exact findIntType_first h
  · rename_i e
    rw [if_neg e, ← hk.ctxs] at h
    obtain ⟨C, hC, h⟩ := h
    rw [hC]
    exact findIntType_first h

theorem branchLoop_runs {r : Resolver} (cs : List UnionCase) :
    ∀ (dset : Set) (dcase : Option UnionCase), (∀ c ∈ cs, ∀ l, c.case = some l → ListRuns r.constant l) →
    Canonical dset.intervals → ∃ p, branchLoop r dset dcase cs = .ok p := by
  induction cs with
  | nil => intro dset dcase _ _; exact ⟨_, rfl⟩
  | cons c cs ih =>
    intro dset dcase hc hd
    unfold branchLoop
    cases hcc : c.case with
    | none => exact ih _ _ (fun c' h' => hc c' (List.mem_cons_of_mem _ h')) hd
    | some l =>
      obtain ⟨s, hs, h1, h2, _⟩ := intervals_runs (hc c List.mem_cons_self l hcc)
      obtain ⟨d, hd1, hd2, _⟩ := C04_subtract_partial dset s hd h1 h2
      obtain ⟨⟨bs, q⟩, hp⟩ := ih d dcase (fun c' h' => hc c' (List.mem_cons_of_mem _ h')) hd2
      exact ⟨(⟨s, c⟩ :: bs, q), by simp [hs, hd1, hp]⟩

theorem set_nonempty {s : Set} {x : UInt64} (h : s.contains x = true) : s.intervals ≠ [] := by
  intro e
  simp [Set.contains, e] at h

theorem newBranches_runs {Γ : Fmt} {r : Resolver} (hk : Knows Γ r) {s : Struct} {u : UnionMember} {t : IntType}
    (ht : RefInt Γ s u.tag t) (hsz : t.size ≤ 64) (hd : DefaultRuns Γ.K u.cases t.size)
    (hc : ∀ c ∈ u.cases, ∀ l, c.case = some l → ListRuns Γ.K l) :
    ∃ bs, newBranches r s u = .ok bs ∧
      ∀ b ∈ bs, b.case ∈ u.cases ∧ Canonical b.set.intervals ∧ b.set.intervals ≠ [] ∧ NotFull b.set := by
  rw [← hk.const] at hd hc
  obtain ⟨d0, hd0, hcan, hmem⟩ := C05_intType t.size hsz
  obtain ⟨⟨bs, d1, dc⟩, hl⟩ := branchLoop_runs u.cases d0 none hc hcan
  obtain ⟨a1, a2, a3, a4, a5, a6⟩ := branchLoop_spec r t.size u.cases d0 none [] bs d1 dc
    (fun c hc' l hl' => ⟨(hc c hc' l hl').1, listOK_nonneg (hc c hc' l hl').2.1⟩) hcan (by simpa using hmem) hl
  simp only [List.nil_append, Option.or_none] at a2 a3
  have hmain : ∀ b ∈ bs, b.case ∈ u.cases ∧ Canonical b.set.intervals ∧ b.set.intervals ≠ [] ∧ NotFull b.set := by
    intro b hb
    obtain ⟨b1, b2, b3⟩ := a5 b hb
    obtain ⟨l, hbl⟩ : ∃ l, b.case.case = some l := by
      have : b.case ∈ bs.map (·.case) := List.mem_map_of_mem hb
      rw [a6, List.mem_filter] at this
      exact Option.isSome_iff_exists.1 this.2
    obtain ⟨s', hs', c1, c2, c3⟩ := intervals_runs (hc b.case b1 l hbl)
    have heq : ∀ x, b.set.contains x = s'.contains x := by
      intro x
      rw [Bool.eq_iff_iff, b3 x, (intervals_canonical (listOK_nonneg (hc b.case b1 l hbl).2.1) hs').2.2 x]
      unfold caseHas
      rw [hbl]
    refine ⟨b1, b2, ?_, ?_⟩
    · intro e
      cases hi : s'.intervals with
      | nil => exact c2 hi
      | cons i is =>
        have hv := ((canonical_iff _).1 c1).1 i (by rw [hi]; exact List.mem_cons_self)
        have : s'.contains i.lo = true := by
          unfold Set.contains
          rw [hi]
          simp only [List.any_cons, Bool.or_eq_true]
          exact .inl (by simpa [Interval.contains, Interval.Valid] using hv)
        rw [← heq i.lo] at this
        exact set_nonempty this e
    · obtain ⟨x, hx⟩ := c3
      exact ⟨x, by rw [heq]; exact hx⟩
  cases hdc : dc with
  | none =>
    subst hdc
    exact ⟨bs, by simp [newBranches, intType_ref hk ht, hd0, hl], hmain⟩
  | some c =>
    subst hdc
    have hcm := List.mem_of_find?_eq_some a3.symm
    have hcn := List.find?_some a3.symm
    rw [List.mem_reverse] at hcm
    have hcn' : c.case = none := by cases h : c.case <;> simp_all
    obtain ⟨⟨x, hx1, hx2⟩, y, hy1, hy2⟩ := hd ⟨c, hcm, hcn'⟩
    refine ⟨bs ++ [⟨d1, c⟩], by simp [newBranches, intType_ref hk ht, hd0, hl], ?_⟩
    intro b hb
    rcases List.mem_append.1 hb with hb | hb
    · exact hmain b hb
    · cases List.mem_singleton.1 hb
      have hlt : x < 2 ^ 64 := Nat.lt_of_lt_of_le hx1 (Nat.pow_le_pow_right (by omega) hsz)
      have hxe : (UInt64.ofNat x).toNat = x := UInt64.toNat_ofNat_of_lt' hlt
      have hye : (UInt64.ofNat y).toNat = y := UInt64.toNat_ofNat_of_lt' hy1
      refine ⟨hcm, a1, ?_, UInt64.ofNat y, ?_⟩
      · refine set_nonempty (x := UInt64.ofNat x) ((a2 _).2 ?_)
        rw [hxe]
        refine ⟨hx1, fun c' hc' => ?_⟩
        unfold caseHas
        cases hl' : c'.case with
        | none => rfl
        | some l => exact hx2 c' hc' l hl'
      · show d1.contains _ = false
        rw [← Bool.not_eq_true, a2, hye]
        rintro ⟨h1, h2⟩
        rcases hy2 with hy2 | ⟨c', hc', l, hl', hh⟩
        · omega
        · have := h2 c' hc'
          unfold caseHas at this
          rw [hl'] at this
          simp only [] at this
          rw [hh] at this
          cases this

/-! ## Actions -/

/-- What any action leaves: stores are well-formed, and references are to stores. -/
structure GP (st : St E) (vs : List Vec) (st' : St E) : Prop where
  wf : st'.WF
  cur : st'.cur < st'.maps.length
  le : st.maps.length ≤ st'.maps.length
  vec : ∀ v ∈ vs, v.cst < st'.maps.length

/-- Entries are kept. -/
def Sub (σ τ : CEnv) : Prop := ∀ c k x, σ c k = some x → τ c k = some x

theorem Sub.refl (σ : CEnv) : Sub σ σ := fun _ _ _ h => h
theorem Sub.trans {σ τ υ : CEnv} (h : Sub σ τ) (h' : Sub τ υ) : Sub σ υ := fun c k x hx => h' c k x (h c k x hx)

/-- What an action with at most one result leaves: stores before `N` are kept, and the result agrees with
the current store on context values, which are kept. -/
structure OP (N : Nat) (st : St E) (vs : List Vec) (st' : St E) : Prop extends GP st vs st' where
  one : vs.length ≤ 1
  cur_ge : N ≤ st'.cur
  old : ∀ r, r < N → st'.maps[r]? = st.maps[r]?
  sub : Sub (globals (st.env st.cur)) (globals (st'.env st'.cur))
  vec_ge : ∀ v ∈ vs, N ≤ v.cst
  glob : ∀ v ∈ vs, globals (st'.env v.cst) = globals (st'.env st'.cur)

/-- What generating an array element leaves: all stores are kept, and the result is in the current store
(if `i`), or has context values only. -/
structure EP (i : Prop) (st : St E) (vs : List Vec) (st' : St E) : Prop extends GP st vs st' where
  one : vs.length ≤ 1
  old : ∀ r, r < st.maps.length → st'.maps[r]? = st.maps[r]?
  sub : Sub (globals (st.env st.cur)) (globals (st'.env st'.cur))
  glob : ∀ v ∈ vs, globals (st'.env v.cst) = globals (st'.env st'.cur)
  cur_or : st'.cur = st.cur ∨ st.maps.length ≤ st'.cur
  same : i → st'.cur = st.cur ∧ ∀ v ∈ vs, v.cst = st.cur
  fresh : ¬ i → ∀ v ∈ vs, st.maps.length ≤ v.cst ∧ ∀ k, st'.env v.cst "" k = none

/-- What generating an array element without contexts leaves: all stores are kept, and context values are those
of the current store. -/
structure NP (i : Prop) (st : St E) (vs : List Vec) (st' : St E) : Prop extends GP st vs st' where
  old : ∀ r, r < st.maps.length → st'.maps[r]? = st.maps[r]?
  cur_or : st'.cur = st.cur ∨ st.maps.length ≤ st'.cur
  cur_g : globals (st'.env st'.cur) = globals (st.env st.cur)
  glob : ∀ v ∈ vs, globals (st'.env v.cst) = globals (st.env st.cur)
  same : i → st'.cur = st.cur ∧ ∀ v ∈ vs, v.cst = st.cur
  fresh : ¬ i → ∀ v ∈ vs, st.maps.length ≤ v.cst ∧ ∀ k, st'.env v.cst "" k = none

/-- What an action without contexts leaves: stores before `N` are kept, and so are all context values. -/
structure FP (N : Nat) (st : St E) (vs : List Vec) (st' : St E) : Prop extends GP st vs st' where
  cur_ge : N ≤ st'.cur
  old : ∀ r, r < N → st'.maps[r]? = st.maps[r]?
  keep : ∀ r, r < st.maps.length → globals (st'.env r) = globals (st.env r)
  cur_g : globals (st'.env st'.cur) = globals (st.env st.cur)
  vec_ge : ∀ v ∈ vs, N ≤ v.cst
  glob : ∀ v ∈ vs, globals (st'.env v.cst) = globals (st.env st.cur)

/-- An action that works. -/
def GAct (T : Prop) (x : TM E (List Vec)) : Prop :=
  ∀ st : St E, st.WF → st.cur < st.maps.length → Post T (GP st) (x st)

/-- An action that works and has at most one result. -/
def OAct (T : Prop) (x : TM E (List Vec)) : Prop :=
  ∀ (st : St E) N, st.WF → st.cur < st.maps.length → N ≤ st.cur → Post T (OP N st) (x st)

/-- An action that works as an array element. -/
def EAct (T i : Prop) (x : TM E (List Vec)) : Prop :=
  ∀ st : St E, st.WF → st.cur < st.maps.length → Post T (EP i st) (x st)

/-- An action that works as an array element and uses no contexts. -/
def NAct (T i : Prop) (x : TM E (List Vec)) : Prop :=
  ∀ st : St E, st.WF → st.cur < st.maps.length → Post T (NP i st) (x st)

/-- An action that works and uses no contexts. -/
def FAct (T : Prop) (x : TM E (List Vec)) : Prop :=
  ∀ (st : St E) N, st.WF → st.cur < st.maps.length → N ≤ st.cur → Post T (FP N st) (x st)

variable {x : TM E (List Vec)}

theorem NAct.fact {i : Prop} (h : NAct T i x) : FAct T x := by
  intro st N hw hc hN
  refine (h st hw hc).mono (fun vs st' h => ?_)
  refine ⟨h.toGP, ?_, fun r hr => h.old r (by omega), fun r hr => by rw [env_eq (h.old r hr)], h.cur_g, fun v hv => ?_, h.glob⟩
  · rcases h.cur_or with e | e <;> omega
  · by_cases hi : i
    · rw [(h.same hi).2 v hv]; exact hN
    · have := (h.fresh hi v hv).1; omega

theorem OAct.gact (h : OAct T x) : GAct T x :=
  fun st hw hc => (h st 0 hw hc (Nat.zero_le _)).mono (fun _ _ h => h.toGP)

theorem EAct.oact {i : Prop} (h : EAct T i x) : OAct T x := by
  intro st N hw hc hN
  refine (h st hw hc).mono (fun vs st' h => ?_)
  refine ⟨h.toGP, h.one, ?_, fun r hr => h.old r (by omega), h.sub, fun v hv => ?_, h.glob⟩
  · rcases h.cur_or with e | e <;> omega
  · by_cases hi : i
    · rw [(h.same hi).2 v hv]; exact hN
    · have := (h.fresh hi v hv).1; omega

/-- Results in the current store, which is kept. -/
theorem ep_same {st st' : St E} {vs : List Vec} (h : SameMaps st st') (hw : st.WF) (hc : st.cur < st.maps.length)
    (hv : ∀ v ∈ vs, v.cst = st.cur) (h1 : vs.length ≤ 1) : EP True st vs st' where
  wf := by unfold St.WF; rw [h.1]; exact hw
  cur := by rw [h.1, h.2]; exact hc
  le := by rw [h.1]
  vec v hv' := by rw [hv v hv', h.1]; exact hc
  one := h1
  old r _ := by rw [h.1]
  sub := by rw [h.env, h.2]; exact .refl _
  glob v hv' := by rw [hv v hv', h.2]
  cur_or := .inl h.2
  same _ := ⟨h.2, hv⟩
  fresh h := (h trivial).elim

/-- Results of an action that leaves the stores alone. -/
def IAct (T : Prop) (x : TM E (List Vec)) : Prop :=
  ∀ st : St E, Post T (fun vs st' => SameMaps st st' ∧ (∀ v ∈ vs, v.cst = st.cur) ∧ vs.length ≤ 1) (x st)

theorem IAct.eact (h : IAct T x) : EAct T True x :=
  fun st hw hc => (h st).mono (fun vs st' h => ep_same h.1 hw hc h.2.1 h.2.2)

theorem IAct.nact (h : IAct T x) : NAct T True x := by
  intro st hw hc
  refine (h st).mono ?_
  rintro vs st' ⟨h1, h2, h3⟩
  have := ep_same h1 hw hc h2 h3
  exact ⟨this.toGP, this.old, this.cur_or, by rw [h1.env, h1.2], fun v hv => by rw [h1.env, h2 v hv], this.same, this.fresh⟩

theorem SameMaps.wf {st st' : St E} (h : SameMaps st st') (hw : st.WF) : st'.WF := by unfold St.WF; rw [h.1]; exact hw

theorem genInt_iact (hT : Answers E ∨ T) {r : Resolver} {name : String} {t : IntType}
    (h : ∀ l, t.constraint = some l → ListRuns r.constant l) : IAct T (genInt (E := E) r name t) := by
  intro st
  unfold genInt
  refine Post.bind (P := fun c st1 => st.cur = c ∧ st = st1) ⟨rfl, rfl⟩ ?_
  rintro _ _ ⟨rfl, rfl⟩
  refine Post.bind (P := fun c st1 => st.map st.cur = c ∧ st = st1) ⟨rfl, rfl⟩ ?_
  rintro _ _ ⟨rfl, rfl⟩
  have tail : ∀ bs st1, SameMaps st st1 →
      Post T (fun vs st' => SameMaps st st' ∧ (∀ v ∈ vs, v.cst = st.cur) ∧ vs.length ≤ 1)
        ((do let v ← vector bs; pure [v] : TM E (List Vec)) st1) := by
    intro bs st1 h1
    refine Post.bind vector_post (fun v st2 h2 => ?_)
    refine ⟨h1.trans h2.1, ?_, by simp⟩
    intro v' hv'
    cases List.mem_singleton.1 hv'
    rw [h2.2, h1.2]
  simp only []
  cases (st.map st.cur).lookup "" name with
  | some x => exact Post.bind (P := fun _ st1 => SameMaps st st1) (Post.pure ⟨rfl, rfl⟩) (fun bs st1 h1 => tail bs st1 h1)
  | none =>
    simp only []
    cases hl : t.constraint with
    | some l =>
      obtain ⟨s, hs, c1, c2, c3⟩ := intervals_runs (h l hl)
      refine Post.bind (P := fun a st1 => s = a ∧ st = st1) (Post.res hs ⟨rfl, rfl⟩) ?_
      rintro _ _ ⟨rfl, rfl⟩
      refine Post.bind (randomIn_post hT c1 c2 c3) (fun x st1 h1 => ?_)
      exact Post.bind (P := fun _ st2 => SameMaps st st2) h1 (fun bs st1 h1 => tail bs st1 h1)
    | none => exact Post.bind randread_post (fun bs st1 h1 => tail bs st1 h1)

theorem emptyVec_iact : IAct T (do let v ← emptyVec (E := E); pure [v]) := by
  intro st
  refine Post.bind vector_post (fun v st2 h2 => ?_)
  refine ⟨h2.1, ?_, by simp⟩
  intro v' hv'
  cases List.mem_singleton.1 hv'
  exact h2.2

theorem nulterm_iact : IAct T (do let s ← randnulterm (E := E); let v ← vector s; pure [v]) := by
  intro st
  have hn : Post T (fun _ st1 => SameMaps st st1) (randnulterm st) := by
    unfold randnulterm
    refine Post.bind randbtw_post (fun n st1 h1 => ?_)
    exact Post.bind randletters_post (fun l st2 h2 => h1.trans h2)
  refine Post.bind hn (fun bs st1 h1 => ?_)
  refine Post.bind vector_post (fun v st2 h2 => ?_)
  refine ⟨h1.trans h2.1, ?_, by simp⟩
  intro v' hv'
  cases List.mem_singleton.1 hv'
  rw [h2.2, h1.2]

theorem fail_iact : IAct T (pure [] : TM E (List Vec)) := fun st => ⟨⟨rfl, rfl⟩, by simp, by simp⟩

/-- Structs below are generated. -/
def SAct (Γ : Fmt) (O F : String → Prop) (T : Prop) (s : Struct) (S : Struct → TM E (List Vec)) : Prop :=
  ∀ n s', Nests s n → Γ.structs n = some s' → s'.extern = false → GAct T (S s') ∧ (O n → EAct T False (S s')) ∧ (F n → NAct T False (S s'))

variable {Γ : Fmt} {O F : String → Prop} {s : Struct} {S : Struct → TM E (List Vec)} {r : Resolver}

theorem genStructRef_post (hk : Knows Γ r) {n : String} {s' : Struct} (hs : Γ.structs n = some s') (he : s'.extern = false)
    {st : St E} {Q : List Vec → St E → Prop} (h : Post T Q (S s' st)) : Post T Q (genStructRef r S n st) := by
  unfold genStructRef
  have e : r.structNonExtern n = .ok s' := by
    unfold Resolver.structNonExtern
    rw [hk.strs, hs]
    simp [he]
  refine Post.bind (P := fun a st1 => s' = a ∧ st = st1) (Post.res e ⟨rfl, rfl⟩) ?_
  rintro _ _ ⟨rfl, rfl⟩
  exact h

theorem genBase_eact (hT : Answers E ∨ T) (hk : Knows Γ r) (hS : SAct Γ O F T s S) {name : String} {b : Base} (h : BaseRuns Γ b)
    (hn : ∀ n, b = .struct n → Nests s n) (ho : ∀ n, b = .struct n → O n) : ∃ i, EAct T i (genBase (E := E) r S name b) := by
  cases b with
  | int t => exact ⟨_, (genInt_iact hT (by rw [hk.const]; exact h)).eact⟩
  | char => exact ⟨_, (genInt_iact (r := r) hT (by intro l hl; cases hl)).eact⟩
  | struct n =>
    obtain ⟨s', hs, he⟩ := h
    refine ⟨False, fun st hw hc => ?_⟩
    exact genStructRef_post hk hs he ((hS n s' (hn n rfl) hs he).2.1 (ho n rfl) st hw hc)

theorem genBase_nact (hT : Answers E ∨ T) (hk : Knows Γ r) (hS : SAct Γ O F T s S) {name : String} {b : Base} (h : BaseRuns Γ b)
    (hn : ∀ n, b = .struct n → Nests s n) (hf : ∀ n, b = .struct n → F n) : ∃ i, NAct T i (genBase (E := E) r S name b) := by
  cases b with
  | int t => exact ⟨_, (genInt_iact hT (by rw [hk.const]; exact h)).nact⟩
  | char => exact ⟨_, (genInt_iact (r := r) hT (by intro l hl; cases hl)).nact⟩
  | struct n =>
    obtain ⟨s', hs, he⟩ := h
    refine ⟨False, fun st hw hc => ?_⟩
    exact genStructRef_post hk hs he ((hS n s' (hn n rfl) hs he).2.2 (hf n rfl) st hw hc)

theorem genBase_gact (hT : Answers E ∨ T) (hk : Knows Γ r) (hS : SAct Γ O F T s S) {name : String} {b : Base} (h : BaseRuns Γ b)
    (hn : ∀ n, b = .struct n → Nests s n) : GAct T (genBase (E := E) r S name b) := by
  cases b with
  | int t => exact (genInt_iact hT (by rw [hk.const]; exact h)).eact.oact.gact
  | char => exact (genInt_iact (r := r) hT (by intro l hl; cases hl)).eact.oact.gact
  | struct n =>
    obtain ⟨s', hs, he⟩ := h
    intro st hw hc
    exact genStructRef_post hk hs he ((hS n s' (hn n rfl) hs he).1 st hw hc)

theorem cross_one {u v : Vec} {st : St E} (hw : st.WF) (hc : Compat (st.env u.cst) (st.env v.cst)) :
    Post T (fun vs st' => ∃ d m st1, vs = [⟨d, m⟩] ∧ NewAt st st1 m (over (st.env u.cst) (st.env v.cst)) ∧ SameMaps st1 st')
      (cross [u] [v] st) := by
  unfold cross
  refine Post.bind (P := fun vs st' => ∃ d m st1, vs = [⟨d, m⟩] ∧ NewAt st st1 m (over (st.env u.cst) (st.env v.cst)) ∧
    SameMaps st1 st') ?_ ?_
  · unfold crossOne
    refine Post.bind (mergeRef_post hw hc) (fun m st1 h1 => ?_)
    refine Post.bind (P := fun _ st2 => st1 = st2) rfl ?_
    rintro d _ rfl
    refine Post.bind appendSlice_post (fun s st2 h2 => ?_)
    exact ⟨s, m, st1, rfl, h1, h2⟩
  · rintro vs st' ⟨d, m, st1, rfl, h1, h2⟩
    exact ⟨d, m, st1, rfl, h1, h2⟩

theorem cross_nil {vs : List Vec} {us : List Vec} (h : us = [] ∨ vs = []) (hu : us.length ≤ 1) {st : St E} :
    Post T (fun ws st' => ws = [] ∧ st = st') (cross us vs st) := by
  cases us with
  | nil => exact ⟨rfl, rfl⟩
  | cons u us =>
    have : us = [] := by simpa using hu
    subst this
    rcases h with h | h
    · cases h
    · subst h; exact ⟨rfl, rfl⟩

/-- What holds in the loop of arrays: `st0` is the state before it. -/
structure AI (i : Prop) (N : Nat) (st0 st : St E) (acc : List Vec) : Prop where
  wf : st.WF
  cur : st.cur < st.maps.length
  cur_ge : N ≤ st.cur
  le : st0.maps.length ≤ st.maps.length
  old : ∀ r, r < N → st.maps[r]? = st0.maps[r]?
  sub : Sub (globals (st0.env st0.cur)) (globals (st.env st.cur))
  one : acc.length ≤ 1
  vec : ∀ v ∈ acc, N ≤ v.cst ∧ v.cst < st.maps.length ∧ globals (st.env v.cst) = globals (st.env st.cur) ∧
    (i → st.env v.cst = st.env st.cur)

theorem globals_twice (σ : CEnv) : globals (globals σ) = globals σ := by
  funext c k
  unfold globals
  split <;> rfl

theorem globals_of {σ : CEnv} {c k : String} (h : c ≠ "") : globals σ c k = σ c k := by simp [globals, h]

theorem select_post {vs : List Vec} (hsel : Selects E) {st : St E} :
    Post T (fun ws st' => SameMaps st st' ∧ (∀ v ∈ ws, v ∈ vs) ∧ ws.length ≤ vs.length) (select vs st) :=
  ⟨⟨rfl, rfl⟩, fun v hv => (hsel _ vs).subset hv, (hsel _ vs).length_le⟩

/-- One pass of the loop. -/
theorem pass_post (hsel : Selects E) {elem : TM E (List Vec)} {i : Prop} (he : EAct T i elem) {N : Nat} {st0 st : St E}
    {acc : List Vec} (hi : AI i N st0 st acc) {f : List Vec → TM E (List Vec)} {Q : List Vec → St E → Prop}
    (hf : ∀ acc' st', AI i N st0 st' acc' → Post T Q (f acc' st')) :
    Post T Q ((do let w ← elem; let v ← cross w acc; let v ← select v; f v) st) := by
  refine Post.bind (he st hi.wf hi.cur) (fun w st1 h1 => ?_)
  have hge : N ≤ st1.cur := by
    rcases h1.cur_or with e | e
    · rw [e]; exact hi.cur_ge
    · have := hi.cur; have := hi.cur_ge; omega
  have hold : ∀ r, r < N → st1.maps[r]? = st0.maps[r]? := fun r hr =>
    (h1.old r (by have := hi.cur; have := hi.cur_ge; omega)).trans (hi.old r hr)
  have hle : st0.maps.length ≤ st1.maps.length := Nat.le_trans hi.le h1.le
  have hsub := hi.sub.trans h1.sub
  have key : Post T (fun acc' st' => AI i N st0 st' acc') (cross w acc st1) := by
    by_cases hnil : w = [] ∨ acc = []
    · refine (cross_nil hnil h1.one).mono ?_
      rintro _ _ ⟨rfl, rfl⟩
      exact ⟨h1.wf, h1.cur, hge, hle, hold, hsub, by simp, by simp⟩
    · obtain ⟨u, rfl⟩ : ∃ u, w = [u] := by
        have := h1.one
        cases w with
        | nil => simp at hnil
        | cons u us => exact ⟨u, by simpa using this⟩
      obtain ⟨v, rfl⟩ : ∃ v, acc = [v] := by
        have := hi.one
        cases acc with
        | nil => simp at hnil
        | cons u us => exact ⟨u, by simpa using this⟩
      obtain ⟨v1, v2, v3, v4⟩ := hi.vec v (List.mem_singleton.2 rfl)
      have hu1 := h1.glob u (List.mem_singleton.2 rfl)
      have ev : st1.env v.cst = st.env v.cst := env_eq (h1.old _ v2)
      -- context values
      have hgl : Sub (globals (st1.env v.cst)) (globals (st1.env u.cst)) := by
        rw [ev, v3, hu1]; exact h1.sub
      -- an integer's constraints are those of the current store
      have hint : i → st1.env u.cst = st1.env v.cst ∧ st1.env v.cst = st1.env st1.cur := by
        intro h
        obtain ⟨e1, e2⟩ := h1.same h
        rw [e2 u (List.mem_singleton.2 rfl), ev, v4 h, e1]
        have := env_eq (h1.old _ hi.cur)
        exact ⟨this, this.symm⟩
      have hcomp : Compat (st1.env u.cst) (st1.env v.cst) := by
        intro c k x y hx hy
        by_cases h : i
        · rw [(hint h).1, hy] at hx
          exact (Option.some.inj hx).symm
        · by_cases hc : c = ""
          · subst hc
            rw [(h1.fresh h u (List.mem_singleton.2 rfl)).2 k] at hx; cases hx
          · have := hgl c k y (by rw [globals_of hc]; exact hy)
            rw [globals_of hc, hx] at this
            exact Option.some.inj this
      refine (cross_one h1.wf hcomp).mono ?_
      rintro _ st3 ⟨d, m, st2, rfl, hm, hsame⟩
      have ec : st2.env st2.cur = st1.env st1.cur := by rw [hm.cur]; exact env_eq (hm.old _ h1.cur)
      have e3 : st3.env = st2.env := hsame.env
      refine ⟨hsame.wf hm.wf, ?_, ?_, ?_, ?_, ?_, by simp, ?_⟩
      · rw [hsame.1, hsame.2, hm.len, hm.cur]; have := h1.cur; omega
      · rw [hsame.2, hm.cur]; exact hge
      · rw [hsame.1, hm.len]; omega
      · intro r hr
        rw [hsame.1, hm.old r (by have := h1.cur; omega)]
        exact hold r hr
      · rw [e3, hsame.2, ec]; exact hsub
      · intro v' hv'
        cases List.mem_singleton.1 hv'
        simp only []
        rw [e3, hsame.1, hsame.2, hm.len, ec, hm.env, hm.ref]
        refine ⟨by have := h1.cur; omega, by omega, ?_, ?_⟩
        · funext c k
          rw [← hu1]
          by_cases hc : c = ""
          · simp [globals, hc]
          · rw [globals_of hc, globals_of hc]
            unfold over
            cases hy : st1.env v.cst c k with
            | none => rfl
            | some y =>
              have := hgl c k y (by rw [globals_of hc]; exact hy)
              rw [globals_of hc] at this
              exact this.symm
        · intro h
          obtain ⟨a, b⟩ := hint h
          rw [a, b]
          funext c k
          unfold over
          cases st1.env st1.cur c k <;> rfl
  refine Post.bind key (fun acc' st2 h2 => ?_)
  refine Post.bind (select_post hsel) ?_
  rintro ws st3 ⟨h3, hm, hl⟩
  have e : st3.env = st2.env := h3.env
  refine hf _ _ ⟨h3.wf h2.wf, by rw [h3.1, h3.2]; exact h2.cur, by rw [h3.2]; exact h2.cur_ge, by rw [h3.1]; exact h2.le,
    by rw [h3.1]; exact h2.old, by rw [e, h3.2]; exact h2.sub, Nat.le_trans hl h2.one, fun v hv => ?_⟩
  rw [h3.1, h3.2, e]
  exact h2.vec v (hm v hv)

theorem arrayLoop_post (hsel : Selects E) {elem : TM E (List Vec)} {i : Prop} (he : EAct T i elem) {N : Nat} {st0 : St E}
    (n : Nat) : ∀ {st : St E} {acc : List Vec}, AI i N st0 st acc →
    Post T (fun acc' st' => AI i N st0 st' acc') (arrayLoop elem n acc st) := by
  induction n with
  | zero => intro st acc hi; exact hi
  | succ n ih =>
    intro st acc hi
    unfold arrayLoop
    exact pass_post hsel he hi (fun acc' st' h => ih h)

/-- The number of elements can be found. -/
def CountRuns (Γ : Fmt) : Count → Prop
  | .size i => ∃ x, ival Γ.K i = some x
  | .con (some (.leftover _)) => False
  | .con _ => True

theorem integer_runs {r : Resolver} {i : Integer} {x : Int} (h : ival r.constant i = some x) : r.integer i = .ok x := by
  cases i with
  | literal v => simp [ival] at h; simp [Resolver.integer, h]
  | constRef n => simp [ival] at h; simp [Resolver.integer, h]

/-- The number of elements is not in a context. -/
def CountFree : Count → Prop
  | .con (some (.idRef r)) => r.scope = ""
  | _ => True

/-- What looking up the number of elements leaves. -/
structure CP (c : Count) (st st' : St E) : Prop where
  wf : st'.WF
  cur : st'.cur = st.cur
  len : st'.maps.length = st.maps.length
  old : ∀ k, k ≠ st.cur → st'.maps[k]? = st.maps[k]?
  sub : Sub (globals (st.env st.cur)) (globals (st'.env st'.cur))
  free : CountFree c → ∀ r, globals (st'.env r) = globals (st.env r)

theorem globals_orCreate {σ : CEnv} {ref : IDRef} {x : Int} (h : ref.scope = "") : globals (orCreate σ ref x) = globals σ := by
  funext c k
  unfold globals orCreate
  split
  · rfl
  · rename_i hc
    rw [if_neg (fun e => hc (e.1.trans h))]

theorem sub_orCreate (σ : CEnv) (ref : IDRef) (x : Int) : Sub (globals σ) (globals (orCreate σ ref x)) := by
  intro c k y hy
  unfold globals at hy ⊢
  split at hy
  · cases hy
  · rename_i hcne
    rw [if_neg hcne]
    unfold orCreate
    split
    · rw [hy]; rfl
    · exact hy

theorem arrayCount_post (hk : Knows Γ r) {c : Count} (hc : CountRuns Γ c) {st : St E} {iv : Vec} (hw : st.WF)
    (hcur : st.cur < st.maps.length) (hv : iv.cst = st.cur) : Post T (fun _ st2 => CP c st st2) (arrayCount r iv c st) := by
  have same : ∀ {st2 : St E}, SameMaps st st2 → CP c st st2 := by
    intro st2 hs
    exact ⟨hs.wf hw, hs.2, by rw [hs.1], fun k _ => by rw [hs.1], by rw [hs.env, hs.2]; exact .refl _, fun _ _ => by rw [hs.env]⟩
  cases c with
  | size n =>
    obtain ⟨x, hx⟩ := hc
    rw [← hk.const] at hx
    exact Post.res (integer_runs hx) (same ⟨rfl, rfl⟩)
  | con lc =>
    cases lc with
    | none => exact Post.bind randbtw_post (fun k st2 h => same h)
    | some lc =>
      cases lc with
      | leftover _ => exact hc.elim
      | idRef ref =>
        refine Post.bind randbtw_post (fun k st2 hs => ?_)
        have s1 := same hs
        refine (lookupOrCreateAt_post s1.wf (by rw [hv, s1.len]; exact hcur)).mono ?_
        rintro x st3 ⟨_, h3⟩
        rw [hv] at h3
        refine ⟨h3.wf, h3.cur.trans s1.cur, h3.len.trans s1.len, fun k hk => ?_, ?_, ?_⟩
        · rw [h3.old k hk]; exact s1.old k hk
        · refine s1.sub.trans ?_
          rw [h3.cur, s1.cur, h3.env]
          exact sub_orCreate _ _ _
        · intro hf r
          by_cases e : r = st.cur
          · subst e
            rw [h3.env, globals_orCreate hf, hs.env]
          · rw [env_eq (h3.old r e), hs.env]

theorem genArray_oact (hsel : Selects E) (hk : Knows Γ r) {b : Base} {c : Count} (hc : CountRuns Γ c)
    (he : ∃ i, EAct T i (genBase (E := E) r S "" b)) : OAct T (genArray (E := E) r S b c) := by
  obtain ⟨i, he⟩ := he
  intro st N hw hcur hN
  unfold genArray
  refine Post.bind vector_post ?_
  rintro iv st1 ⟨h1, h2⟩
  have hw1 := h1.wf hw
  refine Post.bind (arrayCount_post hk hc hw1 (by rw [h1.1, h1.2]; exact hcur) (h2.trans h1.2.symm)) (fun n st2 s => ?_)
  have e2 : st2.cur = st.cur := s.cur.trans h1.2
  have l2 : st2.maps.length = st.maps.length := by rw [s.len, h1.1]
  refine (arrayLoop_post hsel he (N := N) (st0 := st) n.toNat (st := st2) (acc := [iv])
    ⟨s.wf, by rw [e2, l2]; exact hcur, by rw [e2]; exact hN, Nat.le_of_eq l2.symm,
      fun r hr => by rw [s.old r (by rw [h1.2]; omega), h1.1], by rw [← h1.env, ← h1.2]; exact s.sub, by simp, ?_⟩).mono ?_
  · intro v hv'
    cases List.mem_singleton.1 hv'
    rw [h2, e2]
    exact ⟨hN, by rw [l2]; exact hcur, rfl, fun _ => rfl⟩
  · intro vs st3 h
    exact ⟨⟨h.wf, h.cur, h.le, fun v hv => (h.vec v hv).2.1⟩, h.one, h.cur_ge, h.old, h.sub, fun v hv => (h.vec v hv).1,
      fun v hv => (h.vec v hv).2.2.1⟩

/-! ## Arrays of elements without contexts -/

/-- What a product leaves. -/
structure XP (us vs : List Vec) (st : St E) (ws : List Vec) (st' : St E) : Prop where
  wf : st'.WF
  cur : st'.cur = st.cur
  le : st.maps.length ≤ st'.maps.length
  old : ∀ r, r < st.maps.length → st'.maps[r]? = st.maps[r]?
  vec : ∀ w ∈ ws, st.maps.length ≤ w.cst ∧ w.cst < st'.maps.length ∧ ∃ u ∈ us, ∃ v ∈ vs,
    st'.env w.cst = over (st.env u.cst) (st.env v.cst)

theorem crossOne_post {u : Vec} : ∀ (vs : List Vec) (st : St E), st.WF → u.cst < st.maps.length →
    (∀ v ∈ vs, v.cst < st.maps.length ∧ Compat (st.env u.cst) (st.env v.cst)) → Post T (XP [u] vs st) (crossOne u vs st) := by
  intro vs
  induction vs with
  | nil => intro st hw _ _; exact ⟨hw, rfl, Nat.le_refl _, fun _ _ => rfl, by simp⟩
  | cons v vs ih =>
    intro st hw hu hv
    unfold crossOne
    refine Post.bind (mergeRef_post hw (hv v List.mem_cons_self).2) (fun m st1 h1 => ?_)
    refine Post.bind (P := fun _ st2 => st1 = st2) rfl ?_
    rintro d _ rfl
    refine Post.bind appendSlice_post (fun s st2 h2 => ?_)
    have hl : st2.maps.length = st.maps.length + 1 := by rw [h2.1, h1.len]
    have ho : ∀ r, r < st.maps.length → st2.maps[r]? = st.maps[r]? := fun r hr => by rw [h2.1]; exact h1.old r hr
    have he : ∀ r, r < st.maps.length → st2.env r = st.env r := fun r hr => env_eq (ho r hr)
    refine Post.bind (ih st2 (h2.wf h1.wf) (by omega) (fun v' hv' => ?_)) (fun ws st3 h3 => ?_)
    · obtain ⟨a, b⟩ := hv v' (List.mem_cons_of_mem _ hv')
      rw [he _ a, he _ hu]
      exact ⟨by omega, b⟩
    · refine ⟨h3.wf, by rw [h3.cur, h2.2, h1.cur], Nat.le_trans (by omega) h3.le, fun r hr => by rw [h3.old r (by omega), ho r hr], ?_⟩
      intro w hw
      rcases List.mem_cons.1 hw with rfl | hw
      · have hm : m < st2.maps.length := by rw [hl, h1.ref]; omega
        refine ⟨Nat.le_of_eq h1.ref.symm, Nat.lt_of_lt_of_le hm h3.le, u, List.mem_singleton.2 rfl, v, List.mem_cons_self, ?_⟩
        rw [env_eq (h3.old _ hm), h2.env]
        exact h1.env
      · obtain ⟨a, b, u', hu', v', hv', e⟩ := h3.vec w hw
        cases List.mem_singleton.1 hu'
        refine ⟨by omega, b, u, List.mem_singleton.2 rfl, v', List.mem_cons_of_mem _ hv', ?_⟩
        rw [e, he _ hu, he _ (hv v' (List.mem_cons_of_mem _ hv')).1]

theorem cross_post {vs : List Vec} : ∀ (us : List Vec) (st : St E), st.WF → (∀ u ∈ us, u.cst < st.maps.length) →
    (∀ v ∈ vs, v.cst < st.maps.length) → (∀ u ∈ us, ∀ v ∈ vs, Compat (st.env u.cst) (st.env v.cst)) →
    Post T (XP us vs st) (cross us vs st) := by
  intro us
  induction us with
  | nil => intro st hw _ _ _; exact ⟨hw, rfl, Nat.le_refl _, fun _ _ => rfl, by simp⟩
  | cons u us ih =>
    intro st hw hu hv hc
    unfold cross
    refine Post.bind (crossOne_post vs st hw (hu u List.mem_cons_self) (fun v h => ⟨hv v h, hc u List.mem_cons_self v h⟩))
      (fun ps st1 h1 => ?_)
    have he : ∀ r, r < st.maps.length → st1.env r = st.env r := fun r hr => env_eq (h1.old r hr)
    refine Post.bind (ih st1 h1.wf (fun u' hu' => Nat.lt_of_lt_of_le (hu u' (List.mem_cons_of_mem _ hu')) h1.le)
      (fun v' hv' => Nat.lt_of_lt_of_le (hv v' hv') h1.le) (fun u' hu' v' hv' => ?_)) (fun ws st2 h2 => ?_)
    · rw [he _ (hu u' (List.mem_cons_of_mem _ hu')), he _ (hv v' hv')]
      exact hc u' (List.mem_cons_of_mem _ hu') v' hv'
    · refine ⟨h2.wf, h2.cur.trans h1.cur, Nat.le_trans h1.le h2.le,
        fun r hr => by rw [h2.old r (Nat.lt_of_lt_of_le hr h1.le), h1.old r hr], ?_⟩
      intro w hw
      rcases List.mem_append.1 hw with hw | hw
      · obtain ⟨a, b, u', hu', v', hv', e⟩ := h1.vec w hw
        cases List.mem_singleton.1 hu'
        exact ⟨a, Nat.lt_of_lt_of_le b h2.le, u, List.mem_cons_self, v', hv', by rw [env_eq (h2.old _ b), e]⟩
      · obtain ⟨a, b, u', hu', v', hv', e⟩ := h2.vec w hw
        refine ⟨Nat.le_trans h1.le a, b, u', List.mem_cons_of_mem _ hu', v', hv', ?_⟩
        rw [e, he _ (hu u' (List.mem_cons_of_mem _ hu')), he _ (hv v' hv')]

/-- What holds in the loop of arrays without contexts: `st0` is the state before it. -/
structure AF (i : Prop) (st0 st : St E) (acc : List Vec) : Prop where
  wf : st.WF
  cur : st.cur < st.maps.length
  cur_or : st.cur = st0.cur ∨ st0.maps.length ≤ st.cur
  le : st0.maps.length ≤ st.maps.length
  old : ∀ r, r < st0.maps.length → st.maps[r]? = st0.maps[r]?
  cur_g : globals (st.env st.cur) = globals (st0.env st0.cur)
  vec : ∀ v ∈ acc, (v.cst = st0.cur ∨ st0.maps.length ≤ v.cst) ∧ v.cst < st.maps.length ∧
    globals (st.env v.cst) = globals (st0.env st0.cur) ∧ (i → st.env v.cst = st.env st.cur)

theorem arrayLoop_af (hsel : Selects E) {elem : TM E (List Vec)} {i : Prop} (he : NAct T i elem) {st0 : St E} (n : Nat) :
    ∀ {st : St E} {acc : List Vec}, AF i st0 st acc → Post T (fun acc' st' => AF i st0 st' acc') (arrayLoop elem n acc st) := by
  induction n with
  | zero => intro st acc hi; exact hi
  | succ n ih =>
    intro st acc hi
    unfold arrayLoop
    refine Post.bind (he st hi.wf hi.cur) (fun w st1 h1 => ?_)
    have ev : ∀ v ∈ acc, st1.env v.cst = st.env v.cst := fun v hv => env_eq (h1.old _ (hi.vec v hv).2.1)
    have hint : i → ∀ u ∈ w, ∀ v ∈ acc, st1.env u.cst = st1.env v.cst ∧ st1.env v.cst = st1.env st1.cur := by
      intro h u hu v hv
      obtain ⟨e1, e2⟩ := h1.same h
      rw [e2 u hu, ev v hv, (hi.vec v hv).2.2.2 h, e1]
      have := env_eq (h1.old _ hi.cur)
      exact ⟨this, this.symm⟩
    have hgl : ∀ u ∈ w, ∀ v ∈ acc, globals (st1.env u.cst) = globals (st1.env v.cst) := by
      intro u hu v hv
      rw [h1.glob u hu, ev v hv, (hi.vec v hv).2.2.1, hi.cur_g]
    have hcomp : ∀ u ∈ w, ∀ v ∈ acc, Compat (st1.env u.cst) (st1.env v.cst) := by
      intro u hu v hv c k x y hx hy
      by_cases h : i
      · rw [(hint h u hu v hv).1, hy] at hx
        exact (Option.some.inj hx).symm
      · by_cases hc : c = ""
        · subst hc
          rw [(h1.fresh h u hu).2 k] at hx; cases hx
        · have := congrFun (congrFun (hgl u hu v hv) c) k
          rw [globals_of hc, globals_of hc, hx, hy] at this
          exact Option.some.inj this
    refine Post.bind (cross_post w st1 h1.wf h1.vec (fun v hv => Nat.lt_of_lt_of_le (hi.vec v hv).2.1 h1.le) hcomp)
      (fun ws st2 h2 => ?_)
    refine Post.bind (select_post hsel) ?_
    rintro xs st3 ⟨h3, hm, -⟩
    refine ih ?_
    have ec : st2.env st2.cur = st1.env st1.cur := by rw [h2.cur]; exact env_eq (h2.old _ h1.cur)
    have hc1 : st1.cur = st0.cur ∨ st0.maps.length ≤ st1.cur := by
      rcases h1.cur_or with e | e
      · rw [e]; exact hi.cur_or
      · exact .inr (Nat.le_trans hi.le e)
    refine ⟨h3.wf h2.wf, by rw [h3.1, h3.2, h2.cur]; exact Nat.lt_of_lt_of_le h1.cur h2.le, by rw [h3.2, h2.cur]; exact hc1,
      by rw [h3.1]; exact Nat.le_trans hi.le (Nat.le_trans h1.le h2.le), ?_, ?_, ?_⟩
    · intro r hr
      rw [h3.1, h2.old r (Nat.lt_of_lt_of_le hr (Nat.le_trans hi.le h1.le)), h1.old r (Nat.lt_of_lt_of_le hr hi.le), hi.old r hr]
    · rw [h3.env, h3.2, ec, h1.cur_g, hi.cur_g]
    · intro v' hv'
      obtain ⟨a, b, u, hu, v, hv, e⟩ := h2.vec v' (hm v' hv')
      rw [h3.env, h3.1, h3.2, ec, e]
      refine ⟨.inr (Nat.le_trans hi.le (Nat.le_trans h1.le a)), b, ?_, ?_⟩
      · rw [← hi.cur_g, ← h1.glob u hu]
        funext c k
        by_cases hc : c = ""
        · simp [globals, hc]
        · have := congrFun (congrFun (hgl u hu v hv) c) k
          rw [globals_of hc, globals_of hc] at this
          rw [globals_of hc, globals_of hc]
          unfold over
          rw [← this]
          cases st1.env u.cst c k <;> rfl
      · intro h
        obtain ⟨p, q⟩ := hint h u hu v hv
        rw [p, q]
        funext c k
        unfold over
        cases st1.env st1.cur c k <;> rfl

theorem genArray_free (hsel : Selects E) (hk : Knows Γ r) {b : Base} {c : Count} (hc : CountRuns Γ c) {i : Prop}
    (he : NAct T i (genBase (E := E) r S "" b)) {st : St E} (hw : st.WF) (hcur : st.cur < st.maps.length) :
    Post T (fun vs st' => ∃ st2, CP c st st2 ∧ AF i st2 st' vs) (genArray (E := E) r S b c st) := by
  unfold genArray
  refine Post.bind vector_post ?_
  rintro iv st1 ⟨h1, h2⟩
  refine Post.bind (arrayCount_post hk hc (h1.wf hw) (by rw [h1.1, h1.2]; exact hcur) (h2.trans h1.2.symm)) (fun n st2 s => ?_)
  have s' : CP c st st2 := ⟨s.wf, s.cur.trans h1.2, by rw [s.len, h1.1], fun k hk => by rw [s.old k (by rw [h1.2]; exact hk), h1.1],
    by rw [← h1.env, ← h1.2]; exact s.sub, fun h r => by rw [← h1.env]; exact s.free h r⟩
  refine (arrayLoop_af hsel he n.toNat (st0 := st2) (st := st2) (acc := [iv])
    ⟨s.wf, by rw [s'.cur, s'.len]; exact hcur, .inl rfl, Nat.le_refl _, fun _ _ => rfl, rfl, ?_⟩).mono
    (fun vs st3 h => ⟨st2, s', h⟩)
  intro v hv'
  cases List.mem_singleton.1 hv'
  rw [h2, s'.cur]
  exact ⟨.inl rfl, by rw [s'.len]; exact hcur, rfl, fun _ => rfl⟩

theorem genArray_fgact (hsel : Selects E) (hk : Knows Γ r) {b : Base} {c : Count} (hc : CountRuns Γ c)
    (he : ∃ i, NAct T i (genBase (E := E) r S "" b)) : GAct T (genArray (E := E) r S b c) := by
  obtain ⟨i, he⟩ := he
  intro st hw hcur
  refine (genArray_free hsel hk hc he hw hcur).mono ?_
  rintro vs st3 ⟨st2, s, h⟩
  exact ⟨h.wf, h.cur, by rw [← s.len]; exact h.le, fun v hv => (h.vec v hv).2.1⟩

theorem genArray_fact (hsel : Selects E) (hk : Knows Γ r) {b : Base} {c : Count} (hc : CountRuns Γ c) (hf : CountFree c)
    (he : ∃ i, NAct T i (genBase (E := E) r S "" b)) : FAct T (genArray (E := E) r S b c) := by
  obtain ⟨i, he⟩ := he
  intro st N hw hcur hN
  refine (genArray_free hsel hk hc he hw hcur).mono ?_
  rintro vs st3 ⟨st2, s, h⟩
  have hg : ∀ r, globals (st2.env r) = globals (st.env r) := s.free hf
  refine ⟨⟨h.wf, h.cur, by rw [← s.len]; exact h.le, fun v hv => (h.vec v hv).2.1⟩, ?_, ?_, ?_, ?_, ?_, ?_⟩
  · rcases h.cur_or with e | e
    · rw [e, s.cur]; exact hN
    · rw [s.len] at e; omega
  · intro r hr
    rw [h.old r (by rw [s.len]; omega), s.old r (by omega)]
  · intro r hr
    rw [env_eq (h.old r (by rw [s.len]; exact hr)), hg]
  · rw [h.cur_g, s.cur, hg]
  · intro v hv
    rcases (h.vec v hv).1 with e | e
    · rw [e, s.cur]; exact hN
    · rw [s.len] at e; omega
  · intro v hv
    rw [(h.vec v hv).2.2.1, s.cur, hg]

/-! ## Fields and leaves -/

/-- Nested structs of a leaf. -/
def leafNests (l : Leaf) (n : String) : Prop := ∃ f ∈ leafFields [l], .struct n ∈ tyBases f.type

theorem genArray_gact (hsel : Selects E) (hT : Answers E ∨ T) (hk : Knows Γ r) (hS : SAct Γ O F T s S) {b : Base} {c : Count}
    (hc : CountRuns Γ c) (h : ElemRuns Γ O F b) (hn : ∀ n, b = .struct n → Nests s n) : GAct T (genArray (E := E) r S b c) := by
  by_cases hf : ∀ n, b = .struct n → F n
  · exact genArray_fgact hsel hk hc (genBase_nact hT hk hS h.1 hn hf)
  · refine (genArray_oact hsel hk hc (genBase_eact hT hk hS h.1 hn (fun n e => (h.2 n e).resolve_right (fun hF => hf ?_)))).gact
    intro n' e'
    rw [e] at e'
    cases e'
    exact hF

theorem varArray_runs {b : Base} {c : Option LengthConstraint} (h : TyRuns Γ O F (.varArray b c)) :
    CountRuns Γ (.con c) ∧ ElemRuns Γ O F b := by
  cases c with
  | none => exact ⟨trivial, h⟩
  | some c => cases c with
    | leftover _ => exact h.elim
    | idRef _ => exact ⟨trivial, h⟩

theorem genField_gact (hsel : Selects E) (hT : Answers E ∨ T) (hk : Knows Γ r) (hS : SAct Γ O F T s S) {f : Field}
    (h : TyRuns Γ O F f.type) (hn : ∀ n, .struct n ∈ tyBases f.type → Nests s n) : GAct T (genField (E := E) r S f) := by
  obtain ⟨name, ty⟩ := f
  unfold genField
  cases ty with
  | base b => exact genBase_gact hT hk hS h (fun n e => hn n (by simp [tyBases, e]))
  | ptr => exact emptyVec_iact.eact.oact.gact
  | nulterm => exact nulterm_iact.eact.oact.gact
  | fixedArray b n => exact genArray_gact (c := .size n) hsel hT hk hS h.2 h.1 (fun n e => hn n (by simp [tyBases, e]))
  | varArray b c =>
    exact genArray_gact hsel hT hk hS (varArray_runs h).1 (varArray_runs h).2 (fun n e => hn n (by simp [tyBases, e]))

theorem genField_oact (hsel : Selects E) (hT : Answers E ∨ T) (hk : Knows Γ r) (hS : SAct Γ O F T s S) {f : Field}
    (h : TyRuns Γ O F f.type) (hn : ∀ n, .struct n ∈ tyBases f.type → Nests s n)
    (ho : ∀ n, .struct n ∈ tyBases f.type → O n) : OAct T (genField (E := E) r S f) := by
  obtain ⟨name, ty⟩ := f
  unfold genField
  cases ty with
  | base b =>
    obtain ⟨i, h⟩ := genBase_eact (name := name) hT hk hS h (fun n e => hn n (by simp [tyBases, e]))
      (fun n e => ho n (by simp [tyBases, e]))
    exact h.oact
  | ptr => exact emptyVec_iact.eact.oact
  | nulterm => exact nulterm_iact.eact.oact
  | fixedArray b n =>
    exact genArray_oact (c := .size n) hsel hk h.2 (genBase_eact hT hk hS h.1.1 (fun n e => hn n (by simp [tyBases, e]))
      (fun n e => ho n (by simp [tyBases, e])))
  | varArray b c =>
    exact genArray_oact hsel hk (varArray_runs h).1 (genBase_eact hT hk hS (varArray_runs h).2.1
      (fun n e => hn n (by simp [tyBases, e])) (fun n e => ho n (by simp [tyBases, e])))

theorem genField_fact (hsel : Selects E) (hT : Answers E ∨ T) (hk : Knows Γ r) (hS : SAct Γ O F T s S) {f : Field}
    (h : TyRuns Γ O F f.type) (hn : ∀ n, .struct n ∈ tyBases f.type → Nests s n)
    (hf : FreeLeaf F (.field f)) : FAct T (genField (E := E) r S f) := by
  obtain ⟨name, ty⟩ := f
  obtain ⟨hf, hl⟩ := hf
  unfold genField
  cases ty with
  | base b =>
    obtain ⟨i, h⟩ := genBase_nact (name := name) hT hk hS h (fun n e => hn n (by simp [tyBases, e]))
      (fun n e => hf n (by simp [tyBases, e]))
    exact h.fact
  | ptr => exact emptyVec_iact.nact.fact
  | nulterm => exact nulterm_iact.nact.fact
  | fixedArray b n =>
    exact genArray_fact (c := .size n) hsel hk h.2 trivial (genBase_nact hT hk hS h.1.1 (fun n e => hn n (by simp [tyBases, e]))
      (fun n e => hf n (by simp [tyBases, e])))
  | varArray b c =>
    refine genArray_fact hsel hk (varArray_runs h).1 ?_ (genBase_nact hT hk hS (varArray_runs h).2.1
      (fun n e => hn n (by simp [tyBases, e])) (fun n e => hf n (by simp [tyBases, e])))
    cases c with
    | none => trivial
    | some c => cases c with
      | leftover _ => trivial
      | idRef ref => exact hl b ref rfl

theorem genLeaf_gact (hsel : Selects E) (hT : Answers E ∨ T) (hk : Knows Γ r) (hS : SAct Γ O F T s S) {l : Leaf}
    (h : LeafRuns Γ O F l) (hn : ∀ n, leafNests l n → Nests s n) : GAct T (genLeaf (E := E) r S l) := by
  cases l with
  | field f => exact genField_gact hsel hT hk hS h (fun n hm => hn n ⟨f, by simp [leafFields], hm⟩)
  | fail => exact fail_iact.eact.oact.gact
  | eos => exact emptyVec_iact.eact.oact.gact
  | ignore =>
    intro st hw hc
    unfold genLeaf
    refine Post.bind vector_post ?_
    rintro v st1 ⟨h1, e1⟩
    refine Post.bind randbtw_post (fun n st2 h2 => ?_)
    refine Post.bind randread_post (fun b st3 h3 => ?_)
    refine Post.bind vector_post ?_
    rintro w st4 ⟨h4, e4⟩
    have h := ((h1.trans h2).trans h3).trans h4
    refine ⟨h.wf hw, by rw [h.1, h.2]; exact hc, by rw [h.1], fun v' hv' => ?_⟩
    rw [h.1]
    have e5 := ((h1.trans h2).trans h3).2
    rcases List.mem_cons.1 hv' with rfl | hv'
    · rw [e1]; exact hc
    · cases List.mem_singleton.1 hv'
      rw [e4, e5]; exact hc

theorem genLeaf_oact (hsel : Selects E) (hT : Answers E ∨ T) (hk : Knows Γ r) (hS : SAct Γ O F T s S) {l : Leaf}
    (h : LeafRuns Γ O F l) (hn : ∀ n, leafNests l n → Nests s n) (ho : OneM O (.leaf l)) :
    OAct T (genLeaf (E := E) r S l) := by
  cases l with
  | field f => exact genField_oact hsel hT hk hS h (fun n hm => hn n ⟨f, by simp [leafFields], hm⟩) ho
  | fail => exact fail_iact.eact.oact
  | eos => exact emptyVec_iact.eact.oact
  | ignore => exact ho.elim

theorem genLeaf_fact (hsel : Selects E) (hT : Answers E ∨ T) (hk : Knows Γ r) (hS : SAct Γ O F T s S) {l : Leaf}
    (h : LeafRuns Γ O F l) (hn : ∀ n, leafNests l n → Nests s n) (hf : FreeLeaf F l) :
    FAct T (genLeaf (E := E) r S l) := by
  cases l with
  | field f => exact genField_fact hsel hT hk hS h (fun n hm => hn n ⟨f, by simp [leafFields], hm⟩) hf
  | fail => exact fail_iact.nact.fact
  | eos => exact emptyVec_iact.nact.fact
  | ignore =>
    intro st N hw hc hN
    unfold genLeaf
    refine Post.bind vector_post ?_
    rintro v st1 ⟨h1, e1⟩
    refine Post.bind randbtw_post (fun n st2 h2 => ?_)
    refine Post.bind randread_post (fun b st3 h3 => ?_)
    refine Post.bind vector_post ?_
    rintro w st4 ⟨h4, e4⟩
    have h := ((h1.trans h2).trans h3).trans h4
    have e5 := ((h1.trans h2).trans h3).2
    have hv : ∀ v' ∈ [v, w], v'.cst = st.cur := by
      intro v' hv'
      rcases List.mem_cons.1 hv' with rfl | hv'
      · exact e1
      · cases List.mem_singleton.1 hv'
        rw [e4, e5]
    refine Post.pure ⟨⟨h.wf hw, by rw [h.1, h.2]; exact hc, by rw [h.1], fun v' hv' => by rw [hv v' hv', h.1]; exact hc⟩,
      by rw [h.2]; exact hN, fun r _ => by rw [h.1], fun r _ => by rw [h.env], by rw [h.env, h.2],
      fun v' hv' => by rw [hv v' hv']; exact hN, fun v' hv' => by rw [hv v' hv', h.env]⟩

/-! ## Members -/

theorem GP.trans {a b c : St E} {us vs : List Vec} (h : GP a us b) (h' : GP b vs c) : GP a (us ++ vs) c :=
  ⟨h'.wf, h'.cur, Nat.le_trans h.le h'.le, fun v hv => (List.mem_append.1 hv).elim
    (fun hv => Nat.lt_of_lt_of_le (h.vec v hv) h'.le) (h'.vec v)⟩

theorem GP.same {a b c : St E} {us vs : List Vec} (h : GP a us b) (h' : SameMaps b c) (hv : ∀ v ∈ vs, ∃ u ∈ us, v.cst = u.cst) :
    GP a vs c :=
  ⟨h'.wf h.wf, by rw [h'.1, h'.2]; exact h.cur, by rw [h'.1]; exact h.le, fun v hv' => by
    obtain ⟨u, hu, e⟩ := hv v hv'
    rw [h'.1, e]; exact h.vec u hu⟩

theorem mem_csts {ws mvs : List Vec} (h : ws.map (·.cst) = mvs.map (·.cst)) : ∀ v ∈ ws, ∃ u ∈ mvs, v.cst = u.cst := by
  intro v hv
  have : v.cst ∈ mvs.map (·.cst) := by rw [← h]; exact List.mem_map_of_mem hv
  obtain ⟨u, hu, e⟩ := List.mem_map.1 this
  exact ⟨u, hu, e.symm⟩

theorem extendAll_gp {act : TM E (List Vec)} (ha : GAct T act) : ∀ (vs : List Vec) (st : St E), st.WF → st.cur < st.maps.length →
    (∀ v ∈ vs, v.cst < st.maps.length) → Post T (GP st) (extendAll act vs st) := by
  intro vs
  induction vs with
  | nil => intro st hw hc _; exact ⟨hw, hc, Nat.le_refl _, by simp⟩
  | cons v vs ih =>
    intro st hw hc hv
    unfold extendAll
    refine Post.bind (P := fun _ st1 => { st with cur := v.cst } = st1) rfl ?_
    rintro _ _ rfl
    refine Post.bind (ha _ hw (hv v List.mem_cons_self)) (fun mvs st1 h1 => ?_)
    refine Post.bind appendAll_post (fun ws st2 h2 => ?_)
    have h12 : GP st ws st2 := GP.same ⟨h1.wf, h1.cur, h1.le, h1.vec⟩ h2.1 (mem_csts h2.2)
    refine Post.bind (ih st2 h12.wf h12.cur (fun v' hv' => Nat.lt_of_lt_of_le (hv v' (List.mem_cons_of_mem _ hv')) h12.le))
      (fun rest st3 h3 => h12.trans h3)

theorem membersLoop_gp (hsel : Selects E) {α : Type} {f : α → TM E (List Vec)} : ∀ (ms : List α) (vs : List Vec) (st : St E),
    (∀ m ∈ ms, GAct T (f m)) → st.WF → st.cur < st.maps.length → (∀ v ∈ vs, v.cst < st.maps.length) →
    Post T (GP st) (membersLoop f ms vs st) := by
  intro ms
  induction ms with
  | nil => intro vs st _ hw hc hv; exact ⟨hw, hc, Nat.le_refl _, hv⟩
  | cons m ms ih =>
    intro vs st hf hw hc hv
    unfold membersLoop
    refine Post.bind (extendAll_gp (hf m List.mem_cons_self) vs st hw hc hv) (fun ext st1 h1 => ?_)
    refine Post.bind (select_post hsel) ?_
    rintro ws st2 ⟨h2, hm, _⟩
    have h12 : GP st ws st2 := h1.same h2 (fun v hv => ⟨v, hm v hv, rfl⟩)
    exact (ih ws st2 (fun m hm => hf m (List.mem_cons_of_mem _ hm)) h12.wf h12.cur h12.vec).mono
      (fun us st3 h3 => ⟨h3.wf, h3.cur, Nat.le_trans h12.le h3.le, h3.vec⟩)

theorem OP.same {N : Nat} {a b c : St E} {us vs : List Vec} (h : OP N a us b) (h' : SameMaps b c)
    (hv : ∀ v ∈ vs, ∃ u ∈ us, v.cst = u.cst) (hl : vs.length ≤ us.length) : OP N a vs c where
  toGP := h.toGP.same h' hv
  one := Nat.le_trans hl h.one
  cur_ge := by rw [h'.2]; exact h.cur_ge
  old r hr := by rw [h'.1]; exact h.old r hr
  sub := by rw [h'.env, h'.2]; exact h.sub
  vec_ge v hv' := by
    obtain ⟨u, hu, e⟩ := hv v hv'
    rw [e]; exact h.vec_ge u hu
  glob v hv' := by
    obtain ⟨u, hu, e⟩ := hv v hv'
    rw [e, h'.env, h'.2]; exact h.glob u hu

theorem OP.trans {N : Nat} {a b c : St E} {us vs : List Vec} (h : OP N a us b) (h' : OP N b vs c) : OP N a vs c :=
  { h' with le := Nat.le_trans h.le h'.le, old := fun r hr => (h'.old r hr).trans (h.old r hr), sub := h.sub.trans h'.sub }

/-- Members of a struct with one shape, from a vector `v` whose store is new. -/
theorem extend_one (hsel : Selects E) {act : TM E (List Vec)} (ha : OAct T act) {N : Nat} {v : Vec} {st : St E} (hw : st.WF)
    (hv : N ≤ v.cst) (hl : v.cst < st.maps.length) (hg : globals (st.env v.cst) = globals (st.env st.cur)) :
    Post T (OP N st) (extendAll act [v] st) := by
  unfold extendAll
  refine Post.bind (P := fun _ st1 => { st with cur := v.cst } = st1) rfl ?_
  rintro _ _ rfl
  refine Post.bind (ha _ N hw hl hv) (fun mvs st1 h1 => ?_)
  refine Post.bind appendAll_post (fun ws st2 h2 => ?_)
  have hlen : ws.length = mvs.length := by simpa using congrArg List.length h2.2
  have h1' : OP N st mvs st1 := { h1 with
    sub := by
      have := h1.sub
      have e : ({ st with cur := v.cst } : St E).env = st.env := rfl
      rw [e] at this
      rw [← hg]
      exact this }
  have h12 : OP N st ws st2 := h1'.same h2.1 (mem_csts h2.2) (Nat.le_of_eq hlen)
  unfold extendAll
  refine Post.bind (P := fun a st3 => [] = a ∧ st2 = st3) ⟨rfl, rfl⟩ ?_
  rintro _ _ ⟨rfl, rfl⟩
  refine Post.pure ?_
  rw [List.append_nil]
  exact h12

theorem membersLoop_op (hsel : Selects E) {α : Type} {f : α → TM E (List Vec)} {N : Nat} : ∀ (ms : List α) (vs : List Vec)
    (st : St E), (∀ m ∈ ms, OAct T (f m)) → st.WF → st.cur < st.maps.length → N ≤ st.cur → vs.length ≤ 1 →
    (∀ v ∈ vs, N ≤ v.cst ∧ v.cst < st.maps.length ∧ globals (st.env v.cst) = globals (st.env st.cur)) →
    Post T (OP N st) (membersLoop f ms vs st) := by
  intro ms
  induction ms with
  | nil =>
    intro vs st _ hw hc hN h1 hv
    exact ⟨⟨hw, hc, Nat.le_refl _, fun v h => (hv v h).2.1⟩, h1, hN, fun _ _ => rfl, .refl _, fun v h => (hv v h).1,
      fun v h => (hv v h).2.2⟩
  | cons m ms ih =>
    intro vs st hf hw hc hN h1 hv
    unfold membersLoop
    have hext : Post T (OP N st) (extendAll (f m) vs st) := by
      cases vs with
      | nil => exact ⟨⟨hw, hc, Nat.le_refl _, by simp⟩, by simp, hN, fun _ _ => rfl, .refl _, by simp, by simp⟩
      | cons v vs =>
        have : vs = [] := by simpa using h1
        subst this
        obtain ⟨a, b, c⟩ := hv v (List.mem_singleton.2 rfl)
        exact extend_one hsel (hf m List.mem_cons_self) hw a b c
    refine Post.bind hext (fun ext st1 h1 => ?_)
    refine Post.bind (select_post hsel) ?_
    rintro ws st2 ⟨h2, hm, hl⟩
    have h12 : OP N st ws st2 := h1.same h2 (fun v hv => ⟨v, hm v hv, rfl⟩) hl
    refine (ih ws st2 (fun m hm => hf m (List.mem_cons_of_mem _ hm)) h12.wf h12.cur h12.cur_ge h12.one
      (fun v hv => ⟨h12.vec_ge v hv, h12.vec v hv, h12.glob v hv⟩)).mono (fun us st3 h3 => h12.trans h3)

theorem FP.same {N : Nat} {a b c : St E} {us vs : List Vec} (h : FP N a us b) (h' : SameMaps b c)
    (hv : ∀ v ∈ vs, ∃ u ∈ us, v.cst = u.cst) : FP N a vs c where
  toGP := h.toGP.same h' hv
  cur_ge := by rw [h'.2]; exact h.cur_ge
  old r hr := by rw [h'.1]; exact h.old r hr
  keep r hr := by rw [h'.env]; exact h.keep r hr
  cur_g := by rw [h'.env, h'.2]; exact h.cur_g
  vec_ge v hv' := by
    obtain ⟨u, hu, e⟩ := hv v hv'
    rw [e]; exact h.vec_ge u hu
  glob v hv' := by
    obtain ⟨u, hu, e⟩ := hv v hv'
    rw [e, h'.env]; exact h.glob u hu

theorem FP.trans {N : Nat} {a b c : St E} {us vs : List Vec} (h : FP N a us b) (h' : FP N b vs c) : FP N a (us ++ vs) c where
  toGP := h.toGP.trans h'.toGP
  cur_ge := h'.cur_ge
  old r hr := (h'.old r hr).trans (h.old r hr)
  keep r hr := (h'.keep r (Nat.lt_of_lt_of_le hr h.le)).trans (h.keep r hr)
  cur_g := h'.cur_g.trans h.cur_g
  vec_ge v hv := (List.mem_append.1 hv).elim (h.vec_ge v) (h'.vec_ge v)
  glob v hv := (List.mem_append.1 hv).elim (fun hv => (h'.keep _ (h.vec v hv)).trans (h.glob v hv))
    (fun hv => (h'.glob v hv).trans h.cur_g)

theorem FP.drop {N : Nat} {a b : St E} {us vs : List Vec} (h : FP N a us b) (hv : ∀ v ∈ vs, v ∈ us) : FP N a vs b :=
  { h with vec := fun v m => h.vec v (hv v m), vec_ge := fun v m => h.vec_ge v (hv v m), glob := fun v m => h.glob v (hv v m) }

theorem extendAll_fp {act : TM E (List Vec)} (ha : FAct T act) {N : Nat} : ∀ (vs : List Vec) (st : St E), st.WF →
    st.cur < st.maps.length → (N ≤ st.cur ∨ vs ≠ []) →
    (∀ v ∈ vs, N ≤ v.cst ∧ v.cst < st.maps.length ∧ globals (st.env v.cst) = globals (st.env st.cur)) →
    Post T (FP N st) (extendAll act vs st) := by
  intro vs
  induction vs with
  | nil =>
    intro st hw hc hN _
    exact ⟨⟨hw, hc, Nat.le_refl _, by simp⟩, hN.elim id (fun h => (h rfl).elim), fun _ _ => rfl, fun _ _ => rfl, rfl, by simp, by simp⟩
  | cons v vs ih =>
    intro st hw hc _ hv
    obtain ⟨v1, v2, v3⟩ := hv v List.mem_cons_self
    unfold extendAll
    refine Post.bind (P := fun _ st1 => { st with cur := v.cst } = st1) rfl ?_
    rintro _ _ rfl
    refine Post.bind (ha _ N hw v2 v1) (fun mvs st1 h1 => ?_)
    refine Post.bind appendAll_post (fun ws st2 h2 => ?_)
    have h1' : FP N st mvs st1 := { h1 with
      keep := h1.keep
      cur_g := by rw [← v3]; exact h1.cur_g
      glob := fun v hv => by rw [← v3]; exact h1.glob v hv }
    have h12 : FP N st ws st2 := h1'.same h2.1 (mem_csts h2.2)
    refine Post.bind (ih st2 h12.wf h12.cur (.inl h12.cur_ge) (fun v' hv' => ?_)) (fun rest st3 h3 => h12.trans h3)
    obtain ⟨a, b, c⟩ := hv v' (List.mem_cons_of_mem _ hv')
    exact ⟨a, Nat.lt_of_lt_of_le b h12.le, by rw [h12.keep _ b, c, h12.cur_g]⟩

theorem membersLoop_fp (hsel : Selects E) {α : Type} {f : α → TM E (List Vec)} {N : Nat} : ∀ (ms : List α) (vs : List Vec)
    (st : St E), (∀ m ∈ ms, FAct T (f m)) → st.WF → st.cur < st.maps.length → (N ≤ st.cur ∨ (vs ≠ [] ∧ ms ≠ [])) →
    (∀ v ∈ vs, N ≤ v.cst ∧ v.cst < st.maps.length ∧ globals (st.env v.cst) = globals (st.env st.cur)) →
    Post T (FP N st) (membersLoop f ms vs st) := by
  intro ms
  induction ms with
  | nil =>
    intro vs st _ hw hc hN hv
    exact ⟨⟨hw, hc, Nat.le_refl _, fun v h => (hv v h).2.1⟩, hN.elim id (fun h => (h.2 rfl).elim), fun _ _ => rfl,
      fun _ _ => rfl, rfl, fun v h => (hv v h).1, fun v h => (hv v h).2.2⟩
  | cons m ms ih =>
    intro vs st hf hw hc hN hv
    unfold membersLoop
    refine Post.bind (extendAll_fp (hf m List.mem_cons_self) vs st hw hc (hN.imp id (fun h => h.1)) hv) (fun ext st1 h1 => ?_)
    refine Post.bind (select_post hsel) ?_
    rintro ws st2 ⟨h2, hm, hl⟩
    have h12 : FP N st ws st2 := h1.same h2 (fun v hv => ⟨v, hm v hv, rfl⟩)
    refine (ih ws st2 (fun m hm => hf m (List.mem_cons_of_mem _ hm)) h12.wf h12.cur (.inl h12.cur_ge)
      (fun v hv => ⟨h12.vec_ge v hv, h12.vec v hv, by rw [h12.glob v hv, h12.cur_g]⟩)).mono (fun us st3 h3 => ?_)
    exact (h12.trans h3).drop (fun v hv => List.mem_append_right _ hv)

/-! ## Unions -/

theorem SetAt.gp {st st' : St E} {r : Nat} {σ : CEnv} (h : SetAt st st' r σ) (hc : st.cur < st.maps.length) : GP st [] st' :=
  ⟨h.wf, by rw [h.len, h.cur]; exact hc, Nat.le_of_eq h.len.symm, by simp⟩

theorem lenLoop_gp {ref : IDRef} : ∀ (vs : List Vec) (st : St E), st.WF → st.cur < st.maps.length →
    (∀ v ∈ vs, v.cst < st.maps.length) → Post T (GP st) (lenLoop ref vs st) := by
  intro vs
  induction vs with
  | nil => intro st hw hc _; exact ⟨hw, hc, Nat.le_refl _, by simp⟩
  | cons v vs ih =>
    intro st hw hc hv
    unfold lenLoop
    refine Post.bind (cloneRef_post hw) (fun t st1 h1 => ?_)
    have ht : t < st1.maps.length := by rw [h1.ref, h1.len]; omega
    refine Post.bind (lookupOrCreateAt_post h1.wf ht) ?_
    rintro m st2 ⟨_, h2⟩
    have hle : st.maps.length ≤ st2.maps.length := by rw [h2.len, h1.len]; omega
    have hc2 : st2.cur < st2.maps.length := by rw [h2.cur, h1.cur]; omega
    refine Post.bind (ih st2 h2.wf hc2 (fun v' hv' => Nat.lt_of_lt_of_le (hv v' (List.mem_cons_of_mem _ hv')) hle))
      (fun rest st3 h3 => ?_)
    refine ⟨h3.wf, h3.cur, Nat.le_trans hle h3.le, fun v' hv' => ?_⟩
    split at hv'
    · exact h3.vec v' hv'
    · rcases List.mem_cons.1 hv' with rfl | hv'
      · exact Nat.lt_of_lt_of_le ht (by rw [← h2.len]; exact h3.le)
      · exact h3.vec v' hv'

theorem branchesLoop_gp (hsel : Selects E) (hT : Answers E ∨ T) {tag : IDRef} {base : Nat} : ∀ (bs : List Branch) (st : St E),
    (∀ b ∈ bs, (Canonical b.set.intervals ∧ b.set.intervals ≠ [] ∧ NotFull b.set) ∧
      ∀ l ∈ b.case.members, GAct T (genLeaf (E := E) r S l)) →
    st.WF → st.cur < st.maps.length → base < st.maps.length → Post T (GP st) (branchesLoop r S tag base bs st) := by
  intro bs
  induction bs with
  | nil => intro st _ hw hc _; exact ⟨hw, hc, Nat.le_refl _, by simp⟩
  | cons b bs ih =>
    intro st hb hw hc hbase
    obtain ⟨⟨b1, b2, b3⟩, b4⟩ := hb b List.mem_cons_self
    unfold branchesLoop
    refine Post.bind (cloneRef_post hw) (fun t st1 h1 => ?_)
    have ht : t < st1.maps.length := by rw [h1.ref, h1.len]; omega
    refine Post.bind (P := fun _ st2 => { st1 with cur := t } = st2) rfl ?_
    rintro _ _ rfl
    refine Post.bind (randomIn_post hT b1 b2 b3) (fun x st2 h2 => ?_)
    have hw2 : st2.WF := h2.wf h1.wf
    have ht2 : t < st2.maps.length := by rw [h2.1]; exact ht
    refine Post.bind (lookupOrCreateAt_post hw2 ht2) ?_
    rintro y st3 ⟨_, h3⟩
    refine Post.bind vector_post ?_
    rintro v st4 ⟨h4, e4⟩
    have e3 : st3.maps.length = st1.maps.length := by rw [h3.len, h2.1]
    have ec3 : st3.cur = t := by rw [h3.cur, h2.2]
    have hc4 : st4.cur < st4.maps.length := by rw [h4.1, h4.2, ec3, e3]; exact ht
    have hle4 : st.maps.length ≤ st4.maps.length := by rw [h4.1, e3, h1.len]; omega
    refine Post.bind (membersLoop_gp hsel _ _ st4 (fun l hl => b4 l (List.mem_reverse.1 hl)) (h4.wf h3.wf) hc4
      (by intro v' hv'; cases List.mem_singleton.1 hv'; rw [e4, h4.1, ec3, e3]; exact ht)) (fun vs st5 h5 => ?_)
    have h05 : GP st vs st5 := ⟨h5.wf, h5.cur, Nat.le_trans hle4 h5.le, h5.vec⟩
    exact Post.bind (ih st5 (fun b hb' => hb b (List.mem_cons_of_mem _ hb')) h5.wf h5.cur (Nat.lt_of_lt_of_le hbase h05.le))
      (fun rest st6 h6 => h05.trans h6)

theorem lenLoop_fp {ref : IDRef} (hr : ref.scope = "") {N : Nat} {g : CEnv} : ∀ (vs : List Vec) (st : St E), st.WF →
    st.cur < st.maps.length → N ≤ st.cur → globals (st.env st.cur) = g →
    (∀ v ∈ vs, v.cst < st.maps.length ∧ globals (st.env v.cst) = g) →
    Post T (FP N st) (lenLoop ref vs st) := by
  intro vs
  induction vs with
  | nil => intro st hw hc hN _ _; exact ⟨⟨hw, hc, Nat.le_refl _, by simp⟩, hN, fun _ _ => rfl, fun _ _ => rfl, rfl, by simp, by simp⟩
  | cons v vs ih =>
    intro st hw hc hN hg hv
    obtain ⟨v1, v2⟩ := hv v List.mem_cons_self
    unfold lenLoop
    refine Post.bind (cloneRef_post hw) (fun t st1 h1 => ?_)
    have ht : t < st1.maps.length := by rw [h1.ref, h1.len]; omega
    refine Post.bind (lookupOrCreateAt_post h1.wf ht) ?_
    rintro m st2 ⟨_, h2⟩
    have hle : st.maps.length ≤ st2.maps.length := by rw [h2.len, h1.len]; omega
    have hc2 : st2.cur < st2.maps.length := by rw [h2.cur, h1.cur]; omega
    have old : ∀ r, r < st.maps.length → st2.maps[r]? = st.maps[r]? := fun r hr => by
      rw [h2.old r (by rw [h1.ref]; omega), h1.old r hr]
    have hcu : st2.cur = st.cur := h2.cur.trans h1.cur
    have h02 : FP N st [⟨v.data, t⟩] st2 := by
      refine ⟨⟨h2.wf, hc2, hle, ?_⟩, by rw [hcu]; exact hN, fun r hr => old r (by omega), fun r hr => by rw [env_eq (old r hr)],
        by rw [hcu, env_eq (old _ hc)], ?_, ?_⟩
      · intro w hw; cases List.mem_singleton.1 hw; rw [h2.len]; exact ht
      · intro w hw; cases List.mem_singleton.1 hw; show N ≤ t; rw [h1.ref]; omega
      · intro w hw
        cases List.mem_singleton.1 hw
        show globals (st2.env t) = _
        rw [h2.env, globals_orCreate hr, h1.env, v2, hg]
    refine Post.bind (ih st2 h2.wf hc2 h02.cur_ge (h02.cur_g.trans hg) (fun v' hv' => ?_)) (fun rest st3 h3 => ?_)
    · obtain ⟨a, b⟩ := hv v' (List.mem_cons_of_mem _ hv')
      exact ⟨Nat.lt_of_lt_of_le a hle, by rw [h02.keep _ a, b]⟩
    · refine Post.pure ((h02.trans h3).drop ?_)
      intro v' hv'
      split at hv'
      · exact List.mem_append_right _ hv'
      · exact hv'

theorem branchesLoop_fp (hsel : Selects E) (hT : Answers E ∨ T) {tag : IDRef} (htag : tag.scope = "") {base N : Nat} {g : CEnv} :
    ∀ (bs : List Branch) (st : St E), (∀ b ∈ bs, (Canonical b.set.intervals ∧ b.set.intervals ≠ [] ∧ NotFull b.set) ∧
      ∀ l ∈ b.case.members, FAct T (genLeaf (E := E) r S l)) →
    st.WF → st.cur < st.maps.length → N ≤ st.cur → base < st.maps.length → globals (st.env base) = g →
    globals (st.env st.cur) = g → Post T (FP N st) (branchesLoop r S tag base bs st) := by
  intro bs
  induction bs with
  | nil =>
    intro st _ hw hc hN _ _ _
    exact ⟨⟨hw, hc, Nat.le_refl _, by simp⟩, hN, fun _ _ => rfl, fun _ _ => rfl, rfl, by simp, by simp⟩
  | cons b bs ih =>
    intro st hb hw hc hN hbase hgb hgc
    obtain ⟨⟨b1, b2, b3⟩, b4⟩ := hb b List.mem_cons_self
    unfold branchesLoop
    refine Post.bind (cloneRef_post hw) (fun t st1 h1 => ?_)
    have ht : t < st1.maps.length := by rw [h1.ref, h1.len]; omega
    refine Post.bind (P := fun _ st2 => { st1 with cur := t } = st2) rfl ?_
    rintro _ _ rfl
    refine Post.bind (randomIn_post hT b1 b2 b3) (fun x st2 h2 => ?_)
    have hw2 : st2.WF := h2.wf h1.wf
    have ht2 : t < st2.maps.length := by rw [h2.1]; exact ht
    refine Post.bind (lookupOrCreateAt_post hw2 ht2) ?_
    rintro y st3 ⟨_, h3⟩
    refine Post.bind vector_post ?_
    rintro v st4 ⟨h4, e4⟩
    have e3 : st3.maps.length = st1.maps.length := by rw [h3.len, h2.1]
    have ec3 : st3.cur = t := by rw [h3.cur, h2.2]
    have hc4 : st4.cur < st4.maps.length := by rw [h4.1, h4.2, ec3, e3]; exact ht
    have hle4 : st.maps.length ≤ st4.maps.length := by rw [h4.1, e3, h1.len]; omega
    have old4 : ∀ r, r < st.maps.length → st4.maps[r]? = st.maps[r]? := fun r hr => by
      rw [h4.1, h3.old r (by rw [h1.ref]; omega), h2.1]; exact h1.old r hr
    have gt4 : globals (st4.env t) = g := by
      rw [h4.env, h3.env, globals_orCreate htag, h2.env]
      show globals (st1.env t) = g
      rw [h1.env, hgb]
    have hNt : N ≤ t := by rw [h1.ref]; omega
    have ec4 : st4.cur = t := by rw [h4.2, ec3]
    have h04 : FP N st [v] st4 := by
      have hv : ∀ w ∈ [v], w.cst = t := by intro w hw; cases List.mem_singleton.1 hw; rw [e4, ec3]
      refine ⟨⟨h4.wf h3.wf, hc4, hle4, ?_⟩, by rw [ec4]; exact hNt, fun r hr => old4 r (by omega),
        fun r hr => by rw [env_eq (old4 r hr)], by rw [ec4, gt4, hgc], ?_, ?_⟩
      · intro w hw; rw [hv w hw, ← ec4]; exact hc4
      · intro w hw; rw [hv w hw]; exact hNt
      · intro w hw; rw [hv w hw, gt4, hgc]
    refine Post.bind (membersLoop_fp hsel _ _ st4 (fun l hl => b4 l (List.mem_reverse.1 hl)) h04.wf h04.cur (.inl h04.cur_ge)
      (fun w hw => ⟨h04.vec_ge w hw, h04.vec w hw, by rw [h04.glob w hw, h04.cur_g]⟩)) (fun vs st5 h5 => ?_)
    have h05 : FP N st vs st5 := (h04.trans h5).drop (fun v hv => List.mem_append_right _ hv)
    exact Post.bind (ih st5 (fun b hb' => hb b (List.mem_cons_of_mem _ hb')) h05.wf h05.cur h05.cur_ge
      (Nat.lt_of_lt_of_le hbase h05.le) (by rw [h05.keep _ hbase, hgb]) (by rw [h05.cur_g, hgc]))
      (fun rest st6 h6 => h05.trans h6)

theorem branchOptions_mem {bs opts : List Branch} {t : Option Int} (h : branchOptions bs t = some opts) : ∀ b ∈ opts, b ∈ bs := by
  unfold branchOptions at h
  cases t with
  | none => cases h; exact fun b hb => hb
  | some t =>
    simp only [] at h
    cases hl : lookupBranch bs t with
    | none => rw [hl] at h; cases h
    | some b =>
      rw [hl] at h
      cases h
      intro b' hb'
      cases List.mem_singleton.1 hb'
      exact List.mem_of_find?_eq_some hl

theorem genUnion_gact (hsel : Selects E) (hT : Answers E ∨ T) (hk : Knows Γ r) (hS : SAct Γ O F T s S) {u : UnionMember}
    (h : MemberRuns Γ O F s (.union u)) (hu : .union u ∈ s.ms) : GAct T (genUnion (E := E) r S s u) := by
  obtain ⟨⟨t, ht, hsz, hd⟩, hlen, hls, hleaf⟩ := h
  obtain ⟨bs, hbs, hbr⟩ := newBranches_runs hk ht hsz hd hls
  intro st hw hc
  unfold genUnion
  refine Post.bind (P := fun a st1 => bs = a ∧ st = st1) (Post.res hbs ⟨rfl, rfl⟩) ?_
  rintro _ _ ⟨rfl, rfl⟩
  refine Post.bind (P := fun c st1 => st.cur = c ∧ st = st1) ⟨rfl, rfl⟩ ?_
  rintro _ _ ⟨rfl, rfl⟩
  refine Post.bind (P := fun c st1 => st.map st.cur = c ∧ st = st1) ⟨rfl, rfl⟩ ?_
  rintro _ _ ⟨rfl, rfl⟩
  cases ho : branchOptions bs ((st.map st.cur).lookupRef u.tag) with
  | none => exact ⟨hw, hc, Nat.le_refl _, by simp⟩
  | some opts =>
    simp only []
    have hm := branchOptions_mem ho
    refine Post.bind (cloneRef_post hw) (fun base st1 h1 => ?_)
    have hbase : base < st1.maps.length := by rw [h1.ref, h1.len]; omega
    have hc1 : st1.cur < st1.maps.length := by rw [h1.cur, h1.len]; omega
    refine Post.bind (branchesLoop_gp (r := r) (S := S) hsel hT opts st1 (fun b hb => ?_) h1.wf hc1 hbase) (fun vs st2 h2 => ?_)
    · obtain ⟨b1, b2⟩ := hbr b (hm b hb)
      refine ⟨b2, fun l hl => genLeaf_gact hsel hT hk hS (hleaf _ b1 l hl) ?_⟩
      rintro n ⟨f, hf, hn⟩
      refine ⟨f, ?_, hn⟩
      refine List.mem_flatMap.2 ⟨_, hu, ?_⟩
      simp only [memberFields]
      refine List.mem_flatMap.2 ⟨_, b1, ?_⟩
      unfold leafFields at hf ⊢
      obtain ⟨l', hl', e⟩ := List.mem_filterMap.1 hf
      cases List.mem_singleton.1 hl'
      exact List.mem_filterMap.2 ⟨_, hl, e⟩
    · have h02 : GP st vs st2 := ⟨h2.wf, h2.cur, by have := h2.le; rw [h1.len] at this; omega, h2.vec⟩
      cases hul : u.length with
      | none => exact h02
      | some lc =>
        cases lc with
        | leftover i => exact (hlen i hul).elim
        | idRef ref =>
          exact (lenLoop_gp vs st2 h02.wf h02.cur h02.vec).mono
            (fun ws st3 h3 => ⟨h3.wf, h3.cur, Nat.le_trans h02.le h3.le, h3.vec⟩)

theorem case_nests {u : UnionMember} {c : UnionCase} {l : Leaf} (hu : .union u ∈ s.ms) (hc : c ∈ u.cases) (hl : l ∈ c.members) :
    ∀ n, leafNests l n → Nests s n := by
  rintro n ⟨f, hf, hn⟩
  refine ⟨f, ?_, hn⟩
  refine List.mem_flatMap.2 ⟨_, hu, ?_⟩
  simp only [memberFields]
  refine List.mem_flatMap.2 ⟨_, hc, ?_⟩
  unfold leafFields at hf ⊢
  obtain ⟨l', hl', e⟩ := List.mem_filterMap.1 hf
  cases List.mem_singleton.1 hl'
  exact List.mem_filterMap.2 ⟨_, hl, e⟩

theorem genUnion_fact (hsel : Selects E) (hT : Answers E ∨ T) (hk : Knows Γ r) (hS : SAct Γ O F T s S) {u : UnionMember}
    (h : MemberRuns Γ O F s (.union u)) (hu : .union u ∈ s.ms) (hf : FreeM F (.union u)) :
    FAct T (genUnion (E := E) r S s u) := by
  obtain ⟨⟨t, ht, hsz, hd⟩, hlen, hls, hleaf⟩ := h
  obtain ⟨ftag, flen, fleaf⟩ := hf
  obtain ⟨bs, hbs, hbr⟩ := newBranches_runs hk ht hsz hd hls
  intro st N hw hc hN
  unfold genUnion
  refine Post.bind (P := fun a st1 => bs = a ∧ st = st1) (Post.res hbs ⟨rfl, rfl⟩) ?_
  rintro _ _ ⟨rfl, rfl⟩
  refine Post.bind (P := fun c st1 => st.cur = c ∧ st = st1) ⟨rfl, rfl⟩ ?_
  rintro _ _ ⟨rfl, rfl⟩
  refine Post.bind (P := fun c st1 => st.map st.cur = c ∧ st = st1) ⟨rfl, rfl⟩ ?_
  rintro _ _ ⟨rfl, rfl⟩
  cases ho : branchOptions bs ((st.map st.cur).lookupRef u.tag) with
  | none => exact ⟨⟨hw, hc, Nat.le_refl _, by simp⟩, hN, fun _ _ => rfl, fun _ _ => rfl, rfl, by simp, by simp⟩
  | some opts =>
    simp only []
    have hm := branchOptions_mem ho
    refine Post.bind (cloneRef_post hw) (fun base st1 h1 => ?_)
    have hbase : base < st1.maps.length := by rw [h1.ref, h1.len]; omega
    have hc1 : st1.cur < st1.maps.length := by rw [h1.cur, h1.len]; omega
    have h01 : FP N st [] st1 := ⟨⟨h1.wf, hc1, by rw [h1.len]; omega, by simp⟩, by rw [h1.cur]; exact hN,
      fun r hr => h1.old r (by omega), fun r hr => by rw [env_eq (h1.old r hr)], by rw [h1.cur, env_eq (h1.old _ hc)],
      by simp, by simp⟩
    refine Post.bind (branchesLoop_fp (r := r) (S := S) (N := N) hsel hT ftag opts st1 (fun b hb => ?_) h1.wf hc1 h01.cur_ge hbase
      (by rw [h1.env]) h01.cur_g) (fun vs st2 h2 => ?_)
    · obtain ⟨b1, b2⟩ := hbr b (hm b hb)
      exact ⟨b2, fun l hl => genLeaf_fact hsel hT hk hS (hleaf _ b1 l hl) (case_nests hu b1 hl) (fleaf _ b1 l hl)⟩
    · have h02 : FP N st vs st2 := (h01.trans h2).drop (fun v hv => hv)
      cases hul : u.length with
      | none => exact h02
      | some lc =>
        cases lc with
        | leftover i => exact (hlen i hul).elim
        | idRef ref =>
          exact (lenLoop_fp (flen ref hul) vs st2 h02.wf h02.cur h02.cur_ge h02.cur_g
            (fun v hv => ⟨h02.vec v hv, h02.glob v hv⟩)).mono
            (fun ws st3 h3 => (h02.trans h3).drop (fun v hv => List.mem_append_right _ hv))

/-! ## Structs -/

theorem leaf_nests {l : Leaf} (hl : .leaf l ∈ s.ms) : ∀ n, leafNests l n → Nests s n := by
  rintro n ⟨f, hf, hn⟩
  exact ⟨f, List.mem_flatMap.2 ⟨_, hl, hf⟩, hn⟩

theorem genMember_gact (hsel : Selects E) (hT : Answers E ∨ T) (hk : Knows Γ r) (hS : SAct Γ O F T s S) {m : Member}
    (h : MemberRuns Γ O F s m) (hm : m ∈ s.ms) : GAct T (genMember (E := E) r S s m) := by
  cases m with
  | leaf l => exact genLeaf_gact hsel hT hk hS h (leaf_nests hm)
  | union u => exact genUnion_gact hsel hT hk hS h hm

theorem genMember_oact (hsel : Selects E) (hT : Answers E ∨ T) (hk : Knows Γ r) (hS : SAct Γ O F T s S) {m : Member}
    (h : MemberRuns Γ O F s m) (hm : m ∈ s.ms) (ho : OneM O m) : OAct T (genMember (E := E) r S s m) := by
  cases m with
  | leaf l => exact genLeaf_oact hsel hT hk hS h (leaf_nests hm) ho
  | union u => exact ho.elim

theorem genMember_fact (hsel : Selects E) (hT : Answers E ∨ T) (hk : Knows Γ r) (hS : SAct Γ O F T s S) {m : Member}
    (h : MemberRuns Γ O F s m) (hm : m ∈ s.ms) (hf : FreeM F m) : FAct T (genMember (E := E) r S s m) := by
  cases m with
  | leaf l => exact genLeaf_fact hsel hT hk hS h (leaf_nests hm) hf
  | union u => exact genUnion_fact hsel hT hk hS h hm hf

theorem clearAll_post {σ : Unit} : ∀ (vs : List Vec) (st : St E), st.WF → (∀ v ∈ vs, v.cst < st.maps.length) →
    Post T (fun _ st' => st'.WF ∧ st'.cur = st.cur ∧ st'.maps.length = st.maps.length ∧
      (∀ r, (∀ v ∈ vs, v.cst ≠ r) → st'.maps[r]? = st.maps[r]?) ∧
      (∀ r, globals (st'.env r) = globals (st.env r)) ∧
      ∀ r k, (st.env r "" k = none ∨ ∃ v ∈ vs, v.cst = r) → st'.env r "" k = none) (clearAll vs st) := by
  intro vs
  induction vs with
  | nil => intro st hw _; exact ⟨hw, rfl, rfl, fun _ _ => rfl, fun _ => rfl, fun r k h => by simpa using h⟩
  | cons v vs ih =>
    intro st hw hv
    unfold clearAll
    have hl := hv v List.mem_cons_self
    refine Post.bind (clearLocalAt_post hw hl) (fun _ st1 h1 => ?_)
    refine (ih st1 h1.wf (fun v' hv' => by rw [h1.len]; exact hv v' (List.mem_cons_of_mem _ hv'))).mono ?_
    rintro _ st2 ⟨a1, a2, a3, a4, a5, a6⟩
    refine ⟨a1, a2.trans h1.cur, a3.trans h1.len, ?_, ?_, ?_⟩
    · intro r hr
      rw [a4 r (fun v' hv' => hr v' (List.mem_cons_of_mem _ hv')), h1.old r (fun e => hr v List.mem_cons_self e.symm)]
    · intro r
      rw [a5 r]
      by_cases e : r = v.cst
      · subst e
        rw [h1.env]
        exact globals_twice _
      · rw [env_eq (h1.old r e)]
    · intro r k h
      refine a6 r k ?_
      by_cases e : r = v.cst
      · left
        subst e
        rw [h1.env]
        simp [globals]
      · rw [env_eq (h1.old r e)]
        rcases h with h | ⟨v', hv', e'⟩
        · exact .inl h
        · rcases List.mem_cons.1 hv' with rfl | hv'
          · exact (e e'.symm).elim
          · exact .inr ⟨v', hv', e'⟩

/-- Structs are generated: `rank` bounds the nesting depth. -/
theorem structure_acts (hsel : Selects E) (hT : Answers E ∨ T) (hk : Knows Γ r) (hg : FmtRuns Γ O F) (rank : String → Nat)
    (hrank : (∀ n s, Γ.structs n = some s → s.extern = false → ∀ n', Nests s n' → rank n' < rank n) ∨ T) :
    ∀ fuel n s, Γ.structs n = some s → s.extern = false → (rank n < fuel ∨ T) →
      GAct T (structure_ (E := E) r fuel s) ∧ (O n → EAct T False (structure_ (E := E) r fuel s)) ∧
        (F n → NAct T False (structure_ (E := E) r fuel s)) := by
  intro fuel
  induction fuel with
  | zero =>
    intro n s _ _ h
    have hT' : T := h.elim (fun h => absurd h (Nat.not_lt_zero _)) id
    exact ⟨fun st _ _ => hT', fun _ st _ _ => hT', fun _ st _ _ => hT'⟩
  | succ fuel ih =>
    intro n s hs he h
    have hS : SAct Γ O F T s (structure_ (E := E) r fuel) := by
      intro n' s' hn hs' he'
      refine ih n' s' hs' he' ?_
      rcases h with h | h
      · rcases hrank with hr | hr
        · have := hr n s hs he n' hn
          exact .inl (by omega)
        · exact .inr hr
      · exact .inr h
    have hms := hg.structs n s hs he
    refine ⟨?_, ?_, ?_⟩
    · intro st hw hc
      unfold structure_
      refine Post.bind (P := fun c st1 => st.cur = c ∧ st = st1) ⟨rfl, rfl⟩ ?_
      rintro _ _ ⟨rfl, rfl⟩
      refine Post.bind (cloneGlobalRef_post hw) (fun g st1 h1 => ?_)
      refine Post.bind (P := fun _ st2 => SameMaps st1 st2) ⟨rfl, rfl⟩ (fun d st2 h2 => ?_)
      have hc2 : st2.cur < st2.maps.length := by rw [h2.1, h2.2, h1.cur, h1.len]; omega
      have hg2 : g < st2.maps.length := by rw [h2.1, h1.ref, h1.len]; omega
      have hle2 : st.maps.length ≤ st2.maps.length := by rw [h2.1, h1.len]; omega
      refine Post.bind (membersLoop_gp hsel _ _ st2 (fun m hm => genMember_gact hsel hT hk hS (hms m (List.mem_reverse.1 hm))
        (List.mem_reverse.1 hm)) (h2.wf h1.wf) hc2 (by intro v hv; cases List.mem_singleton.1 hv; exact hg2)) (fun vs st3 h3 => ?_)
      refine Post.bind (P := fun c st4 => st3.cur = c ∧ st3 = st4) ⟨rfl, rfl⟩ ?_
      rintro _ _ ⟨rfl, rfl⟩
      refine Post.bind (clearLocalAt_post h3.wf h3.cur) (fun _ st4 h4 => ?_)
      refine Post.bind (clearAll_post (σ := ()) vs st4 h4.wf (fun v hv => by rw [h4.len]; exact h3.vec v hv)) ?_
      rintro _ st5 ⟨a1, a2, a3, a4, a5, a6⟩
      refine Post.pure ⟨a1, by rw [a2, a3, h4.cur, h4.len]; exact h3.cur, ?_, fun v hv => by rw [a3, h4.len]; exact h3.vec v hv⟩
      rw [a3, h4.len]; exact Nat.le_trans hle2 h3.le
    · intro ho st hw hc
      obtain ⟨hne, hone⟩ := hg.one n s ho hs he
      unfold structure_
      refine Post.bind (P := fun c st1 => st.cur = c ∧ st = st1) ⟨rfl, rfl⟩ ?_
      rintro _ _ ⟨rfl, rfl⟩
      refine Post.bind (cloneGlobalRef_post hw) (fun g st1 h1 => ?_)
      refine Post.bind (P := fun _ st2 => SameMaps st1 st2) ⟨rfl, rfl⟩ (fun d st2 h2 => ?_)
      have hc2 : st2.cur < st2.maps.length := by rw [h2.1, h2.2, h1.cur, h1.len]; omega
      have hg2 : g < st2.maps.length := by rw [h2.1, h1.ref, h1.len]; omega
      have hle2 : st.maps.length ≤ st2.maps.length := by rw [h2.1, h1.len]; omega
      have e2 : st2.env st2.cur = st.env st.cur := by rw [h2.env, h2.2, h1.cur]; exact env_eq (h1.old _ hc)
      have old2 : ∀ r, r < st.maps.length → st2.maps[r]? = st.maps[r]? := fun r hr => by rw [h2.1]; exact h1.old r hr
      have hgg : globals (st2.env g) = globals (st2.env st2.cur) := by
        rw [e2, h2.env, h1.env]
        exact globals_twice _
      have hgN : st.maps.length ≤ g := Nat.le_of_eq h1.ref.symm
      have hmem : Post T (OP st.maps.length st2) (membersLoop (genMember r (structure_ r fuel) s) s.ms.reverse [⟨d, g⟩] st2) := by
        obtain ⟨m, ms, hr⟩ : ∃ m ms, s.ms.reverse = m :: ms := by
          cases hx : s.ms.reverse with
          | nil => exact (hne (List.reverse_eq_nil_iff.1 hx)).elim
          | cons m ms => exact ⟨m, ms, rfl⟩
        have hO : ∀ m ∈ s.ms.reverse, OAct T (genMember (E := E) r (structure_ r fuel) s m) := fun m hm =>
          genMember_oact hsel hT hk hS (hms m (List.mem_reverse.1 hm)) (List.mem_reverse.1 hm) (hone m (List.mem_reverse.1 hm))
        rw [hr] at hO ⊢
        unfold membersLoop
        refine Post.bind (extend_one hsel (hO m List.mem_cons_self) (h2.wf h1.wf) hgN hg2 hgg) (fun ext st3 h3 => ?_)
        refine Post.bind (select_post hsel) ?_
        rintro ws st4 ⟨h4, hm, hl⟩
        have h24 : OP _ st2 ws st4 := h3.same h4 (fun v hv => ⟨v, hm v hv, rfl⟩) hl
        exact (membersLoop_op hsel ms ws st4 (fun m hm => hO m (List.mem_cons_of_mem _ hm)) h24.wf h24.cur h24.cur_ge h24.one
          (fun v hv => ⟨h24.vec_ge v hv, h24.vec v hv, h24.glob v hv⟩)).mono (fun us st5 h5 => h24.trans h5)
      refine Post.bind hmem (fun vs st3 h3 => ?_)
      refine Post.bind (P := fun c st4 => st3.cur = c ∧ st3 = st4) ⟨rfl, rfl⟩ ?_
      rintro _ _ ⟨rfl, rfl⟩
      refine Post.bind (clearLocalAt_post h3.wf h3.cur) (fun _ st4 h4 => ?_)
      have g4 : ∀ r, globals (st4.env r) = globals (st3.env r) := by
        intro r
        by_cases e : r = st3.cur
        · subst e
          rw [h4.env]
          exact globals_twice _
        · rw [env_eq (h4.old r e)]
      refine Post.bind (clearAll_post (σ := ()) vs st4 h4.wf (fun v hv => by rw [h4.len]; exact h3.vec v hv)) ?_
      rintro _ st5 ⟨a1, a2, a3, a4, a5, a6⟩
      refine Post.pure ⟨⟨a1, by rw [a2, a3, h4.cur, h4.len]; exact h3.cur, ?_, fun v hv => by rw [a3, h4.len]; exact h3.vec v hv⟩,
        h3.one, ?_, ?_, ?_, ?_, fun h => h.elim, ?_⟩
      · rw [a3, h4.len]; exact Nat.le_trans hle2 h3.le
      · intro r hr
        rw [a4 r (fun v hv e => by have := h3.vec_ge v hv; omega), h4.old r (by have := h3.cur_ge; omega), h3.old r hr]
        exact old2 r hr
      · rw [a5, g4, a2, h4.cur, ← e2]; exact h3.sub
      · intro v hv
        rw [a5, g4, a5, g4, a2, h4.cur]; exact h3.glob v hv
      · exact .inr (by rw [a2, h4.cur]; exact h3.cur_ge)
      · exact fun _ v hv => ⟨h3.vec_ge v hv, fun k => a6 _ k (.inr ⟨v, hv, rfl⟩)⟩
    · intro ho st hw hc
      obtain ⟨hne, hfree⟩ := hg.free n s ho hs he
      unfold structure_
      refine Post.bind (P := fun c st1 => st.cur = c ∧ st = st1) ⟨rfl, rfl⟩ ?_
      rintro _ _ ⟨rfl, rfl⟩
      refine Post.bind (cloneGlobalRef_post hw) (fun g st1 h1 => ?_)
      refine Post.bind (P := fun _ st2 => SameMaps st1 st2) ⟨rfl, rfl⟩ (fun d st2 h2 => ?_)
      have hc2 : st2.cur < st2.maps.length := by rw [h2.1, h2.2, h1.cur, h1.len]; omega
      have hg2 : g < st2.maps.length := by rw [h2.1, h1.ref, h1.len]; omega
      have hle2 : st.maps.length ≤ st2.maps.length := by rw [h2.1, h1.len]; omega
      have e2 : st2.env st2.cur = st.env st.cur := by rw [h2.env, h2.2, h1.cur]; exact env_eq (h1.old _ hc)
      have old2 : ∀ r, r < st.maps.length → st2.maps[r]? = st.maps[r]? := fun r hr => by rw [h2.1]; exact h1.old r hr
      have hgg : globals (st2.env g) = globals (st2.env st2.cur) := by
        rw [e2, h2.env, h1.env]
        exact globals_twice _
      have hgN : st.maps.length ≤ g := Nat.le_of_eq h1.ref.symm
      refine Post.bind (membersLoop_fp (N := st.maps.length) hsel _ [⟨d, g⟩] st2
        (fun m hm => genMember_fact hsel hT hk hS (hms m (List.mem_reverse.1 hm)) (List.mem_reverse.1 hm)
          (hfree m (List.mem_reverse.1 hm))) (h2.wf h1.wf) hc2 (.inr ⟨by simp, by simpa using hne⟩)
        (by intro v hv; cases List.mem_singleton.1 hv; exact ⟨hgN, hg2, hgg⟩)) (fun vs st3 h3 => ?_)
      refine Post.bind (P := fun c st4 => st3.cur = c ∧ st3 = st4) ⟨rfl, rfl⟩ ?_
      rintro _ _ ⟨rfl, rfl⟩
      refine Post.bind (clearLocalAt_post h3.wf h3.cur) (fun _ st4 h4 => ?_)
      have g4 : ∀ r, globals (st4.env r) = globals (st3.env r) := by
        intro r
        by_cases e : r = st3.cur
        · subst e
          rw [h4.env]
          exact globals_twice _
        · rw [env_eq (h4.old r e)]
      refine Post.bind (clearAll_post (σ := ()) vs st4 h4.wf (fun v hv => by rw [h4.len]; exact h3.vec v hv)) ?_
      rintro _ st5 ⟨a1, a2, a3, a4, a5, a6⟩
      refine Post.pure ⟨⟨a1, by rw [a2, a3, h4.cur, h4.len]; exact h3.cur, ?_, fun v hv => by rw [a3, h4.len]; exact h3.vec v hv⟩,
        ?_, ?_, ?_, ?_, fun h => h.elim, ?_⟩
      · rw [a3, h4.len]; exact Nat.le_trans hle2 h3.le
      · intro r hr
        rw [a4 r (fun v hv e => by have := h3.vec_ge v hv; omega), h4.old r (by have := h3.cur_ge; omega), h3.old r hr]
        exact old2 r hr
      · exact .inr (by rw [a2, h4.cur]; exact h3.cur_ge)
      · rw [a5, g4, a2, h4.cur, h3.cur_g, e2]
      · intro v hv
        rw [a5, g4, h3.glob v hv, e2]
      · exact fun _ v hv => ⟨h3.vec_ge v hv, fun k => a6 _ k (.inr ⟨v, hv, rfl⟩)⟩

/-! ## Files -/

theorem suites_post (hsel : Selects E) (hT : Answers E ∨ T) (hk : Knows Γ r) (hg : FmtRuns Γ O F) (rank : String → Nat)
    (hrank : (∀ n s, Γ.structs n = some s → s.extern = false → ∀ n', Nests s n' → rank n' < rank n) ∨ T) (fuel : Nat) :
    ∀ (ss : List Struct) (st : St E), (∀ s ∈ ss, s.extern = false → Γ.structs s.name = some s ∧ (rank s.name < fuel ∨ T)) →
      st.WF → Post T (fun _ _ => True) (suites r fuel ss st) := by
  intro ss
  induction ss with
  | nil => intro st _ _; exact trivial
  | cons s ss ih =>
    intro st hss hw
    have hss' := fun s hs => hss s (List.mem_cons_of_mem _ hs)
    unfold suites
    split
    · exact ih st hss' hw
    · rename_i he
      have he : s.extern = false := by simpa using he
      obtain ⟨hs, hr⟩ := hss s List.mem_cons_self he
      refine Post.bind (P := fun c st1 => st1.WF ∧ c < st1.maps.length) ⟨wf_append hw Cst.wf_empty, by simp⟩ ?_
      rintro c st1 ⟨hw1, hc1⟩
      refine Post.bind (P := fun _ st2 => { st1 with cur := c } = st2) rfl ?_
      rintro _ _ rfl
      refine Post.bind ((structure_acts hsel hT hk hg rank hrank fuel s.name s hs he hr).1 _ hw1 hc1) (fun vs st2 h2 => ?_)
      exact Post.bind (ih st2 hss' h2.wf) (fun _ _ _ => trivial)

/-- The outcome is a corpus, or a timeout if `T` holds. -/
def Fine (T : Prop) : Out Corpus → Prop
  | .ok _ => True
  | .timeout => T
  | _ => False

theorem generateFiles_fine (hsel : Selects E) (hT : Answers E ∨ T) {nm : String → String} {ext : Go.Ext} {fs : List File}
    (hcomp : Props.FilesCompatible fs) (hg : FmtRuns (fmtOf nm ext fs) O F) (rank : String → Nat)
    (hrank : (∀ n s, (fmtOf nm ext fs).structs n = some s → s.extern = false → ∀ n', Nests s n' → rank n' < rank n) ∨ T)
    (fuel : Nat) (hfuel : (∀ s ∈ fs.flatMap (·.structs), rank s.name < fuel) ∨ T) (seed : E.R.σ) :
    Fine T (generateFiles E fuel seed fs) := by
  obtain ⟨r, hr, h1, h2, h3⟩ := (Props.C11_multi_file E.order fs).1 hcomp
  have hk : Knows (fmtOf nm ext fs) r := ⟨by funext n; exact h3 n, by funext n; exact h2 n, by funext n; exact h1 n⟩
  unfold generateFiles
  rw [hr]
  simp only []
  have := suites_post hsel hT hk hg rank hrank fuel (fs.flatMap (·.structs)) (St.init seed)
    (fun s hs he => ⟨Verif.Refine.defined_struct hcomp hs he, hfuel.imp (fun h => h s hs) id⟩)
    (by intro c hc; simp [St.init] at hc)
  revert this
  cases suites (E := E) r fuel (fs.flatMap (·.structs)) (St.init seed) with
  | ok p => exact fun _ => trivial
  | err e => exact fun h => h
  | panic m => exact fun h => h
  | timeout => exact fun h => h

end Verif.Tv
