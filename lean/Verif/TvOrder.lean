import Verif.Tv
import Verif.ConstraintsLemmas
import Mathlib.Data.List.Forall2
/-!
# Generation does not depend on map iteration order

A simulation between runs with different iteration orders: stores agree on every lookup, everything
else is equal.
-/
namespace Verif.Tv
open Verif Verif.Ast Verif.Inspect Verif.Intervals

/-- The same environment with another iteration order. -/
def Env.withOrder (E : Env) (o : IterOrder) : Env := { E with order := o }

/-- Stores that agree on every lookup. -/
def SameCst (c d : Cst) : Prop := c.WF ∧ d.WF ∧ ∀ s k, c.lookup s k = d.lookup s k

/-- States that agree up to the order of entries in stores. -/
structure Sim {E : Env} {o : IterOrder} (st : St E) (st' : St (E.withOrder o)) : Prop where
  maps : List.Forall₂ SameCst st.maps st'.maps
  arrs : st.arrs = st'.arrs
  cur : st.cur = st'.cur
  rnd : st.rnd = st'.rnd
  calls : st.calls = st'.calls

/-- Outcomes that agree. -/
def SimOut {E : Env} {o : IterOrder} {α : Type} : Out (α × St E) → Out (α × St (E.withOrder o)) → Prop
  | .ok (a, st), .ok (b, st') => a = b ∧ Sim st st'
  | .err e, .err e' => e = e'
  | .panic m, .panic m' => m = m'
  | .timeout, .timeout => True
  | _, _ => False

/-- Actions that agree. -/
def SimM {E : Env} {o : IterOrder} {α : Type} (x : TM E α) (y : TM (E.withOrder o) α) : Prop :=
  ∀ st st', Sim st st' → SimOut (x st) (y st')

section
variable {E : Env} {o : IterOrder} {α β : Type}

theorem SimM.bind {x : TM E α} {y : TM (E.withOrder o) α} {f : α → TM E β} {g : α → TM (E.withOrder o) β}
    (h : SimM x y) (hf : ∀ a, SimM (f a) (g a)) : SimM (x >>= f) (y >>= g) := by
  intro st st' hs
  have := h st st' hs
  show SimOut (TM.bind x f st) (TM.bind y g st')
  unfold TM.bind
  cases hx : x st with
  | ok p =>
    cases hy : y st' with
    | ok q =>
      rw [hx, hy] at this
      obtain ⟨a, s⟩ := p
      obtain ⟨b, s'⟩ := q
      obtain ⟨rfl, hs'⟩ := this
      exact hf a s s' hs'
    | _ => rw [hx, hy] at this; exact this.elim
  | err e =>
    cases hy : y st' with
    | err e' => rw [hx, hy] at this; exact this
    | _ => rw [hx, hy] at this; exact this.elim
  | panic e =>
    cases hy : y st' with
    | panic e' => rw [hx, hy] at this; exact this
    | _ => rw [hx, hy] at this; exact this.elim
  | timeout =>
    cases hy : y st' with
    | timeout => trivial
    | _ => rw [hx, hy] at this; exact this.elim

theorem SimM.pure (a : α) : SimM (E := E) (o := o) (Pure.pure a) (Pure.pure a) := fun _ _ hs => ⟨rfl, hs⟩

theorem SimM.ofRes (r : Res α) : SimM (E := E) (o := o) (TM.ofRes r) (TM.ofRes r) := by
  intro st st' hs
  cases r with
  | ok a => exact ⟨rfl, hs⟩
  | err m => rfl
  | panic m => rfl

theorem SimM.fail (e : GErr) : SimM (E := E) (o := o) (TM.fail (α := α) e) (TM.fail e) := fun _ _ _ => rfl

theorem Sim.map {st : St E} {st' : St (E.withOrder o)} (h : Sim st st') (r : Nat) :
    SameCst (st.map r) (st'.map r) := by
  simp only [St.map, List.getD_eq_getElem?_getD]
  have hl := h.maps.length_eq
  cases hr : st.maps[r]? with
  | none =>
    have : st'.maps[r]? = none := by
      rw [List.getElem?_eq_none_iff] at hr ⊢; omega
    rw [this]
    exact ⟨Cst.wf_empty, Cst.wf_empty, fun _ _ => rfl⟩
  | some c =>
    obtain ⟨hr1, hr2⟩ := List.getElem?_eq_some_iff.1 hr
    have hr' : r < st'.maps.length := by omega
    rw [List.getElem?_eq_getElem hr']
    simp only [Option.getD_some]
    subst hr2
    exact (List.forall₂_iff_get.1 h.maps).2 r hr1 hr'

theorem getMap_bind {x : Cst → TM E β} {y : Cst → TM (E.withOrder o) β} (r : Nat)
    (h : ∀ c d, SameCst c d → SimM (x c) (y d)) : SimM (getMap r >>= x) (getMap r >>= y) := by
  intro st st' hs
  exact h _ _ (hs.map r) st st' hs

theorem ticks_bind {x : Nat → TM E β} {y : Nat → TM (E.withOrder o) β} (n m : Nat)
    (h : ∀ t t', SimM (x t) (y t')) : SimM (ticks n >>= x) (ticks m >>= y) := by
  intro st st' hs
  exact h _ _ { st with iter := st.iter + n } { st' with iter := st'.iter + m }
    ⟨hs.maps, hs.arrs, hs.cur, hs.rnd, hs.calls⟩

theorem forall₂_append_singleton {R : α → β → Prop} {l : List α} {m : List β} {a : α} {b : β}
    (h : List.Forall₂ R l m) (hab : R a b) : List.Forall₂ R (l ++ [a]) (m ++ [b]) := by
  induction h with
  | nil => exact .cons hab .nil
  | cons h _ ih => exact .cons h ih

theorem forall₂_set {R : α → β → Prop} {l : List α} {m : List β} {a : α} {b : β}
    (h : List.Forall₂ R l m) (hab : R a b) (i : Nat) : List.Forall₂ R (l.set i a) (m.set i b) := by
  induction h generalizing i with
  | nil => exact .nil
  | cons h hr ih =>
    cases i with
    | zero => exact .cons hab hr
    | succ i => exact .cons h (ih i)

theorem newMap_sim {c d : Cst} (h : SameCst c d) : SimM (E := E) (o := o) (newMap c) (newMap d) := by
  intro st st' hs
  exact ⟨hs.maps.length_eq, forall₂_append_singleton hs.maps h, hs.arrs, hs.cur, hs.rnd, hs.calls⟩

theorem putMap_sim {c d : Cst} (r : Nat) (h : SameCst c d) :
    SimM (E := E) (o := o) (putMap r c) (putMap r d) := by
  intro st st' hs
  exact ⟨rfl, forall₂_set hs.maps h r, hs.arrs, hs.cur, hs.rnd, hs.calls⟩

theorem getCur_sim : SimM (E := E) (o := o) getCur getCur := fun _ _ hs => ⟨hs.cur, hs⟩

theorem setCur_sim (r : Nat) : SimM (E := E) (o := o) (setCur r) (setCur r) :=
  fun _ _ hs => ⟨rfl, hs.maps, hs.arrs, rfl, hs.rnd, hs.calls⟩

theorem newSlice_sim (b : List UInt8) : SimM (E := E) (o := o) (newSlice b) (newSlice b) := by
  intro st st' hs
  exact ⟨by rw [hs.arrs], hs.maps, by rw [hs.arrs], hs.cur, hs.rnd, hs.calls⟩

theorem appendSlice_sim (s : Slice) (b : List UInt8) :
    SimM (E := E) (o := o) (appendSlice s b) (appendSlice s b) := by
  intro st st' hs
  unfold appendSlice
  simp only [← hs.arrs]
  split
  · exact ⟨rfl, hs.maps, rfl, hs.cur, hs.rnd, hs.calls⟩
  · exact ⟨rfl, hs.maps, rfl, hs.cur, hs.rnd, hs.calls⟩

theorem getSlice_sim (s : Slice) : SimM (E := E) (o := o) (getSlice s) (getSlice s) :=
  fun st st' hs => ⟨by simp only [St.read, hs.arrs], hs⟩

theorem cloneRef_sim (r : Nat) : SimM (E := E) (o := o) (cloneRef r) (cloneRef r) := by
  refine getMap_bind r (fun c d h => ticks_bind _ _ (fun t t' => ?_))
  obtain ⟨m, hm, hw, hl⟩ := Cst.clone_spec E.order t h.1
  obtain ⟨m', hm', hw', hl'⟩ := Cst.clone_spec o t' h.2.1
  have h1 : (TM.ofRes (c.clone E.order t) : TM E Cst) = Pure.pure m := by rw [hm]; rfl
  have h2 : (TM.ofRes (d.clone (E.withOrder o).order t') : TM (E.withOrder o) Cst) = Pure.pure m' := by
    show TM.ofRes (d.clone o t') = _
    rw [hm']; rfl
  rw [h1, h2]
  exact newMap_sim ⟨hw, hw', fun s k => by rw [hl, hl', h.2.2]⟩

theorem cloneGlobalRef_sim (r : Nat) : SimM (E := E) (o := o) (cloneGlobalRef r) (cloneGlobalRef r) := by
  refine getMap_bind r (fun c d h => ticks_bind _ _ (fun t t' => ?_))
  obtain ⟨m, hm, hw, hl⟩ := Cst.cloneGlobal_spec E.order t h.1
  obtain ⟨m', hm', hw', hl'⟩ := Cst.cloneGlobal_spec o t' h.2.1
  have h1 : (TM.ofRes (c.cloneGlobal E.order t) : TM E Cst) = Pure.pure m := by rw [hm]; rfl
  have h2 : (TM.ofRes (d.cloneGlobal (E.withOrder o).order t') : TM (E.withOrder o) Cst) = Pure.pure m' := by
    show TM.ofRes (d.cloneGlobal o t') = _
    rw [hm']; rfl
  rw [h1, h2]
  exact newMap_sim ⟨hw, hw', fun s k => by rw [hl, hl', h.2.2]⟩

theorem mergeRef_sim (a b : Nat) : SimM (E := E) (o := o) (mergeRef a b) (mergeRef a b) := by
  refine getMap_bind a (fun c d h => getMap_bind b (fun c' d' h' =>
    ticks_bind _ _ (fun t t' => ticks_bind _ _ (fun u u' => ?_))))
  have e1 := Cst.merge_spec E.order t u h.1 h'.1
  have e2 := Cst.merge_spec o t' u' h.2.1 h'.2.1
  simp only [h.2.2, h'.2.2] at e1
  rcases e1 with ⟨ha, m, hm, hw, hl⟩ | ⟨ha, hm⟩
  · rcases e2 with ⟨_, m', hm', hw', hl'⟩ | ⟨hb, _⟩
    · have h1 : (TM.ofRes (c.merge E.order t u c') : TM E Cst) = Pure.pure m := by rw [hm]; rfl
      have h2 : (TM.ofRes (d.merge (E.withOrder o).order t' u' d') : TM (E.withOrder o) Cst) =
          Pure.pure m' := by
        show TM.ofRes (d.merge o t' u' d') = _
        rw [hm']; rfl
      rw [h1, h2]
      exact newMap_sim ⟨hw, hw', fun s k => by rw [hl, hl']⟩
    · exact absurd ha hb
  · rcases e2 with ⟨hb, _⟩ | ⟨_, hm'⟩
    · exact absurd hb ha
    · intro st st' _
      show SimOut (TM.bind (TM.ofRes (c.merge E.order t u c')) _ st)
        (TM.bind (TM.ofRes (d.merge o t' u' d')) _ st')
      rw [hm, hm']
      rfl

theorem lookupOrCreateAt_sim (a : Nat) (r : IDRef) (v : Int) :
    SimM (E := E) (o := o) (lookupOrCreateAt a r v) (lookupOrCreateAt a r v) := by
  refine getMap_bind a (fun c d h => ?_)
  have hl := h.2.2 r.scope r.name
  rcases Cst.lookupOrCreate_spec c r.scope r.name v with ⟨u, hu, hc⟩ | ⟨hu, hc, hok⟩
  · rcases Cst.lookupOrCreate_spec d r.scope r.name v with ⟨u', hu', hd⟩ | ⟨hu', hd, hok'⟩
    · rw [hu, hu'] at hl; cases hl
      simp only [Cst.lookupOrCreateRef, hc, hd]
      exact SimM.bind (x := putMap a c) (y := putMap a d) (putMap_sim a h) (fun _ => SimM.pure u)
    · rw [hu, hu'] at hl; cases hl
  · rcases Cst.lookupOrCreate_spec d r.scope r.name v with ⟨u', hu', hd⟩ | ⟨hu', hd, hok'⟩
    · rw [hu, hu'] at hl; cases hl
    · simp only [Cst.lookupOrCreateRef, hc, hd]
      refine SimM.bind (x := putMap a _) (y := putMap a _) (putMap_sim a ?_) (fun _ => SimM.pure v)
      refine ⟨Cst.wf_set h.1 _ _ _, Cst.wf_set h.2.1 _ _ _, fun s k => ?_⟩
      rw [Cst.lookup_set hok, Cst.lookup_set hok', h.2.2]

theorem clearLocalAt_sim (a : Nat) : SimM (E := E) (o := o) (clearLocalAt a) (clearLocalAt a) := by
  refine getMap_bind a (fun c d h => putMap_sim a ?_)
  refine ⟨Cst.wf_clearScope h.1 _, Cst.wf_clearScope h.2.1 _, fun s k => ?_⟩
  rw [Cst.clearLocal, Cst.clearLocal, Cst.lookup_clearScope, Cst.lookup_clearScope, h.2.2]

theorem randbtw_sim (a b : Nat) : SimM (E := E) (o := o) (randbtw a b) (randbtw a b) := by
  intro st st' hs
  unfold randbtw
  simp only [← hs.rnd]
  exact ⟨rfl, hs.maps, hs.arrs, hs.cur, rfl, hs.calls⟩

theorem randread_sim (n : Nat) : SimM (E := E) (o := o) (randread n) (randread n) := by
  intro st st' hs
  unfold randread
  simp only [← hs.rnd]
  exact ⟨rfl, hs.maps, hs.arrs, hs.cur, rfl, hs.calls⟩

theorem randletters_sim (n : Nat) : SimM (E := E) (o := o) (randletters n) (randletters n) := by
  induction n with
  | zero => exact SimM.pure _
  | succ n ih => exact (randbtw_sim 0 25).bind (fun i => ih.bind (fun _ => SimM.pure _))

theorem randomIn_sim (s : Intervals.Set) : SimM (E := E) (o := o) (randomIn s) (randomIn s) := by
  intro st st' hs
  unfold randomIn
  have : s.random E.R E.draws st.rnd = s.random (E.withOrder o).R (E.withOrder o).draws st'.rnd := by
    rw [hs.rnd]; rfl
  rw [this]
  cases h : s.random (E.withOrder o).R (E.withOrder o).draws st'.rnd with
  | none => trivial
  | some p =>
    obtain ⟨r, q⟩ := p
    cases r with
    | ok x => exact ⟨rfl, hs.maps, hs.arrs, hs.cur, rfl, hs.calls⟩
    | err m => rfl
    | panic m => rfl

theorem vector_sim (b : List UInt8) : SimM (E := E) (o := o) (vector b) (vector b) :=
  (newSlice_sim b).bind (fun _ => getCur_sim.bind (fun _ => SimM.pure _))

theorem crossOne_sim (u : Vec) (b : List Vec) : SimM (E := E) (o := o) (crossOne u b) (crossOne u b) := by
  induction b with
  | nil => exact SimM.pure _
  | cons w b ih =>
    exact (mergeRef_sim _ _).bind (fun _ => (getSlice_sim _).bind (fun _ => (appendSlice_sim _ _).bind
      (fun _ => ih.bind (fun _ => SimM.pure _))))

theorem cross_sim (a b : List Vec) : SimM (E := E) (o := o) (cross a b) (cross a b) := by
  induction a with
  | nil => exact SimM.pure _
  | cons u a ih => exact (crossOne_sim u b).bind (fun _ => ih.bind (fun _ => SimM.pure _))

theorem select_sim (vs : List Vec) : SimM (E := E) (o := o) (select vs) (select vs) := by
  intro st st' hs
  unfold select
  rw [hs.calls]
  exact ⟨rfl, hs.maps, hs.arrs, hs.cur, hs.rnd, rfl⟩

theorem appendAll_sim (d : Slice) (vs : List Vec) :
    SimM (E := E) (o := o) (appendAll d vs) (appendAll d vs) := by
  induction vs with
  | nil => exact SimM.pure _
  | cons v vs ih =>
    exact (getSlice_sim _).bind (fun _ => (appendSlice_sim _ _).bind (fun _ => ih.bind (fun _ => SimM.pure _)))

theorem extendAll_sim {x : TM E (List Vec)} {y : TM (E.withOrder o) (List Vec)} (h : SimM x y)
    (vs : List Vec) : SimM (extendAll x vs) (extendAll y vs) := by
  induction vs with
  | nil => exact SimM.pure _
  | cons v vs ih =>
    exact (setCur_sim _).bind (fun _ => h.bind (fun _ => (appendAll_sim _ _).bind (fun _ =>
      ih.bind (fun _ => SimM.pure _))))

theorem membersLoop_sim {γ : Type} {f : γ → TM E (List Vec)} {g : γ → TM (E.withOrder o) (List Vec)}
    (h : ∀ a, SimM (f a) (g a)) (ms : List γ) (vs : List Vec) :
    SimM (membersLoop f ms vs) (membersLoop g ms vs) := by
  induction ms generalizing vs with
  | nil => exact SimM.pure _
  | cons m ms ih =>
    exact (extendAll_sim (h m) vs).bind (fun _ => (select_sim _).bind (fun vs => ih vs))

/-- Resolvers that answer alike. -/
def SameRes (r r' : Resolver) : Prop :=
  (∀ n, r.struct n = r'.struct n) ∧ (∀ n, r.context n = r'.context n) ∧ (∀ n, r.constant n = r'.constant n)

theorem SameRes.integer {r r' : Resolver} (h : SameRes r r') (i : Integer) : r.integer i = r'.integer i := by
  cases i <;> simp [Resolver.integer, h.2.2]

theorem SameRes.rangeIntervals {r r' : Resolver} (h : SameRes r r') (l : List IntegerRange) :
    r.rangeIntervals l = r'.rangeIntervals l := by
  induction l with
  | nil => rfl
  | cons a l ih =>
    simp only [Resolver.rangeIntervals, h.integer, ih]

theorem SameRes.intervals {r r' : Resolver} (h : SameRes r r') (l : IntegerList) :
    r.intervals l = r'.intervals l := by
  simp only [Resolver.intervals, h.rangeIntervals]

theorem SameRes.structNonExtern {r r' : Resolver} (h : SameRes r r') (n : String) :
    r.structNonExtern n = r'.structNonExtern n := by
  simp only [Resolver.structNonExtern, h.1]

theorem SameRes.branchLoop {r r' : Resolver} (h : SameRes r r') (cs : List UnionCase) :
    ∀ d c, branchLoop r d c cs = branchLoop r' d c cs := by
  induction cs with
  | nil => intro d c; rfl
  | cons a cs ih =>
    intro d c
    simp only [Inspect.branchLoop, h.intervals, ih]

theorem SameRes.newBranches {r r' : Resolver} (h : SameRes r r') (s : Struct) (u : UnionMember) :
    newBranches r s u = newBranches r' s u := by
  have ht : r.intType u.tag s = r'.intType u.tag s := by simp only [Resolver.intType, h.2.1]
  simp only [Inspect.newBranches, ht, h.branchLoop]

variable {r r' : Resolver} (hr : SameRes r r')
include hr

theorem genInt_sim (n : String) (t : IntType) : SimM (E := E) (o := o) (genInt r n t) (genInt r' n t) := by
  refine getCur_sim.bind (fun c => getMap_bind c (fun m m' hm => ?_))
  simp only [hm.2.2]
  have hv : ∀ b, SimM (E := E) (o := o) (do let v ← vector b; Pure.pure [v]) (do let v ← vector b; Pure.pure [v]) :=
    fun b => (vector_sim b).bind (fun _ => SimM.pure _)
  cases m'.lookup "" n with
  | some x => exact (SimM.pure _).bind hv
  | none =>
    cases t.constraint with
    | none => exact (randread_sim _).bind hv
    | some l =>
      simp only [hr.intervals]
      exact (SimM.ofRes _).bind (fun s => (randomIn_sim s).bind (fun _ => (SimM.pure _).bind hv))

variable {S : Struct → TM E (List Vec)} {S' : Struct → TM (E.withOrder o) (List Vec)}
  (hS : ∀ s, SimM (S s) (S' s))
include hS

theorem genBase_sim (n : String) (b : Base) : SimM (genBase r S n b) (genBase r' S' n b) := by
  cases b with
  | int t => exact genInt_sim hr n t
  | char => exact genInt_sim hr n U8
  | struct m =>
    simp only [genBase, genStructRef, hr.structNonExtern]
    exact (SimM.ofRes _).bind hS

omit hr hS in
theorem arrayLoop_sim {x : TM E (List Vec)} {y : TM (E.withOrder o) (List Vec)} (h : SimM x y) (n : Nat)
    (vs : List Vec) : SimM (arrayLoop x n vs) (arrayLoop y n vs) := by
  induction n generalizing vs with
  | zero => exact SimM.pure _
  | succ n ih =>
    exact h.bind (fun _ => (cross_sim _ _).bind (fun _ => (select_sim _).bind (fun vs => ih vs)))

omit hS in
theorem arrayCount_sim (iv : Vec) (c : Count) :
    SimM (E := E) (o := o) (arrayCount r iv c) (arrayCount r' iv c) := by
  cases c with
  | size i => simp only [arrayCount, hr.integer]; exact SimM.ofRes _
  | con c =>
    rcases c with _ | (k | ref)
    · exact (randbtw_sim 1 20).bind (fun _ => SimM.pure _)
    · exact SimM.fail _
    · exact (randbtw_sim 1 20).bind (fun _ => lookupOrCreateAt_sim _ _ _)

theorem genArray_sim (b : Base) (c : Count) : SimM (genArray r S b c) (genArray r' S' b c) :=
  (vector_sim []).bind (fun iv => (arrayCount_sim hr iv c).bind
    (fun n => arrayLoop_sim (genBase_sim hr hS "" b) _ _))

theorem genField_sim (f : Field) : SimM (genField r S f) (genField r' S' f) := by
  unfold genField
  cases f.type with
  | base b => exact genBase_sim hr hS f.name b
  | ptr => exact (vector_sim []).bind (fun _ => SimM.pure _)
  | nulterm =>
    refine SimM.bind ?_ (fun s => (vector_sim s).bind (fun _ => SimM.pure _))
    exact (randbtw_sim 2 20).bind (fun n => (randletters_sim n).bind (fun _ => SimM.pure _))
  | fixedArray b n => exact genArray_sim hr hS b _
  | varArray b c => exact genArray_sim hr hS b _

theorem genLeaf_sim (l : Leaf) : SimM (genLeaf r S l) (genLeaf r' S' l) := by
  cases l with
  | field f => exact genField_sim hr hS f
  | eos => exact (vector_sim []).bind (fun _ => SimM.pure _)
  | fail => exact SimM.pure _
  | ignore =>
    exact (vector_sim []).bind (fun _ => (randbtw_sim 1 7).bind (fun _ => (randread_sim _).bind
      (fun _ => (vector_sim _).bind (fun _ => SimM.pure _))))

omit hr hS in
theorem lenLoop_sim (ref : IDRef) (vs : List Vec) :
    SimM (E := E) (o := o) (lenLoop ref vs) (lenLoop ref vs) := by
  induction vs with
  | nil => exact SimM.pure _
  | cons v vs ih =>
    exact (cloneRef_sim _).bind (fun _ => (lookupOrCreateAt_sim _ _ _).bind (fun _ =>
      ih.bind (fun _ => SimM.pure _)))

theorem branchesLoop_sim (tag : IDRef) (base : Nat) (bs : List Branch) :
    SimM (branchesLoop r S tag base bs) (branchesLoop r' S' tag base bs) := by
  induction bs with
  | nil => exact SimM.pure _
  | cons b bs ih =>
    exact (cloneRef_sim _).bind (fun _ => (setCur_sim _).bind (fun _ => (randomIn_sim _).bind (fun _ =>
      (lookupOrCreateAt_sim _ _ _).bind (fun _ => (vector_sim []).bind (fun _ =>
        (membersLoop_sim (genLeaf_sim hr hS) _ _).bind (fun _ => ih.bind (fun _ => SimM.pure _)))))))

theorem genUnion_sim (s : Struct) (u : UnionMember) : SimM (genUnion r S s u) (genUnion r' S' s u) := by
  unfold genUnion
  rw [hr.newBranches]
  refine (SimM.ofRes _).bind (fun bs => getCur_sim.bind (fun c => getMap_bind c (fun m m' hm => ?_)))
  have : m.lookupRef u.tag = m'.lookupRef u.tag := hm.2.2 _ _
  rw [this]
  cases branchOptions bs (m'.lookupRef u.tag) with
  | none => exact SimM.pure _
  | some opts =>
    refine (cloneRef_sim _).bind (fun base => (branchesLoop_sim hr hS _ _ _).bind (fun res => ?_))
    rcases u.length with _ | (k | ref)
    · exact SimM.pure _
    · exact SimM.fail _
    · exact lenLoop_sim ref res

theorem genMember_sim (s : Struct) (m : Member) : SimM (genMember r S s m) (genMember r' S' s m) := by
  cases m with
  | leaf l => exact genLeaf_sim hr hS l
  | union u => exact genUnion_sim hr hS s u

omit hS in
theorem structure_sim (fuel : Nat) : ∀ s, SimM (E := E) (o := o) (structure_ r fuel s) (structure_ r' fuel s) := by
  induction fuel with
  | zero => intro s st st' _; trivial
  | succ fuel ih =>
    intro s
    refine getCur_sim.bind (fun c => (cloneGlobalRef_sim c).bind (fun g => (newSlice_sim []).bind (fun d =>
      (membersLoop_sim (genMember_sim hr ih s) _ _).bind (fun vs => getCur_sim.bind (fun c =>
        (clearLocalAt_sim c).bind (fun _ => SimM.bind ?_ (fun _ => SimM.pure _)))))))
    generalize hvs : vs = ws
    clear hvs
    induction ws with
    | nil => exact SimM.pure _
    | cons w ws ihw => exact (clearLocalAt_sim _).bind (fun _ => ihw)

omit hS in
theorem suites_sim (fuel : Nat) (ss : List Struct) :
    SimM (E := E) (o := o) (suites r fuel ss) (suites r' fuel ss) := by
  induction ss with
  | nil => exact SimM.pure _
  | cons s ss ih =>
    simp only [suites]
    split
    · exact ih
    · exact (newMap_sim ⟨Cst.wf_empty, Cst.wf_empty, fun _ _ => rfl⟩).bind (fun _ => (setCur_sim _).bind (fun _ =>
        (structure_sim hr fuel s).bind (fun _ => ih.bind (fun _ => SimM.pure _))))

end
end Verif.Tv
