import Verif.TvUses
import Verif.TvRuns
/-!
# Vectors without constraints

A struct that refers to no context, not even in nested structs, has vectors without any constraints, so that a test is
emitted for it.
-/
set_option linter.unusedVariables false
namespace Verif.Tv
open Verif Verif.Ast Verif.Inspect Verif.Intervals Verif.Go Verif.Spec Verif.Wire

/-! ## Properties of stores that the operations keep -/

/-- What is kept by the operations on stores, where variables are created in scopes `ok` only. -/
structure Kept (o : IterOrder) (I : Cst → Prop) (ok : String → Prop) : Prop where
  empty : I .empty
  clone : ∀ t c m, I c → c.clone o t = .ok m → I m
  global : ∀ t c m, I c → c.cloneGlobal o t = .ok m → I m
  merge : ∀ t t' c d m, I c → I d → c.merge o t t' d = .ok m → I m
  create : ∀ c ref v p, ok ref.scope → I c → c.lookupOrCreateRef ref v = .ok p → I p.1
  clear : ∀ c, I c → I c.clearLocal

theorem kept_true (o : IterOrder) : Kept o (fun _ => True) fun _ => True :=
  ⟨trivial, fun _ _ _ _ _ => trivial, fun _ _ _ _ _ => trivial, fun _ _ _ _ _ _ _ _ => trivial, fun _ _ _ _ _ _ _ => trivial,
    fun _ _ => trivial⟩

/-- No scope but the local one. -/
def OnlyLocal (c : Cst) : Prop := ∀ e ∈ c.scopes.entries, e.1 = ""

theorem OnlyLocal.setScope {c : Cst} (h : OnlyLocal c) (v : GoMap Int) : OnlyLocal ⟨c.scopes.set "" v⟩ := by
  intro e he
  rcases mem_setList _ _ _ _ he with rfl | he
  · rfl
  · exact h e he

theorem OnlyLocal.set {c : Cst} (h : OnlyLocal c) (k : String) (v : Int) : OnlyLocal (c.set "" k v).1 := by
  unfold Cst.set
  have h1 : OnlyLocal (match c.scopes.get "" with | none => (⟨c.scopes.set "" .empty⟩ : Cst) | some _ => c) := by
    cases c.scopes.get "" with
    | none => exact h.setScope _
    | some _ => exact h
  simp only []
  split
  · split
    · exact h1
    · exact h1.setScope _
  · exact h1.setScope _

theorem OnlyLocal.updateScope : ∀ {es : List (String × Int)} {c : Cst}, OnlyLocal c → OnlyLocal (Cst.updateScope "" c es).1
  | [], c, h => h
  | (k, v) :: es, c, h => by
    simp only [Cst.updateScope]
    have h1 := h.set k v
    split
    · rename_i c' e; rw [e] at h1; exact h1
    · rename_i c' e; rw [e] at h1; exact h1.updateScope

theorem OnlyLocal.updateScopes {o : IterOrder} : ∀ {es : List (String × GoMap Int)} {t : Nat} {c : Cst}, OnlyLocal c →
    (∀ e ∈ es, e.1 = "") → OnlyLocal (Cst.updateScopes o t c es).1
  | [], t, c, h, _ => h
  | (s, vs) :: es, t, c, h, he => by
    cases he (s, vs) List.mem_cons_self
    simp only [Cst.updateScopes]
    have h1 := h.updateScope (es := o.ord t vs.entries)
    split
    · rename_i c' e; rw [e] at h1; exact h1
    · rename_i c' e; rw [e] at h1; exact h1.updateScopes fun x hx => he x (List.mem_cons_of_mem _ hx)

theorem OnlyLocal.update {o : IterOrder} {t : Nat} {c d : Cst} (h : OnlyLocal c) (hd : OnlyLocal d) :
    OnlyLocal (c.update o t d).1 :=
  h.updateScopes fun e he => hd e ((o.perm _ _).subset he)

theorem OnlyLocal.empty : OnlyLocal .empty := fun e he => by cases he

theorem OnlyLocal.clone {o : IterOrder} {t : Nat} {c m : Cst} (h : OnlyLocal c) (hm : c.clone o t = .ok m) : OnlyLocal m := by
  unfold Cst.clone at hm
  have := OnlyLocal.empty.update (o := o) (t := t) h
  split at hm
  · rename_i e; cases hm; rw [e] at this; exact this
  · cases hm

theorem OnlyLocal.clear {c : Cst} (h : OnlyLocal c) : c.clearLocal.scopes.entries = [] := by
  simp only [Cst.clearLocal, Cst.clearScope]
  rw [List.filter_eq_nil_iff]
  intro e he
  simp [h e he]

theorem OnlyLocal.of_nil {c : Cst} (h : c.scopes.entries = []) : OnlyLocal c := fun e he => by rw [h] at he; cases he

theorem kept_local (o : IterOrder) : Kept o OnlyLocal fun s => s = "" := by
  refine ⟨.empty, fun t c m h hm => h.clone hm, fun t c m h hm => ?_, fun t t' c d m h hd hm => ?_, fun c ref v p hr h hp => ?_,
    fun c h => .of_nil h.clear⟩
  · unfold Cst.cloneGlobal at hm
    obtain ⟨g, h1, h2⟩ := Res.bind_eq_ok.1 hm
    cases h2
    exact .of_nil (h.clone h1).clear
  · unfold Cst.merge at hm
    obtain ⟨g, h1, h2⟩ := Res.bind_eq_ok.1 hm
    have := (h.clone h1).update (o := o) (t := t') hd
    split at h2
    · rename_i e; cases h2; rw [e] at this; exact this
    · cases h2
  · unfold Cst.lookupOrCreateRef Cst.lookupOrCreate at hp
    rw [hr] at hp
    have := h.set ref.name v
    split at hp
    · cases hp; exact h
    · split at hp
      · rename_i e; cases hp; rw [e] at this; exact this
      · cases hp

/-! ## Actions -/

variable {E : Env} {α β : Type} {r : Resolver} {M : Nat} {I : Cst → Prop} {ok : String → Prop}

/-- The stores from `M` on have the property, and the current one is among them. -/
structure IOK (M : Nat) (I : Cst → Prop) (st : St E) : Prop where
  cur : M ≤ st.cur
  len : M ≤ st.maps.length
  maps : ∀ a, M ≤ a → I (st.map a)

/-- An action that keeps that, and changes no other stores. -/
def LAct (M : Nat) (I : Cst → Prop) (Q : α → Prop) (x : TM E α) : Prop :=
  ∀ st a st', IOK M I st → x st = .ok (a, st') → IOK M I st' ∧ Q a ∧ ∀ i, i < M → st'.map i = st.map i

/-- Vectors with stores from `M` on. -/
abbrev From (M : Nat) (vs : List Vec) : Prop := ∀ v ∈ vs, M ≤ v.cst

namespace LAct

theorem bind {Q : α → Prop} {R : β → Prop} {x : TM E α} {f : α → TM E β} (h : LAct M I Q x) (hf : ∀ a, Q a → LAct M I R (f a)) :
    LAct M I R (x >>= f) := by
  intro st b st' hs hb
  obtain ⟨a, st1, h1, h2⟩ := bind_ok hb
  obtain ⟨p1, p2, p3⟩ := h st a st1 hs h1
  obtain ⟨q1, q2, q3⟩ := hf a p2 st1 b st' p1 h2
  exact ⟨q1, q2, fun i hi => (q3 i hi).trans (p3 i hi)⟩

theorem imp {Q R : α → Prop} {x : TM E α} (h : LAct M I Q x) (hq : ∀ a, Q a → R a) : LAct M I R x := fun st a st' hs hx =>
  let ⟨p1, p2, p3⟩ := h st a st' hs hx
  ⟨p1, hq a p2, p3⟩

theorem quiet {x : TM E α} (h : Quiet x) : LAct M I (fun _ => True) x := by
  intro st a st' hs hx
  obtain ⟨e1, e2⟩ := h st a st' hx
  have : ∀ i, st'.map i = st.map i := fun i => by simp only [St.map, e1]
  exact ⟨⟨by rw [e2]; exact hs.cur, by rw [e1]; exact hs.len, fun i hi => by rw [this]; exact hs.maps i hi⟩, trivial, fun i _ => this i⟩

theorem pure {Q : α → Prop} {a : α} (h : Q a) : LAct M I Q (Pure.pure a : TM E α) := by
  intro st b st' hs hb
  obtain ⟨rfl, rfl⟩ := pure_ok hb
  exact ⟨hs, h, fun _ _ => rfl⟩

theorem setCur {c : Nat} (h : M ≤ c) : LAct M I (fun _ => True) (Tv.setCur c : TM E Unit) := by
  intro st b st' hs hb
  cases hb
  exact ⟨⟨h, hs.len, hs.maps⟩, trivial, fun _ _ => rfl⟩

theorem getCur : LAct M I (M ≤ ·) (Tv.getCur : TM E Nat) := by
  intro st b st' hs hb
  obtain ⟨rfl, rfl⟩ := getCur_ok hb
  exact ⟨hs, hs.cur, fun _ _ => rfl⟩

theorem getMap {a : Nat} (h : M ≤ a) : LAct M I I (Tv.getMap a : TM E Cst) := by
  intro st b st' hs hb
  obtain ⟨rfl, rfl⟩ := getMap_ok hb
  exact ⟨hs, hs.maps a h, fun _ _ => rfl⟩

theorem ofRes {Q : α → Prop} {a : Res α} (h : ∀ x, a = .ok x → Q x) : LAct M I Q (TM.ofRes a : TM E α) := by
  intro st b st' hs hb
  obtain ⟨h1, rfl⟩ := ofRes_ok hb
  exact ⟨hs, h b h1, fun _ _ => rfl⟩

theorem ticks (n : Nat) : LAct M I (fun _ => True) (Tv.ticks n : TM E Nat) :=
  quiet fun st b st' h => by cases h; exact ⟨rfl, rfl⟩

theorem newMap {c : Cst} (h : I c) : LAct M I (M ≤ ·) (Tv.newMap c : TM E Nat) := by
  intro st b st' hs hb
  cases hb
  have hlt : ∀ i, i < st.maps.length → (St.map { st with maps := st.maps ++ [c] } i) = st.map i := fun i hi => by
    simp only [St.map, List.getD_eq_getElem?_getD]
    rw [List.getElem?_append_left hi]
  refine ⟨⟨hs.cur, by simp; exact Nat.le_succ_of_le hs.len, fun i hi => ?_⟩, hs.len, fun i hi => hlt i (Nat.lt_of_lt_of_le hi hs.len)⟩
  rcases Nat.lt_trichotomy i st.maps.length with hl | rfl | hl
  · rw [hlt i hl]; exact hs.maps i hi
  · simp only [St.map, List.getD_eq_getElem?_getD]
    simp; exact h
  · have := hs.maps i hi
    simp only [St.map, List.getD_eq_getElem?_getD] at this ⊢
    rw [List.getElem?_eq_none (by omega)] at this
    rw [List.getElem?_eq_none (by simp; omega)]
    exact this

theorem putMap {a : Nat} {c : Cst} (ha : M ≤ a) (h : I c) : LAct M I (fun _ => True) (Tv.putMap a c : TM E Unit) := by
  intro st b st' hs hb
  cases hb
  refine ⟨⟨hs.cur, by simp; exact hs.len, fun i hi => ?_⟩, trivial, fun i hi => ?_⟩
  · by_cases e : a = i
    · subst e
      have := hs.maps a hi
      simp only [St.map, List.getD_eq_getElem?_getD] at this ⊢
      by_cases hl : a < st.maps.length
      · rw [List.getElem?_set_self hl]; exact h
      · rw [List.getElem?_eq_none (by omega)] at this
        rw [List.getElem?_eq_none (by simp; omega)]; exact this
    · have := hs.maps i hi
      simp only [St.map, List.getD_eq_getElem?_getD] at this ⊢
      rw [List.getElem?_set_ne e]; exact this
  · simp only [St.map, List.getD_eq_getElem?_getD]
    rw [List.getElem?_set_ne (by omega)]

theorem cloneRef (K : Kept E.order I ok) {a : Nat} (h : M ≤ a) : LAct M I (M ≤ ·) (Tv.cloneRef a : TM E Nat) :=
  (getMap h).bind fun c hc => (ticks _).bind fun t _ => (ofRes fun m hm => K.clone t c m hc hm).bind fun m hm => newMap hm

theorem cloneGlobalRef (K : Kept E.order I ok) {a : Nat} (h : M ≤ a) : LAct M I (M ≤ ·) (Tv.cloneGlobalRef a : TM E Nat) :=
  (getMap h).bind fun c hc => (ticks _).bind fun t _ => (ofRes fun m hm => K.global t c m hc hm).bind fun m hm => newMap hm

theorem mergeRef (K : Kept E.order I ok) {a b : Nat} (h : M ≤ a) (h' : M ≤ b) : LAct M I (M ≤ ·) (Tv.mergeRef a b : TM E Nat) :=
  (getMap h).bind fun c hc => (getMap h').bind fun d hd => (ticks _).bind fun t _ => (ticks _).bind fun t' _ =>
    (ofRes fun m hm => K.merge t t' c d m hc hd hm).bind fun m hm => newMap hm

theorem lookupOrCreateAt (K : Kept E.order I ok) {a : Nat} {ref : IDRef} {v : Int} (h : M ≤ a) (hr : ok ref.scope) :
    LAct M I (fun _ => True) (Tv.lookupOrCreateAt a ref v : TM E Int) :=
  (getMap h).bind fun c hc => (ofRes (Q := fun p => I p.1) fun p hp => K.create c ref v p hr hc hp).bind fun p hp =>
    (putMap h hp).bind fun _ _ => pure trivial

theorem clearLocalAt (K : Kept E.order I ok) {a : Nat} (h : M ≤ a) : LAct M I (fun _ => True) (Tv.clearLocalAt a : TM E Unit) :=
  (getMap h).bind fun c hc => putMap h (K.clear c hc)

theorem vector (b : Bytes) : LAct M I (fun v => M ≤ v.cst) (Tv.vector b : TM E Vec) :=
  (quiet fun st b st' h => by cases h; exact ⟨rfl, rfl⟩).bind fun s _ => getCur.bind fun c hc => pure hc

theorem vectors (b : Bytes) : LAct M I (From M) (do let v ← Tv.vector b; Pure.pure [v] : TM E (List Vec)) :=
  (vector b).bind fun v hv => pure fun x hx => by cases List.mem_singleton.1 hx; exact hv

theorem select (hsel : Selects E) {vs : List Vec} (h : From M vs) : LAct M I (From M) (Tv.select vs : TM E (List Vec)) := by
  intro st ws st' hs hx
  obtain ⟨hsp, _⟩ := select_ok hsel hx
  cases hx
  exact ⟨⟨hs.cur, hs.len, hs.maps⟩, fun v hv => h v (hsp.subset hv), fun _ _ => rfl⟩

theorem crossOne (K : Kept E.order I ok) {u : Vec} (hu : M ≤ u.cst) : ∀ {b : List Vec}, From M b →
    LAct M I (From M) (Tv.crossOne u b : TM E (List Vec))
  | [], _ => pure (fun _ h => nomatch h)
  | w :: b, h => (mergeRef K hu (h w List.mem_cons_self)).bind fun m hm => (quiet (.getSlice _)).bind fun _ _ =>
      (quiet (.appendSlice _ _)).bind fun _ _ => (crossOne K hu fun v hv => h v (List.mem_cons_of_mem _ hv)).bind fun rest hr =>
        pure fun x hx => (List.mem_cons.1 hx).elim (fun e => e ▸ hm) (hr x)

theorem cross (K : Kept E.order I ok) : ∀ {a b : List Vec}, From M a → From M b → LAct M I (From M) (Tv.cross a b : TM E (List Vec))
  | [], _, _, _ => pure (fun _ h => nomatch h)
  | u :: a, b, h, hb => (crossOne K (h u List.mem_cons_self) hb).bind fun p hp =>
      (cross K (fun v hv => h v (List.mem_cons_of_mem _ hv)) hb).bind fun rest hr =>
        pure fun x hx => (List.mem_append.1 hx).elim (hp x) (hr x)

theorem appendAll (d : Slice) : ∀ {vs : List Vec}, From M vs → LAct M I (From M) (Tv.appendAll d vs : TM E (List Vec))
  | [], _ => pure (fun _ h => nomatch h)
  | v :: vs, h => (quiet (.getSlice _)).bind fun _ _ => (quiet (.appendSlice _ _)).bind fun _ _ =>
      (appendAll d fun v hv => h v (List.mem_cons_of_mem _ hv)).bind fun rest hr =>
        pure fun x hx => (List.mem_cons.1 hx).elim (fun e => e ▸ h v List.mem_cons_self) (hr x)

theorem extendAll {act : TM E (List Vec)} (ha : LAct M I (From M) act) : ∀ {vs : List Vec}, From M vs →
    LAct M I (From M) (Tv.extendAll act vs : TM E (List Vec))
  | [], _ => pure (fun _ h => nomatch h)
  | v :: vs, h => (setCur (h v List.mem_cons_self)).bind fun _ _ => ha.bind fun mvs hm => (appendAll _ hm).bind fun ext he =>
      (extendAll ha fun v hv => h v (List.mem_cons_of_mem _ hv)).bind fun rest hr =>
        pure fun x hx => (List.mem_append.1 hx).elim (he x) (hr x)

theorem membersLoop (hsel : Selects E) {f : α → TM E (List Vec)} : ∀ {ms : List α} {vs : List Vec},
    (∀ m ∈ ms, LAct M I (From M) (f m)) → From M vs → LAct M I (From M) (Tv.membersLoop f ms vs : TM E (List Vec))
  | [], vs, _, h => pure h
  | m :: ms, vs, hf, h => (extendAll (hf m List.mem_cons_self) h).bind fun ext he => (select hsel he).bind fun vs' h' =>
      membersLoop hsel (fun m hm => hf m (List.mem_cons_of_mem _ hm)) h'

theorem genInt (name : String) (t : IntType) : LAct M I (From M) (Tv.genInt r name t : TM E (List Vec)) := by
  refine getCur.bind fun c hc => (getMap hc).bind fun m _ => ?_
  cases m.lookup "" name with
  | some x => exact (quiet (.pure _)).bind fun _ _ => vectors _
  | none =>
    simp only []
    cases t.constraint with
    | some l => exact (quiet (.ofRes _)).bind fun _ _ => (quiet (.randomIn _)).bind fun _ _ => (quiet (.pure _)).bind fun _ _ => vectors _
    | none => exact (quiet (.randread _)).bind fun _ _ => vectors _

theorem genStructRef {F : String → Prop} {S : Struct → TM E (List Vec)}
    (hS : ∀ n s, F n → r.struct n = some s → s.extern = false → LAct M I (From M) (S s)) {n : String} (hn : F n) :
    LAct M I (From M) (Tv.genStructRef r S n) := by
  refine (ofRes (Q := fun s => r.struct n = some s ∧ s.extern = false) fun s hs => ?_).bind fun s hs => hS n s hn hs.1 hs.2
  unfold Resolver.structNonExtern at hs
  cases hn : r.struct n with
  | none => rw [hn] at hs; cases hs
  | some s' =>
    rw [hn] at hs
    simp only [] at hs
    cases he : s'.extern with
    | true => rw [he] at hs; cases hs
    | false =>
      rw [he] at hs
      simp only [Bool.false_eq_true, if_false] at hs
      cases hs
      exact ⟨rfl, he⟩

theorem arrayLoop (hsel : Selects E) (K : Kept E.order I ok) {elem : TM E (List Vec)} (he : LAct M I (From M) elem) :
    ∀ {n : Nat} {vs : List Vec}, From M vs → LAct M I (From M) (Tv.arrayLoop elem n vs)
  | 0, vs, h => pure h
  | n + 1, vs, h => he.bind fun w hw => (cross K hw h).bind fun v hv => (select hsel hv).bind fun v hv => arrayLoop hsel K he hv

end LAct

/-- Variables are in scopes `ok`, and nested structs in `F`. -/
def OkLeaf (ok : String → Prop) (F : String → Prop) : Leaf → Prop
  | .field f => (∀ n, .struct n ∈ tyBases f.type → F n) ∧ ∀ b r, f.type = .varArray b (some (.idRef r)) → ok r.scope
  | _ => True

/-- Variables are in scopes `ok`, and nested structs in `F`. -/
def OkM (ok : String → Prop) (F : String → Prop) : Member → Prop
  | .leaf l => OkLeaf ok F l
  | .union u => ok u.tag.scope ∧ (∀ r, u.length = some (.idRef r) → ok r.scope) ∧ ∀ c ∈ u.cases, ∀ l ∈ c.members, OkLeaf ok F l

section
variable {F : String → Prop} {S : Struct → TM E (List Vec)}

theorem genBase_lact (hS : ∀ n s, F n → r.struct n = some s → s.extern = false → LAct M I (From M) (S s)) (name : String) :
    ∀ b : Base, (∀ n, b = .struct n → F n) → LAct M I (From M) (genBase r S name b)
  | .int t, _ => LAct.genInt name t
  | .char, _ => LAct.genInt (r := r) name U8
  | .struct n, h => LAct.genStructRef hS (h n rfl)

theorem genArray_lact (hsel : Selects E) (K : Kept E.order I ok)
    (hS : ∀ n s, F n → r.struct n = some s → s.extern = false → LAct M I (From M) (S s)) {b : Base} {c : Count}
    (hb : ∀ n, b = .struct n → F n) (hc : ∀ ref, c = .con (some (.idRef ref)) → ok ref.scope) :
    LAct M I (From M) (genArray r S b c) := by
  refine (LAct.vector []).bind fun iv hiv => LAct.bind (Q := fun _ => True) ?_ fun n _ =>
    LAct.arrayLoop hsel K (genBase_lact hS "" b hb) (by intro v hv; cases List.mem_singleton.1 hv; exact hiv)
  cases c with
  | size i => exact .quiet (.ofRes _)
  | con c =>
    cases c with
    | none => exact .quiet ((Quiet.randbtw _ _).bind fun _ => .pure _)
    | some c =>
      cases c with
      | leftover k => intro st a st' _ h; cases h
      | idRef ref => exact (LAct.quiet (.randbtw _ _)).bind fun k _ => LAct.lookupOrCreateAt K hiv (hc ref rfl)

theorem genLeaf_lact (hsel : Selects E) (K : Kept E.order I ok)
    (hS : ∀ n s, F n → r.struct n = some s → s.extern = false → LAct M I (From M) (S s)) {l : Leaf} (h : OkLeaf ok F l) :
    LAct M I (From M) (genLeaf r S l) := by
  cases l with
  | field f =>
    obtain ⟨k, t⟩ := f
    obtain ⟨h1, h2⟩ := h
    cases t with
    | base b => exact genBase_lact hS k b fun n e => h1 n (by simp [tyBases, e])
    | ptr => exact .vectors []
    | nulterm => exact (LAct.quiet ((Quiet.randbtw _ _).bind fun _ => (Quiet.randletters _).bind fun _ => .pure _)).bind fun _ _ => .vectors _
    | fixedArray b i => exact genArray_lact hsel K hS (fun n e => h1 n (by simp [tyBases, e])) (by intro ref e; cases e)
    | varArray b c => exact genArray_lact hsel K hS (fun n e => h1 n (by simp [tyBases, e])) (by intro ref e; cases e; exact h2 b ref rfl)
  | ignore =>
    refine (LAct.vector []).bind fun v hv => (LAct.quiet (.randbtw _ _)).bind fun k _ => (LAct.quiet (.randread _)).bind fun b _ =>
      (LAct.vector b).bind fun w hw => LAct.pure ?_
    intro x hx
    rcases List.mem_cons.1 hx with rfl | hx
    · exact hv
    · cases List.mem_singleton.1 hx; exact hw
  | fail => exact .pure (fun _ h => nomatch h)
  | eos => exact .vectors []

theorem branchesLoop_lact (hsel : Selects E) (K : Kept E.order I ok)
    (hS : ∀ n s, F n → r.struct n = some s → s.extern = false → LAct M I (From M) (S s)) {tag : IDRef} (ht : ok tag.scope)
    {base : Nat} (hb : M ≤ base) : ∀ {bs : List Branch}, (∀ b ∈ bs, ∀ l ∈ b.case.members, OkLeaf ok F l) →
    LAct M I (From M) (branchesLoop r S tag base bs)
  | [], _ => .pure (fun _ h => nomatch h)
  | b :: bs, h => (LAct.cloneRef K hb).bind fun c hc => (LAct.setCur hc).bind fun _ _ => (LAct.quiet (.randomIn _)).bind fun _ _ =>
      (LAct.lookupOrCreateAt K hc ht).bind fun _ _ => (LAct.vector []).bind fun v hv =>
      (LAct.membersLoop hsel (fun l hl => genLeaf_lact hsel K hS (h b List.mem_cons_self l (List.mem_reverse.1 hl)))
        (by intro x hx; cases List.mem_singleton.1 hx; exact hv)).bind fun vs hvs =>
      (branchesLoop_lact hsel K hS ht hb fun b hb' => h b (List.mem_cons_of_mem _ hb')).bind fun rest hr =>
        .pure fun x hx => (List.mem_append.1 hx).elim (hvs x) (hr x)

theorem lenLoop_lact (K : Kept E.order I ok) {ref : IDRef} (ht : ok ref.scope) : ∀ {vs : List Vec}, From M vs →
    LAct M I (From M) (lenLoop (E := E) ref vs)
  | [], _ => .pure (fun _ h => nomatch h)
  | v :: vs, h => (LAct.cloneRef K (h v List.mem_cons_self)).bind fun c hc => (LAct.lookupOrCreateAt K hc ht).bind fun m _ =>
      (lenLoop_lact K ht fun v hv => h v (List.mem_cons_of_mem _ hv)).bind fun rest hr => .pure (by
        intro x hx
        split at hx
        · exact hr x hx
        · exact (List.mem_cons.1 hx).elim (fun e => e ▸ hc) (hr x))

theorem genMember_lact (hsel : Selects E) (K : Kept E.order I ok)
    (hS : ∀ n s, F n → r.struct n = some s → s.extern = false → LAct M I (From M) (S s)) {s : Struct} {m : Member} (h : OkM ok F m) :
    LAct M I (From M) (genMember r S s m) := by
  cases m with
  | leaf l => exact genLeaf_lact hsel K hS h
  | union u =>
    obtain ⟨h1, h2, h3⟩ := h
    simp only [genMember]
    unfold genUnion
    refine (LAct.ofRes (Q := fun bs => ∀ b ∈ bs, b.case ∈ u.cases) fun bs hbs => newBranches_cases hbs).bind fun bs hbs =>
      LAct.getCur.bind fun c hc => (LAct.getMap hc).bind fun m _ => ?_
    cases ho : branchOptions bs (m.lookupRef u.tag) with
    | none => exact .pure (fun _ h => nomatch h)
    | some opts =>
      refine (LAct.cloneRef K hc).bind fun base hb => (branchesLoop_lact hsel K hS h1 hb fun b hb l hl =>
        h3 _ (hbs b (branchOptions_sub ho b hb)) l hl).bind fun res hres => ?_
      cases hl : u.length with
      | none => exact .pure hres
      | some lc =>
        cases lc with
        | leftover k => intro st a st' _ h; cases h
        | idRef ref => exact lenLoop_lact K (h2 ref hl) hres

theorem clearAll_lact (K : Kept E.order I ok) : ∀ {vs : List Vec}, From M vs → LAct M I (fun _ => True) (clearAll vs : TM E Unit)
  | [], _ => .pure trivial
  | v :: vs, h => (LAct.clearLocalAt K (h v List.mem_cons_self)).bind fun _ _ =>
      clearAll_lact K fun v hv => h v (List.mem_cons_of_mem _ hv)

theorem structure_lact (hsel : Selects E) (K : Kept E.order I ok)
    (hF : ∀ n s, F n → r.struct n = some s → s.extern = false → ∀ m ∈ s.ms, OkM ok F m) : ∀ fuel n s, F n → r.struct n = some s →
    s.extern = false → LAct M I (From M) (structure_ (E := E) r fuel s)
  | 0, n, s, _, _, _ => by intro st a st' _ h; cases h
  | fuel + 1, n, s, hn, hs, he => by
    simp only [structure_]
    exact LAct.getCur.bind fun c hc => (LAct.cloneGlobalRef K hc).bind fun g hg =>
      (LAct.quiet fun st b st' h => by cases h; exact ⟨rfl, rfl⟩).bind fun d _ =>
      (LAct.membersLoop hsel (fun m hm => genMember_lact hsel K (structure_lact hsel K hF fuel) (hF n s hn hs he m (List.mem_reverse.1 hm)))
        (by intro x hx; cases List.mem_singleton.1 hx; exact hg)).bind fun vs hvs =>
      LAct.getCur.bind fun c hc => (LAct.clearLocalAt K hc).bind fun _ _ => (clearAll_lact K hvs).bind fun _ _ => .pure hvs

end

/-- Afterwards, the stores of all vectors have been cleared. -/
theorem clearAll_nil : ∀ {vs : List Vec} {st st' : St E} {u : Unit}, (∀ v ∈ vs, OnlyLocal (st.map v.cst)) →
    clearAll vs st = .ok (u, st') → (∀ v ∈ vs, (st'.map v.cst).scopes.entries = []) ∧
      ∀ a, (st.map a).scopes.entries = [] → (st'.map a).scopes.entries = []
  | [], st, st', u, _, h => by obtain ⟨_, rfl⟩ := pure_ok h; exact ⟨by simp, fun _ h => h⟩
  | v :: vs, st, st', u, hv, h => by
    simp only [clearAll] at h
    obtain ⟨u', st1, h1, h2⟩ := bind_ok h
    unfold clearLocalAt at h1
    obtain ⟨c, st0, h3, h4⟩ := bind_ok h1
    obtain ⟨rfl, rfl⟩ := getMap_ok h3
    cases h4
    have hm : ∀ a, (St.map { st0 with maps := st0.maps.set v.cst (st0.map v.cst).clearLocal } a) =
        if a = v.cst ∧ v.cst < st0.maps.length then (st0.map v.cst).clearLocal else st0.map a := by
      intro a
      simp only [St.map, List.getD_eq_getElem?_getD]
      by_cases e : a = v.cst
      · subst e
        by_cases hl : v.cst < st0.maps.length
        · rw [List.getElem?_set_self hl, if_pos ⟨rfl, hl⟩]; rfl
        · rw [List.set_eq_of_length_le (by omega), if_neg (by tauto)]
      · rw [List.getElem?_set_ne (fun h => e h.symm), if_neg (by tauto)]
    have hloc : ∀ x ∈ v :: vs, OnlyLocal (St.map { st0 with maps := st0.maps.set v.cst (st0.map v.cst).clearLocal } x.cst) := by
      intro x hx
      rw [hm]
      split
      · exact .of_nil (hv v List.mem_cons_self).clear
      · exact hv x hx
    obtain ⟨q1, q2⟩ := clearAll_nil (fun x hx => hloc x (List.mem_cons_of_mem _ hx)) h2
    have hkeep : ∀ a, (st0.map a).scopes.entries = [] →
        (St.map { st0 with maps := st0.maps.set v.cst (st0.map v.cst).clearLocal } a).scopes.entries = [] := by
      intro a ha
      rw [hm]
      split
      · exact (hv v List.mem_cons_self).clear
      · exact ha
    refine ⟨fun x hx => ?_, fun a ha => q2 a (hkeep a ha)⟩
    rcases List.mem_cons.1 hx with rfl | hx
    · apply q2
      rw [hm]
      split
      · exact (hv x List.mem_cons_self).clear
      · rename_i hne
        have : ¬ x.cst < st0.maps.length := fun h => hne ⟨rfl, h⟩
        simp only [St.map, List.getD_eq_getElem?_getD]
        rw [List.getElem?_eq_none (by omega)]
        rfl
    · exact q1 x hx

theorem structure_free (hsel : Selects E) {F : String → Prop}
    (hF : ∀ n s, F n → r.struct n = some s → s.extern = false → ∀ m ∈ s.ms, OkM (fun s => s = "") F m) {fuel : Nat} {n : String} {s : Struct}
    (hn : F n) (hs : r.struct n = some s) (he : s.extern = false) {st st' : St E} {vs : List Vec} (hst : IOK M OnlyLocal st)
    (h : structure_ (E := E) r fuel s st = .ok (vs, st')) : ∀ v ∈ vs, (st'.map v.cst).scopes.entries = [] := by
  cases fuel with
  | zero => cases h
  | succ fuel =>
    have K := kept_local E.order
    simp only [structure_] at h
    obtain ⟨c, st1, h1, h⟩ := bind_ok h
    obtain ⟨p1, hc, _⟩ := LAct.getCur _ _ _ hst h1
    obtain ⟨g, st2, h2, h⟩ := bind_ok h
    obtain ⟨p2, hg, _⟩ := LAct.cloneGlobalRef K hc _ _ _ p1 h2
    obtain ⟨d, st3, h3, h⟩ := bind_ok h
    obtain ⟨p3, _, _⟩ := LAct.quiet (fun st b st' h => by cases h; exact ⟨rfl, rfl⟩) _ _ _ p2 h3
    obtain ⟨ws, st4, h4, h⟩ := bind_ok h
    obtain ⟨p4, hws, _⟩ := LAct.membersLoop hsel (fun m hm => genMember_lact hsel K (structure_lact hsel K hF fuel)
      (hF n s hn hs he m (List.mem_reverse.1 hm))) (by intro x hx; cases List.mem_singleton.1 hx; exact hg) _ _ _ p3 h4
    obtain ⟨c', st5, h5, h⟩ := bind_ok h
    obtain ⟨p5, hc', _⟩ := LAct.getCur _ _ _ p4 h5
    obtain ⟨u, st6, h6, h⟩ := bind_ok h
    obtain ⟨p6, _, _⟩ := LAct.clearLocalAt K hc' _ _ _ p5 h6
    obtain ⟨u', st7, h7, h⟩ := bind_ok h
    obtain ⟨rfl, rfl⟩ := pure_ok h
    exact (clearAll_nil (fun v hv => p6.maps _ (hws v hv)) h7).1

theorem suites_free (hsel : Selects E) {Γ : Fmt} (hst : r.struct = Γ.structs) {F : String → Prop}
    (hF : ∀ n s, F n → r.struct n = some s → s.extern = false → ∀ m ∈ s.ms, OkM (fun s => s = "") F m) {fuel : Nat} :
    ∀ {ss : List Struct} {out : List SuiteRef} {st st' : St E},
    (∀ s ∈ ss, s.extern = false → r.struct s.name = some s) → st.WF → suites r fuel ss st = .ok (out, st') →
    (∀ i, i < st.maps.length → st'.map i = st.map i) ∧
      ∀ o ∈ out, F o.type → ∀ v ∈ o.vectors, (st'.map v.cst).scopes.entries = [] := by
  intro ss
  induction ss with
  | nil =>
    intro out st st' _ _ h
    obtain ⟨rfl, rfl⟩ := pure_ok h
    exact ⟨fun _ _ => rfl, by simp⟩
  | cons s ss ih =>
    intro out st st' hss hwf h
    simp only [suites] at h
    have hss' := fun s hs => hss s (List.mem_cons_of_mem _ hs)
    cases he : s.extern with
    | true =>
      rw [he] at h
      simp only [if_true] at h
      exact ih hss' hwf h
    | false =>
      rw [he] at h
      simp only [Bool.false_eq_true, if_false] at h
      obtain ⟨c, st1, h1, ha⟩ := bind_ok h
      clear h
      obtain ⟨u, st2, h2, hb⟩ := bind_ok ha
      clear ha
      obtain ⟨vs, st3, h3, hc⟩ := bind_ok hb
      clear hb
      obtain ⟨rest, st4, h4, hd⟩ := bind_ok hc
      clear hc
      obtain ⟨rfl, rfl⟩ := pure_ok hd
      cases h2
      have hn := newAt_of hwf Cst.wf_empty rfl rfl rfl h1
      have A := structure_uses (U := fun _ => False) hsel (Γ := Γ) (fun _ _ h => h.elim) hst fuel s.name s
        (by rw [← hst]; exact hss s List.mem_cons_self he) he _ _ _ (Runs.fresh hn) h3
      cases h1
      have hs := hss s List.mem_cons_self he
      have hlt : ∀ i, i < st.maps.length → (St.map { st with maps := st.maps ++ [.empty], cur := st.maps.length } i : Cst) = st.map i :=
        fun i hi => by
          simp only [St.map, List.getD_eq_getElem?_getD]
          rw [List.getElem?_append_left hi]
      have hge : ∀ i, st.maps.length ≤ i → (St.map { st with maps := st.maps ++ [.empty], cur := st.maps.length } i : Cst) = .empty := by
        intro i hi
        simp only [St.map, List.getD_eq_getElem?_getD]
        rcases Nat.eq_or_lt_of_le hi with rfl | hi
        · simp
        · rw [List.getElem?_eq_none (by simp; omega)]; rfl
      have hI : ∀ I : Cst → Prop, I .empty → IOK st.maps.length I ({ st with maps := st.maps ++ [.empty], cur := st.maps.length } : St E) :=
        fun I h0 => ⟨Nat.le_refl _, by simp, fun a ha => by rw [hge a ha]; exact h0⟩
      obtain ⟨q1, q2, q3⟩ := structure_lact (F := fun _ => True) hsel (kept_true E.order) (fun n s _ _ _ m _ => by
        cases m with
        | leaf l => cases l <;> first | exact ⟨fun _ _ => trivial, fun _ _ _ => trivial⟩ | trivial
        | union u => exact ⟨trivial, fun _ _ => trivial, fun c _ l _ => by cases l <;> first | exact ⟨fun _ _ => trivial, fun _ _ _ => trivial⟩ | trivial⟩)
        fuel s.name s trivial hs he _ _ _ (hI _ trivial) h3
      obtain ⟨k1, k2⟩ := ih hss' A.runs.wf h4
      refine ⟨fun i hi => ?_, ?_⟩
      · rw [k1 i (Nat.lt_of_lt_of_le hi q1.len), q3 i hi, hlt i hi]
      · intro o ho hf v hv
        rcases List.mem_cons.1 ho with rfl | ho
        · have := structure_free hsel hF hf hs he (hI _ .empty) h3 v hv
          rw [k1 _ (A.vecs v hv).lt]; exact this
        · exact k2 o ho hf v hv

/-- All vectors of structs that use no context variables have no constraints. -/
theorem generateFiles_free (hsel : Selects E) {nm : String → String} {ext : Go.Ext} {fs : List File} {fuel : Nat}
    {seed : E.R.σ} {corpus : Corpus} (h : generateFiles E fuel seed fs = .ok corpus) {F : String → Prop}
    (hF : ∀ n s, F n → (fmtOf nm ext fs).structs n = some s → s.extern = false → ∀ m ∈ s.ms, OkM (fun s => s = "") F m) :
    ∀ t ∈ corpus, F t.type → ∀ v ∈ t.vectors, v.cst.scopes.entries = [] := by
  unfold generateFiles at h
  cases hr : newResolverFiles E.order fs with
  | err m => rw [hr] at h; cases h
  | panic m => rw [hr] at h; cases h
  | ok r =>
    rw [hr] at h
    simp only [] at h
    have hcomp : Props.FilesCompatible fs := by
      by_contra hc
      obtain ⟨m, hm⟩ := (Props.C11_multi_file E.order fs).2 hc
      rw [hm] at hr; cases hr
    obtain ⟨r', hr', h1, h2, h3⟩ := (Props.C11_multi_file E.order fs).1 hcomp
    rw [hr] at hr'
    cases hr'
    have hst : r.struct = (fmtOf nm ext fs).structs := by funext n; exact h1 n
    cases hs : suites (E := E) r fuel (fs.flatMap (·.structs)) (St.init seed) with
    | err m => rw [hs] at h; cases h
    | panic m => rw [hs] at h; cases h
    | timeout => rw [hs] at h; cases h
    | ok p =>
      obtain ⟨ss, st⟩ := p
      rw [hs] at h
      cases h
      intro t ht hu v hv
      obtain ⟨o, ho, rfl⟩ := List.mem_map.1 ht
      obtain ⟨x, hx, rfl⟩ := List.mem_map.1 hv
      exact (suites_free hsel hst (by rw [hst]; exact hF)
        (fun s hs he => by rw [hst]; exact Verif.Refine.defined_struct hcomp hs he) (by intro c hc; simp [St.init] at hc) hs).2 o ho hu x hx

end Verif.Tv
