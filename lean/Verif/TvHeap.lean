import Verif.TvClass
import Verif.ConstraintsLemmas
import Verif.Props.TvBasic
/-!
# The generator's memory: what its actions leave unchanged
-/
set_option linter.unusedVariables false
namespace Verif.Tv
open Verif Verif.Ast Verif.Inspect Verif.Intervals Verif.Go Verif.Spec Verif.Wire

variable {E : Env} {α β : Type}

/-! ## Inversion -/

theorem bind_ok {x : TM E α} {f : α → TM E β} {st st' : St E} {b : β}
    (h : (x >>= f) st = .ok (b, st')) : ∃ a st1, x st = .ok (a, st1) ∧ f a st1 = .ok (b, st') := by
  change TM.bind x f st = _ at h
  unfold TM.bind at h
  cases hx : x st with
  | ok p => obtain ⟨a, st1⟩ := p; rw [hx] at h; exact ⟨a, st1, rfl, h⟩
  | err e => rw [hx] at h; cases h
  | panic m => rw [hx] at h; cases h
  | timeout => rw [hx] at h; cases h

theorem pure_ok {a b : α} {st st' : St E} (h : (pure a : TM E α) st = .ok (b, st')) : b = a ∧ st' = st := by
  change Out.ok (a, st) = _ at h
  cases h
  exact ⟨rfl, rfl⟩

theorem ofRes_ok {r : Res α} {a : α} {st st' : St E} (h : (TM.ofRes r : TM E α) st = .ok (a, st')) :
    r = .ok a ∧ st' = st := by
  unfold TM.ofRes at h
  cases r with
  | ok b => cases h; exact ⟨rfl, rfl⟩
  | err m => cases h
  | panic m => cases h

/-! ## Environments -/

/-- What a store says. -/
abbrev CEnv := String → String → Option Int

/-- What the store at a reference says. -/
def St.env (st : St E) (r : Nat) : CEnv := (st.map r).lookup

/-- All stores are well-formed. -/
def St.WF (st : St E) : Prop := ∀ c ∈ st.maps, c.WF

theorem St.WF.map {st : St E} (h : st.WF) (r : Nat) : (st.map r).WF := by
  simp only [St.map, List.getD_eq_getElem?_getD]
  cases hr : st.maps[r]? with
  | none => exact Cst.wf_empty
  | some c => exact h c (List.mem_of_getElem? hr)

/-- A field of struct `s` can have value `y`. -/
def ValOK (K : String → Option Int) : Ty → Int → Prop
  | .base (.int t), y => 0 ≤ y ∧ y < 2 ^ t.size ∧ ∀ l, t.constraint = some l → listHas K l y = true
  | .base .char, y => 0 ≤ y ∧ y < 2 ^ 8
  | _, _ => False

/-- A local entry `k ↦ x` is right for struct `s`. -/
def KeyOK (K : String → Option Int) (s : Struct) (k : String) (x : Int) : Prop :=
  ∃ f ∈ fieldsOf s.ms, f.name = k ∧ ValOK K f.type (asField x)

/-- An entry is an `int64`, and right if local. -/
def EntryOK (K : String → Option Int) (s : Struct) (c k : String) (x : Int) : Prop :=
  -2 ^ 63 ≤ x ∧ x < 2 ^ 63 ∧ (c = "" → KeyOK K s k x)

/-- All entries are right. -/
def MapOK (K : String → Option Int) (s : Struct) (σ : CEnv) : Prop := ∀ c k x, σ c k = some x → EntryOK K s c k x

/-- Entries are kept, and new entries are right. -/
structure Grow (K : String → Option Int) (s : Struct) (σ σ' : CEnv) : Prop where
  sub : ∀ c k x, σ c k = some x → σ' c k = some x
  new : ∀ c k x, σ' c k = some x → σ c k = some x ∨ EntryOK K s c k x

variable {K : String → Option Int} {s : Struct}

theorem Grow.refl (σ : CEnv) : Grow K s σ σ := ⟨fun _ _ _ h => h, fun _ _ _ h => .inl h⟩

theorem Grow.trans {σ σ' σ'' : CEnv} (h : Grow K s σ σ') (h' : Grow K s σ' σ'') : Grow K s σ σ'' :=
  ⟨fun c k x hx => h'.sub c k x (h.sub c k x hx), fun c k x hx => (h'.new c k x hx).elim (h.new c k x) .inr⟩

theorem MapOK.grow {σ σ' : CEnv} (h : MapOK K s σ) (g : Grow K s σ σ') : MapOK K s σ' :=
  fun c k x hx => (g.new c k x hx).elim (h c k x) id

/-! ## Frames -/

/-- What holds between actions: stores are well-formed and the current one is new since `N`. -/
structure Inv (N : Nat) (st : St E) : Prop where
  wf : st.WF
  cur_ge : N ≤ st.cur
  cur_lt : st.cur < st.maps.length

/-- What an action of struct `s` keeps: byte arrays, stores before `N`, and entries of the others. -/
structure Frame (K : String → Option Int) (s : Struct) (N : Nat) (st st' : St E) : Prop where
  arrs_le : st.arrs.length ≤ st'.arrs.length
  arrs : ∀ a, a < st.arrs.length → st'.arrs[a]? = st.arrs[a]?
  maps_le : st.maps.length ≤ st'.maps.length
  low : ∀ r, r < N → r < st.maps.length → st'.maps[r]? = st.maps[r]?
  high : ∀ r, N ≤ r → r < st.maps.length → Grow K s (st.env r) (st'.env r)

theorem Frame.refl (N : Nat) (st : St E) : Frame K s N st st :=
  ⟨Nat.le_refl _, fun _ _ => rfl, Nat.le_refl _, fun _ _ _ => rfl, fun _ _ _ => .refl _⟩

theorem Frame.trans {N : Nat} {st st' st'' : St E} (h : Frame K s N st st') (h' : Frame K s N st' st'') :
    Frame K s N st st'' where
  arrs_le := Nat.le_trans h.arrs_le h'.arrs_le
  arrs a ha := (h'.arrs a (Nat.lt_of_lt_of_le ha h.arrs_le)).trans (h.arrs a ha)
  maps_le := Nat.le_trans h.maps_le h'.maps_le
  low r hr hl := (h'.low r hr (Nat.lt_of_lt_of_le hl h.maps_le)).trans (h.low r hr hl)
  high r hr hl := (h.high r hr hl).trans (h'.high r hr (Nat.lt_of_lt_of_le hl h.maps_le))

/-- A slice within memory. -/
def SLive (st : St E) (d : Slice) : Prop :=
  d.arr < st.arrs.length ∧ d.len ≤ (st.arrs.getD d.arr []).length

/-- A vector within memory. -/
structure Live (N : Nat) (st : St E) (v : Vec) : Prop where
  data : SLive st v.data
  ge : N ≤ v.cst
  lt : v.cst < st.maps.length

/-- Two memories have the same bytes in a slice. -/
theorem read_eq {st st' : St E} {d : Slice} (h : st'.arrs[d.arr]? = st.arrs[d.arr]?) : st'.read d = st.read d := by
  simp only [St.read, List.getD_eq_getElem?_getD, h]

theorem SLive.of_eq {st st' : St E} {d : Slice} (hd : SLive st d) (hl : st.arrs.length ≤ st'.arrs.length)
    (h : st'.arrs[d.arr]? = st.arrs[d.arr]?) : SLive st' d := by
  refine ⟨Nat.lt_of_lt_of_le hd.1 hl, ?_⟩
  have := hd.2
  simp only [List.getD_eq_getElem?_getD, h] at this ⊢
  exact this

theorem SLive.frame {N : Nat} {st st' : St E} {d : Slice} (hd : SLive st d) (h : Frame K s N st st') : SLive st' d :=
  hd.of_eq h.arrs_le (h.arrs _ hd.1)

theorem Frame.read {N : Nat} {st st' : St E} {d : Slice} (h : Frame K s N st st') (hd : SLive st d) :
    st'.read d = st.read d := read_eq (h.arrs _ hd.1)

theorem Live.frame {N : Nat} {st st' : St E} {v : Vec} (hv : Live N st v) (h : Frame K s N st st') : Live N st' v :=
  ⟨hv.data.frame h, hv.ge, Nat.lt_of_lt_of_le hv.lt h.maps_le⟩

theorem Frame.grow {N : Nat} {st st' : St E} {v : Vec} (h : Frame K s N st st') (hv : Live N st v) :
    Grow K s (st.env v.cst) (st'.env v.cst) := h.high _ hv.ge hv.lt

theorem SLive.length {st : St E} {d : Slice} (hd : SLive st d) : (st.read d).length = d.len := by
  simp only [St.read, List.length_take]
  exact Nat.min_eq_left hd.2

/-! ## Primitive actions -/

theorem env_eq {st st' : St E} {r : Nat} (h : st'.maps[r]? = st.maps[r]?) : st'.env r = st.env r := by
  simp only [St.env, St.map, List.getD_eq_getElem?_getD, h]

theorem wf_append {st : St E} (h : st.WF) {c : Cst} (hc : c.WF) : ∀ d ∈ st.maps ++ [c], d.WF := by
  intro d hd
  rcases List.mem_append.1 hd with hd | hd
  · exact h d hd
  · cases List.mem_singleton.1 hd; exact hc

theorem newMap_ok {c : Cst} {st st' : St E} {r : Nat} (hc : c.WF) (h : newMap c st = .ok (r, st')) (hw : st.WF) :
    r = st.maps.length ∧ st'.WF ∧ st'.cur = st.cur ∧ st'.arrs = st.arrs ∧ st'.maps = st.maps ++ [c] := by
  simp only [newMap, Out.ok.injEq, Prod.mk.injEq] at h
  obtain ⟨rfl, rfl⟩ := h
  exact ⟨rfl, wf_append hw hc, rfl, rfl, rfl⟩

/-- What a new store leaves. -/
structure NewAt (st st' : St E) (r : Nat) (σ : CEnv) : Prop where
  ref : r = st.maps.length
  wf : st'.WF
  cur : st'.cur = st.cur
  arrs : st'.arrs = st.arrs
  len : st'.maps.length = st.maps.length + 1
  old : ∀ k, k < st.maps.length → st'.maps[k]? = st.maps[k]?
  env : st'.env r = σ

theorem NewAt.frame {N : Nat} {st st' : St E} {r : Nat} {σ : CEnv} (h : NewAt st st' r σ) : Frame K s N st st' where
  arrs_le := Nat.le_of_eq (by rw [h.arrs])
  arrs a _ := by rw [h.arrs]
  maps_le := by rw [h.len]; omega
  low r _ hl := h.old r hl
  high r _ hl := by rw [env_eq (h.old r hl)]; exact .refl _

theorem newAt_of {st st1 st' : St E} {c : Cst} {r : Nat} (hw : st1.WF) (hc : c.WF) (hm : st1.maps = st.maps)
    (hu : st1.cur = st.cur) (ha : st1.arrs = st.arrs) (h : newMap c st1 = .ok (r, st')) :
    NewAt st st' r c.lookup := by
  obtain ⟨h1, h2, h3, h4, h5⟩ := newMap_ok hc h hw
  rw [hm] at h1 h5
  subst h1
  refine ⟨rfl, h2, h3.trans hu, h4.trans ha, by rw [h5]; simp, fun k hk => ?_, ?_⟩
  · rw [h5, List.getElem?_append_left hk]
  · funext s k
    simp [St.env, St.map, h5]

theorem getMap_ok {r : Nat} {c : Cst} {st st' : St E} (h : getMap r st = .ok (c, st')) : c = st.map r ∧ st' = st := by
  simp only [getMap, Out.ok.injEq, Prod.mk.injEq] at h
  exact ⟨h.1.symm, h.2.symm⟩

theorem getCur_ok {c : Nat} {st st' : St E} (h : getCur st = .ok (c, st')) : c = st.cur ∧ st' = st := by
  simp only [getCur, Out.ok.injEq, Prod.mk.injEq] at h
  exact ⟨h.1.symm, h.2.symm⟩

theorem cloneRef_ok {st st' : St E} {r t : Nat} (hw : st.WF) (h : cloneRef r st = .ok (t, st')) :
    NewAt st st' t (st.env r) := by
  unfold cloneRef at h
  obtain ⟨c, st1, h1, h⟩ := bind_ok h
  obtain ⟨rfl, rfl⟩ := getMap_ok h1
  obtain ⟨k, st2, h2, h⟩ := bind_ok h
  simp only [ticks, Out.ok.injEq, Prod.mk.injEq] at h2
  obtain ⟨rfl, rfl⟩ := h2
  obtain ⟨m, st3, h3, h⟩ := bind_ok h
  obtain ⟨h3, rfl⟩ := ofRes_ok h3
  obtain ⟨m', hm', hwm, hl⟩ := Cst.clone_spec E.order st1.iter (hw.map r)
  rw [hm'] at h3
  cases h3
  have e : st1.env r = m.lookup := by funext s k; exact (hl s k).symm
  rw [e]
  exact newAt_of (st := st1) (st1 := { st1 with iter := st1.iter + ((st1.map r).scopes.entries.length + 1) })
    hw hwm rfl rfl rfl h

/-- The global part. -/
def globals (σ : CEnv) : CEnv := fun c k => if c = "" then none else σ c k

theorem cloneGlobalRef_ok {st st' : St E} {r t : Nat} (hw : st.WF) (h : cloneGlobalRef r st = .ok (t, st')) :
    NewAt st st' t (globals (st.env r)) := by
  unfold cloneGlobalRef at h
  obtain ⟨c, st1, h1, h⟩ := bind_ok h
  obtain ⟨rfl, rfl⟩ := getMap_ok h1
  obtain ⟨k, st2, h2, h⟩ := bind_ok h
  simp only [ticks, Out.ok.injEq, Prod.mk.injEq] at h2
  obtain ⟨rfl, rfl⟩ := h2
  obtain ⟨m, st3, h3, h⟩ := bind_ok h
  obtain ⟨h3, rfl⟩ := ofRes_ok h3
  obtain ⟨m', hm', hwm, hl⟩ := Cst.cloneGlobal_spec E.order st1.iter (hw.map r)
  rw [hm'] at h3
  cases h3
  have e : globals (st1.env r) = m.lookup := by funext s k; exact (hl s k).symm
  rw [e]
  exact newAt_of (st := st1) (st1 := { st1 with iter := st1.iter + ((st1.map r).scopes.entries.length + 1) })
    hw hwm rfl rfl rfl h

/-- What both say; the second first. -/
def over (σ τ : CEnv) : CEnv := fun c k => (τ c k).or (σ c k)

/-- No disagreement. -/
def Compat (σ τ : CEnv) : Prop := ∀ c k x y, σ c k = some x → τ c k = some y → x = y

theorem mergeRef_ok {st st' : St E} {a b t : Nat} (hw : st.WF) (h : mergeRef a b st = .ok (t, st')) :
    Compat (st.env a) (st.env b) ∧ NewAt st st' t (over (st.env a) (st.env b)) := by
  unfold mergeRef at h
  obtain ⟨c, st1, h1, h⟩ := bind_ok h
  obtain ⟨rfl, rfl⟩ := getMap_ok h1
  obtain ⟨d, st2, h2, h⟩ := bind_ok h
  obtain ⟨rfl, rfl⟩ := getMap_ok h2
  obtain ⟨k, st3, h3, h⟩ := bind_ok h
  simp only [ticks, Out.ok.injEq, Prod.mk.injEq] at h3
  obtain ⟨rfl, rfl⟩ := h3
  obtain ⟨k, st4, h4, h⟩ := bind_ok h
  simp only [ticks, Out.ok.injEq, Prod.mk.injEq] at h4
  obtain ⟨rfl, rfl⟩ := h4
  obtain ⟨m, st5, h5, h⟩ := bind_ok h
  obtain ⟨h5, rfl⟩ := ofRes_ok h5
  rcases Cst.merge_spec E.order st2.iter
    (st2.iter + ((st2.map a).scopes.entries.length + 1)) (hw.map a) (hw.map b) with ⟨hc, m', hm', hwm, hl⟩ | ⟨_, he⟩
  · rw [hm'] at h5
    cases h5
    refine ⟨fun c k x y hx hy => hc c k x y hx hy, ?_⟩
    have e : over (st2.env a) (st2.env b) = m.lookup := by funext s k; exact (hl s k).symm
    rw [e]
    exact newAt_of (st := st2) (st1 := { st2 with iter := st2.iter + ((st2.map a).scopes.entries.length + 1) +
      ((st2.map b).scopes.entries.length + 1) }) hw hwm rfl rfl rfl h
  · rw [he] at h5
    cases h5

/-- What an update of the store at `r` leaves. -/
structure SetAt (st st' : St E) (r : Nat) (σ : CEnv) : Prop where
  wf : st'.WF
  cur : st'.cur = st.cur
  arrs : st'.arrs = st.arrs
  len : st'.maps.length = st.maps.length
  old : ∀ k, k ≠ r → st'.maps[k]? = st.maps[k]?
  env : st'.env r = σ

theorem SetAt.frame {N : Nat} {st st' : St E} {r : Nat} {σ : CEnv} (h : SetAt st st' r σ) (hN : N ≤ r)
    (hg : Grow K s (st.env r) σ) : Frame K s N st st' where
  arrs_le := Nat.le_of_eq (by rw [h.arrs])
  arrs a _ := by rw [h.arrs]
  maps_le := Nat.le_of_eq h.len.symm
  low k hk _ := h.old k (by omega)
  high k _ _ := by
    by_cases e : k = r
    · subst e; rw [h.env]; exact hg
    · rw [env_eq (h.old k e)]; exact .refl _

theorem putMap_ok {st st' : St E} {r : Nat} {c : Cst} {u : Unit} (hw : st.WF) (hc : c.WF) (hr : r < st.maps.length)
    (h : putMap r c st = .ok (u, st')) : SetAt st st' r c.lookup := by
  simp only [putMap, Out.ok.injEq, Prod.mk.injEq] at h
  obtain ⟨-, rfl⟩ := h
  refine ⟨?_, rfl, rfl, by simp, ?_, ?_⟩
  · intro d hd
    rcases List.mem_or_eq_of_mem_set hd with hd | rfl
    · exact hw d hd
    · exact hc
  · intro k hk
    simp only []
    rw [List.getElem?_set_ne (fun e => hk e.symm)]
  · simp only [St.env, St.map, List.getD_eq_getElem?_getD]
    rw [List.getElem?_set_self hr]
    rfl

/-- With `c.k ↦ x` added unless there is an entry. -/
def orCreate (σ : CEnv) (r : IDRef) (x : Int) : CEnv :=
  fun c k => if c = r.scope ∧ k = r.name then some ((σ c k).getD x) else σ c k

theorem lookupOrCreateAt_ok {st st' : St E} {a : Nat} {r : IDRef} {v x : Int} (hw : st.WF) (ha : a < st.maps.length)
    (h : lookupOrCreateAt a r v st = .ok (x, st')) :
    x = (st.env a r.scope r.name).getD v ∧ SetAt st st' a (orCreate (st.env a) r v) := by
  unfold lookupOrCreateAt at h
  obtain ⟨c, st1, h1, h⟩ := bind_ok h
  obtain ⟨rfl, rfl⟩ := getMap_ok h1
  obtain ⟨⟨c, y⟩, st2, h2, h'⟩ := bind_ok h
  clear h
  obtain ⟨h2, rfl⟩ := ofRes_ok h2
  change (putMap a c >>= fun _ => pure y) st2 = _ at h'
  obtain ⟨u, st3, h3, h''⟩ := bind_ok h'
  obtain ⟨rfl, rfl⟩ := pure_ok h''
  have hwc : c.WF := Cst.wf_lookupOrCreate (hw.map a) h2
  have hset := putMap_ok hw hwc ha h3
  unfold Cst.lookupOrCreateRef at h2
  have e : c.lookup = orCreate (st2.env a) r v ∧ x = (st2.env a r.scope r.name).getD v := by
    rcases Cst.lookupOrCreate_spec (st2.map a) r.scope r.name v with ⟨w, hw1, hw2⟩ | ⟨hn, hw2, hok⟩
    · rw [hw2] at h2
      cases h2
      refine ⟨?_, by simp [St.env, hw1]⟩
      funext s k
      simp only [orCreate, St.env]
      split
      · rename_i e; rw [e.1, e.2, hw1]; rfl
      · rfl
    · rw [hw2] at h2
      cases h2
      refine ⟨?_, by simp [St.env, hn]⟩
      funext s k
      rw [Cst.lookup_set hok]
      simp only [orCreate, St.env]
      split
      · rename_i e; rw [e.1, e.2, hn]; rfl
      · rfl
  exact ⟨e.2, e.1 ▸ hset⟩

theorem clearLocalAt_ok {st st' : St E} {a : Nat} {u : Unit} (hw : st.WF) (ha : a < st.maps.length)
    (h : clearLocalAt a st = .ok (u, st')) : SetAt st st' a (globals (st.env a)) := by
  unfold clearLocalAt at h
  obtain ⟨c, st1, h1, h⟩ := bind_ok h
  obtain ⟨rfl, rfl⟩ := getMap_ok h1
  have := putMap_ok hw (Cst.wf_clearScope (hw.map a) "") ha h
  have e : ((st1.map a).clearScope "").lookup = globals (st1.env a) := by
    funext s k
    rw [Cst.lookup_clearScope]
    rfl
  exact e ▸ this

/-! ## Slices -/

theorem newSlice_ok {st st' : St E} {bs : Bytes} {d : Slice} (h : newSlice bs st = .ok (d, st')) :
    d = ⟨st.arrs.length, bs.length⟩ ∧ st' = { st with arrs := st.arrs ++ [bs] } := by
  simp only [newSlice, Out.ok.injEq, Prod.mk.injEq] at h
  exact ⟨h.1.symm, h.2.symm⟩

/-- States that differ in new arrays, and what generation consumes, only. -/
theorem frame_arrs {N : Nat} {st st' : St E} (hm : st'.maps = st.maps) (hl : st.arrs.length ≤ st'.arrs.length)
    (ha : ∀ a, a < st.arrs.length → st'.arrs[a]? = st.arrs[a]?) : Frame K s N st st' where
  arrs_le := hl
  arrs := ha
  maps_le := Nat.le_of_eq (by rw [hm])
  low r _ _ := by rw [hm]
  high r _ _ := by rw [env_eq (by rw [hm])]; exact .refl _

theorem read_newSlice (st : St E) (bs : Bytes) :
    ({ st with arrs := st.arrs ++ [bs] } : St E).read ⟨st.arrs.length, bs.length⟩ = bs := by
  simp [St.read]

/-- What `append` leaves. -/
structure AppendAt (st st' : St E) (d d' : Slice) (bs : Bytes) : Prop where
  maps : st'.maps = st.maps
  cur : st'.cur = st.cur
  le : st.arrs.length ≤ st'.arrs.length
  old : ∀ a, a < st.arrs.length → a ≠ d.arr → st'.arrs[a]? = st.arrs[a]?
  live : SLive st' d'
  arr : d'.arr = d.arr ∨ d'.arr = st.arrs.length
  read : st'.read d' = st.read d ++ bs

theorem appendSlice_ok {st st' : St E} {d d' : Slice} {bs : Bytes} (hd : SLive st d)
    (h : appendSlice d bs st = .ok (d', st')) : AppendAt st st' d d' bs := by
  unfold appendSlice at h
  simp only [] at h
  have hlen := hd.2
  split at h
  · rename_i hn
    simp only [Out.ok.injEq, Prod.mk.injEq] at h
    obtain ⟨rfl, rfl⟩ := h
    refine ⟨rfl, rfl, by simp, ?_, ⟨by simpa using hd.1, ?_⟩, .inl rfl, ?_⟩
    · intro a _ hne
      simp only []
      rw [List.getElem?_set_ne (fun e => hne e.symm)]
    · simp only [List.getD_eq_getElem?_getD] at *
      rw [List.getElem?_set_self hd.1]
      simp only [Option.getD_some, List.length_append, List.length_take, List.length_drop]
      omega
    · simp only [St.read, List.getD_eq_getElem?_getD] at *
      rw [List.getElem?_set_self hd.1]
      simp only [Option.getD_some]
      rw [List.take_append_of_le_length (by simp only [List.length_append, List.length_take]; omega)]
      rw [List.take_of_length_le (by simp only [List.length_append, List.length_take]; omega)]
  · rename_i hn
    simp only [Out.ok.injEq, Prod.mk.injEq] at h
    obtain ⟨rfl, rfl⟩ := h
    refine ⟨rfl, rfl, by simp, ?_, ⟨by simp, ?_⟩, .inr rfl, ?_⟩
    · intro a ha _
      simp only []
      rw [List.getElem?_append_left ha]
    · simp only [List.getD_eq_getElem?_getD] at *
      simp only [List.getElem?_concat_length, Option.getD_some, List.length_append, List.length_take,
        List.length_replicate]
      omega
    · simp only [St.read, List.getD_eq_getElem?_getD] at *
      simp only [List.getElem?_concat_length, Option.getD_some]
      rw [List.take_append_of_le_length (by simp only [List.length_append, List.length_take]; omega)]
      rw [List.take_of_length_le (by simp only [List.length_append, List.length_take]; omega)]

end Verif.Tv
