import Verif.TvSize
/-!
# Context values recorded with vectors can be met
-/
set_option linter.unusedVariables false
namespace Verif.Tv
open Verif Verif.Ast Verif.Inspect Verif.Intervals Verif.Go Verif.Spec Verif.Wire Verif.Props

variable {E : Env} {α β : Type} {G : String → String → Int → Prop} {r : Resolver}

/-! ## Specification -/

/-- Context variables that give lengths of unions are in `L`, and context variables in `L` can hold numbers up to `M` (and
up to 20, which may be drawn for them as numbers of elements). -/
structure LensFit (Γ : Fmt) (L : Key → Prop) (M : Key → Nat) : Prop where
  lens : ∀ n s, Γ.structs n = some s → s.extern = false → ∀ u, .union u ∈ s.ms → ∀ ref, u.length = some (.idRef ref) →
    ref.scope ≠ "" → L (refKey ref)
  fit : ∀ c k, c ≠ "" → L (c, k) → ∃ D, Γ.contexts c = some D ∧ ∃ f ∈ D.members, f.name = k ∧ IntLike f.type ∧
    NumOK f.type (max 20 (M (c, k)) : Nat)

/-- Context variables used as tags can hold the values of the cases, no union takes its length from a
context or the lengths are bounded so that they can be held, and the Go names of the variables of a context are distinct. -/
structure FmtCtx (Γ : Fmt) : Prop where
  names : ∀ c D, Γ.contexts c = some D → (D.members.map (fun f => Γ.nm f.name)).Nodup
  tags : ∀ n s, Γ.structs n = some s → s.extern = false → ∀ u, .union u ∈ s.ms → u.tag.scope ≠ "" →
    ∀ D, Γ.contexts u.tag.scope = some D → ∀ f ∈ D.members, f.name = u.tag.name → ∀ t, f.type = .base (.int t) →
      ∀ c ∈ u.cases, ∀ l, c.case = some l → Below Γ.K l t.size
  lens : (∀ n s, Γ.structs n = some s → s.extern = false → ∀ u, .union u ∈ s.ms → ∀ ref, u.length = some (.idRef ref) →
    ref.scope = "") ∨ ∃ L M w, FmtSized Γ L M w ∧ LensFit Γ L M

/-! ## Entries of all stores -/

/-- All entries of all stores are right. -/
def AllMaps (G : String → String → Int → Prop) (st : St E) : Prop :=
  st.WF ∧ ∀ a c k x, c ≠ "" → st.env a c k = some x → G c k x

/-- An action keeps entries right. -/
def Pres (G : String → String → Int → Prop) (x : TM E α) : Prop :=
  ∀ st a st', AllMaps G st → x st = .ok (a, st') → AllMaps G st'

theorem AllMaps.of_maps {st st' : St E} (h : AllMaps G st) (e : st'.maps = st.maps) : AllMaps G st' := by
  refine ⟨by unfold St.WF; rw [e]; exact h.1, fun a c k x hc hx => h.2 a c k x hc ?_⟩
  rw [← hx]
  exact congrFun (congrFun (env_eq (by rw [e])) c) k

theorem AllMaps.new {st st' : St E} {t : Nat} {σ : CEnv} (h : AllMaps G st) (hn : NewAt st st' t σ)
    (hσ : ∀ c k x, c ≠ "" → σ c k = some x → G c k x) : AllMaps G st' := by
  refine ⟨hn.wf, fun a c k x hc hx => ?_⟩
  rcases Nat.lt_trichotomy a st.maps.length with hl | rfl | hl
  · rw [env_eq (hn.old a hl)] at hx; exact h.2 a c k x hc hx
  · rw [← hn.ref, hn.env] at hx; exact hσ c k x hc hx
  · have : st'.maps[a]? = none := List.getElem?_eq_none (by rw [hn.len]; omega)
    simp [St.env, St.map, List.getD_eq_getElem?_getD, this, Cst.lookup_empty] at hx

theorem AllMaps.put {st st' : St E} {t : Nat} {σ : CEnv} (h : AllMaps G st) (hn : SetAt st st' t σ)
    (hσ : ∀ c k x, c ≠ "" → σ c k = some x → G c k x) : AllMaps G st' := by
  refine ⟨hn.wf, fun a c k x hc hx => ?_⟩
  by_cases e : a = t
  · subst e; rw [hn.env] at hx; exact hσ c k x hc hx
  · rw [env_eq (hn.old a e)] at hx; exact h.2 a c k x hc hx

namespace Pres

theorem bind {x : TM E α} {f : α → TM E β} (h : Pres G x) (hf : ∀ a, Pres G (f a)) : Pres G (x >>= f) := by
  intro st b st' hs hb
  obtain ⟨a, st1, h1, h2⟩ := bind_ok hb
  exact hf a st1 b st' (h st a st1 hs h1) h2

theorem of_maps {x : TM E α} (h : ∀ st a st', x st = .ok (a, st') → st'.maps = st.maps) : Pres G x :=
  fun st a st' hs hx => hs.of_maps (h st a st' hx)

theorem pure (a : α) : Pres G (Pure.pure a : TM E α) := of_maps fun st b st' h => by
  obtain ⟨_, rfl⟩ := pure_ok h; rfl

theorem ofRes (a : Res α) : Pres G (TM.ofRes a : TM E α) := of_maps fun st b st' h => by
  obtain ⟨_, rfl⟩ := ofRes_ok h; rfl

theorem fail (e : GErr) : Pres G (TM.fail e : TM E α) := fun st a st' _ h => by cases h

theorem getCur : Pres G (Tv.getCur : TM E Nat) := of_maps fun st b st' h => by obtain ⟨_, rfl⟩ := getCur_ok h; rfl

theorem setCur (c : Nat) : Pres G (Tv.setCur c : TM E Unit) := of_maps fun st b st' h => by cases h; rfl

theorem getMap (c : Nat) : Pres G (Tv.getMap c : TM E Cst) := of_maps fun st b st' h => by
  obtain ⟨_, rfl⟩ := getMap_ok h; rfl

theorem newSlice (b : Bytes) : Pres G (Tv.newSlice b : TM E Slice) := of_maps fun st b st' h => by cases h; rfl

theorem getSlice (b : Slice) : Pres G (Tv.getSlice b : TM E _) := of_maps fun st b st' h => by cases h; rfl

theorem appendSlice (d : Slice) (b : Bytes) : Pres G (Tv.appendSlice d b : TM E _) := of_maps fun st b st' h => by
  unfold Tv.appendSlice at h
  simp only [] at h
  split at h <;> (cases h; rfl)

theorem randbtw (a b : Nat) : Pres G (Tv.randbtw a b : TM E _) := of_maps fun st b st' h => by cases h; rfl

theorem randread (n : Nat) : Pres G (Tv.randread n : TM E _) := of_maps fun st b st' h => by cases h; rfl

theorem randomIn (s : Set) : Pres G (Tv.randomIn s : TM E _) := of_maps fun st b st' h => by
  unfold Tv.randomIn at h
  split at h <;> cases h
  rfl

theorem select (vs : List Vec) : Pres G (Tv.select vs : TM E _) := of_maps fun st b st' h => by cases h; rfl

theorem cloneRef (c : Nat) : Pres G (Tv.cloneRef c : TM E _) :=
  fun st a st' hs h => hs.new (cloneRef_ok hs.1 h) (hs.2 c)

theorem cloneGlobalRef (c : Nat) : Pres G (Tv.cloneGlobalRef c : TM E _) :=
  fun st a st' hs h => hs.new (cloneGlobalRef_ok hs.1 h) fun c' k x hc hx => hs.2 c c' k x hc (by
    rw [globals_of hc] at hx; exact hx)

theorem mergeRef (a b : Nat) : Pres G (Tv.mergeRef a b : TM E _) :=
  fun st t st' hs h => hs.new (mergeRef_ok hs.1 h).2 fun c k x hc hx => by
    unfold over at hx
    cases hb : st.env b c k with
    | some y => rw [hb] at hx; cases hx; exact hs.2 b c k _ hc hb
    | none => rw [hb] at hx; exact hs.2 a c k x hc hx

theorem newMap_empty : Pres G (Tv.newMap .empty : TM E _) :=
  fun st a st' hs h => hs.new (newAt_of hs.1 Cst.wf_empty rfl rfl rfl h) fun c k x _ hx => by
    rw [Cst.lookup_empty] at hx; cases hx

theorem putMap_out {a : Nat} {c : Cst} {st st' : St E} {u : Unit} (ha : st.maps.length ≤ a)
    (h : putMap a c st = .ok (u, st')) : st'.maps = st.maps := by
  cases h
  exact List.set_eq_of_length_le ha

theorem lookupOrCreateAt {ref : IDRef} {v : Int} (hv : ref.scope ≠ "" → G ref.scope ref.name v) (a : Nat) :
    Pres G (Tv.lookupOrCreateAt a ref v : TM E _) := by
  intro st x st' hs h
  by_cases ha : a < st.maps.length
  · refine hs.put (lookupOrCreateAt_ok hs.1 ha h).2 fun c k y hc hy => ?_
    unfold orCreate at hy
    split at hy
    · rename_i e
      obtain ⟨rfl, rfl⟩ := e
      cases hy
      cases he : st.env a ref.scope ref.name with
      | none => exact hv hc
      | some y => exact hs.2 a _ _ y hc he
    · exact hs.2 a c k y hc hy
  · unfold Tv.lookupOrCreateAt at h
    obtain ⟨c, st1, h1, hb⟩ := bind_ok h
    clear h
    obtain ⟨rfl, rfl⟩ := getMap_ok h1
    obtain ⟨⟨c, y⟩, st2, h2, hc⟩ := bind_ok hb
    clear hb
    obtain ⟨h2', rfl⟩ := ofRes_ok h2
    obtain ⟨u, st3, h3, hd⟩ := bind_ok (x := putMap a c) (f := fun _ => Pure.pure y) hc
    clear hc
    obtain ⟨_, rfl⟩ := pure_ok hd
    exact hs.of_maps (putMap_out (by omega) h3)

theorem clearLocalAt (a : Nat) : Pres G (Tv.clearLocalAt a : TM E _) := by
  intro st x st' hs h
  by_cases ha : a < st.maps.length
  · exact hs.put (clearLocalAt_ok hs.1 ha h) fun c k x hc hx => hs.2 a c k x hc (by
      rw [globals_of hc] at hx; exact hx)
  · unfold Tv.clearLocalAt at h
    obtain ⟨c, st1, h1, hb⟩ := bind_ok h
    obtain ⟨rfl, rfl⟩ := getMap_ok h1
    exact hs.of_maps (putMap_out (by omega) hb)

theorem vector (b : Bytes) : Pres G (Tv.vector b : TM E _) :=
  (newSlice b).bind fun _ => getCur.bind fun _ => pure _

theorem emptyVec : Pres G (Tv.emptyVec : TM E _) := vector []

theorem randletters : ∀ n, Pres G (Tv.randletters n : TM E _)
  | 0 => pure _
  | n + 1 => (randbtw _ _).bind fun _ => (randletters n).bind fun _ => pure _

theorem crossOne (u : Vec) : ∀ b, Pres G (Tv.crossOne u b : TM E _)
  | [] => pure _
  | w :: b => (mergeRef _ _).bind fun _ => (getSlice _).bind fun _ => (appendSlice _ _).bind fun _ =>
      (crossOne u b).bind fun _ => pure _

theorem cross : ∀ a b, Pres G (Tv.cross a b : TM E _)
  | [], _ => pure _
  | u :: a, b => (crossOne u b).bind fun _ => (cross a b).bind fun _ => pure _

theorem appendAll (d : Slice) : ∀ vs, Pres G (Tv.appendAll d vs : TM E _)
  | [] => pure _
  | v :: vs => (getSlice _).bind fun _ => (appendSlice _ _).bind fun _ => (appendAll d vs).bind fun _ => pure _

theorem extendAll {act : TM E (List Vec)} (h : Pres G act) : ∀ vs, Pres G (Tv.extendAll act vs : TM E _)
  | [] => pure _
  | v :: vs => (setCur _).bind fun _ => h.bind fun _ => (appendAll _ _).bind fun _ =>
      (extendAll h vs).bind fun _ => pure _

theorem membersLoop {f : α → TM E (List Vec)} : ∀ {ms : List α}, (∀ m ∈ ms, Pres G (f m)) → ∀ vs,
    Pres G (Tv.membersLoop f ms vs : TM E _)
  | [], _, _ => pure _
  | m :: ms, h, vs => (extendAll (h m List.mem_cons_self) vs).bind fun _ => (select _).bind fun _ =>
      membersLoop (fun m hm => h m (List.mem_cons_of_mem _ hm)) _

theorem genInt (name : String) (t : IntType) : Pres G (Tv.genInt r name t : TM E _) := by
  refine getCur.bind fun c => (getMap c).bind fun m => ?_
  have : ∀ b : Bytes, Pres G (do let v ← Tv.vector b; Pure.pure [v] : TM E (List Vec)) :=
    fun b => (vector b).bind fun _ => pure _
  cases m.lookup "" name with
  | some x => exact (pure _).bind this
  | none =>
    cases t.constraint with
    | some l => exact (ofRes _).bind fun _ => (randomIn _).bind fun _ => (pure _).bind this
    | none => exact (randread _).bind this

theorem genStructRef {S : Struct → TM E (List Vec)} {n : String}
    (hS : ∀ s, r.struct n = some s → s.extern = false → Pres G (S s)) : Pres G (Tv.genStructRef r S n) := by
  intro st a st' hs h
  obtain ⟨s, st1, h1, h2⟩ := bind_ok h
  obtain ⟨h1', rfl⟩ := ofRes_ok h1
  unfold Resolver.structNonExtern at h1'
  cases hn : r.struct n with
  | none => rw [hn] at h1'; cases h1'
  | some s' =>
    rw [hn] at h1'
    simp only [] at h1'
    cases he : s'.extern with
    | true => rw [he] at h1'; cases h1'
    | false =>
      rw [he] at h1'
      simp only [Bool.false_eq_true, if_false] at h1'
      cases h1'
      exact hS s hn he _ _ _ hs h2

theorem genBase {S : Struct → TM E (List Vec)} (hS : ∀ n s, r.struct n = some s → s.extern = false → Pres G (S s))
    (name : String) : ∀ b, Pres G (Tv.genBase r S name b)
  | .int t => genInt name t
  | .char => genInt (r := r) name U8
  | .struct n => genStructRef (hS n)

theorem arrayLoop {elem : TM E (List Vec)} (h : Pres G elem) : ∀ n v, Pres G (Tv.arrayLoop elem n v)
  | 0, _ => pure _
  | n + 1, v => h.bind fun w => (cross w v).bind fun v => (select v).bind fun v => arrayLoop h n v

end Pres

/-! ## Right entries -/

/-- A context variable can have the recorded value. -/
def CtxEntry (Γ : Fmt) (c k : String) (x : Int) : Prop :=
  ∃ D, Γ.contexts c = some D ∧ ∃ f ∈ D.members, f.name = k ∧ IntLike f.type ∧ NumOK f.type (asField x)

/-- The variable is in `L`, or can have the recorded value. -/
def EntryOr (Γ : Fmt) (L : Key → Prop) (c k : String) (x : Int) : Prop := L (c, k) ∨ CtxEntry Γ c k x

variable {Γ : Fmt} {L : Key → Prop} {B A : Nat} {C O : String → Prop} {ctx : Ctx} {s : Struct}

theorem count_entry {ref : IDRef} (h : CountRef Γ s ref) (hs : ref.scope ≠ "") {k : Nat} (hk : k ≤ 20) :
    CtxEntry Γ ref.scope ref.name (k : Int) := by
  unfold CountRef at h
  rw [if_neg hs] at h
  obtain ⟨D, hD, f, hf, hn, hi, hw⟩ := h
  refine ⟨D, hD, f, hf, hn, hi, ?_⟩
  rw [asField_small (by omega) (by omega)]
  cases ht : f.type with
  | base b =>
    cases b with
    | int t =>
      rw [ht] at hi
      refine ⟨by omega, ?_⟩
      rcases hi with h | h | h | h <;> rw [h] <;> omega
    | char => exact ⟨by omega, by omega⟩
    | struct n => rw [ht] at hi; exact hi.elim
  | ptr => exact ⟨by omega, by omega⟩
  | _ => trivial

theorem genArray_pres {S : Struct → TM E (List Vec)}
    (hS : ∀ n s, r.struct n = some s → s.extern = false → Pres (EntryOr Γ L) (S s)) (b : Base) (c : Count)
    (hc : ∀ ref, c = .con (some (.idRef ref)) → CountRef Γ s ref) : Pres (EntryOr Γ L) (genArray r S b c) := by
  refine Pres.emptyVec.bind fun iv => Pres.bind ?_ fun n => Pres.arrayLoop (Pres.genBase hS "" b) _ _
  cases c with
  | size i => exact Pres.ofRes _
  | con c =>
    cases c with
    | none => exact (Pres.randbtw _ _).bind fun _ => Pres.pure _
    | some c =>
      cases c with
      | leftover k => exact Pres.fail _
      | idRef ref =>
        intro st a st' hs h
        obtain ⟨k, st1, h1, h2⟩ := bind_ok h
        exact Pres.lookupOrCreateAt (G := EntryOr Γ L)
          (fun hsc => .inr (count_entry (hc ref rfl) hsc (randbtw_le (by omega) h1))) _ _ _ _
          (Pres.randbtw _ _ _ _ _ hs h1) h2

theorem genLeaf_pres {S : Struct → TM E (List Vec)}
    (hS : ∀ n s, r.struct n = some s → s.extern = false → Pres (EntryOr Γ L) (S s)) {p : List String} {l : Leaf}
    (hl : LeafGen Γ s C O p l) : Pres (EntryOr Γ L) (genLeaf r S l) := by
  cases l with
  | field f =>
    obtain ⟨n, t⟩ := f
    cases t with
    | base b => exact Pres.genBase hS _ b
    | ptr => exact Pres.emptyVec.bind fun _ => Pres.pure _
    | nulterm =>
      exact ((Pres.randbtw _ _).bind fun _ => (Pres.randletters _).bind fun _ => Pres.pure _).bind fun _ =>
        (Pres.vector _).bind fun _ => Pres.pure _
    | fixedArray b k => exact genArray_pres (s := s) hS b (.size k) (by intro ref h; cases h)
    | varArray b c =>
      refine genArray_pres (s := s) hS b (.con c) fun ref h => ?_
      cases h
      exact hl.2
  | ignore => exact Pres.emptyVec.bind fun _ => (Pres.randbtw _ _).bind fun _ => (Pres.randread _).bind fun _ =>
      (Pres.vector _).bind fun _ => Pres.pure _
  | fail => exact Pres.pure _
  | eos => exact Pres.emptyVec.bind fun _ => Pres.pure _

theorem lenLoop_pres {ref : IDRef} (hr : ref.scope ≠ "" → L (refKey ref)) : ∀ vs, Pres (EntryOr Γ L) (lenLoop (E := E) ref vs)
  | [] => Pres.pure _
  | v :: vs => (Pres.cloneRef _).bind fun _ => (Pres.lookupOrCreateAt (fun h => .inl (hr h)) _).bind fun _ =>
      (lenLoop_pres hr vs).bind fun _ => Pres.pure _

theorem LeavesGen.mem {p : List String} : ∀ {ls : List Leaf}, LeavesGen Γ s C O p ls → ∀ l ∈ ls,
    ∃ q, LeafGen Γ s C O q l := by
  intro ls
  induction ls with
  | nil => intro _ l hl; cases hl
  | cons a ls ih =>
    intro h l hl
    rcases List.mem_cons.1 hl with rfl | hl
    · exact ⟨_, h.2.1⟩
    · exact ih h.2.2 l hl

theorem MembersGen.mem : ∀ {ms : List Member}, MembersGen Γ B s C O ms → ∀ m ∈ ms,
    ∃ q, MemberGen Γ B s C O q m := by
  intro ms
  induction ms with
  | nil => intro _ l hl; cases hl
  | cons a ls ih =>
    intro h l hl
    rcases List.mem_cons.1 hl with rfl | hl
    · exact ⟨_, h.2.1⟩
    · exact ih h.2.2 l hl

theorem branchesLoop_pres {S : Struct → TM E (List Vec)} {tag : IDRef} {base : Nat} : ∀ {bs : List Branch},
    (∀ b ∈ bs, Canonical b.set.intervals ∧ (∀ x, b.set.contains x = true → tag.scope ≠ "" →
      EntryOr Γ L tag.scope tag.name (castI64 x)) ∧ ∀ l ∈ b.case.members, Pres (EntryOr Γ L) (genLeaf r S l)) →
    Pres (EntryOr Γ L) (branchesLoop r S tag base bs) := by
  intro bs
  induction bs with
  | nil => intro _; exact Pres.pure _
  | cons b bs ih =>
    intro h
    obtain ⟨h1, h2, h3⟩ := h b List.mem_cons_self
    refine (Pres.cloneRef _).bind fun c => (Pres.setCur _).bind fun _ => ?_
    intro st a st' hs hx
    obtain ⟨x, st1, hx1, hb⟩ := bind_ok hx
    clear hx
    refine ((Pres.lookupOrCreateAt (fun hsc => h2 x (randomIn_ok h1 hx1).1 hsc) _).bind fun _ =>
      Pres.emptyVec.bind fun _ => (Pres.membersLoop (fun m hm => h3 m (List.mem_reverse.1 hm)) _).bind fun _ =>
      (ih fun b hb => h b (List.mem_cons_of_mem _ hb)).bind fun _ => Pres.pure _) st1 a st'
      (Pres.randomIn _ _ _ _ hs hx1) hb

theorem genMember_pres (h0 : Base0 Γ B A C O ctx r) (hx : FmtCtx Γ) (hL : ∀ n s, Γ.structs n = some s → s.extern = false → ∀ u, .union u ∈ s.ms → ∀ ref,
    u.length = some (.idRef ref) → ref.scope ≠ "" → L (refKey ref)) {S : Struct → TM E (List Vec)}
    (hS : ∀ n s, r.struct n = some s → s.extern = false → Pres (EntryOr Γ L) (S s)) {n : String}
    (hs : Γ.structs n = some s) (he : s.extern = false) {m : Member} (hm : m ∈ s.ms) :
    Pres (EntryOr Γ L) (genMember r S s m) := by
  obtain ⟨q, hg⟩ := MembersGen.mem (h0.gen.structs n s hs he).members m hm
  cases m with
  | leaf l => exact genLeaf_pres hS hg
  | union u =>
    obtain ⟨g1, g2, g3, g4, g5, g6⟩ := hg
    intro st a st' hst h
    simp only [genMember] at h
    unfold genUnion at h
    obtain ⟨bs, st1, h1, ha⟩ := bind_ok h
    clear h
    obtain ⟨h1', rfl⟩ := ofRes_ok h1
    obtain ⟨c, st2, h2, hb⟩ := bind_ok ha
    clear ha
    obtain ⟨rfl, rfl⟩ := getCur_ok h2
    obtain ⟨mp, st3, h3, hc⟩ := bind_ok hb
    clear hb
    obtain ⟨rfl, rfl⟩ := getMap_ok h3
    have hty : ∃ t, r.intType u.tag s = .ok t := by
      unfold newBranches at h1'
      cases ht : r.intType u.tag s with
      | ok t => exact ⟨t, rfl⟩
      | err m => rw [ht] at h1'; cases h1'
      | panic m => rw [ht] at h1'; cases h1'
    obtain ⟨t, ht⟩ := hty
    have hctx : u.tag.scope ≠ "" → SizeOK t ∧ ∃ D, Γ.contexts u.tag.scope = some D ∧ ∃ f ∈ D.members,
        f.name = u.tag.name ∧ f.type = .base (.int t) := by
      intro hsc
      have ht' := ht
      unfold Resolver.intType at ht'
      rw [if_neg hsc, h0.ctxs] at ht'
      cases hD : Γ.contexts u.tag.scope with
      | none => rw [hD] at ht'; cases ht'
      | some D =>
        rw [hD] at ht'
        obtain ⟨f, hf, e1, e2⟩ := findIntType_ok ht'
        exact ⟨h0.gen.contexts _ D hD f hf t e2, D, rfl, f, hf, e1, e2⟩
    have hsz : t.size ≤ 64 := by
      by_cases hsc : u.tag.scope = ""
      · have ht' := ht
        unfold Resolver.intType at ht'
        rw [if_pos hsc] at ht'
        obtain ⟨f, hf, e1, e2⟩ := findIntType_ok ht'
        have := g2 hsc f (structFields_sub hf) e1
        rw [e2] at this
        exact (sizeOK_dvd this.1).2.1
      · exact (sizeOK_dvd (hctx hsc).1).2.1
    have hbr := newBranches_ok h1' ht hsz (by rw [h0.const]; exact g4) (by rw [h0.const]; exact g5)
    have hall : ∀ b ∈ bs, Canonical b.set.intervals ∧ (∀ x, b.set.contains x = true → u.tag.scope ≠ "" →
        EntryOr Γ L u.tag.scope u.tag.name (castI64 x)) ∧ ∀ l ∈ b.case.members, Pres (EntryOr Γ L) (genLeaf r S l) := by
      intro b hb
      obtain ⟨b1, b2, b3⟩ := hbr b hb
      refine ⟨b2, fun x hxb hsc => ?_, fun l hl => ?_⟩
      · obtain ⟨hst, D, hD, f, hf, e1, e2⟩ := hctx hsc
        obtain ⟨_, x2, x3⟩ := b3 x hxb
        refine .inr ⟨D, hD, f, hf, e1, by rw [e2]; exact hst, ?_⟩
        rw [e2, asField_castI64]
        refine ⟨by omega, ?_⟩
        cases hcase : b.case.case with
        | none => have := x2 hcase; exact_mod_cast this
        | some l =>
          have := x3 l hcase
          rw [h0.const] at this
          exact listHas_below (hx.tags n s hs he u hm hsc D hD f hf e1 t e2 _ b1 l hcase) this
      · rcases g6 _ b1 with h | h
        · rw [h] at hl
          cases List.mem_singleton.1 hl
          exact Pres.pure _
        · obtain ⟨q, hq⟩ := h.mem l hl
          exact genLeaf_pres hS hq
    cases ho : branchOptions bs ((st3.map st3.cur).lookupRef u.tag) with
    | none =>
      rw [ho] at hc
      obtain ⟨_, rfl⟩ := pure_ok hc
      exact hst
    | some opts =>
      rw [ho] at hc
      have hopts : ∀ b ∈ opts, b ∈ bs := by
        unfold branchOptions at ho
        split at ho
        · cases ho; exact fun b hb => hb
        · split at ho
          · cases ho
          · rename_i b hb
            cases ho
            intro b' hb'
            cases List.mem_singleton.1 hb'
            exact List.mem_of_find?_eq_some hb
      refine ((Pres.cloneRef _).bind fun base => (branchesLoop_pres fun b hb => hall b (hopts b hb)).bind fun res => ?_)
        st3 a st' hst hc
      cases hlen : u.length with
      | none => exact Pres.pure _
      | some lc =>
        cases lc with
        | leftover k => exact Pres.fail _
        | idRef ref => exact lenLoop_pres (hL n s hs he u hm ref hlen) _

theorem clearAll_pres : ∀ vs, Pres G (clearAll (E := E) vs)
  | [] => Pres.pure _
  | v :: vs => (Pres.clearLocalAt _).bind fun _ => clearAll_pres vs

theorem structure_pres (h0 : Base0 Γ B A C O ctx r) (hx : FmtCtx Γ) (hL : ∀ n s, Γ.structs n = some s → s.extern = false → ∀ u, .union u ∈ s.ms → ∀ ref,
    u.length = some (.idRef ref) → ref.scope ≠ "" → L (refKey ref)) : ∀ fuel n s, Γ.structs n = some s →
    s.extern = false → Pres (EntryOr Γ L) (structure_ (E := E) r fuel s) := by
  intro fuel
  induction fuel with
  | zero => intro n s _ _ st a st' _ h; cases h
  | succ fuel ih =>
    intro n s hs he
    exact Pres.getCur.bind fun c => (Pres.cloneGlobalRef c).bind fun g => (Pres.newSlice []).bind fun d =>
      (Pres.membersLoop (fun m hm => genMember_pres h0 hx hL (fun n s hs => ih n s (by rw [← h0.strs]; exact hs)) hs he
        (List.mem_reverse.1 hm)) _).bind fun vs => Pres.getCur.bind fun c => (Pres.clearLocalAt c).bind fun _ =>
      (clearAll_pres vs).bind fun _ => Pres.pure vs

theorem suites_pres (h0 : Base0 Γ B A C O ctx r) (hx : FmtCtx Γ) (hL : ∀ n s, Γ.structs n = some s → s.extern = false → ∀ u, .union u ∈ s.ms → ∀ ref,
    u.length = some (.idRef ref) → ref.scope ≠ "" → L (refKey ref)) {fuel : Nat} : ∀ {ss : List Struct},
    (∀ s ∈ ss, s.extern = false → Γ.structs s.name = some s) → Pres (EntryOr Γ L) (suites (E := E) r fuel ss) := by
  intro ss
  induction ss with
  | nil => intro _; exact Pres.pure _
  | cons s ss ih =>
    intro h
    simp only [suites]
    have hss := ih fun s hs => h s (List.mem_cons_of_mem _ hs)
    cases he : s.extern with
    | true => exact hss
    | false =>
      exact Pres.newMap_empty.bind fun c => (Pres.setCur c).bind fun _ =>
        (structure_pres h0 hx hL fuel s.name s (h s List.mem_cons_self he) he).bind fun vs => hss.bind fun _ => Pres.pure _

/-! ## Context values -/

/-- The context values recorded in a store, and zero for the others. -/
def ctxFor (Γ : Fmt) (m : Cst) : Ctx := fun c => match Γ.contexts c with
  | none => []
  | some D => D.members.map fun f => (Γ.nm f.name, .num (match m.lookup c f.name with
    | some x => if c = "" then 0 else asField x
    | none => 0))

theorem numOK_zero {t : Ty} (h : IntLike t) : NumOK t 0 := by
  cases t with
  | base b =>
    cases b with
    | int t => exact ⟨by omega, Int.pow_pos (by decide)⟩
    | char => exact ⟨by decide, by decide⟩
    | struct n => exact h.elim
  | ptr => exact ⟨by decide, by decide⟩
  | _ => trivial

theorem ctxFor_ok (hx : FmtCtx Γ) {m : Cst} (hm : ∀ c k x, c ≠ "" → m.lookup c k = some x → CtxEntry Γ c k x) :
    CtxOK Γ (ctxFor Γ m) ∧ Meets Γ (ctxFor Γ m) m := by
  have hget : ∀ c D, Γ.contexts c = some D → ∀ f ∈ D.members, getF (ctxFor Γ m c) (Γ.nm f.name) =
      some (.num (match m.lookup c f.name with | some x => if c = "" then 0 else asField x | none => 0)) := by
    intro c D hD f hf
    unfold ctxFor
    rw [hD]
    exact getF_map (g := fun f => Γ.nm f.name) (q := fun f => .num (match m.lookup c f.name with
      | some x => if c = "" then 0 else asField x | none => 0)) (hx.names c D hD) f hf
  constructor
  · intro c D hD f hf hi
    refine ⟨_, hget c D hD f hf, ?_⟩
    cases hl : m.lookup c f.name with
    | none => exact numOK_zero hi
    | some x =>
      by_cases hc : c = ""
      · simp only [hc, if_true]; exact numOK_zero hi
      · simp only [hc, if_false]
        obtain ⟨D', hD', g, hg, hn, _, hok⟩ := hm c f.name x hc hl
        rw [hD] at hD'
        cases hD'
        have : g = f := List.inj_on_of_nodup_map (hx.names c D hD) hg hf (by simp only [hn])
        subst this
        exact hok
  · intro c k x hc hl
    obtain ⟨D, hD, f, hf, rfl, _, _⟩ := hm c k x hc hl
    rw [hget c D hD f hf, hl]
    simp [hc]

theorem numOK_le {t : Ty} {x y : Int} (hy : NumOK t y) (h0 : 0 ≤ x) (h : x ≤ y) : NumOK t x := by
  cases t with
  | base b =>
    cases b with
    | int t => exact ⟨h0, Int.lt_of_le_of_lt h hy.2⟩
    | char => exact ⟨h0, Int.lt_of_le_of_lt h hy.2⟩
    | struct n => trivial
  | ptr => exact ⟨h0, Int.lt_of_le_of_lt h hy.2⟩
  | _ => trivial

theorem numOK_below {t : Ty} (hi : IntLike t) {x : Int} (hx : NumOK t x) : x < 2 ^ 64 := by
  cases t with
  | base b =>
    cases b with
    | int t =>
      have := hx.2
      rcases hi with h | h | h | h <;> rw [h] at this <;> omega
    | char => have := hx.2; omega
    | struct n => exact hi.elim
  | ptr => have := hx.2; omega
  | nulterm => exact hi.elim
  | fixedArray b n => exact hi.elim
  | varArray b c => exact hi.elim

theorem LensFit.entry {M : Key → Nat} (h : LensFit Γ L M) {c k : String} (hc : c ≠ "") (hL : L (c, k)) {x : Int}
    (h0 : 0 ≤ x) (hx : x ≤ (max 20 (M (c, k)) : Nat)) : CtxEntry Γ c k x := by
  obtain ⟨D, hD, f, hf, e, hi, hok⟩ := h.fit c k hc hL
  have hx' := numOK_le hok h0 hx
  exact ⟨D, hD, f, hf, e, hi, by rw [asField_small h0 (numOK_below hi hx')]; exact hx'⟩

/-- Every vector's recorded context values can be had. -/
theorem generateFiles_ctx (hsel : Selects E) {nm : String → String} {ext : Go.Ext} {fs : List File} {fuel : Nat}
    {seed : E.R.σ} {corpus : Corpus} (h : generateFiles E fuel seed fs = .ok corpus) (hok : FilesOK nm ext fs)
    {B : Nat} {C O : String → Prop} (hg : FmtGen (fmtOf nm ext fs) B C O) (hx : FmtCtx (fmtOf nm ext fs)) :
    ∀ t ∈ corpus, ∀ v ∈ t.vectors, ∃ ctx, CtxOK (fmtOf nm ext fs) ctx ∧ Meets (fmtOf nm ext fs) ctx v.cst := by
  have h' := h
  unfold generateFiles at h
  cases hr : newResolverFiles E.order fs with
  | err m => rw [hr] at h; cases h
  | panic m => rw [hr] at h; cases h
  | ok r =>
    rw [hr] at h
    simp only [] at h
    have hcomp : Props.FilesCompatible fs := by
      by_contra hc
      obtain ⟨m, hm⟩ := (Props.C11_multi_file E.order fs).2 hc
      rw [hm] at hr; cases hr
    obtain ⟨r', hr', h1, h2, h3⟩ := (Props.C11_multi_file E.order fs).1 hcomp
    rw [hr] at hr'
    cases hr'
    have h0 : Base0 (fmtOf nm ext fs) B (2 ^ 32) C O (ctxFor (fmtOf nm ext fs) .empty) r :=
      ⟨hok.fmtOK, hg, by funext n; exact h3 n, by funext n; exact h2 n, by funext n; exact h1 n,
        (ctxFor_ok hx (by intro c k x _ h; rw [Cst.lookup_empty] at h; cases h)).1, by omega⟩
    cases hs : suites (E := E) r fuel (fs.flatMap (·.structs)) (St.init seed) with
    | err m => rw [hs] at h; cases h
    | panic m => rw [hs] at h; cases h
    | timeout => rw [hs] at h; cases h
    | ok p =>
      obtain ⟨ss, st⟩ := p
      rw [hs] at h
      cases h
      have hall := fun L hL => suites_pres (L := L) h0 hx hL (fun s hs he => Verif.Refine.defined_struct hcomp hs he) _ _ _
        (⟨by intro c hc; simp [St.init] at hc, by
          intro a c k x _ hx'
          simp [St.env, St.map, St.init, Cst.lookup_empty] at hx'⟩) hs
      intro t ht v hv
      rcases hx.lens with hl | ⟨L, M, w, hw, hl⟩
      · obtain ⟨o, ho, rfl⟩ := List.mem_map.1 ht
        obtain ⟨w, hw, rfl⟩ := List.mem_map.1 hv
        refine ⟨_, ctxFor_ok hx fun c k x hc hx' => ?_⟩
        exact ((hall (fun _ => False) fun n s hs he u hu ref e h => h (hl n s hs he u hu ref e)).2 w.cst c k x hc hx').resolve_left id
      · have hb := (generateFiles_bounds hsel h' hw t ht v hv).2
        obtain ⟨o, ho, rfl⟩ := List.mem_map.1 ht
        obtain ⟨w, hw, rfl⟩ := List.mem_map.1 hv
        refine ⟨_, ctxFor_ok hx fun c k x hc hx' => ?_⟩
        rcases (hall L hl.lens).2 w.cst c k x hc hx' with hL | he
        · exact hl.entry hc hL (hb c k x hc hL hx').1 (hb c k x hc hL hx').2
        · exact he

end Verif.Tv
