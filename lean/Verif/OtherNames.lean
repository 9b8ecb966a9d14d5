import Verif.Static
import Verif.TypedLemmas
/-!
# A format under other Go names

For C82. The encodings of values do not depend on how identifiers are called in Go.
-/
namespace Verif.Wire
open Verif.Ast Verif.Go Verif.Spec

/-- The same format with other Go names and other user code. -/
abbrev Fmt.with (Γ : Fmt) (nm : String → String) (ext : Ext) : Fmt := { Γ with nm := nm, ext := ext }

/-- Context values agree, up to the names of fields. -/
def CtxAlike (Γ : Fmt) (nm : String → String) (ctx ctx' : Ctx) : Prop :=
  ∀ c C, Γ.contexts c = some C → ∀ f ∈ C.members, getF (ctx c) (Γ.nm f.name) = getF (ctx' c) (nm f.name)

/-- User code for extern structs does the same under the other names. -/
def ExtAlike (Γ : Fmt) (nm : String → String) (ext : Ext) (ctx ctx' : Ctx) : Prop :=
  ∀ n s, Γ.structs n = some s → s.extern = true → ∀ i,
    ext (nm n) (s.contexts.map fun c => .struct (ctx' c)) i = Γ.ext (Γ.nm n) (s.contexts.map fun c => .struct (ctx c)) i

/-- The value of an element under other names, given that of structs. -/
def trBase (T : String → Val → Val) : Base → Val → Val
  | .struct n, v => T n v
  | _, v => v

/-- The value of a field under other names. -/
def trTy (T : String → Val → Val) : Ty → Val → Val
  | .base b, v => trBase T b v
  | .fixedArray b _, .array vs => .array (vs.map (trBase T b))
  | .varArray b _, .slice vs => .slice (vs.map (trBase T b))
  | _, v => v

/-- A record under other names. -/
def trFields (Γ : Fmt) (nm : String → String) (T : String → Val → Val) (s : Struct) (o : Fields) : Fields :=
  (fieldsOf s.ms).map fun f => (nm f.name, trTy T f.type ((getF o (Γ.nm f.name)).getD .nil))

/-- The value of a struct under other names, at nesting depth at most `d`. What user code makes is kept. -/
def trStruct (Γ : Fmt) (nm : String → String) : Nat → String → Val → Val
  | d + 1, n, .obj T o =>
    match Γ.structs n with
    | some s =>
      if s.extern = false ∧ o.map (·.1) = (fieldsOf s.ms).map (fun f => Γ.nm f.name) ∧ ((fieldsOf s.ms).map fun f => Γ.nm f.name).Nodup
      then .obj (nm n) (trFields Γ nm (trStruct Γ nm d) s o) else .obj T o
    | none => .obj T o
  | _, _, v => v

theorem trStruct_nil (Γ : Fmt) (nm : String → String) (d : Nat) (n : String) : trStruct Γ nm d n .nil = .nil := by
  cases d <;> rfl

theorem trStruct_extern {Γ : Fmt} {nm : String → String} {n : String} {s : Struct} (h : Γ.structs n = some s) (he : s.extern = true)
    (d : Nat) (v : Val) : trStruct Γ nm d n v = v := by
  cases d with
  | zero => rfl
  | succ d => cases v <;> simp [trStruct, h, he]

/-- The same numbers and bytes in the same places; names of types and fields may differ. -/
inductive SameData : Val → Val → Prop
  | refl (v : Val) : SameData v v
  | array {vs ws : List Val} : List.Forall₂ SameData vs ws → SameData (.array vs) (.array ws)
  | slice {vs ws : List Val} : List.Forall₂ SameData vs ws → SameData (.slice vs) (.slice ws)
  | obj {T T' : String} {o o' : Fields} : List.Forall₂ SameData (o.map (·.2)) (o'.map (·.2)) → SameData (.obj T o) (.obj T' o')

theorem trBase_data {T : String → Val → Val} (hT : ∀ n v, SameData v (T n v)) (b : Base) (v : Val) : SameData v (trBase T b v) := by
  cases b <;> first | exact .refl v | exact hT _ v

theorem trTy_data {T : String → Val → Val} (hT : ∀ n v, SameData v (T n v)) (t : Ty) (v : Val) : SameData v (trTy T t v) := by
  have hl : ∀ (b : Base) (vs : List Val), List.Forall₂ SameData vs (vs.map (trBase T b)) := fun b vs => by
    induction vs with
    | nil => exact .nil
    | cons a l ih => exact .cons (trBase_data hT b a) ih
  unfold trTy
  split
  · exact trBase_data hT _ _
  · exact .array (hl _ _)
  · exact .slice (hl _ _)
  · exact .refl _

/-- A record is determined by what its fields are. -/
theorem fields_eq {α : Type} (k : α → String) : ∀ {l : List α} {o : Fields}, o.map (·.1) = l.map k → (l.map k).Nodup →
    o.map (·.2) = l.map fun a => (getF o (k a)).getD .nil
  | [], [], _, _ => rfl
  | [], _ :: _, h, _ => by cases h
  | _ :: _, [], h, _ => by cases h
  | a :: l, (x, v) :: o, h, hn => by
    simp only [List.map_cons, List.cons.injEq, List.nodup_cons] at h hn
    obtain ⟨rfl, h⟩ := h
    rw [List.map_cons, List.map_cons, fields_eq k h hn.2]
    congr 1
    · simp [getF]
    · refine List.map_congr_left fun b hb => ?_
      have : k b ≠ k a := fun e => hn.1 (e ▸ List.mem_map_of_mem hb)
      have hb : (k b == k a) = false := by simpa using this
      simp only [getF, List.lookup_cons, hb]

theorem trStruct_data (Γ : Fmt) (nm : String → String) : ∀ (d : Nat) (n : String) (v : Val), SameData v (trStruct Γ nm d n v)
  | 0, _, v => by rw [trStruct]; exact .refl v; simp
  | d + 1, n, v => by
    have ih := trStruct_data Γ nm d
    unfold trStruct
    split
    · next T o =>
      split
      · next s hs =>
        split
        · next h =>
          refine .obj ?_
          rw [fields_eq (fun f : Field => Γ.nm f.name) h.2.1 h.2.2, trFields, List.map_map, List.forall₂_map_left_iff,
            List.forall₂_map_right_iff]
          exact List.forall₂_same.2 fun f _ => trTy_data (by simp_all) f.type _
        · exact .refl _
      · exact .refl _
    · exact .refl _

section
variable {Γ : Fmt} {nm : String → String} {ext : Ext} {ctx ctx' : Ctx} {P P' : SRel} {T : String → Val → Val} {s : Struct} {o : Fields}
  {D : Nat}
  (hP : ∀ n v i r, P n v i r → P' n (T n v) i r) (hT : ∀ n, T n .nil = .nil) (hc : CtxAlike Γ nm ctx ctx')
  (hn : ((fieldsOf s.ms).map fun f => nm f.name).Nodup)

include hP in
theorem encBase_tr {b : Base} {v : Val} {i r : Bytes} (h : EncBase Γ P b v i r) : EncBase (Γ.with nm ext) P' b (trBase T b v) i r := by
  cases b with
  | int t => exact h
  | char => exact h
  | struct n => exact hP n v i r h

include hP in
theorem encList_tr {b : Base} : ∀ {vs : List Val} {i r : Bytes}, EncList Γ P b vs i r →
    EncList (Γ.with nm ext) P' b (vs.map (trBase T b)) i r
  | [], _, _, h => h
  | _ :: _, _, _, ⟨m, h1, h2⟩ => ⟨m, encBase_tr hP h1, encList_tr h2⟩

include hP in
theorem encRem_tr {b : Base} : ∀ {vs : List Val} {i : Bytes}, EncRem Γ P b vs i → EncRem (Γ.with nm ext) P' b (vs.map (trBase T b)) i
  | [], _, h => h
  | _ :: _, _, ⟨h0, m, h1, h2⟩ => ⟨h0, m, encBase_tr hP h1, encRem_tr h2⟩

include hT in
theorem trBase_zero (b : Base) : trBase T b (zeroBase b) = zeroBase b := by
  cases b <;> simp [trBase, zeroBase, hT]

include hT in
theorem trTy_zero (t : Ty) : trTy T t (zeroTy Γ t) = zeroTy (Γ.with nm ext) t := by
  cases t with
  | base b => exact trBase_zero hT b
  | fixedArray b n => simp [trTy, zeroTy, trBase_zero hT]
  | _ => rfl

include hn in
theorem getF_tr {f : Field} (hf : f ∈ fieldsOf s.ms) {v : Val} (h : getF o (Γ.nm f.name) = some v) :
    getF (trFields Γ nm T s o) (nm f.name) = some (trTy T f.type v) := by
  have := getF_map_mem (fun f : Field => nm f.name) (fun f => trTy T f.type ((getF o (Γ.nm f.name)).getD .nil)) hn hf
  rw [trFields]
  simpa [h] using this

include hc hn in
theorem refVal_tr {r : IDRef} (hr : RefOK Γ s r) {x : Int} (h : refVal Γ ctx o r = some x) :
    refVal (Γ.with nm ext) ctx' (trFields Γ nm T s o) r = some x := by
  unfold refVal at h ⊢
  unfold RefOK at hr
  by_cases hs : r.scope = ""
  · rw [if_pos hs] at hr h ⊢
    obtain ⟨f, hf, hfn, hi⟩ := hr
    rw [← hfn] at h ⊢
    cases hg : getF o (Γ.nm f.name) with
    | none => rw [hg] at h; cases h
    | some v =>
      rw [hg] at h
      rw [getF_tr hn hf hg]
      have e : trTy T f.type v = v := by
        generalize f.type = t at hi
        cases t with
        | base b => cases b <;> first | rfl | exact hi.elim
        | ptr => rfl
        | _ => exact hi.elim
      rw [e]
      exact h
  · rw [if_neg hs] at hr h ⊢
    obtain ⟨-, C, hC, f, hf, hfn, -⟩ := hr
    rw [← hfn] at h ⊢
    rw [← hc _ C hC f hf]
    exact h

include hc hn in
theorem window_tr {c : LengthConstraint} (hl : LenOK Γ s c) {i win r : Bytes} (h : Window Γ ctx o c i win r) :
    Window (Γ.with nm ext) ctx' (trFields Γ nm T s o) c i win r := by
  refine ⟨h.1, ?_⟩
  cases c with
  | leftover k => exact h.2
  | idRef x => exact refVal_tr hc hn hl h.2

include hP hc hn in
theorem encTy_tr {t : Ty} (ht : TyOK Γ s t) {v : Val} {i r : Bytes} (h : EncTy Γ P ctx D o t v i r) :
    EncTy (Γ.with nm ext) P' ctx' D (trFields Γ nm T s o) t (trTy T t v) i r := by
  cases t with
  | base b => exact encBase_tr hP h
  | ptr => exact h
  | nulterm => exact h
  | fixedArray b n =>
    obtain ⟨vs, rfl, h1, h2⟩ := h
    exact ⟨_, rfl, by simpa using h1, encList_tr hP h2⟩
  | varArray b c =>
    rcases c with _ | c
    · obtain ⟨vs, rfl, h1, h2⟩ := h
      exact ⟨_, rfl, encRem_tr hP h1, h2⟩
    · cases c with
      | leftover k =>
        obtain ⟨vs, win, rfl, h1, h2⟩ := h
        exact ⟨_, win, rfl, window_tr hc hn ht.2 h1, encRem_tr hP h2⟩
      | idRef x =>
        obtain ⟨vs, rfl, h1, h2⟩ := h
        exact ⟨_, rfl, by simpa using refVal_tr (T := T) (ext := ext) hc hn ht.2 h1, encList_tr hP h2⟩

include hP hc hn in
theorem encLeaf_tr {l : Leaf} (hl : LeafOK Γ s l) (hm : ∀ f, l = .field f → f ∈ fieldsOf s.ms) {i r : Bytes}
    (h : EncLeaf Γ P ctx D o l i r) : EncLeaf (Γ.with nm ext) P' ctx' D (trFields Γ nm T s o) l i r := by
  cases l with
  | field f =>
    obtain ⟨v, h1, h2⟩ := h
    exact ⟨_, getF_tr hn (hm f rfl) h1, encTy_tr hP hc hn hl h2⟩
  | _ => exact h

include hP hc hn in
theorem encLeaves_tr : ∀ {ls : List Leaf}, (∀ l ∈ ls, LeafOK Γ s l) → (∀ f, .field f ∈ ls → f ∈ fieldsOf s.ms) →
    ∀ {i r : Bytes}, EncLeaves Γ P ctx D o ls i r → EncLeaves (Γ.with nm ext) P' ctx' D (trFields Γ nm T s o) ls i r
  | [], _, _, _, _, h => h
  | l :: ls, hl, hm, _, _, ⟨m, h1, h2⟩ =>
    ⟨m, encLeaf_tr hP hc hn (hl l List.mem_cons_self) (fun f e => hm f (e ▸ List.mem_cons_self)) h1,
      encLeaves_tr (fun l' h => hl l' (List.mem_cons_of_mem _ h)) (fun f h => hm f (List.mem_cons_of_mem _ h)) h2⟩

theorem mem_leafFields_tr {ls : List Leaf} {f : Field} : f ∈ leafFields ls ↔ .field f ∈ ls := by
  simp only [leafFields, List.mem_filterMap]
  constructor
  · rintro ⟨l, hl, h⟩
    cases l <;> simp_all
  · exact fun h => ⟨_, h, rfl⟩

include hP hT hc hn in
theorem encCases_tr {u : UnionMember} (hu : MemberOK Γ s (.union u)) (hm : ∀ f ∈ memberFields (.union u), f ∈ fieldsOf s.ms) {i r : Bytes}
    (h : EncCases Γ P ctx D o u i r) : EncCases (Γ.with nm ext) P' ctx' D (trFields Γ nm T s o) u i r := by
  obtain ⟨x, h1, h2, h3⟩ := h
  refine ⟨x, refVal_tr hc hn hu.1 h1, ?_, fun c hcm hne f hf => ?_⟩
  · show match selectCase Γ.K u.cases x with
      | some c => EncLeaves (Γ.with nm ext) P' ctx' D (trFields Γ nm T s o) c.members i r
      | none => i = r
    cases hsel : selectCase Γ.K u.cases x with
    | none => rw [hsel] at h2; exact h2
    | some c =>
      rw [hsel] at h2
      have hcm : c ∈ u.cases := selectCase_mem hsel
      exact encLeaves_tr hP hc hn (hu.2.2 c hcm).2
        (fun f hf => hm f (List.mem_flatMap.2 ⟨c, hcm, mem_leafFields_tr.2 hf⟩)) h2
  · have := getF_tr (T := T) hn (hm f (List.mem_flatMap.2 ⟨c, hcm, hf⟩)) (h3 c hcm hne f hf)
    rwa [trTy_zero (nm := nm) (ext := ext) hT] at this

include hP hT hc hn in
theorem encMember_tr {m : Member} (hok : MemberOK Γ s m) (hm : ∀ f ∈ memberFields m, f ∈ fieldsOf s.ms) {i r : Bytes}
    (h : EncMember Γ P ctx D o m i r) : EncMember (Γ.with nm ext) P' ctx' D (trFields Γ nm T s o) m i r := by
  cases m with
  | leaf l => exact encLeaf_tr hP hc hn hok (fun f e => hm f (e ▸ mem_leafFields_tr.2 List.mem_cons_self)) h
  | union u =>
    simp only [EncMember] at h ⊢
    cases hl : u.length with
    | none =>
      rw [hl] at h
      exact encCases_tr hP hT hc hn hok hm h
    | some c =>
      rw [hl] at h
      obtain ⟨win, h1, h2⟩ := h
      exact ⟨win, window_tr hc hn (hok.2.1 c hl) h1, encCases_tr hP hT hc hn hok hm h2⟩

include hP hT hc hn in
theorem encMembers_tr : ∀ {ms : List Member}, (∀ m ∈ ms, MemberOK Γ s m) → (∀ m ∈ ms, ∀ f ∈ memberFields m, f ∈ fieldsOf s.ms) →
    ∀ {i r : Bytes}, EncMembers Γ P ctx D o ms i r → EncMembers (Γ.with nm ext) P' ctx' D (trFields Γ nm T s o) ms i r
  | [], _, _, _, _, h => h
  | m :: ms, hok, hm, _, _, ⟨k, h1, h2⟩ =>
    ⟨k, encMember_tr hP hT hc hn (hok m List.mem_cons_self) (hm m List.mem_cons_self) h1,
      encMembers_tr (fun m' h => hok m' (List.mem_cons_of_mem _ h)) (fun m' h => hm m' (List.mem_cons_of_mem _ h)) h2⟩

end

/-- An encoding of a value is one of the value with other names. -/
theorem encStruct_tr {Γ : Fmt} {nm : String → String} {ext : Ext} {ctx ctx' : Ctx} (hΓ : FmtOK Γ)
    (hn : ∀ n s, Γ.structs n = some s → s.extern = false → ((fieldsOf s.ms).map fun f => nm f.name).Nodup)
    (hc : CtxAlike Γ nm ctx ctx') (hx : ExtAlike Γ nm ext ctx ctx') :
    ∀ (d : Nat) (n : String) (v : Val) (i r : Bytes), EncStruct Γ ctx d n v i r →
      EncStruct (Γ.with nm ext) ctx' d n (trStruct Γ nm d n v) i r
  | 0, _, _, _, _, h => h.elim
  | d + 1, n, v, i, r, ⟨s, hs, h⟩ => by
    refine ⟨s, hs, ?_⟩
    cases he : s.extern with
    | true =>
      rw [he, if_pos rfl] at h
      rw [if_pos rfl, trStruct_extern hs he]
      obtain ⟨k, h1, h2⟩ := h
      exact ⟨k, (hx n s hs he i).trans h1, h2⟩
    | false =>
      rw [he, if_neg (by simp)] at h
      rw [if_neg (by simp)]
      obtain ⟨o, rfl, h1, h2⟩ := h
      refine ⟨trFields Γ nm (trStruct Γ nm d) s o, by
        rw [trStruct, hs]; exact if_pos ⟨he, h1, (hΓ.structs n s hs he).fields⟩, ?_, ?_⟩
      · simp [HasFields, trFields, Function.comp_def]
      · exact encMembers_tr (encStruct_tr hΓ hn hc hx d) (trStruct_nil Γ nm d) hc (hn n s hs he) (hΓ.structs n s hs he).members
          (fun m hm f hf => List.mem_flatMap.2 ⟨m, hm, hf⟩) h2

end Verif.Wire
