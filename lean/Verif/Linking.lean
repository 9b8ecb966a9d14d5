import Verif.OtherNames
import Verif.Props.GenTotal
/-!
# Formats with more declarations

For C84. Encodings stay the same when extern structs are replaced by definitions that user code agrees with.
-/
namespace Verif.Wire
open Verif.Ast Verif.Go Verif.Spec Verif.Props

/-- Facts about structs. -/
abbrev Fact := String × Val × Bytes × Bytes

/-- The relation holds of the fact. -/
def Fact.Holds (P : SRel) (q : Fact) : Prop := P q.1 q.2.1 q.2.2.1 q.2.2.2

/-- `G` follows from finitely many facts about structs of `N`, which hold for `P`. -/
def Sup (P : SRel) (N : String → Prop) (G : SRel → Prop) : Prop :=
  ∃ L : List Fact, (∀ q ∈ L, N q.1 ∧ q.Holds P) ∧ ∀ P' : SRel, (∀ q ∈ L, q.Holds P') → G P'

section
variable {P : SRel} {N : String → Prop} {G H J : SRel → Prop}

theorem Sup.always (h : ∀ P', G P') : Sup P N G := ⟨[], by simp, fun P' _ => h P'⟩

theorem Sup.imp (h : Sup P N G) (hi : ∀ P', G P' → J P') : Sup P N J := by
  obtain ⟨L, h1, h2⟩ := h
  exact ⟨L, h1, fun P' h => hi P' (h2 P' h)⟩

theorem Sup.both (h : Sup P N G) (h' : Sup P N H) (hi : ∀ P', G P' → H P' → J P') : Sup P N J := by
  obtain ⟨L, h1, h2⟩ := h
  obtain ⟨L', h3, h4⟩ := h'
  refine ⟨L ++ L', fun q hq => ?_, fun P' h => hi P' (h2 P' fun q hq => h q (by simp [hq])) (h4 P' fun q hq => h q (by simp [hq]))⟩
  rcases List.mem_append.1 hq with h | h
  · exact h1 q h
  · exact h3 q h

theorem Sup.one {n : String} {v : Val} {i r : Bytes} (hn : N n) (h : P n v i r) : Sup P N (fun P' => P' n v i r) :=
  ⟨[(n, v, i, r)], by simpa [Fact.Holds] using ⟨hn, h⟩, fun P' h => by simpa [Fact.Holds] using h⟩

end

section
variable {Γ Γ' : Fmt} {P : SRel} {N : String → Prop} {ctx : Ctx} {D : Nat} {o : Fields}

/-- Both formats agree on the integers. -/
def Same (Γ Γ' : Fmt) (l : List Integer) : Prop := ∀ k ∈ l, ival Γ.K k = ival Γ'.K k

theorem rangeHas_link {x : Int} {q : IntegerRange} (h : Same Γ Γ' (q.low :: q.high.toList)) : rangeHas Γ.K x q = rangeHas Γ'.K x q := by
  obtain ⟨lo, hi⟩ := q
  have h1 : ival Γ.K lo = ival Γ'.K lo := h lo (by simp)
  cases hi with
  | none => simp [rangeHas, bounds, h1]
  | some hi =>
    have h2 : ival Γ.K hi = ival Γ'.K hi := h hi (by simp)
    simp [rangeHas, bounds, h1, h2]

theorem any_same {α : Type} {f g : α → Bool} {l : List α} (h : ∀ a ∈ l, f a = g a) : l.any f = l.any g := by
  induction l with
  | nil => rfl
  | cons a l ih => rw [List.any_cons, List.any_cons, h a List.mem_cons_self, ih fun b hb => h b (List.mem_cons_of_mem _ hb)]

theorem find_same {α : Type} {f g : α → Bool} {l : List α} (h : ∀ a ∈ l, f a = g a) : l.find? f = l.find? g := by
  induction l with
  | nil => rfl
  | cons a l ih => rw [List.find?_cons, List.find?_cons, h a List.mem_cons_self, ih fun b hb => h b (List.mem_cons_of_mem _ hb)]

theorem listHas_link {x : Int} {l : IntegerList} (h : Same Γ Γ' (listInts l)) : listHas Γ.K l x = listHas Γ'.K l x :=
  any_same fun q hq => rangeHas_link fun k hk => h k (List.mem_flatMap.2 ⟨q, hq, hk⟩)

theorem selectCase_link {x : Int} {cs : List UnionCase} (h : ∀ c ∈ cs, Same Γ Γ' (c.case.toList.flatMap listInts)) :
    selectCase Γ.K cs x = selectCase Γ'.K cs x := by
  unfold selectCase
  rw [find_same fun c hc => ?_]
  unfold caseHas
  cases hl : c.case with
  | none => rfl
  | some l => exact listHas_link fun k hk => h c hc k (by simp [hl, hk])

theorem encBase_sup {b : Base} (hN : ∀ n ∈ baseStructs b, N n) (hK : Same Γ Γ' (baseInts b)) {v : Val} {i r : Bytes}
    (h : EncBase Γ P b v i r) : Sup P N (fun P' => EncBase Γ' P' b v i r) := by
  cases b with
  | int t =>
    obtain ⟨bs, h1, h2, h3, h4⟩ := h
    refine .always fun _ => ⟨bs, h1, h2, h3, fun l hl => ?_⟩
    rw [← listHas_link fun k hk => hK k (by simp [baseInts, hl, hk])]
    exact h4 l hl
  | char => exact .always fun _ => h
  | struct n => exact .one (hN n (by simp [baseStructs])) h

theorem encList_sup {b : Base} (hN : ∀ n ∈ baseStructs b, N n) (hK : Same Γ Γ' (baseInts b)) : ∀ {vs : List Val} {i r : Bytes},
    EncList Γ P b vs i r → Sup P N (fun P' => EncList Γ' P' b vs i r)
  | [], _, _, h => .always fun _ => h
  | _ :: _, _, _, ⟨m, h1, h2⟩ => (encBase_sup hN hK h1).both (encList_sup hN hK h2) fun _ a b => ⟨m, a, b⟩

theorem encRem_sup {b : Base} (hN : ∀ n ∈ baseStructs b, N n) (hK : Same Γ Γ' (baseInts b)) : ∀ {vs : List Val} {i : Bytes},
    EncRem Γ P b vs i → Sup P N (fun P' => EncRem Γ' P' b vs i)
  | [], _, h => .always fun _ => h
  | _ :: _, _, ⟨h0, m, h1, h2⟩ => (encBase_sup hN hK h1).both (encRem_sup hN hK h2) fun _ a b => ⟨h0, m, a, b⟩

theorem refVal_link (hnm : Γ'.nm = Γ.nm) (x : IDRef) : refVal Γ' ctx o x = refVal Γ ctx o x := by
  unfold refVal
  rw [hnm]

theorem window_link (hnm : Γ'.nm = Γ.nm) {c : LengthConstraint} (hK : Same Γ Γ' (lenInts c)) {i win r : Bytes}
    (h : Window Γ ctx o c i win r) : Window Γ' ctx o c i win r := by
  refine ⟨h.1, ?_⟩
  cases c with
  | leftover k => exact (hK k (by simp [lenInts])).symm.trans h.2
  | idRef x => exact (refVal_link hnm x).trans h.2

theorem encTy_sup (hnm : Γ'.nm = Γ.nm) {t : Ty} (hN : ∀ n ∈ tyStructs t, N n) (hK : Same Γ Γ' (tyInts t)) {v : Val} {i r : Bytes}
    (h : EncTy Γ P ctx D o t v i r) : Sup P N (fun P' => EncTy Γ' P' ctx D o t v i r) := by
  cases t with
  | base b => exact encBase_sup hN hK h
  | ptr => exact .always fun _ => h
  | nulterm => exact .always fun _ => h
  | fixedArray b n =>
    obtain ⟨vs, rfl, h1, h2⟩ := h
    exact (encList_sup hN (fun k hk => hK k (by simp [tyInts, hk])) h2).imp fun _ a =>
      ⟨vs, rfl, (hK n (by simp [tyInts])).symm.trans h1, a⟩
  | varArray b c =>
    have hb : Same Γ Γ' (baseInts b) := fun k hk => hK k (by simp [tyInts, hk])
    rcases c with _ | c
    · obtain ⟨vs, rfl, h1, h2⟩ := h
      exact (encRem_sup hN hb h1).imp fun _ a => ⟨vs, rfl, a, h2⟩
    · cases c with
      | leftover k =>
        obtain ⟨vs, win, rfl, h1, h2⟩ := h
        exact (encRem_sup hN hb h2).imp fun _ a =>
          ⟨vs, win, rfl, window_link hnm (fun k hk => hK k (by simp [tyInts, hk])) h1, a⟩
      | idRef x =>
        obtain ⟨vs, rfl, h1, h2⟩ := h
        exact (encList_sup hN hb h2).imp fun _ a => ⟨vs, rfl, (refVal_link hnm x).trans h1, a⟩

theorem encLeaf_sup (hnm : Γ'.nm = Γ.nm) {l : Leaf} (hN : ∀ n ∈ leafStructs l, N n) (hK : Same Γ Γ' (leafInts l)) {i r : Bytes}
    (h : EncLeaf Γ P ctx D o l i r) : Sup P N (fun P' => EncLeaf Γ' P' ctx D o l i r) := by
  cases l with
  | field f =>
    obtain ⟨v, h1, h2⟩ := h
    exact (encTy_sup hnm hN hK h2).imp fun _ a => ⟨v, by rw [hnm]; exact h1, a⟩
  | _ => exact .always fun _ => h

theorem encLeaves_sup (hnm : Γ'.nm = Γ.nm) : ∀ {ls : List Leaf}, (∀ l ∈ ls, ∀ n ∈ leafStructs l, N n) →
    (∀ l ∈ ls, Same Γ Γ' (leafInts l)) → ∀ {i r : Bytes},
    EncLeaves Γ P ctx D o ls i r → Sup P N (fun P' => EncLeaves Γ' P' ctx D o ls i r)
  | [], _, _, _, _, h => .always fun _ => h
  | l :: _, hN, hK, _, _, ⟨m, h1, h2⟩ =>
    (encLeaf_sup hnm (hN l List.mem_cons_self) (hK l List.mem_cons_self) h1).both
      (encLeaves_sup hnm (fun l h => hN l (List.mem_cons_of_mem _ h)) (fun l h => hK l (List.mem_cons_of_mem _ h)) h2)
      fun _ a b => ⟨m, a, b⟩

theorem zeroTy_link {t : Ty} (hK : Same Γ Γ' (tyInts t)) : zeroTy Γ t = zeroTy Γ' t := by
  cases t with
  | fixedArray b n => simp only [zeroTy, hK n (by simp [tyInts])]
  | _ => rfl

theorem encCases_sup (hnm : Γ'.nm = Γ.nm) {u : UnionMember} (hN : ∀ n ∈ memberStructs (.union u), N n)
    (hK : Same Γ Γ' (memberInts (.union u))) {i r : Bytes} (h : EncCases Γ P ctx D o u i r) :
    Sup P N (fun P' => EncCases Γ' P' ctx D o u i r) := by
  obtain ⟨x, h1, h2, h3⟩ := h
  have hK1 : ∀ c ∈ u.cases, Same Γ Γ' (c.case.toList.flatMap listInts) := fun c hc k hk =>
    hK k (List.mem_append_right _ (List.mem_flatMap.2 ⟨c, hc, List.mem_append_left _ hk⟩))
  have hK2 : ∀ c ∈ u.cases, ∀ l ∈ c.members, Same Γ Γ' (leafInts l) := fun c hc l hl k hk =>
    hK k (List.mem_append_right _ (List.mem_flatMap.2 ⟨c, hc, List.mem_append_right _ (List.mem_flatMap.2 ⟨l, hl, hk⟩)⟩))
  have h3' : ∀ c ∈ u.cases, some c ≠ selectCase Γ'.K u.cases x → ∀ f ∈ leafFields c.members,
      getF o (Γ'.nm f.name) = some (zeroTy Γ' f.type) := by
    intro c hc hne f hf
    rw [hnm, ← zeroTy_link (hK2 c hc (.field f) (mem_leafFields_tr.1 hf))]
    exact h3 c hc (by rwa [selectCase_link hK1]) f hf
  have hx := (refVal_link (ctx := ctx) (o := o) hnm u.tag).trans h1
  have e := selectCase_link (x := x) hK1
  cases hsel : selectCase Γ.K u.cases x with
  | none =>
    rw [hsel] at h2
    exact .always fun _ => ⟨x, hx, by rw [← e, hsel]; exact h2, h3'⟩
  | some c =>
    rw [hsel] at h2
    have hc : c ∈ u.cases := selectCase_mem hsel
    exact (encLeaves_sup hnm (fun l hl n hn => hN n (List.mem_flatMap.2 ⟨c, hc, List.mem_flatMap.2 ⟨l, hl, hn⟩⟩)) (hK2 c hc) h2).imp
      fun _ a => ⟨x, hx, by rw [← e, hsel]; exact a, h3'⟩

theorem encMember_sup (hnm : Γ'.nm = Γ.nm) {m : Member} (hN : ∀ n ∈ memberStructs m, N n) (hK : Same Γ Γ' (memberInts m))
    {i r : Bytes} (h : EncMember Γ P ctx D o m i r) : Sup P N (fun P' => EncMember Γ' P' ctx D o m i r) := by
  cases m with
  | leaf l => exact encLeaf_sup hnm hN hK h
  | union u =>
    simp only [EncMember] at h ⊢
    cases hl : u.length with
    | none =>
      rw [hl] at h
      exact encCases_sup hnm hN hK h
    | some c =>
      rw [hl] at h
      obtain ⟨win, h1, h2⟩ := h
      exact (encCases_sup hnm hN hK h2).imp fun _ a =>
        ⟨win, window_link hnm (fun k hk => hK k (List.mem_append_left _ (by simp [hl, hk]))) h1, a⟩

theorem encMembers_sup (hnm : Γ'.nm = Γ.nm) : ∀ {ms : List Member}, (∀ m ∈ ms, ∀ n ∈ memberStructs m, N n) →
    (∀ m ∈ ms, Same Γ Γ' (memberInts m)) → ∀ {i r : Bytes},
    EncMembers Γ P ctx D o ms i r → Sup P N (fun P' => EncMembers Γ' P' ctx D o ms i r)
  | [], _, _, _, _, h => .always fun _ => h
  | l :: _, hN, hK, _, _, ⟨m, h1, h2⟩ =>
    (encMember_sup hnm (hN l List.mem_cons_self) (hK l List.mem_cons_self) h1).both
      (encMembers_sup hnm (fun l h => hN l (List.mem_cons_of_mem _ h)) (fun l h => hK l (List.mem_cons_of_mem _ h)) h2)
      fun _ a b => ⟨m, a, b⟩

end

/-- Deeper nesting is allowed. -/
theorem encStruct_deeper {Γ : Fmt} {ctx : Ctx} : ∀ {d d' : Nat}, d ≤ d' → ∀ {n : String} {v : Val} {i r : Bytes},
    EncStruct Γ ctx d n v i r → EncStruct Γ ctx d' n v i r
  | 0, _, _, _, _, _, _, h => h.elim
  | d + 1, 0, hd, _, _, _, _, _ => absurd hd (by omega)
  | d + 1, d' + 1, hd, n, v, i, r, ⟨s, hs, h⟩ => by
    refine ⟨s, hs, ?_⟩
    split
    · next he => rwa [if_pos he] at h
    · next he =>
      rw [if_neg he] at h
      obtain ⟨o, h1, h2, h3⟩ := h
      obtain ⟨L, hL, hG⟩ := encMembers_sup (Γ' := Γ) (N := fun _ => True) rfl (fun _ _ _ _ => trivial) (fun _ _ _ _ => rfl) h3
      exact ⟨o, h1, h2, hG _ fun q hq => encStruct_deeper (by omega) (hL q hq).2⟩

/-- Finitely many encodings have a common depth. -/
theorem common_depth {Γ : Fmt} {ctx : Ctx} : ∀ {L : List Fact}, (∀ q ∈ L, q.Holds (Enc Γ ctx)) → ∃ d, ∀ q ∈ L, q.Holds (EncStruct Γ ctx d)
  | [], _ => ⟨0, by simp⟩
  | q :: L, h => by
    obtain ⟨d, hd⟩ := common_depth fun q hq => h q (List.mem_cons_of_mem _ hq)
    obtain ⟨d', hd'⟩ := h q List.mem_cons_self
    refine ⟨max d d', fun x hx => ?_⟩
    rcases List.mem_cons.1 hx with rfl | hx
    · exact encStruct_deeper (by omega) hd'
    · exact encStruct_deeper (by omega) (hd x hx)

/-- What user code called at gen/decl.go:183-191 does: value and rest (specification). -/
def UserEnc (Γ : Fmt) (ctx : Ctx) (n : String) (s : Struct) (v : Val) (i r : Bytes) : Prop :=
  ∃ k, Γ.ext (Γ.nm n) (s.contexts.map fun c => .struct (ctx c)) i = .ok (v, k) ∧ r = i.drop k

/-- Structs defined in the first format are the same in the second. -/
structure Embeds (Γ Γ' : Fmt) : Prop where
  nm : Γ'.nm = Γ.nm
  structs : ∀ n s, Γ.structs n = some s → s.extern = false → Γ'.structs n = some s
  ints : ∀ n s, Γ.structs n = some s → s.extern = false → ∀ m ∈ s.ms, Same Γ Γ' (memberInts m)
  declared : ∀ n s, Γ.structs n = some s → s.extern = false → ∀ m ∈ s.ms, ∀ n' ∈ memberStructs m, ∃ s', Γ.structs n' = some s'

/-- User code for the structs that are extern in the first format does what these are in the second. -/
def Implements (Γ Γ' : Fmt) (ctx : Ctx) : Prop :=
  ∀ n s, Γ.structs n = some s → s.extern = true → ∀ v i r, UserEnc Γ ctx n s v i r ↔ Enc Γ' ctx n v i r

theorem enc_link {Γ Γ' : Fmt} {ctx : Ctx} (hk : Embeds Γ Γ') (hi : Implements Γ Γ' ctx) : ∀ (d : Nat) (n : String) (v : Val)
    (i r : Bytes), EncStruct Γ ctx d n v i r → Enc Γ' ctx n v i r
  | 0, _, _, _, _, h => h.elim
  | d + 1, n, v, i, r, ⟨s, hs, h⟩ => by
    cases he : s.extern with
    | true =>
      rw [he, if_pos rfl] at h
      exact (hi n s hs he v i r).1 h
    | false =>
      rw [he, if_neg (by simp)] at h
      obtain ⟨o, h1, h2, h3⟩ := h
      obtain ⟨L, hL, hG⟩ := encMembers_sup (N := fun _ => True) hk.nm (fun _ _ _ _ => trivial) (hk.ints n s hs he) h3
      obtain ⟨d', hd'⟩ := common_depth fun q hq => enc_link hk hi d _ _ _ _ (hL q hq).2
      refine ⟨d' + 1, s, hk.structs n s hs he, ?_⟩
      rw [he, if_neg (by simp)]
      exact ⟨o, by rw [hk.nm]; exact h1, by rw [HasFields, hk.nm]; exact h2, hG _ hd'⟩

theorem enc_unlink {Γ Γ' : Fmt} {ctx : Ctx} (hk : Embeds Γ Γ') (hi : Implements Γ Γ' ctx) : ∀ (d : Nat) (n : String) (s : Struct)
    (v : Val) (i r : Bytes), Γ.structs n = some s → EncStruct Γ' ctx d n v i r → Enc Γ ctx n v i r
  | 0, _, _, _, _, _, _, h => h.elim
  | d + 1, n, s, v, i, r, hs, h => by
    cases he : s.extern with
    | true =>
      refine ⟨1, s, hs, ?_⟩
      rw [he, if_pos rfl]
      exact (hi n s hs he v i r).2 ⟨d + 1, h⟩
    | false =>
      obtain ⟨s', hs', h⟩ := h
      rw [hk.structs n s hs he] at hs'
      cases hs'
      rw [he, if_neg (by simp)] at h
      obtain ⟨o, h1, h2, h3⟩ := h
      obtain ⟨L, hL, hG⟩ := encMembers_sup (Γ' := Γ) (N := fun n => ∃ s, Γ.structs n = some s) hk.nm.symm (hk.declared n s hs he)
        (fun m hm k hk' => (hk.ints n s hs he m hm k hk').symm) h3
      obtain ⟨d', hd'⟩ := common_depth (Γ := Γ) (ctx := ctx) (L := L) fun q hq =>
        enc_unlink hk hi d _ _ _ _ _ (hL q hq).1.choose_spec (hL q hq).2
      refine ⟨d' + 1, s, hs, ?_⟩
      rw [he, if_neg (by simp)]
      exact ⟨o, by rw [← hk.nm]; exact h1, by rw [HasFields, ← hk.nm]; exact h2, hG _ hd'⟩

end Verif.Wire
