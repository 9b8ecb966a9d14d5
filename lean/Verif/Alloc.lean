import Verif.Safety
/-!
# How large slices the reference decoder makes

The limit `A` on `make` (gen/decl.go:229) does not matter once it admits all values of the fields that
give numbers of elements.
-/
set_option linter.unusedVariables false
namespace Verif.Wire
open Verif.Ast Verif.Go Verif.Spec Verif.Refine

/-! ## Specification: widths of counts -/

/-- Number types of at most `k` bits. -/
def Bits (k : Nat) : Ty → Prop
  | .base (.int t) => t.size ≤ k
  | .base .char => 8 ≤ k
  | _ => False

/-- The field a reference names has at most `k` bits. -/
def RefBits (Γ : Fmt) (k : Nat) (s : Struct) (r : IDRef) : Prop :=
  if r.scope = "" then ∀ f ∈ fieldsOf s.ms, f.name = r.name → Bits k f.type
  else ∀ C, Γ.contexts r.scope = some C → ∀ f ∈ C.members, f.name = r.name → Bits k f.type

/-- The number of elements of an array has at most `k` bits. -/
def LeafBits (Γ : Fmt) (k : Nat) (s : Struct) : Leaf → Prop
  | .field ⟨_, .varArray _ (some (.idRef r))⟩ => RefBits Γ k s r
  | _ => True

/-- The numbers of elements of arrays in a member have at most `k` bits. -/
def MemberBits (Γ : Fmt) (k : Nat) (s : Struct) : Member → Prop
  | .leaf l => LeafBits Γ k s l
  | .union u => ∀ c ∈ u.cases, ∀ l ∈ c.members, LeafBits Γ k s l

/-- Every field that gives the number of elements of an array has at most `k` bits. -/
def CountBits (Γ : Fmt) (k : Nat) : Prop :=
  ∀ n s, Γ.structs n = some s → s.extern = false → ∀ m ∈ s.ms, MemberBits Γ k s m

/-! ## The limit does not matter -/

variable {Γ : Fmt} {A A' : Nat} {S S' : SDec} {L : Nat} {ctx : Ctx} {D : Nat} {s : Struct} {k : Nat}

theorem bind_same {α β : Type} {x y : DOut α} {f g : α → DOut β} (hx : x = y) (hf : ∀ a, x = .ok a → f a = g a) :
    (x >>= f) = (y >>= g) := by
  subst hx
  cases x with
  | ok a => exact hf a rfl
  | err m => rfl
  | panic m => rfl
  | timeout => rfl

/-- Two decoders agree on declared structs. -/
def SameS (Γ : Fmt) (S S' : SDec) : Prop := ∀ n s w, Γ.structs n = some s → w.length < 2 ^ 63 → S n w = S' n w

theorem decBase_same (hS : SameS Γ S S') {b : Base} (hb : BaseOK Γ s b) {w : Bytes} (hw : w.length < 2 ^ 63) :
    decBase Γ S b w = decBase Γ S' b w := by
  cases b with
  | int t => rfl
  | char => rfl
  | struct n => obtain ⟨s', hs', _⟩ := hb; exact hS n s' w hs' hw

theorem decCount_same (hS : SameS Γ S S') (hsuf : S.Suffix) {b : Base} (hb : BaseOK Γ s b) {n : Int} :
    ∀ (j : Nat) (idx : Int) acc (w : Bytes), w.length < 2 ^ 63 →
    decCount (decBase Γ S b) n j idx acc w = decCount (decBase Γ S' b) n j idx acc w := by
  intro j
  induction j with
  | zero => intro idx acc w _; rfl
  | succ j ih =>
    intro idx acc w hw
    unfold decCount
    split
    · exact bind_same (decBase_same hS hb hw) fun a ha => ih _ _ _ (Nat.lt_of_le_of_lt (decBase_suffix hsuf ha).length_le hw)
    · rfl

theorem decRem_same (hS : SameS Γ S S') (hsuf : S.Suffix) {b : Base} (hb : BaseOK Γ s b) : ∀ (j : Nat) acc (w : Bytes),
    w.length < 2 ^ 63 → decRem (decBase Γ S b) j acc w = decRem (decBase Γ S' b) j acc w := by
  intro j
  induction j with
  | zero => intro acc w _; rfl
  | succ j ih =>
    intro acc w hw
    unfold decRem
    split
    · exact bind_same (decBase_same hS hb hw) fun a ha => ih _ _ (Nat.lt_of_le_of_lt (decBase_suffix hsuf ha).length_le hw)
    · rfl

theorem decConstrained_same {α : Type} {o : Fields} {c : LengthConstraint} {w : Bytes} {f g : Bytes → DOut (α × Bytes)}
    (h : ∀ w' : Bytes, w'.length ≤ w.length → f w' = g w') : decConstrained Γ ctx o c w f = decConstrained Γ ctx o c w g := by
  have hwin : ∀ n : Int, decWindow n w f = decWindow n w g := by
    intro n
    unfold decWindow
    rw [h _ (by rw [List.length_take]; exact Nat.min_le_right _ _)]
  cases c <;> simp only [decConstrained, hwin]

theorem bits_lt {t : Ty} {x : Int} (hi : Bits k t) (h : NumOK t x) : x < 2 ^ k := by
  have mono : ∀ {a b : Nat}, a ≤ b → (2 : Int) ^ a ≤ 2 ^ b := fun hab => by
    have := Nat.pow_le_pow_right (n := 2) (by decide) hab
    exact_mod_cast this
  cases t with
  | base b =>
    cases b with
    | int t => exact Int.lt_of_lt_of_le h.2 (mono hi)
    | char => exact Int.lt_of_lt_of_le h.2 (mono (a := 8) hi)
    | struct n => exact hi.elim
  | ptr => exact hi.elim
  | nulterm => exact hi.elim
  | fixedArray b n => exact hi.elim
  | varArray b c => exact hi.elim

theorem RefBits.val (hctx : CtxOK Γ ctx) {o : Fields} (ho : Typed Γ s o) {r : IDRef} (h : RefOK Γ s r)
    (hn : RefBits Γ k s r) : ∃ x, refVal Γ ctx o r = some x ∧ 0 ≤ x ∧ x < 2 ^ k := by
  unfold RefOK at h
  unfold RefBits at hn
  by_cases h0 : r.scope = ""
  · rw [if_pos h0] at h hn
    obtain ⟨f, hf, he, hi⟩ := h
    obtain ⟨v, hv, hs⟩ := ho f hf
    obtain ⟨x, rfl, hx⟩ := shape_num hi hs
    exact ⟨x, by simp [refVal, h0, ← he, hv], (numOK_lt hi hx).1, bits_lt (hn f hf he) hx⟩
  · rw [if_neg h0] at h hn
    obtain ⟨hs, C, hC, f, hf, he, hi⟩ := h
    obtain ⟨x, hx, hx'⟩ := hctx _ C hC f hf hi
    exact ⟨x, by simp [refVal, h0, ← he, hx], (numOK_lt hi hx').1, bits_lt (hn C hC f hf he) hx'⟩

theorem decTy_same (hS : SameS Γ S S') (hsuf : S.Suffix) (hctx : CtxOK Γ ctx) (hA : 2 ^ k ≤ A + 1) (hA' : 2 ^ k ≤ A' + 1)
    {o : Fields} (ho : Typed Γ s o) {f : Field} (ht : TyOK Γ s f.type) (hn : LeafBits Γ k s (.field f)) {w : Bytes}
    (hw : w.length < 2 ^ 63) : decTy Γ A S L ctx D o w f.type = decTy Γ A' S' L ctx D o w f.type := by
  obtain ⟨nm, t⟩ := f
  cases t with
  | base b => exact decBase_same hS ht hw
  | ptr => rfl
  | nulterm => rfl
  | fixedArray b n =>
    obtain ⟨hb, x, hx, _⟩ := ht
    simp only [decTy, hx]
    exact bind_same (decCount_same hS hsuf hb _ _ _ _ hw) fun a _ => rfl
  | varArray b c =>
    match c with
    | none => exact bind_same (decRem_same hS hsuf ht _ _ _ hw) fun a _ => rfl
    | some (.leftover j) =>
      simp only [decTy]
      exact decConstrained_same fun w' h =>
        bind_same (decRem_same hS hsuf ht.1 L [] w' (Nat.lt_of_le_of_lt h hw)) fun a _ => rfl
    | some (.idRef r) =>
      obtain ⟨x, hx, h0, h1⟩ := RefBits.val hctx ho ht.2 hn
      have hwx : wrap64 x ≤ x := by unfold wrap64; omega
      have e1 : ((2 : Int) ^ k) ≤ A + 1 := by exact_mod_cast hA
      have e2 : ((2 : Int) ^ k) ≤ A' + 1 := by exact_mod_cast hA'
      simp only [decTy, hx]
      by_cases hneg : wrap64 x < 0
      · rw [if_pos (Or.inl hneg), if_pos (Or.inl hneg)]
      · rw [if_neg (by omega), if_neg (by omega)]
        exact bind_same (decCount_same hS hsuf ht.1 _ _ _ _ hw) fun a _ => rfl

theorem decLeaf_same (hS : SameS Γ S S') (hsuf : S.Suffix) (hctx : CtxOK Γ ctx) (hA : 2 ^ k ≤ A + 1) (hA' : 2 ^ k ≤ A' + 1)
    {o : Fields} (ho : Typed Γ s o) {l : Leaf} (hl : LeafOK Γ s l) (hn : LeafBits Γ k s l) {w : Bytes} (hw : w.length < 2 ^ 63) :
    decLeaf Γ A S L ctx D o w l = decLeaf Γ A' S' L ctx D o w l := by
  cases l with
  | field f => exact bind_same (decTy_same hS hsuf hctx hA hA' ho hl hn hw) fun a _ => rfl
  | eos => rfl
  | ignore => rfl
  | fail => rfl

theorem decLeaves_same (hS : SameS Γ S S') (hsuf : S.Suffix) (hctx : CtxOK Γ ctx) (hA : 2 ^ k ≤ A + 1) (hA' : 2 ^ k ≤ A' + 1)
    (hs : StructOK Γ s) (hD : D < 2 ^ 63) :
    ∀ {ls : List Leaf} {o : Fields} {w : Bytes}, Typed Γ s o → (∀ l ∈ ls, LeafOK Γ s l) → (∀ l ∈ ls, LeafBits Γ k s l) →
    (∀ f ∈ leafFields ls, f ∈ fieldsOf s.ms) → w.length ≤ D →
    decLeaves Γ A S L ctx D ls o w = decLeaves Γ A' S' L ctx D ls o w := by
  intro ls
  induction ls with
  | nil => intro o w _ _ _ _ _; rfl
  | cons l ls ih =>
    intro o w ho hl hn hf hw
    obtain ⟨hf1, hf2⟩ := leafFields_split hf
    have hl1 := hl l List.mem_cons_self
    refine bind_same (decLeaf_same hS hsuf hctx hA hA' ho hl1 (hn l List.mem_cons_self) (by omega)) ?_
    rintro ⟨o1, w1⟩ h1
    exact ih (decLeaf_typed hs hl1 hf1 hD hw ho h1) (fun l' h' => hl l' (List.mem_cons_of_mem _ h'))
      (fun l' h' => hn l' (List.mem_cons_of_mem _ h')) hf2 (Nat.le_trans (decLeaf_suffix hsuf h1).length_le hw)

theorem decCases_same (hS : SameS Γ S S') (hsuf : S.Suffix) (hctx : CtxOK Γ ctx) (hA : 2 ^ k ≤ A + 1) (hA' : 2 ^ k ≤ A' + 1)
    (hs : StructOK Γ s) (hD : D < 2 ^ 63) {u : UnionMember} (hu : MemberOK Γ s (.union u)) (hn : MemberBits Γ k s (.union u))
    (hf : ∀ f ∈ memberFields (.union u), f ∈ fieldsOf s.ms)
    {o : Fields} {w : Bytes} (ho : Typed Γ s o) (hw : w.length ≤ D) :
    decCases Γ A S L ctx D u o w = decCases Γ A' S' L ctx D u o w := by
  obtain ⟨x, hx, _⟩ := RefOK.val hctx ho hu.1
  simp only [decCases, hx]
  split
  · rename_i c hc
    have hm := selectCase_mem hc
    exact decLeaves_same hS hsuf hctx hA hA' hs hD ho (hu.2.2 c hm).2 (hn c hm) (caseFields_sub hf hm) hw
  · rfl

theorem decMember_same (hS : SameS Γ S S') (hsuf : S.Suffix) (hctx : CtxOK Γ ctx) (hA : 2 ^ k ≤ A + 1) (hA' : 2 ^ k ≤ A' + 1)
    (hs : StructOK Γ s) (hD : D < 2 ^ 63) {m : Member} (hm : MemberOK Γ s m) (hn : MemberBits Γ k s m)
    (hf : ∀ f ∈ memberFields m, f ∈ fieldsOf s.ms) {o : Fields} {w : Bytes} (ho : Typed Γ s o) (hw : w.length ≤ D) :
    decMember Γ A S L ctx D o w m = decMember Γ A' S' L ctx D o w m := by
  cases m with
  | leaf l => exact decLeaf_same hS hsuf hctx hA hA' ho hm hn (by omega)
  | union u =>
    simp only [decMember]
    split
    · exact decCases_same hS hsuf hctx hA hA' hs hD hm hn hf ho hw
    · exact decConstrained_same fun w' h => decCases_same hS hsuf hctx hA hA' hs hD hm hn hf ho (by omega)

theorem decMembers_same (hS : SameS Γ S S') (hsuf : S.Suffix) (hctx : CtxOK Γ ctx) (hA : 2 ^ k ≤ A + 1) (hA' : 2 ^ k ≤ A' + 1)
    (hs : StructOK Γ s) (hD : D < 2 ^ 63) (hn : ∀ m ∈ s.ms, MemberBits Γ k s m) :
    ∀ {ms : List Member} {o : Fields} {w : Bytes}, (∀ m ∈ ms, m ∈ s.ms) → Typed Γ s o → w.length ≤ D →
    decMembers Γ A S L ctx D ms o w = decMembers Γ A' S' L ctx D ms o w := by
  intro ms
  induction ms with
  | nil => intro o w _ _ _; rfl
  | cons m ms ih =>
    intro o w hm ho hw
    have hmm := hm m List.mem_cons_self
    refine bind_same (decMember_same hS hsuf hctx hA hA' hs hD (hs.members m hmm) (hn m hmm) (fieldsOf_sub hmm) ho hw) ?_
    rintro ⟨o1, w1⟩ h1
    exact ih (fun m' h' => hm m' (List.mem_cons_of_mem _ h'))
      (decMember_typed hs hsuf hD (hs.members m hmm) (fieldsOf_sub hmm) hw ho h1)
      (Nat.le_trans (decMember_suffix hsuf h1).length_le hw)

/-- Two limits that admit all numbers of elements give the same outcome. -/
theorem decStruct_same (hΓ : FmtOK Γ) (hn : CountBits Γ k) (hctx : CtxOK Γ ctx) (hA : 2 ^ k ≤ A + 1) (hA' : 2 ^ k ≤ A' + 1) :
    ∀ fuel, SameS Γ (decStruct Γ A ctx fuel) (decStruct Γ A' ctx fuel) := by
  intro fuel
  induction fuel with
  | zero => intro n s w _ _; rfl
  | succ fuel ih =>
    intro n s w hs hw
    simp only [decStruct, hs]
    split
    · rfl
    · rename_i he
      have he' : s.extern = false := by simpa using he
      have hok := hΓ.structs n s hs he'
      exact bind_same (decMembers_same ih (decStruct_suffix fuel) hctx hA hA' hok hw (hn n s hs he') (fun _ h => h)
        (zeroObj_typed hok) (Nat.le_refl _)) fun a _ => rfl

end Verif.Wire
