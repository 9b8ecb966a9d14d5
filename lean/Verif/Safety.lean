import Verif.Sound
/-!
# When the reference decoder cannot panic
-/
set_option linter.unusedVariables false
namespace Verif.Wire
open Verif.Ast Verif.Go Verif.Spec Verif.Refine

/-! ## Specification: narrow lengths -/

/-- Number types of at most 32 bits. -/
def Narrow : Ty → Prop
  | .base (.int t) => t.size ≤ 32
  | .base .char => True
  | _ => False

/-- The field a reference names has at most 32 bits. -/
def NarrowRef (Γ : Fmt) (s : Struct) (r : IDRef) : Prop :=
  if r.scope = "" then ∀ f ∈ fieldsOf s.ms, f.name = r.name → Narrow f.type
  else ∀ C, Γ.contexts r.scope = some C → ∀ f ∈ C.members, f.name = r.name → Narrow f.type

/-- A length is an excess, or a field of at most 32 bits. -/
def NarrowLen (Γ : Fmt) (s : Struct) : LengthConstraint → Prop
  | .idRef r => NarrowRef Γ s r
  | .leftover _ => True

/-- The length of an array is narrow. -/
def NarrowLeaf (Γ : Fmt) (s : Struct) : Leaf → Prop
  | .field ⟨_, .varArray _ (some c)⟩ => NarrowLen Γ s c
  | _ => True

/-- Every length in a member is narrow. -/
def NarrowMember (Γ : Fmt) (s : Struct) : Member → Prop
  | .leaf l => NarrowLeaf Γ s l
  | .union u => (∀ c, u.length = some c → NarrowLen Γ s c) ∧ ∀ c ∈ u.cases, ∀ l ∈ c.members, NarrowLeaf Γ s l

/-- Every field used as the length of an array or union has at most 32 bits. -/
def NarrowFmt (Γ : Fmt) : Prop :=
  ∀ n s, Γ.structs n = some s → s.extern = false → ∀ m ∈ s.ms, NarrowMember Γ s m

/-! ## No panic -/

/-- Not a panic. -/
def NP {α : Type} (d : DOut α) : Prop := ∀ m, d ≠ .panic m

theorem NP.ok {α : Type} (a : α) : NP (.ok a : DOut α) := by intro m h; cases h
theorem NP.err {α : Type} (m : String) : NP (.err m : DOut α) := by intro m h; cases h
theorem NP.timeout {α : Type} : NP (.timeout : DOut α) := by intro m h; cases h

theorem NP.bind {α β : Type} {x : DOut α} {f : α → DOut β} (hx : NP x) (hf : ∀ a, x = .ok a → NP (f a)) : NP (x >>= f) := by
  cases x with
  | ok a => exact hf a rfl
  | err m => exact NP.err m
  | panic m => exact absurd rfl (hx m)
  | timeout => exact NP.timeout

variable {Γ : Fmt} {A : Nat} {S : SDec} {L : Nat} {ctx : Ctx} {D : Nat} {s : Struct}

/-- Declared structs do not panic. -/
def NPS (Γ : Fmt) (S : SDec) : Prop := ∀ n s w, Γ.structs n = some s → w.length < 2 ^ 63 → NP (S n w)

theorem decInt_np {t : IntType} {w : Bytes} : NP (decInt Γ t w) := by
  unfold decInt
  split
  · exact NP.err _
  · split
    · exact NP.ok _
    · split
      · exact NP.ok _
      · exact NP.err _

theorem decBase_np (hS : NPS Γ S) {b : Base} (hb : BaseOK Γ s b) {w : Bytes} (hw : w.length < 2 ^ 63) : NP (decBase Γ S b w) := by
  cases b with
  | int t => exact decInt_np
  | char => exact decInt_np (Γ := Γ)
  | struct n => obtain ⟨s', hs', _⟩ := hb; exact hS n s' w hs' hw

theorem decCount_np (hS : NPS Γ S) (hsuf : S.Suffix) {b : Base} (hb : BaseOK Γ s b) {n : Int} : ∀ (k : Nat) (idx : Int) acc (w : Bytes),
    w.length < 2 ^ 63 → NP (decCount (decBase Γ S b) n k idx acc w) := by
  intro k
  induction k with
  | zero => intro idx acc w _; exact NP.timeout
  | succ k ih =>
    intro idx acc w hw
    unfold decCount
    split
    · refine NP.bind (decBase_np hS hb hw) (fun a ha => ?_)
      exact ih _ _ _ (Nat.lt_of_le_of_lt (decBase_suffix hsuf ha).length_le hw)
    · exact NP.ok _

theorem decRem_np (hS : NPS Γ S) (hsuf : S.Suffix) {b : Base} (hb : BaseOK Γ s b) : ∀ (k : Nat) acc (w : Bytes),
    w.length < 2 ^ 63 → NP (decRem (decBase Γ S b) k acc w) := by
  intro k
  induction k with
  | zero => intro acc w _; exact NP.timeout
  | succ k ih =>
    intro acc w hw
    unfold decRem
    split
    · refine NP.bind (decBase_np hS hb hw) (fun a ha => ?_)
      exact ih _ _ (Nat.lt_of_le_of_lt (decBase_suffix hsuf ha).length_le hw)
    · exact NP.ok _

theorem decWindow_np {α : Type} {n : Int} {w : Bytes} {body : Bytes → DOut (α × Bytes)} (h0 : 0 ≤ n) (h1 : n ≤ w.length)
    (hb : ∀ w' : Bytes, w'.length ≤ w.length → NP (body w')) : NP (decWindow n w body) := by
  unfold decWindow
  rw [if_neg (by omega)]
  refine NP.bind (hb _ (by simp; omega)) (fun a _ => ?_)
  split
  · split
    · exact NP.err _
    · exact NP.ok _

theorem narrow_lt {t : Ty} {x : Int} (hi : Narrow t) (h : NumOK t x) : x < 2 ^ 32 := by
  cases t with
  | base b =>
    cases b with
    | int t =>
      obtain ⟨h1, h2⟩ := h
      have : (2 : Int) ^ t.size ≤ 2 ^ 32 := by
        have := Nat.pow_le_pow_right (n := 2) (by decide) hi
        exact_mod_cast this
      omega
    | char => obtain ⟨h1, h2⟩ := h; omega
    | struct n => exact hi.elim
  | ptr => exact hi.elim
  | nulterm => exact hi.elim
  | fixedArray b n => exact hi.elim
  | varArray b c => exact hi.elim

theorem NarrowRef.val (hctx : CtxOK Γ ctx) {o : Fields} (ho : Typed Γ s o) {r : IDRef} (h : RefOK Γ s r)
    (hn : NarrowRef Γ s r) : ∃ x, refVal Γ ctx o r = some x ∧ 0 ≤ x ∧ x < 2 ^ 32 := by
  unfold RefOK at h
  unfold NarrowRef at hn
  by_cases h0 : r.scope = ""
  · rw [if_pos h0] at h hn
    obtain ⟨f, hf, he, hi⟩ := h
    obtain ⟨v, hv, hs⟩ := ho f hf
    obtain ⟨x, rfl, hx⟩ := shape_num hi hs
    exact ⟨x, by simp [refVal, h0, ← he, hv], (numOK_lt hi hx).1, narrow_lt (hn f hf he) hx⟩
  · rw [if_neg h0] at h hn
    obtain ⟨hs, C, hC, f, hf, he, hi⟩ := h
    obtain ⟨x, hx, hx'⟩ := hctx _ C hC f hf hi
    exact ⟨x, by simp [refVal, h0, ← he, hx], (numOK_lt hi hx').1, narrow_lt (hn C hC f hf he) hx'⟩

theorem decConstrained_np {α : Type} (hctx : CtxOK Γ ctx) {o : Fields} (ho : Typed Γ s o) {c : LengthConstraint} (hc : LenOK Γ s c)
    (hn : NarrowLen Γ s c) {w : Bytes} (hw : w.length < 2 ^ 63) {body : Bytes → DOut (α × Bytes)}
    (hb : ∀ w' : Bytes, w'.length ≤ w.length → NP (body w')) : NP (decConstrained Γ ctx o c w body) := by
  cases c with
  | leftover k =>
    obtain ⟨x, hx, h0, h1⟩ := hc
    simp only [decConstrained, hx]
    split
    · exact NP.err _
    · exact decWindow_np (by omega) (by omega) hb
  | idRef r =>
    obtain ⟨x, hx, h0, h1⟩ := NarrowRef.val hctx ho hc hn
    simp only [decConstrained, hx]
    have hwx : wrap64 x = x := by unfold wrap64; omega
    rw [hwx]
    split
    · exact NP.err _
    · exact decWindow_np (by omega) (by omega) hb

theorem decRemArr_np (hS : NPS Γ S) (hsuf : S.Suffix) {b : Base} (hb : BaseOK Γ s b) {w : Bytes} (hw : w.length < 2 ^ 63) :
    NP (decRemArr Γ S L b w) :=
  NP.bind (decRem_np hS hsuf hb _ _ _ hw) (fun a _ => NP.ok _)

theorem decTy_np (hS : NPS Γ S) (hsuf : S.Suffix) (hctx : CtxOK Γ ctx) (hA : 2 ^ 32 ≤ A + 1) {o : Fields} (ho : Typed Γ s o)
    {f : Field} (ht : TyOK Γ s f.type) (hn : NarrowLeaf Γ s (.field f)) {w : Bytes} (hw : w.length < 2 ^ 63) :
    NP (decTy Γ A S L ctx D o w f.type) := by
  obtain ⟨nm, t⟩ := f
  cases t with
  | base b => exact decBase_np hS ht hw
  | ptr => exact NP.ok _
  | nulterm =>
    simp only [decTy]
    split
    · exact NP.err _
    · exact NP.ok _
  | fixedArray b n =>
    obtain ⟨hb, x, hx, _⟩ := ht
    simp only [decTy, hx]
    exact NP.bind (decCount_np hS hsuf hb _ _ _ _ hw) (fun a _ => NP.ok _)
  | varArray b c =>
    match c with
    | none => exact decRemArr_np hS hsuf ht hw
    | some (.leftover k) =>
      exact decConstrained_np hctx ho ht.2 hn hw (fun w' h => decRemArr_np hS hsuf ht.1 (by omega))
    | some (.idRef r) =>
      obtain ⟨x, hx, h0, h1⟩ := NarrowRef.val hctx ho ht.2 hn
      have hwx : wrap64 x = x := by unfold wrap64; omega
      simp only [decTy, hx, hwx]
      rw [if_neg (by omega)]
      exact NP.bind (decCount_np hS hsuf ht.1 _ _ _ _ hw) (fun a _ => NP.ok _)

theorem decLeaf_np (hS : NPS Γ S) (hsuf : S.Suffix) (hctx : CtxOK Γ ctx) (hA : 2 ^ 32 ≤ A + 1) {o : Fields} (ho : Typed Γ s o)
    {l : Leaf} (hl : LeafOK Γ s l) (hn : NarrowLeaf Γ s l) {w : Bytes} (hw : w.length < 2 ^ 63) :
    NP (decLeaf Γ A S L ctx D o w l) := by
  cases l with
  | field f => exact NP.bind (decTy_np hS hsuf hctx hA ho hl hn hw) (fun a _ => NP.ok _)
  | eos =>
    simp only [decLeaf]
    split
    · exact NP.err _
    · exact NP.ok _
  | ignore => exact NP.ok _
  | fail => exact NP.err _

theorem leafFields_split {l : Leaf} {ls : List Leaf} {fs : List Field} (hf : ∀ f ∈ leafFields (l :: ls), f ∈ fs) :
    (∀ f ∈ leafFields [l], f ∈ fs) ∧ ∀ f ∈ leafFields ls, f ∈ fs := by
  constructor
  · intro f hf'; apply hf
    cases l <;> simp_all [leafFields]
  · intro f hf'; apply hf
    cases l <;> simp_all [leafFields]

theorem decLeaves_np (hS : NPS Γ S) (hsuf : S.Suffix) (hctx : CtxOK Γ ctx) (hA : 2 ^ 32 ≤ A + 1) (hs : StructOK Γ s) (hD : D < 2 ^ 63) :
    ∀ {ls : List Leaf} {o : Fields} {w : Bytes}, Typed Γ s o → (∀ l ∈ ls, LeafOK Γ s l) → (∀ l ∈ ls, NarrowLeaf Γ s l) →
    (∀ f ∈ leafFields ls, f ∈ fieldsOf s.ms) → w.length ≤ D → NP (decLeaves Γ A S L ctx D ls o w) := by
  intro ls
  induction ls with
  | nil => intro o w _ _ _ _ _; exact NP.ok _
  | cons l ls ih =>
    intro o w ho hl hn hf hw
    obtain ⟨hf1, hf2⟩ := leafFields_split hf
    have hl1 := hl l List.mem_cons_self
    refine NP.bind (decLeaf_np hS hsuf hctx hA ho hl1 (hn l List.mem_cons_self) (by omega)) ?_
    rintro ⟨o1, w1⟩ h1
    exact ih (decLeaf_typed hs hl1 hf1 hD hw ho h1) (fun l' h' => hl l' (List.mem_cons_of_mem _ h'))
      (fun l' h' => hn l' (List.mem_cons_of_mem _ h')) hf2 (Nat.le_trans (decLeaf_suffix hsuf h1).length_le hw)

theorem decCases_np (hS : NPS Γ S) (hsuf : S.Suffix) (hctx : CtxOK Γ ctx) (hA : 2 ^ 32 ≤ A + 1) (hs : StructOK Γ s) (hD : D < 2 ^ 63)
    {u : UnionMember} (hu : MemberOK Γ s (.union u)) (hn : NarrowMember Γ s (.union u))
    (hf : ∀ f ∈ memberFields (.union u), f ∈ fieldsOf s.ms)
    {o : Fields} {w : Bytes} (ho : Typed Γ s o) (hw : w.length ≤ D) : NP (decCases Γ A S L ctx D u o w) := by
  obtain ⟨x, hx, _⟩ := RefOK.val hctx ho hu.1
  simp only [decCases, hx]
  split
  · rename_i c hc
    have hm := selectCase_mem hc
    exact decLeaves_np hS hsuf hctx hA hs hD ho (hu.2.2 c hm).2 (hn.2 c hm) (caseFields_sub hf hm) hw
  · exact NP.ok _

theorem decMember_np (hS : NPS Γ S) (hsuf : S.Suffix) (hctx : CtxOK Γ ctx) (hA : 2 ^ 32 ≤ A + 1) (hs : StructOK Γ s) (hD : D < 2 ^ 63)
    {m : Member} (hm : MemberOK Γ s m) (hn : NarrowMember Γ s m) (hf : ∀ f ∈ memberFields m, f ∈ fieldsOf s.ms)
    {o : Fields} {w : Bytes} (ho : Typed Γ s o) (hw : w.length ≤ D) : NP (decMember Γ A S L ctx D o w m) := by
  cases m with
  | leaf l => exact decLeaf_np hS hsuf hctx hA ho hm hn (by omega)
  | union u =>
    simp only [decMember]
    split
    · exact decCases_np hS hsuf hctx hA hs hD hm hn hf ho hw
    · rename_i c hc
      exact decConstrained_np hctx ho (hm.2.1 c hc) (hn.1 c hc) (by omega)
        (fun w' h => decCases_np hS hsuf hctx hA hs hD hm hn hf ho (by omega))

theorem decMembers_np (hS : NPS Γ S) (hsuf : S.Suffix) (hctx : CtxOK Γ ctx) (hA : 2 ^ 32 ≤ A + 1) (hs : StructOK Γ s) (hD : D < 2 ^ 63)
    (hn : ∀ m ∈ s.ms, NarrowMember Γ s m) : ∀ {ms : List Member} {o : Fields} {w : Bytes}, (∀ m ∈ ms, m ∈ s.ms) → Typed Γ s o → w.length ≤ D →
    NP (decMembers Γ A S L ctx D ms o w) := by
  intro ms
  induction ms with
  | nil => intro o w _ _ _; exact NP.ok _
  | cons m ms ih =>
    intro o w hm ho hw
    have hmm := hm m List.mem_cons_self
    refine NP.bind (decMember_np hS hsuf hctx hA hs hD (hs.members m hmm) (hn m hmm) (fieldsOf_sub hmm) ho hw) ?_
    rintro ⟨o1, w1⟩ h1
    exact ih (fun m' h' => hm m' (List.mem_cons_of_mem _ h'))
      (decMember_typed hs hsuf hD (hs.members m hmm) (fieldsOf_sub hmm) hw ho h1)
      (Nat.le_trans (decMember_suffix hsuf h1).length_le hw)

/-- With narrow lengths and room for 2^32 - 1 elements, decoding does not panic. -/
theorem decStruct_np (hΓ : FmtOK Γ) (hn : NarrowFmt Γ) (hctx : CtxOK Γ ctx) (hA : 2 ^ 32 ≤ A + 1) :
    ∀ fuel, NPS Γ (decStruct Γ A ctx fuel) := by
  intro fuel
  induction fuel with
  | zero => intro n s w _ _; exact NP.timeout
  | succ fuel ih =>
    intro n s w hs hw
    simp only [decStruct, hs]
    split
    · split
      · exact NP.ok _
      · exact NP.err _
    · rename_i he
      have he' : s.extern = false := by simpa using he
      have hok := hΓ.structs n s hs he'
      exact NP.bind (decMembers_np ih (decStruct_suffix fuel) hctx hA hok hw (hn n s hs he') (fun _ h => h)
        (zeroObj_typed hok) (Nat.le_refl _)) (fun a _ => NP.ok _)

end Verif.Wire
