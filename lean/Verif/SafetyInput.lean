import Verif.Safety
/-!
# On which inputs the reference decoder can panic

No condition on the format: a panic needs a number in the input that is larger than what can be allocated.
-/
set_option linter.unusedVariables false
namespace Verif.Wire
open Verif.Ast Verif.Go Verif.Spec Verif.Refine

/-! ## Specification -/

/-- Number types of at most `k` bits; positions count as such. -/
def Within (k : Nat) : Ty → Prop
  | .base (.int t) => t.size ≤ k
  | .base .char => 8 ≤ k
  | .ptr => True
  | _ => False

/-- Numbers a reference names have at most `k` bits. -/
def RefWithin (Γ : Fmt) (k : Nat) (s : Struct) (r : IDRef) : Prop :=
  if r.scope = "" then ∀ f ∈ fieldsOf s.ms, f.name = r.name → IntLike f.type → Within k f.type
  else ∀ C, Γ.contexts r.scope = some C → ∀ f ∈ C.members, f.name = r.name → IntLike f.type → Within k f.type

/-- A length is an excess, or a number of at most `k` bits. -/
def LenWithin (Γ : Fmt) (k : Nat) (s : Struct) : LengthConstraint → Prop
  | .idRef r => RefWithin Γ k s r
  | .leftover _ => True

/-- The length of an array has at most `k` bits. -/
def LeafWithin (Γ : Fmt) (k : Nat) (s : Struct) : Leaf → Prop
  | .field ⟨_, .varArray _ (some c)⟩ => LenWithin Γ k s c
  | _ => True

/-- The lengths in a member have at most `k` bits. -/
def MemberWithin (Γ : Fmt) (k : Nat) (s : Struct) : Member → Prop
  | .leaf l => LeafWithin Γ k s l
  | .union u => (∀ c, u.length = some c → LenWithin Γ k s c) ∧ ∀ c ∈ u.cases, ∀ l ∈ c.members, LeafWithin Γ k s l

/-- Every number used as the length of an array or union has at most `k` bits. -/
def LengthsWithin (Γ : Fmt) (k : Nat) : Prop :=
  ∀ n s, Γ.structs n = some s → s.extern = false → ∀ m ∈ s.ms, MemberWithin Γ k s m

/-- The widths of numbers. -/
def IsWidth (n : Nat) : Prop := n = 8 ∨ n = 16 ∨ n = 32 ∨ n = 64

/-- No number of at most `k` bits in the input, wherever it starts, is larger than `A`. -/
def Below (k A : Nat) (w : Bytes) : Prop :=
  ∀ d : Bytes, d <:+: w → IsWidth (8 * d.length) → 8 * d.length ≤ k → beNat d ≤ A

/-- No number of at most `k` bits in a context is larger than `A`. -/
def CtxBelow (Γ : Fmt) (k A : Nat) (ctx : Ctx) : Prop :=
  ∀ c C, Γ.contexts c = some C → ∀ f ∈ C.members, Within k f.type → ∀ x, getF (ctx c) (Γ.nm f.name) = some (.num x) → x ≤ A

/-! ## No panic on small numbers -/

variable {Γ : Fmt} {A : Nat} {S : SDec} {L : Nat} {ctx : Ctx} {D : Nat} {s : Struct} {k : Nat}

theorem Below.sub {w w' : Bytes} (h : Below k A w) (hs : w' <:+: w) : Below k A w' := fun d hd => h d (hd.trans hs)

/-- Numbers decoded so far are small. -/
def SmallF (Γ : Fmt) (k A : Nat) (s : Struct) (o : Fields) : Prop :=
  ∀ f ∈ fieldsOf s.ms, Within k f.type → ∀ x, getF o (Γ.nm f.name) = some (.num x) → x ≤ A

/-- Declared structs do not panic on small inputs. -/
def NPB (Γ : Fmt) (k A : Nat) (S : SDec) : Prop :=
  ∀ n s w, Γ.structs n = some s → w.length ≤ A → Below k A w → NP (S n w)

theorem decBase_npb (hS : NPB Γ k A S) {b : Base} (hb : BaseOK Γ s b) {w : Bytes} (hw : w.length ≤ A) (hB : Below k A w) :
    NP (decBase Γ S b w) := by
  cases b with
  | int t => exact decInt_np
  | char => exact decInt_np (Γ := Γ)
  | struct n => obtain ⟨s', hs', _⟩ := hb; exact hS n s' w hs' hw hB

theorem decCount_npb (hS : NPB Γ k A S) (hsuf : S.Suffix) {b : Base} (hb : BaseOK Γ s b) {n : Int} : ∀ (j : Nat) (idx : Int) acc (w : Bytes),
    w.length ≤ A → Below k A w → NP (decCount (decBase Γ S b) n j idx acc w) := by
  intro j
  induction j with
  | zero => intro idx acc w _ _; exact NP.timeout
  | succ j ih =>
    intro idx acc w hw hB
    unfold decCount
    split
    · refine NP.bind (decBase_npb hS hb hw hB) (fun a ha => ?_)
      have := decBase_suffix hsuf ha
      exact ih _ _ _ (Nat.le_trans this.length_le hw) (hB.sub this.isInfix)
    · exact NP.ok _

theorem decRem_npb (hS : NPB Γ k A S) (hsuf : S.Suffix) {b : Base} (hb : BaseOK Γ s b) : ∀ (j : Nat) acc (w : Bytes),
    w.length ≤ A → Below k A w → NP (decRem (decBase Γ S b) j acc w) := by
  intro j
  induction j with
  | zero => intro acc w _ _; exact NP.timeout
  | succ j ih =>
    intro acc w hw hB
    unfold decRem
    split
    · refine NP.bind (decBase_npb hS hb hw hB) (fun a ha => ?_)
      have := decBase_suffix hsuf ha
      exact ih _ _ (Nat.le_trans this.length_le hw) (hB.sub this.isInfix)
    · exact NP.ok _

theorem decWindow_npb {α : Type} {n : Int} {w : Bytes} {body : Bytes → DOut (α × Bytes)} (h0 : 0 ≤ n) (h1 : n ≤ w.length)
    (hb : ∀ w' : Bytes, w'.length ≤ w.length → w' <:+: w → NP (body w')) : NP (decWindow n w body) := by
  unfold decWindow
  rw [if_neg (by omega)]
  refine NP.bind (hb _ (by simp; omega) (List.take_prefix _ _).isInfix) (fun a _ => ?_)
  split
  · split
    · exact NP.err _
    · exact NP.ok _

theorem RefWithin.val (hctx : CtxOK Γ ctx) (hcb : CtxBelow Γ k A ctx) {o : Fields} (ho : Typed Γ s o) (hsm : SmallF Γ k A s o) {r : IDRef}
    (h : RefOK Γ s r) (hn : RefWithin Γ k s r) : ∃ x, refVal Γ ctx o r = some x ∧ 0 ≤ x ∧ x ≤ A := by
  unfold RefOK at h
  unfold RefWithin at hn
  by_cases h0 : r.scope = ""
  · rw [if_pos h0] at h hn
    obtain ⟨f, hf, he, hi⟩ := h
    obtain ⟨v, hv, hs⟩ := ho f hf
    obtain ⟨x, rfl, hx⟩ := shape_num hi hs
    exact ⟨x, by simp [refVal, h0, ← he, hv], (numOK_lt hi hx).1, hsm f hf (hn f hf he hi) x hv⟩
  · rw [if_neg h0] at h hn
    obtain ⟨hs, C, hC, f, hf, he, hi⟩ := h
    obtain ⟨x, hx, hx'⟩ := hctx _ C hC f hf hi
    exact ⟨x, by simp [refVal, h0, ← he, hx], (numOK_lt hi hx').1, hcb _ C hC f hf (hn C hC f hf he hi) x hx⟩

theorem decConstrained_npb {α : Type} (hctx : CtxOK Γ ctx) (hcb : CtxBelow Γ k A ctx) (hA : A < 2 ^ 63) {o : Fields} (ho : Typed Γ s o)
    (hsm : SmallF Γ k A s o) {c : LengthConstraint} (hc : LenOK Γ s c) (hn : LenWithin Γ k s c) {w : Bytes}
    {body : Bytes → DOut (α × Bytes)} (hb : ∀ w' : Bytes, w'.length ≤ w.length → w' <:+: w → NP (body w')) :
    NP (decConstrained Γ ctx o c w body) := by
  cases c with
  | leftover j =>
    obtain ⟨x, hx, h0, h1⟩ := hc
    simp only [decConstrained, hx]
    split
    · exact NP.err _
    · exact decWindow_npb (by omega) (by omega) hb
  | idRef r =>
    obtain ⟨x, hx, h0, h1⟩ := RefWithin.val hctx hcb ho hsm hc hn
    simp only [decConstrained, hx]
    have hwx : wrap64 x = x := by unfold wrap64; omega
    rw [hwx]
    split
    · exact NP.err _
    · exact decWindow_npb (by omega) (by omega) hb

theorem decRemArr_npb (hS : NPB Γ k A S) (hsuf : S.Suffix) {b : Base} (hb : BaseOK Γ s b) {w : Bytes} (hw : w.length ≤ A) (hB : Below k A w) :
    NP (decRemArr Γ S L b w) :=
  NP.bind (decRem_npb hS hsuf hb _ _ _ hw hB) (fun a _ => NP.ok _)

theorem decTy_npb (hS : NPB Γ k A S) (hsuf : S.Suffix) (hctx : CtxOK Γ ctx) (hcb : CtxBelow Γ k A ctx) (hA : A < 2 ^ 63) {o : Fields}
    (ho : Typed Γ s o) (hsm : SmallF Γ k A s o) {f : Field} (ht : TyOK Γ s f.type) (hn : LeafWithin Γ k s (.field f)) {w : Bytes}
    (hw : w.length ≤ A) (hB : Below k A w) : NP (decTy Γ A S L ctx D o w f.type) := by
  obtain ⟨nm, t⟩ := f
  cases t with
  | base b => exact decBase_npb hS ht hw hB
  | ptr => exact NP.ok _
  | nulterm =>
    simp only [decTy]
    split
    · exact NP.err _
    · exact NP.ok _
  | fixedArray b n =>
    obtain ⟨hb, x, hx, _⟩ := ht
    simp only [decTy, hx]
    exact NP.bind (decCount_npb hS hsuf hb _ _ _ _ hw hB) (fun a _ => NP.ok _)
  | varArray b c =>
    match c with
    | none => exact decRemArr_npb hS hsuf ht hw hB
    | some (.leftover j) =>
      exact decConstrained_npb hctx hcb hA ho hsm ht.2 hn (fun w' h hi => decRemArr_npb hS hsuf ht.1 (by omega) (hB.sub hi))
    | some (.idRef r) =>
      obtain ⟨x, hx, h0, h1⟩ := RefWithin.val hctx hcb ho hsm ht.2 hn
      have hwx : wrap64 x = x := by unfold wrap64; omega
      simp only [decTy, hx, hwx]
      rw [if_neg (by omega)]
      exact NP.bind (decCount_npb hS hsuf ht.1 _ _ _ _ hw hB) (fun a _ => NP.ok _)

theorem decLeaf_npb (hS : NPB Γ k A S) (hsuf : S.Suffix) (hctx : CtxOK Γ ctx) (hcb : CtxBelow Γ k A ctx) (hA : A < 2 ^ 63) {o : Fields}
    (ho : Typed Γ s o) (hsm : SmallF Γ k A s o) {l : Leaf} (hl : LeafOK Γ s l) (hn : LeafWithin Γ k s l) {w : Bytes} (hw : w.length ≤ A)
    (hB : Below k A w) : NP (decLeaf Γ A S L ctx D o w l) := by
  cases l with
  | field f => exact NP.bind (decTy_npb hS hsuf hctx hcb hA ho hsm hl hn hw hB) (fun a _ => NP.ok _)
  | eos =>
    simp only [decLeaf]
    split
    · exact NP.err _
    · exact NP.ok _
  | ignore => exact NP.ok _
  | fail => exact NP.err _

/-! ### Numbers stay small -/

theorem decInt_below {t : IntType} {w r : Bytes} {v : Val} (hB : Below k A w) (hz : SizeOK t) (ht : t.size ≤ k)
    (h : decInt Γ t w = .ok (v, r)) : ∀ x, v = .num x → x ≤ A := by
  unfold decInt at h
  split at h
  · cases h
  · rename_i hlen
    have hb : ((beNat (w.take (t.size / 8)) : Nat) : Int) ≤ A := by
      unfold SizeOK at hz
      have hl : 8 * (w.take (t.size / 8)).length = t.size := by rw [List.length_take]; omega
      have := hB (w.take (t.size / 8)) (List.take_prefix _ _).isInfix (by rw [hl]; exact hz) (by omega)
      exact_mod_cast this
    split at h
    · cases h; rintro x ⟨⟩; exact hb
    · split at h
      · cases h; rintro x ⟨⟩; exact hb
      · cases h

theorem decTy_below {o : Fields} {t : Ty} {w r : Bytes} {v : Val} (hB : Below k A w) (hD : D ≤ A) (hok : TyOK Γ s t) (ht : Within k t)
    (h : decTy Γ A S L ctx D o w t = .ok (v, r)) : ∀ x, v = .num x → x ≤ A := by
  cases t with
  | base b =>
    cases b with
    | int t => exact decInt_below hB hok.1 ht h
    | char => exact decInt_below (Γ := Γ) (t := U8) hB (Or.inl rfl) ht h
    | struct n => exact ht.elim
  | ptr => cases h; rintro x ⟨⟩; omega
  | nulterm => exact ht.elim
  | fixedArray b n => exact ht.elim
  | varArray b c => exact ht.elim

theorem SmallF.set (hs : StructOK Γ s) {o : Fields} (ho : Typed Γ s o) (hsm : SmallF Γ k A s o) {f : Field} (hf : f ∈ fieldsOf s.ms) {v : Val}
    (hv : Within k f.type → ∀ x, v = .num x → x ≤ A) : SmallF Γ k A s (setF o (Γ.nm f.name) v) := by
  intro f' hf' hw x hx
  by_cases h : Γ.nm f'.name = Γ.nm f.name
  · have := field_inj hs hf' hf h
    subst this
    obtain ⟨v', hv', _⟩ := ho f' hf'
    rw [getF_setF_same hv'] at hx
    exact hv hw x (Option.some.inj hx)
  · rw [getF_setF_ne h] at hx
    exact hsm f' hf' hw x hx

theorem decLeaf_small (hs : StructOK Γ s) (hDA : D ≤ A) {o o' : Fields} {l : Leaf} {w r : Bytes} (hl : LeafOK Γ s l)
    (hf : ∀ f ∈ leafFields [l], f ∈ fieldsOf s.ms) (ho : Typed Γ s o) (hsm : SmallF Γ k A s o) (hB : Below k A w)
    (h : decLeaf Γ A S L ctx D o w l = .ok (o', r)) : SmallF Γ k A s o' := by
  cases l with
  | field f =>
    obtain ⟨⟨v, w'⟩, h1, h2⟩ := DOut.bind_eq_ok.1 h
    cases h2
    exact hsm.set hs ho (hf f (by simp [leafFields])) (fun ht => decTy_below hB hDA hl ht h1)
  | eos =>
    simp only [decLeaf] at h
    split at h <;> cases h
    exact hsm
  | ignore => cases h; exact hsm
  | fail => cases h

theorem decLeaves_npb (hS : NPB Γ k A S) (hsuf : S.Suffix) (hctx : CtxOK Γ ctx) (hcb : CtxBelow Γ k A ctx) (hA : A < 2 ^ 63) (hs : StructOK Γ s)
    (hD : D ≤ A) : ∀ {ls : List Leaf} {o : Fields} {w : Bytes}, Typed Γ s o → SmallF Γ k A s o → (∀ l ∈ ls, LeafOK Γ s l) →
    (∀ l ∈ ls, LeafWithin Γ k s l) → (∀ f ∈ leafFields ls, f ∈ fieldsOf s.ms) → w.length ≤ D → Below k A w →
    NP (decLeaves Γ A S L ctx D ls o w) ∧ ∀ o' r, decLeaves Γ A S L ctx D ls o w = .ok (o', r) → SmallF Γ k A s o' := by
  intro ls
  induction ls with
  | nil => intro o w _ hsm _ _ _ _ _; exact ⟨NP.ok _, by rintro o' r ⟨⟩; exact hsm⟩
  | cons l ls ih =>
    intro o w ho hsm hl hn hf hw hB
    obtain ⟨hf1, hf2⟩ := leafFields_split hf
    have hl1 := hl l List.mem_cons_self
    have next : ∀ {o1 w1}, decLeaf Γ A S L ctx D o w l = .ok (o1, w1) → _ := fun {o1 w1} h1 =>
      ih (o := o1) (w := w1) (decLeaf_typed hs hl1 hf1 (by omega) hw ho h1) (decLeaf_small hs hD hl1 hf1 ho hsm hB h1)
        (fun l' h' => hl l' (List.mem_cons_of_mem _ h')) (fun l' h' => hn l' (List.mem_cons_of_mem _ h')) hf2
        (Nat.le_trans (decLeaf_suffix hsuf h1).length_le hw) (hB.sub (decLeaf_suffix hsuf h1).isInfix)
    refine ⟨NP.bind (decLeaf_npb hS hsuf hctx hcb hA ho hsm hl1 (hn l List.mem_cons_self) (by omega) hB) ?_, ?_⟩
    · rintro ⟨o1, w1⟩ h1; exact (next h1).1
    · intro o' r h
      obtain ⟨⟨o1, w1⟩, h1, h2⟩ := DOut.bind_eq_ok.1 h
      exact (next h1).2 o' r h2

theorem decCases_npb (hS : NPB Γ k A S) (hsuf : S.Suffix) (hctx : CtxOK Γ ctx) (hcb : CtxBelow Γ k A ctx) (hA : A < 2 ^ 63) (hs : StructOK Γ s)
    (hD : D ≤ A) {u : UnionMember} (hu : MemberOK Γ s (.union u)) (hn : MemberWithin Γ k s (.union u))
    (hf : ∀ f ∈ memberFields (.union u), f ∈ fieldsOf s.ms) {o : Fields} {w : Bytes} (ho : Typed Γ s o) (hsm : SmallF Γ k A s o)
    (hw : w.length ≤ D) (hB : Below k A w) :
    NP (decCases Γ A S L ctx D u o w) ∧ ∀ o' r, decCases Γ A S L ctx D u o w = .ok (o', r) → SmallF Γ k A s o' := by
  obtain ⟨x, hx, _⟩ := RefOK.val hctx ho hu.1
  simp only [decCases, hx]
  split
  · rename_i c hc
    have hm := selectCase_mem hc
    exact decLeaves_npb hS hsuf hctx hcb hA hs hD ho hsm (hu.2.2 c hm).2 (hn.2 c hm) (caseFields_sub hf hm) hw hB
  · exact ⟨NP.ok _, by rintro o' r ⟨⟩; exact hsm⟩

theorem decMember_npb (hS : NPB Γ k A S) (hsuf : S.Suffix) (hctx : CtxOK Γ ctx) (hcb : CtxBelow Γ k A ctx) (hA : A < 2 ^ 63) (hs : StructOK Γ s)
    (hD : D ≤ A) {m : Member} (hm : MemberOK Γ s m) (hn : MemberWithin Γ k s m) (hf : ∀ f ∈ memberFields m, f ∈ fieldsOf s.ms)
    {o : Fields} {w : Bytes} (ho : Typed Γ s o) (hsm : SmallF Γ k A s o) (hw : w.length ≤ D) (hB : Below k A w) :
    NP (decMember Γ A S L ctx D o w m) ∧ ∀ o' r, decMember Γ A S L ctx D o w m = .ok (o', r) → SmallF Γ k A s o' := by
  cases m with
  | leaf l =>
    exact ⟨decLeaf_npb hS hsuf hctx hcb hA ho hsm hm hn (by omega) hB,
      fun o' r h => decLeaf_small hs hD hm hf ho hsm hB h⟩
  | union u =>
    simp only [decMember]
    split
    · exact decCases_npb hS hsuf hctx hcb hA hs hD hm hn hf ho hsm hw hB
    · rename_i c hc
      refine ⟨decConstrained_npb hctx hcb hA ho hsm (hm.2.1 c hc) (hn.1 c hc)
        (fun w' h hi => (decCases_npb hS hsuf hctx hcb hA hs hD hm hn hf ho hsm (by omega) (hB.sub hi)).1), ?_⟩
      intro o' r h
      obtain ⟨n, hn', hb, _, _⟩ := decConstrained_inv h
      exact (decCases_npb hS hsuf hctx hcb hA hs hD hm hn hf ho hsm (by simp; omega)
        (hB.sub (List.take_prefix _ _).isInfix)).2 o' _ hb

theorem decMembers_npb (hS : NPB Γ k A S) (hsuf : S.Suffix) (hctx : CtxOK Γ ctx) (hcb : CtxBelow Γ k A ctx) (hA : A < 2 ^ 63) (hs : StructOK Γ s)
    (hD : D ≤ A) (hn : ∀ m ∈ s.ms, MemberWithin Γ k s m) : ∀ {ms : List Member} {o : Fields} {w : Bytes}, (∀ m ∈ ms, m ∈ s.ms) → Typed Γ s o →
    SmallF Γ k A s o → w.length ≤ D → Below k A w → NP (decMembers Γ A S L ctx D ms o w) := by
  intro ms
  induction ms with
  | nil => intro o w _ _ _ _ _; exact NP.ok _
  | cons m ms ih =>
    intro o w hm ho hsm hw hB
    have hmm := hm m List.mem_cons_self
    obtain ⟨h0, h2⟩ := decMember_npb (L := L) hS hsuf hctx hcb hA hs hD (hs.members m hmm) (hn m hmm) (fieldsOf_sub hmm) ho hsm hw hB
    refine NP.bind h0 ?_
    rintro ⟨o1, w1⟩ h1
    exact ih (fun m' h' => hm m' (List.mem_cons_of_mem _ h'))
      (decMember_typed hs hsuf (by omega) (hs.members m hmm) (fieldsOf_sub hmm) hw ho h1) (h2 o1 w1 h1)
      (Nat.le_trans (decMember_suffix hsuf h1).length_le hw) (hB.sub (decMember_suffix hsuf h1).isInfix)

/-- New objects hold no number but 0. -/
theorem zeroObj_small : SmallF Γ k A s (zeroObj Γ s) := by
  intro f hf hw x hx
  have hmem : ∀ {l : List Field} {y : String} {v : Val}, getF (l.map (fun f => (Γ.nm f.name, zeroTy Γ f.type))) y = some v →
      ∃ f ∈ l, zeroTy Γ f.type = v := by
    intro l
    induction l with
    | nil => intro y v h; simp [getF] at h
    | cons a l ih =>
      intro y v h
      simp only [List.map_cons, getF, List.lookup_cons] at h
      split at h
      · exact ⟨a, List.mem_cons_self, Option.some.inj h⟩
      · obtain ⟨f, hf, h⟩ := ih h; exact ⟨f, List.mem_cons_of_mem _ hf, h⟩
  obtain ⟨f', hf', h⟩ := hmem hx
  have : x = 0 := by
    cases hft : f'.type with
    | base b => cases b <;> rw [hft] at h <;> simp [zeroTy, zeroBase] at h <;> omega
    | ptr => rw [hft] at h; simp [zeroTy] at h; omega
    | nulterm => rw [hft] at h; simp [zeroTy] at h
    | fixedArray b n =>
      rw [hft] at h; simp [zeroTy] at h
    | varArray b c => rw [hft] at h; simp [zeroTy] at h
  omega

/-- On an input without large numbers, decoding does not panic. -/
theorem decStruct_npb (hΓ : FmtOK Γ) (hn : LengthsWithin Γ k) (hctx : CtxOK Γ ctx) (hcb : CtxBelow Γ k A ctx) (hA : A < 2 ^ 63) :
    ∀ fuel, NPB Γ k A (decStruct Γ A ctx fuel) := by
  intro fuel
  induction fuel with
  | zero => intro n s w _ _ _; exact NP.timeout
  | succ fuel ih =>
    intro n s w hs hw hB
    simp only [decStruct, hs]
    split
    · split
      · exact NP.ok _
      · exact NP.err _
    · rename_i he
      have he' : s.extern = false := by simpa using he
      have hok := hΓ.structs n s hs he'
      exact NP.bind (decMembers_npb ih (decStruct_suffix fuel) hctx hcb hA hok hw (hn n s hs he') (fun _ h => h)
        (zeroObj_typed hok) zeroObj_small (Nat.le_refl _) hB) (fun a _ => NP.ok _)

/-- All numbers have at most 64 bits. -/
theorem lengthsWithin_64 : LengthsWithin Γ 64 := by
  have hw : ∀ t : Ty, IntLike t → Within 64 t := by
    intro t ht
    cases t with
    | base b =>
      cases b with
      | int t =>
        have : SizeOK t := ht
        unfold SizeOK at this
        show t.size ≤ 64
        omega
      | char => show 8 ≤ 64; omega
      | struct n => exact ht.elim
    | ptr => trivial
    | nulterm => exact ht.elim
    | fixedArray b n => exact ht.elim
    | varArray b c => exact ht.elim
  have hr : ∀ s r, RefWithin Γ 64 s r := by
    intro s r
    unfold RefWithin
    split
    · exact fun f _ _ hi => hw _ hi
    · exact fun C _ f _ _ hi => hw _ hi
  have hl : ∀ s c, LenWithin Γ 64 s c := by
    intro s c
    cases c with
    | leftover _ => trivial
    | idRef r => exact hr s r
  have hlf : ∀ s l, LeafWithin Γ 64 s l := by
    intro s l
    unfold LeafWithin
    split
    · exact hl s _
    · trivial
  intro n s _ _ m _
  cases m with
  | leaf l => exact hlf s l
  | union u => exact ⟨fun c _ => hl s c, fun c _ l _ => hlf s l⟩

end Verif.Wire
