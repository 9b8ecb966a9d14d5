import Verif.Term
/-!
# How often the loops of the reference decoder run
-/
set_option linter.unusedVariables false
namespace Verif.Wire
open Verif.Ast Verif.Go Verif.Spec Verif.Refine

/-! ## Specification -/

/-- Nesting of structs is bounded by `rank`. -/
def Ranked (Γ : Fmt) (rank : String → Nat) : Prop :=
  ∀ n s, Γ.structs n = some s → s.extern = false → ∀ n', Nests s n' → rank n' < rank n

/-- Elements of arrays whose length is in the input are never empty; arrays of a fixed length are no longer than `c`, or
their elements are never empty. -/
def LoopsIn (Γ : Fmt) (c : Nat) : Ty → Prop
  | .fixedArray b k => TyConsumes Γ (.base b) ∨ ∃ x, ival Γ.K k = some x ∧ x ≤ c
  | .varArray b _ => TyConsumes Γ (.base b)
  | _ => True

/-! ## Enough fuel -/

/-- Not out of fuel. -/
def NT {α : Type} (d : DOut α) : Prop := d ≠ .timeout

theorem NT.ok {α : Type} (a : α) : NT (.ok a : DOut α) := by simp [NT]
theorem NT.err {α : Type} (m : String) : NT (.err m : DOut α) := by simp [NT]
theorem NT.panic {α : Type} (m : String) : NT (.panic m : DOut α) := by simp [NT]

theorem NT.bind {α β : Type} {d : DOut α} {f : α → DOut β} (hd : NT d) (hf : ∀ a, d = .ok a → NT (f a)) : NT (d >>= f) := by
  cases d with
  | ok a => exact hf a rfl
  | err m => exact NT.err m
  | panic m => exact NT.panic m
  | timeout => exact absurd rfl hd

variable {Γ : Fmt} {A : Nat} {S : SDec} {L : Nat} {ctx : Ctx} {D : Nat} {s : Struct} {N c : Nat}

/-- Element decoder with enough fuel for inputs of `N` bytes. -/
def NTB (Γ : Fmt) (S : SDec) (N : Nat) (b : Base) : Prop := ∀ w : Bytes, w.length ≤ N → NT (decBase Γ S b w)

/-- An element consumes something. -/
def Eats (Γ : Fmt) (S : SDec) (b : Base) : Prop := ∀ w v r, decBase Γ S b w = .ok (v, r) → r.length < w.length

theorem decCount_nt_eats {b : Base} (hb : NTB Γ S N b) (he : Eats Γ S b) {n : Int} : ∀ (k : Nat) (w : Bytes) (idx : Int) acc,
    w.length < k → w.length ≤ N → NT (decCount (decBase Γ S b) n k idx acc w) := by
  intro k
  induction k with
  | zero => intro w idx acc h; omega
  | succ k ih =>
    intro w idx acc hk hw
    unfold decCount
    split
    · refine NT.bind (hb w hw) ?_
      rintro ⟨v, r⟩ h
      have := he w v r h
      exact ih r _ _ (by omega) (by omega)
    · exact NT.ok _

theorem decCount_nt_count (hsuf : S.Suffix) {b : Base} (hb : NTB Γ S N b) {n : Int} : ∀ (k : Nat) (w : Bytes) (idx : Int) acc,
    n - idx ≤ k → w.length ≤ N → NT (decCount (decBase Γ S b) n (k + 1) idx acc w) := by
  intro k
  induction k with
  | zero =>
    intro w idx acc h hw
    unfold decCount
    rw [if_neg (by omega)]
    exact NT.ok _
  | succ k ih =>
    intro w idx acc hk hw
    unfold decCount
    split
    · refine NT.bind (hb w hw) ?_
      rintro ⟨v, r⟩ h
      exact ih r _ _ (by omega) (Nat.le_trans (decBase_suffix hsuf h).length_le hw)
    · exact NT.ok _

theorem decRem_nt {b : Base} (hb : NTB Γ S N b) (he : Eats Γ S b) : ∀ (k : Nat) (w : Bytes) acc,
    w.length < k → w.length ≤ N → NT (decRem (decBase Γ S b) k acc w) := by
  intro k
  induction k with
  | zero => intro w acc h; omega
  | succ k ih =>
    intro w acc hk hw
    unfold decRem
    split
    · refine NT.bind (hb w hw) ?_
      rintro ⟨v, r⟩ h
      have := he w v r h
      exact ih r _ (by omega) (by omega)
    · exact NT.ok _

theorem decRemArr_nt {b : Base} (hb : NTB Γ S N b) (he : Eats Γ S b) (hL : N < L) {w : Bytes} (hw : w.length ≤ N) :
    NT (decRemArr Γ S L b w) := NT.bind (decRem_nt hb he L w [] (by omega) hw) (fun _ _ => NT.ok _)

theorem decWindow_nt {α : Type} {n : Int} {w : Bytes} {body : Bytes → DOut (α × Bytes)}
    (hb : ∀ w' : Bytes, w'.length ≤ w.length → NT (body w')) : NT (decWindow n w body) := by
  unfold decWindow
  split
  · exact NT.panic _
  · refine NT.bind (hb _ (by simp; omega)) (fun a _ => ?_)
    obtain ⟨x, r⟩ := a
    simp only
    split
    · exact NT.err _
    · exact NT.ok _

theorem decConstrained_nt {α : Type} {o : Fields} {c : LengthConstraint} {w : Bytes} {body : Bytes → DOut (α × Bytes)}
    (hb : ∀ w' : Bytes, w'.length ≤ w.length → NT (body w')) : NT (decConstrained Γ ctx o c w body) := by
  cases c with
  | leftover k =>
    simp only [decConstrained]
    split
    · exact NT.panic _
    · split
      · exact NT.err _
      · exact decWindow_nt hb
  | idRef r =>
    simp only [decConstrained]
    split
    · exact NT.panic _
    · split
      · exact NT.err _
      · exact decWindow_nt hb

/-- What is known of the elements of the fields in a list. -/
structure NTFields (Γ : Fmt) (S : SDec) (N c : Nat) (fs : List Field) : Prop where
  nt : ∀ f ∈ fs, ∀ b ∈ tyBases f.type, NTB Γ S N b
  eats : ∀ f ∈ fs, ∀ b ∈ tyBases f.type, TyConsumes Γ (.base b) → Eats Γ S b
  loops : ∀ f ∈ fs, LoopsIn Γ c f.type

theorem NTFields.sub {fs fs' : List Field} (h : NTFields Γ S N c fs) (hs : ∀ f ∈ fs', f ∈ fs) : NTFields Γ S N c fs' :=
  ⟨fun f hf => h.nt f (hs f hf), fun f hf => h.eats f (hs f hf), fun f hf => h.loops f (hs f hf)⟩

theorem decTy_nt (hsuf : S.Suffix) {o : Fields} {f : Field} (hf : NTFields Γ S N c [f]) (hL : max N c < L)
    {w : Bytes} (hw : w.length ≤ N) : NT (decTy Γ A S L ctx D o w f.type) := by
  obtain ⟨nm, t⟩ := f
  have hnt := hf.nt _ (List.mem_singleton.2 rfl)
  have heat := hf.eats _ (List.mem_singleton.2 rfl)
  have hl := hf.loops _ (List.mem_singleton.2 rfl)
  simp only at hnt heat hl ⊢
  cases t with
  | base b => exact hnt b (by simp [tyBases]) w hw
  | ptr => exact NT.ok _
  | nulterm =>
    simp only [decTy]
    split
    · exact NT.err _
    · exact NT.ok _
  | fixedArray b n =>
    have hb := hnt b (by simp [tyBases])
    simp only [decTy]
    split
    · exact NT.panic _
    · rename_i x hx
      refine NT.bind ?_ (fun _ _ => NT.ok _)
      rcases hl with hl | ⟨y, hy, hyc⟩
      · exact decCount_nt_eats hb (heat b (by simp [tyBases]) hl) L w 0 [] (by omega) hw
      · rw [hx] at hy
        cases hy
        obtain ⟨L', rfl⟩ : ∃ j, L = j + 1 := ⟨L - 1, by omega⟩
        exact decCount_nt_count hsuf hb L' w 0 [] (by omega) hw
  | varArray b c =>
    have hb := hnt b (by simp [tyBases])
    have he := heat b (by simp [tyBases]) hl
    match c with
    | none => exact decRemArr_nt hb he (by omega) hw
    | some (.leftover k) =>
      simp only [decTy]
      exact decConstrained_nt (fun w' h => decRemArr_nt hb he (by omega) (by omega))
    | some (.idRef r) =>
      simp only [decTy]
      split
      · exact NT.panic _
      · split
        · exact NT.panic _
        · exact NT.bind (decCount_nt_eats hb he L w 0 [] (by omega) hw) (fun _ _ => NT.ok _)

theorem decLeaf_nt (hsuf : S.Suffix) {o : Fields} {l : Leaf} (hf : NTFields Γ S N c (leafFields [l])) (hL : max N c < L)
    {w : Bytes} (hw : w.length ≤ N) : NT (decLeaf Γ A S L ctx D o w l) := by
  cases l with
  | field f => exact NT.bind (decTy_nt hsuf (hf.sub (by simp [leafFields])) hL hw) (fun a _ => NT.ok _)
  | eos =>
    simp only [decLeaf]
    split
    · exact NT.err _
    · exact NT.ok _
  | ignore => exact NT.ok _
  | fail => exact NT.err _

theorem decLeaves_nt (hsuf : S.Suffix) (hL : max N c < L) : ∀ {ls : List Leaf}, NTFields Γ S N c (leafFields ls) → ∀ (o : Fields) (w : Bytes),
    w.length ≤ N → NT (decLeaves Γ A S L ctx D ls o w) := by
  intro ls
  induction ls with
  | nil => intro _ o w _; exact NT.ok _
  | cons l ls ih =>
    intro hf o w hw
    refine NT.bind (decLeaf_nt hsuf (hf.sub fun f h => mem_leafFields_cons.2 (Or.inl h)) hL hw) ?_
    rintro ⟨o1, w1⟩ hk
    exact ih (hf.sub fun f h => mem_leafFields_cons.2 (Or.inr h)) o1 w1 (Nat.le_trans (decLeaf_suffix hsuf hk).length_le hw)

theorem decCases_nt (hsuf : S.Suffix) (hL : max N c < L) {u : UnionMember} (hf : NTFields Γ S N c (memberFields (.union u))) (o : Fields)
    {w : Bytes} (hw : w.length ≤ N) : NT (decCases Γ A S L ctx D u o w) := by
  simp only [decCases]
  split
  · exact NT.panic _
  · split
    · rename_i cs hc
      have hm := selectCase_mem hc
      refine decLeaves_nt hsuf hL (hf.sub fun f h => ?_) o w hw
      simp only [memberFields, List.mem_flatMap]; exact ⟨cs, hm, h⟩
    · exact NT.ok _

theorem decMember_nt (hsuf : S.Suffix) (hL : max N c < L) {m : Member} (hf : NTFields Γ S N c (memberFields m)) (o : Fields)
    {w : Bytes} (hw : w.length ≤ N) : NT (decMember Γ A S L ctx D o w m) := by
  cases m with
  | leaf l => exact decLeaf_nt hsuf hf hL hw
  | union u =>
    simp only [decMember]
    split
    · exact decCases_nt hsuf hL hf o hw
    · exact decConstrained_nt (fun w' h => decCases_nt hsuf hL hf o (by omega))

theorem decMembers_nt (hsuf : S.Suffix) (hL : max N c < L) : ∀ {ms : List Member}, NTFields Γ S N c (fieldsOf ms) → ∀ (o : Fields) (w : Bytes),
    w.length ≤ N → NT (decMembers Γ A S L ctx D ms o w) := by
  intro ms
  induction ms with
  | nil => intro _ o w _; exact NT.ok _
  | cons m ms ih =>
    intro hf o w hw
    rw [fieldsOf_cons] at hf
    refine NT.bind (decMember_nt hsuf hL (hf.sub fun f h => List.mem_append_left _ h) o hw) ?_
    rintro ⟨o1, w1⟩ hk
    exact ih (hf.sub fun f h => List.mem_append_right _ h) o1 w1 (Nat.le_trans (decMember_suffix hsuf hk).length_le hw)

theorem decStruct_nt_step (hΓ : FmtOK Γ)
    (hl : ∀ n s, Γ.structs n = some s → s.extern = false → ∀ f ∈ fieldsOf s.ms, LoopsIn Γ c f.type) {F : Nat} (hF : max N c < F) {n : String}
    (hn : ∀ s, Γ.structs n = some s → s.extern = false → ∀ n', Nests s n' → ∀ w : Bytes, w.length ≤ N → NT (decStruct Γ A ctx F n' w))
    {w : Bytes} (hw : w.length ≤ N) : NT (decStruct Γ A ctx (F + 1) n w) := by
  simp only [decStruct]
  split
  · exact NT.panic _
  · rename_i s hs
    split
    · split
      · exact NT.ok _
      · exact NT.err _
    · rename_i he
      have he' : s.extern = false := by simpa using he
      refine NT.bind (decMembers_nt (N := N) (c := c) (decStruct_suffix _) hF ⟨?_, ?_, hl n s hs he'⟩ _ _ hw) (fun _ _ => NT.ok _)
      · intro f hf b hb w' hw'
        cases b with
        | int t => exact decInt_ne
        | char => exact decInt_ne (Γ := Γ)
        | struct n' => exact hn s hs he' n' ⟨f, hf, hb⟩ w' hw'
      · intro f hf b hb hc w' v r h
        exact decBase_consumes (decStruct_consumes hΓ _) (tyOK_base (field_tyOK (hΓ.structs n s hs he') hf) hb) hc h

/-- Fuel that is enough: the nesting depth, and the larger of the length of the input and of fixed arrays. -/
theorem decStruct_nt (hΓ : FmtOK Γ) {rank : String → Nat} (hr : Ranked Γ rank)
    (hl : ∀ n s, Γ.structs n = some s → s.extern = false → ∀ f ∈ fieldsOf s.ms, LoopsIn Γ c f.type) :
    ∀ (k : Nat) n, rank n ≤ k → ∀ w : Bytes, w.length ≤ N → NT (decStruct Γ A ctx (k + max N c + 2) n w) := by
  intro k
  induction k with
  | zero =>
    intro n hn w hw
    exact decStruct_nt_step (F := 0 + max N c + 1) hΓ hl (by omega) (fun s hs he n' hn' => by have := hr n s hs he n' hn'; omega) hw
  | succ k ih =>
    intro n hn w hw
    rw [show k + 1 + max N c + 2 = (k + max N c + 2) + 1 by omega]
    exact decStruct_nt_step hΓ hl (by omega) (fun s hs he n' hn' => ih n' (by have := hr n s hs he n' hn'; omega)) hw

/-- A counting loop over empty elements runs as often as the count says. -/
theorem decCount_timeout {elem : Bytes → DOut (Val × Bytes)} {v : Val} {w : Bytes} (h : elem w = .timeout ∨ elem w = .ok (v, w)) {n : Int} :
    ∀ (k : Nat) (idx : Int) acc, idx + k ≤ n → decCount elem n k idx acc w = .timeout := by
  intro k
  induction k with
  | zero => intro idx acc _; rfl
  | succ k ih =>
    intro idx acc hk
    simp only [decCount]
    rw [if_pos (by omega)]
    rcases h with h | h
    · rw [h]; rfl
    · rw [h]; exact ih _ _ (by omega)

end Verif.Wire
