import Verif.Complete
/-!
# When the reference decoder ends
-/
set_option linter.unusedVariables false
namespace Verif.Wire
open Verif.Ast Verif.Go Verif.Spec Verif.Refine

/-! ## Specification: nesting and to-the-end arrays -/

/-- Element types of a field type. -/
def tyBases : Ty → List Base
  | .base b => [b]
  | .fixedArray b _ => [b]
  | .varArray b _ => [b]
  | _ => []

/-- Element types of arrays whose number of elements is determined by the input's end. -/
def endBases : Ty → List Base
  | .varArray b none => [b]
  | .varArray b (some (.leftover _)) => [b]
  | _ => []

/-- Struct `s` directly contains struct `n`. -/
def Nests (s : Struct) (n : String) : Prop := ∃ f ∈ fieldsOf s.ms, .struct n ∈ tyBases f.type

/-- Struct `s` has an array of struct `n` to the end of the input, or up to a fixed distance from it. -/
def NestsToEnd (s : Struct) (n : String) : Prop := ∃ f ∈ fieldsOf s.ms, .struct n ∈ endBases f.type

/-- No struct contains itself, directly or indirectly. -/
def Acyclic (Γ : Fmt) : Prop :=
  ∃ rank : String → Nat, ∀ n s, Γ.structs n = some s → s.extern = false → ∀ n', Nests s n' → rank n' < rank n

mutual
/-- Every encoding of the struct is non-empty: some member outside unions is never empty. -/
inductive Consumes (Γ : Fmt) : String → Prop
  | struct {n : String} {s : Struct} {f : Field} (hs : Γ.structs n = some s) (he : s.extern = false)
      (hf : .leaf (.field f) ∈ s.ms) (ht : TyConsumes Γ f.type) : Consumes Γ n
/-- A field type with no empty encoding: an integer, a string, a struct with no empty encoding, or a
positive number of those. -/
inductive TyConsumes (Γ : Fmt) : Ty → Prop
  | int (t : IntType) : TyConsumes Γ (.base (.int t))
  | char : TyConsumes Γ (.base .char)
  | nulterm : TyConsumes Γ .nulterm
  | nested {n : String} (h : Consumes Γ n) : TyConsumes Γ (.base (.struct n))
  | array {b : Base} {k : Integer} {x : Int} (h : TyConsumes Γ (.base b)) (hk : ival Γ.K k = some x) (hx : 0 < x) :
      TyConsumes Γ (.fixedArray b k)
end

/-! ## Convergence -/

/-- With more and more fuel the outcome becomes stable, and is not a timeout. -/
def Conv {α : Type} (f : Nat → DOut α) : Prop := ∃ d, d ≠ .timeout ∧ Ev (fun k => f k = d)

theorem Conv.ok {α : Type} (a : α) : Conv (fun _ => (.ok a : DOut α)) := ⟨.ok a, by simp, Ev.of (fun _ => rfl)⟩
theorem Conv.err {α : Type} (m : String) : Conv (fun _ => (.err m : DOut α)) := ⟨.err m, by simp, Ev.of (fun _ => rfl)⟩
theorem Conv.panic {α : Type} (m : String) : Conv (fun _ => (.panic m : DOut α)) := ⟨.panic m, by simp, Ev.of (fun _ => rfl)⟩

theorem Conv.const {α : Type} {d : DOut α} (h : d ≠ .timeout) : Conv (fun _ => d) := ⟨d, h, Ev.of (fun _ => rfl)⟩

theorem Conv.bind {α β : Type} {f : Nat → DOut α} {g : Nat → α → DOut β} (hf : Conv f)
    (hg : ∀ a, (∃ k, f k = .ok a) → Conv (fun k => g k a)) : Conv (fun k => f k >>= g k) := by
  obtain ⟨d, hd, F, hF⟩ := hf
  cases d with
  | ok a =>
    obtain ⟨d', hd', G, hG⟩ := hg a ⟨F, hF F (Nat.le_refl _)⟩
    refine ⟨d', hd', max F G, fun k hk => ?_⟩
    show (f k >>= g k) = d'
    rw [hF k (by omega), DOut.ok_bind]; exact hG k (by omega)
  | err m => exact ⟨.err m, by simp, F, fun k hk => by show (f k >>= g k) = _; rw [hF k hk]; rfl⟩
  | panic m => exact ⟨.panic m, by simp, F, fun k hk => by show (f k >>= g k) = _; rw [hF k hk]; rfl⟩
  | timeout => exact absurd rfl hd

variable {Γ : Fmt} {A : Nat} {S : Nat → SDec} {ctx : Ctx} {D : Nat} {s : Struct}

/-- Element decoders end. -/
def ConvB (Γ : Fmt) (S : Nat → SDec) (b : Base) : Prop := ∀ w : Bytes, w.length < 2 ^ 63 → Conv (fun k => decBase Γ (S k) b w)

/-- An element read from a non-empty input consumes something. -/
def Progress (Γ : Fmt) (S : Nat → SDec) (b : Base) : Prop :=
  ∀ k w v r, w ≠ [] → w.length < 2 ^ 63 → decBase Γ (S k) b w = .ok (v, r) → r.length < w.length

theorem decInt_ne {t : IntType} {w : Bytes} : decInt Γ t w ≠ .timeout := by
  unfold decInt
  split
  · simp
  · split
    · simp
    · split <;> simp

theorem decCount_conv (hsuf : ∀ k, (S k).Suffix) {b : Base} (hb : ConvB Γ S b) {n : Int} :
    ∀ (m : Nat) (idx : Int), n - idx ≤ m → ∀ acc (w : Bytes), w.length < 2 ^ 63 →
    ∃ d, d ≠ .timeout ∧ Ev (fun k => ∀ k', m < k' → decCount (decBase Γ (S k) b) n k' idx acc w = d) := by
  intro m
  induction m with
  | zero =>
    intro idx hm acc w hw
    refine ⟨.ok (acc, w), by simp, Ev.of (fun k k' hk => ?_)⟩
    obtain ⟨k', rfl⟩ : ∃ j, k' = j + 1 := ⟨k' - 1, by omega⟩
    simp only [decCount]
    rw [if_neg (by omega)]
  | succ m ih =>
    intro idx hm acc w hw
    by_cases hi : idx < n
    · obtain ⟨d, hd, F, hF⟩ := hb w hw
      simp only at hF
      cases d with
      | ok a =>
        obtain ⟨v, r⟩ := a
        obtain ⟨d', hd', G, hG⟩ := ih (idx + 1) (by omega) (acc ++ [v]) r
          (Nat.lt_of_le_of_lt (decBase_suffix (hsuf F) (hF F (Nat.le_refl _))).length_le hw)
        refine ⟨d', hd', max F G, fun k hk k' hk' => ?_⟩
        obtain ⟨k', rfl⟩ : ∃ j, k' = j + 1 := ⟨k' - 1, by omega⟩
        simp only [decCount, if_pos hi]
        rw [hF k (by omega), DOut.ok_bind]
        exact hG k (by omega) k' (by omega)
      | err m =>
        refine ⟨.err m, by simp, F, fun k hk k' hk' => ?_⟩
        obtain ⟨k', rfl⟩ : ∃ j, k' = j + 1 := ⟨k' - 1, by omega⟩
        simp only [decCount, if_pos hi]
        rw [hF k (by omega)]; rfl
      | panic m =>
        refine ⟨.panic m, by simp, F, fun k hk k' hk' => ?_⟩
        obtain ⟨k', rfl⟩ : ∃ j, k' = j + 1 := ⟨k' - 1, by omega⟩
        simp only [decCount, if_pos hi]
        rw [hF k (by omega)]; rfl
      | timeout => exact absurd rfl hd
    · refine ⟨.ok (acc, w), by simp, Ev.of (fun k k' hk => ?_)⟩
      obtain ⟨k', rfl⟩ : ∃ j, k' = j + 1 := ⟨k' - 1, by omega⟩
      simp only [decCount]
      rw [if_neg hi]

theorem decRem_conv {b : Base} (hb : ConvB Γ S b) (hp : Progress Γ S b) : ∀ (m : Nat) (w : Bytes), w.length ≤ m → w.length < 2 ^ 63 → ∀ acc,
    ∃ d, d ≠ .timeout ∧ Ev (fun k => ∀ k', m < k' → decRem (decBase Γ (S k) b) k' acc w = d) := by
  intro m
  induction m with
  | zero =>
    intro w hm hw acc
    refine ⟨.ok (acc, w), by simp, Ev.of (fun k k' hk => ?_)⟩
    obtain ⟨k', rfl⟩ : ∃ j, k' = j + 1 := ⟨k' - 1, by omega⟩
    simp only [decRem]
    rw [if_neg (by omega)]
  | succ m ih =>
    intro w hm hw acc
    by_cases hi : 0 < w.length
    · obtain ⟨d, hd, F, hF⟩ := hb w hw
      simp only at hF
      cases d with
      | ok a =>
        obtain ⟨v, r⟩ := a
        have hlt := hp F w v r (by intro h; subst h; simp at hi) hw (hF F (Nat.le_refl _))
        obtain ⟨d', hd', G, hG⟩ := ih r (by omega) (by omega) (acc ++ [v])
        refine ⟨d', hd', max F G, fun k hk k' hk' => ?_⟩
        obtain ⟨k', rfl⟩ : ∃ j, k' = j + 1 := ⟨k' - 1, by omega⟩
        simp only [decRem, if_pos hi]
        rw [hF k (by omega), DOut.ok_bind]
        exact hG k (by omega) k' (by omega)
      | err m =>
        refine ⟨.err m, by simp, F, fun k hk k' hk' => ?_⟩
        obtain ⟨k', rfl⟩ : ∃ j, k' = j + 1 := ⟨k' - 1, by omega⟩
        simp only [decRem, if_pos hi]
        rw [hF k (by omega)]; rfl
      | panic m =>
        refine ⟨.panic m, by simp, F, fun k hk k' hk' => ?_⟩
        obtain ⟨k', rfl⟩ : ∃ j, k' = j + 1 := ⟨k' - 1, by omega⟩
        simp only [decRem, if_pos hi]
        rw [hF k (by omega)]; rfl
      | timeout => exact absurd rfl hd
    · refine ⟨.ok (acc, w), by simp, Ev.of (fun k k' hk => ?_)⟩
      obtain ⟨k', rfl⟩ : ∃ j, k' = j + 1 := ⟨k' - 1, by omega⟩
      simp only [decRem]
      rw [if_neg hi]

theorem decRemArr_conv {b : Base} (hb : ConvB Γ S b) (hp : Progress Γ S b) {w : Bytes} (hw : w.length < 2 ^ 63) :
    Conv (fun k => decRemArr Γ (S k) k b w) := by
  refine Conv.bind ?_ (fun a _ => Conv.ok _)
  obtain ⟨d, hd, F, hF⟩ := decRem_conv hb hp w.length w (Nat.le_refl _) hw []
  exact ⟨d, hd, max F (w.length + 1), fun k hk => hF k (by omega) k (by omega)⟩

theorem decCountArr_conv (hsuf : ∀ k, (S k).Suffix) {b : Base} (hb : ConvB Γ S b) (n : Int) {w : Bytes}
    (hw : w.length < 2 ^ 63) (g : List Val → Val) :
    Conv (fun k => (do let (vs, w) ← decCount (decBase Γ (S k) b) n k 0 [] w; .ok (g vs, w) : DOut (Val × Bytes))) := by
  refine Conv.bind ?_ (fun a _ => Conv.ok _)
  obtain ⟨d, hd, F, hF⟩ := decCount_conv hsuf hb n.toNat 0 (n := n) (by omega) [] w hw
  exact ⟨d, hd, max F (n.toNat + 1), fun k hk => hF k (by omega) k (by omega)⟩

theorem decWindow_conv {α : Type} {n : Int} {w : Bytes} {body : Nat → Bytes → DOut (α × Bytes)}
    (hb : ∀ w' : Bytes, w'.length ≤ w.length → Conv (fun k => body k w')) : Conv (fun k => decWindow n w (body k)) := by
  unfold decWindow
  split
  · exact Conv.panic _
  · refine Conv.bind (hb _ (by simp; omega)) (fun a _ => ?_)
    obtain ⟨x, r⟩ := a
    simp only
    split
    · exact Conv.err _
    · exact Conv.ok _

theorem decConstrained_conv {α : Type} {o : Fields} {c : LengthConstraint} {w : Bytes} {body : Nat → Bytes → DOut (α × Bytes)}
    (hb : ∀ w' : Bytes, w'.length ≤ w.length → Conv (fun k => body k w')) : Conv (fun k => decConstrained Γ ctx o c w (body k)) := by
  cases c with
  | leftover k =>
    simp only [decConstrained]
    split
    · exact Conv.panic _
    · split
      · exact Conv.err _
      · exact decWindow_conv hb
  | idRef r =>
    simp only [decConstrained]
    split
    · exact Conv.panic _
    · split
      · exact Conv.err _
      · exact decWindow_conv hb

theorem decTy_conv (hsuf : ∀ k, (S k).Suffix) {o : Fields} {t : Ty} (hb : ∀ b ∈ tyBases t, ConvB Γ S b) (hp : ∀ b ∈ endBases t, Progress Γ S b)
    {w : Bytes} (hw : w.length < 2 ^ 63) :
    Conv (fun k => decTy Γ A (S k) k ctx D o w t) := by
  cases t with
  | base b => exact hb b (by simp [tyBases]) w hw
  | ptr => exact Conv.ok _
  | nulterm =>
    simp only [decTy]
    split
    · exact Conv.err _
    · exact Conv.ok _
  | fixedArray b n =>
    simp only [decTy]
    split
    · exact Conv.panic _
    · exact decCountArr_conv hsuf (hb b (by simp [tyBases])) _ hw .array
  | varArray b c =>
    have hb' := hb b (by simp [tyBases])
    match c with
    | none => exact decRemArr_conv hb' (hp b (by simp [endBases])) hw
    | some (.leftover k) =>
      simp only [decTy]
      exact decConstrained_conv (body := fun k => decRemArr Γ (S k) k b) (fun w' h => decRemArr_conv hb' (hp b (by simp [endBases])) (by omega))
    | some (.idRef r) =>
      simp only [decTy]
      split
      · exact Conv.panic _
      · split
        · exact Conv.panic _
        · exact decCountArr_conv hsuf hb' _ hw .slice

theorem decLeaf_conv (hsuf : ∀ k, (S k).Suffix) {o : Fields} {l : Leaf} (hb : ∀ f ∈ leafFields [l], ∀ b ∈ tyBases f.type, ConvB Γ S b)
    (hp : ∀ f ∈ leafFields [l], ∀ b ∈ endBases f.type, Progress Γ S b) {w : Bytes} (hw : w.length < 2 ^ 63) :
    Conv (fun k => decLeaf Γ A (S k) k ctx D o w l) := by
  cases l with
  | field f =>
    exact Conv.bind (decTy_conv hsuf (hb f (by simp [leafFields])) (hp f (by simp [leafFields])) hw) (fun a _ => Conv.ok _)
  | eos =>
    simp only [decLeaf]
    split
    · exact Conv.err _
    · exact Conv.ok _
  | ignore => exact Conv.ok _
  | fail => exact Conv.err _

theorem mem_leafFields_cons {l : Leaf} {ls : List Leaf} {f : Field} :
    f ∈ leafFields (l :: ls) ↔ f ∈ leafFields [l] ∨ f ∈ leafFields ls := by
  cases l <;> simp [leafFields]

theorem decLeaves_conv (hsuf : ∀ k, (S k).Suffix) : ∀ {ls : List Leaf} (hb : ∀ f ∈ leafFields ls, ∀ b ∈ tyBases f.type, ConvB Γ S b)
    (hp : ∀ f ∈ leafFields ls, ∀ b ∈ endBases f.type, Progress Γ S b) (o : Fields) (w : Bytes), w.length < 2 ^ 63 →
    Conv (fun k => decLeaves Γ A (S k) k ctx D ls o w) := by
  intro ls
  induction ls with
  | nil => intro _ _ o w _; exact Conv.ok _
  | cons l ls ih =>
    intro hb hp o w hw
    refine Conv.bind (decLeaf_conv hsuf (fun f hf => hb f (mem_leafFields_cons.2 (Or.inl hf)))
      (fun f hf => hp f (mem_leafFields_cons.2 (Or.inl hf))) hw) ?_
    rintro ⟨o1, w1⟩ ⟨k, hk⟩
    exact ih (fun f hf => hb f (mem_leafFields_cons.2 (Or.inr hf)))
      (fun f hf => hp f (mem_leafFields_cons.2 (Or.inr hf))) o1 w1
      (Nat.lt_of_le_of_lt (decLeaf_suffix (hsuf k) hk).length_le hw)

theorem decCases_conv (hsuf : ∀ k, (S k).Suffix) {u : UnionMember} (hb : ∀ f ∈ memberFields (.union u), ∀ b ∈ tyBases f.type, ConvB Γ S b)
    (hp : ∀ f ∈ memberFields (.union u), ∀ b ∈ endBases f.type, Progress Γ S b) (o : Fields) {w : Bytes} (hw : w.length < 2 ^ 63) :
    Conv (fun k => decCases Γ A (S k) k ctx D u o w) := by
  simp only [decCases]
  split
  · exact Conv.panic _
  · split
    · rename_i c hc
      have hm := selectCase_mem hc
      have hsub : ∀ f ∈ leafFields c.members, f ∈ memberFields (.union u) := by
        intro f hf
        simp only [memberFields, List.mem_flatMap]; exact ⟨c, hm, hf⟩
      exact decLeaves_conv hsuf (fun f hf => hb f (hsub f hf)) (fun f hf => hp f (hsub f hf)) o w hw
    · exact Conv.ok _

theorem decMember_conv (hsuf : ∀ k, (S k).Suffix) {m : Member} (hb : ∀ f ∈ memberFields m, ∀ b ∈ tyBases f.type, ConvB Γ S b)
    (hp : ∀ f ∈ memberFields m, ∀ b ∈ endBases f.type, Progress Γ S b) (o : Fields) {w : Bytes} (hw : w.length < 2 ^ 63) :
    Conv (fun k => decMember Γ A (S k) k ctx D o w m) := by
  cases m with
  | leaf l => exact decLeaf_conv hsuf hb hp hw
  | union u =>
    simp only [decMember]
    split
    · exact decCases_conv hsuf hb hp o hw
    · exact decConstrained_conv (fun w' h => decCases_conv hsuf hb hp o (by omega))

theorem decMembers_conv (hsuf : ∀ k, (S k).Suffix) : ∀ {ms : List Member} (hb : ∀ f ∈ fieldsOf ms, ∀ b ∈ tyBases f.type, ConvB Γ S b)
    (hp : ∀ f ∈ fieldsOf ms, ∀ b ∈ endBases f.type, Progress Γ S b) (o : Fields) (w : Bytes), w.length < 2 ^ 63 →
    Conv (fun k => decMembers Γ A (S k) k ctx D ms o w) := by
  intro ms
  induction ms with
  | nil => intro _ _ o w _; exact Conv.ok _
  | cons m ms ih =>
    intro hb hp o w hw
    rw [fieldsOf_cons] at hb hp
    refine Conv.bind (decMember_conv hsuf (fun f hf => hb f (List.mem_append_left _ hf))
      (fun f hf => hp f (List.mem_append_left _ hf)) o hw) ?_
    rintro ⟨o1, w1⟩ ⟨k, hk⟩
    exact ih (fun f hf => hb f (List.mem_append_right _ hf))
      (fun f hf => hp f (List.mem_append_right _ hf)) o1 w1
      (Nat.lt_of_le_of_lt (decMember_suffix (hsuf k) hk).length_le hw)

theorem Conv.succ {α : Type} {f : Nat → DOut α} (h : Conv (fun k => f (k + 1))) : Conv f := by
  obtain ⟨d, hd, hF⟩ := h
  exact ⟨d, hd, Ev.succ hF⟩

theorem field_tyOK (hs : StructOK Γ s) {f : Field} (hf : f ∈ fieldsOf s.ms) : TyOK Γ s f.type := by
  obtain ⟨m, hm, hfm⟩ := List.mem_flatMap.1 hf
  have hmo := hs.members m hm
  cases m with
  | leaf l =>
    cases l with
    | field f' =>
      simp [memberFields, leafFields] at hfm; subst hfm; exact hmo
    | eos => simp [memberFields, leafFields] at hfm
    | ignore => simp [memberFields, leafFields] at hfm
    | fail => simp [memberFields, leafFields] at hfm
  | union u =>
    simp only [memberFields, List.mem_flatMap] at hfm
    obtain ⟨c, hc, hfc⟩ := hfm
    simp only [leafFields, List.mem_filterMap] at hfc
    obtain ⟨l, hl, hlf⟩ := hfc
    have := (hmo.2.2 c hc).2 l hl
    cases l <;> simp at hlf
    subst hlf; exact this

theorem endBases_sub {t : Ty} {b : Base} (h : b ∈ endBases t) : b ∈ tyBases t := by
  match t with
  | .varArray b' none => simpa [tyBases, endBases] using h
  | .varArray b' (some (.leftover k)) => simpa [tyBases, endBases] using h
  | .varArray b' (some (.idRef r)) => simp [endBases] at h
  | .base b' => simp [endBases] at h
  | .ptr => simp [endBases] at h
  | .nulterm => simp [endBases] at h
  | .fixedArray b' k => simp [endBases] at h

theorem tyOK_base {t : Ty} {b : Base} (ht : TyOK Γ s t) (h : b ∈ tyBases t) : BaseOK Γ s b := by
  match t with
  | .varArray b' none => simp [tyBases] at h; subst h; exact ht
  | .varArray b' (some c) => simp [tyBases] at h; subst h; exact ht.1
  | .base b' => simp [tyBases] at h; subst h; exact ht
  | .ptr => simp [tyBases] at h
  | .nulterm => simp [tyBases] at h
  | .fixedArray b' k => simp [tyBases] at h; subst h; exact ht.1

theorem decInt_progress {t : IntType} (ht : 8 ≤ t.size) {w r : Bytes} {v : Val} (h : decInt Γ t w = .ok (v, r)) :
    r.length < w.length := by
  unfold decInt at h
  split at h
  · cases h
  · rename_i hl
    have hdr : (w.drop (t.size / 8)).length < w.length := by simp; omega
    split at h
    · cases h; exact hdr
    · split at h
      · cases h; exact hdr
      · cases h

/-- No circular nesting, and elements of to-the-end arrays consume something: decoding ends. -/
theorem decStruct_conv (hΓ : FmtOK Γ) (hac : Acyclic Γ)
    (hp : ∀ n s, Γ.structs n = some s → s.extern = false → ∀ n', NestsToEnd s n' →
      ∀ k w v r, w ≠ [] → w.length < 2 ^ 63 → decStruct Γ A ctx k n' w = .ok (v, r) → r.length < w.length) :
    ∀ n (w : Bytes), w.length < 2 ^ 63 → Conv (fun k => decStruct Γ A ctx k n w) := by
  obtain ⟨rank, hrank⟩ := hac
  have main : ∀ (m : Nat) n, rank n < m → ∀ w : Bytes, w.length < 2 ^ 63 → Conv (fun k => decStruct Γ A ctx k n w) := by
    intro m
    induction m with
    | zero => intro n h; omega
    | succ m ih =>
      intro n hn w hw
      apply Conv.succ
      simp only [decStruct]
      cases hs : Γ.structs n with
      | none => exact Conv.panic _
      | some s =>
        simp only
        cases he : s.extern with
        | true =>
          simp only [if_true]
          split
          · exact Conv.ok _
          · exact Conv.err _
        | false =>
          simp only [Bool.false_eq_true, if_false]
          refine Conv.bind (decMembers_conv (fun k => decStruct_suffix k) ?_ ?_ _ _ hw) (fun a _ => Conv.ok _)
          · intro f hf b hb w' hw'
            cases b with
            | int t => exact Conv.const decInt_ne
            | char => exact Conv.const (decInt_ne (Γ := Γ))
            | struct n' => exact ih n' (by have := hrank n s hs he n' ⟨f, hf, hb⟩; omega) w' hw'
          · intro f hf b hb k w' v r hne hw' hd
            have htok := tyOK_base (field_tyOK (hΓ.structs n s hs he) hf) (endBases_sub hb)
            cases b with
            | int t => exact decInt_progress (by rcases htok.1 with h | h | h | h <;> omega) hd
            | char => exact decInt_progress (Γ := Γ) (t := U8) (by decide) hd
            | struct n' => exact hp n s hs he n' ⟨f, hf, hb⟩ k w' v r hne hw' hd
  exact fun n w hw => main (rank n + 1) n (by omega) w hw

/-! ## Structs that consume something -/

section
variable {T : SDec} {L : Nat}

/-- Structs with no empty encoding consume something. -/
def ProgS (Γ : Fmt) (T : SDec) : Prop := ∀ n w v r, Consumes Γ n → T n w = .ok (v, r) → r.length < w.length

theorem decBase_consumes (hT : ProgS Γ T) {b : Base} (hb : BaseOK Γ s b) (hc : TyConsumes Γ (.base b)) {w r : Bytes} {v : Val}
    (h : decBase Γ T b w = .ok (v, r)) : r.length < w.length := by
  cases hc with
  | int t => exact decInt_progress (by rcases hb.1 with h | h | h | h <;> omega) h
  | char => exact decInt_progress (Γ := Γ) (t := U8) (by decide) h
  | nested hn => exact hT _ _ _ _ hn h

theorem decTy_consumes (hT : ProgS Γ T) (hsuf : T.Suffix) {t : Ty} (ht : TyOK Γ s t) (hc : TyConsumes Γ t) {o : Fields} {w r : Bytes} {v : Val}
    (h : decTy Γ A T L ctx D o w t = .ok (v, r)) : r.length < w.length := by
  cases t with
  | base b => exact decBase_consumes hT ht hc h
  | ptr => cases hc
  | varArray b c => cases hc
  | nulterm =>
    simp only [decTy] at h
    split at h
    · cases h
    · rename_i hi
      cases h
      simp only [List.length_drop]
      rcases w with _ | ⟨b, w⟩
      · simp [indexByte0] at hi
      · simp only [List.length_cons]; omega
  | fixedArray b k =>
    cases hc with
    | array hb hk hx =>
      simp only [decTy, hk] at h
      obtain ⟨⟨vs, w'⟩, h1, h2⟩ := DOut.bind_eq_ok.1 h
      cases h2
      cases L with
      | zero => cases h1
      | succ L =>
        simp only [decCount] at h1
        rw [if_pos hx] at h1
        obtain ⟨⟨v1, w1⟩, h3, h4⟩ := DOut.bind_eq_ok.1 h1
        have := decBase_consumes hT ht.1 hb h3
        have := (decCount_suffix (fun _ _ _ => decBase_suffix hsuf) _ _ _ _ _ _ h4).length_le
        simp only at *
        omega

theorem decMembers_consumes (hT : ProgS Γ T) (hsuf : T.Suffix) (hs : StructOK Γ s) {f : Field} (hc : TyConsumes Γ f.type) :
    ∀ {ms : List Member}, (∀ m ∈ ms, m ∈ s.ms) → .leaf (.field f) ∈ ms → ∀ {o o' : Fields} {w r : Bytes},
    decMembers Γ A T L ctx D ms o w = .ok (o', r) → r.length < w.length := by
  intro ms
  induction ms with
  | nil => intro _ h; cases h
  | cons m ms ih =>
    intro hm hf o o' w r h
    obtain ⟨⟨o1, w1⟩, h1, h2⟩ := DOut.bind_eq_ok.1 h
    have hl1 := (decMember_suffix hsuf h1).length_le
    have hl2 := (decMembers_suffix hsuf h2).length_le
    rcases List.mem_cons.1 hf with rfl | hf
    · obtain ⟨⟨v, w'⟩, h3, h4⟩ := DOut.bind_eq_ok.1 h1
      cases h4
      have := decTy_consumes hT hsuf (hs.members _ (hm _ List.mem_cons_self)) hc h3
      omega
    · have := ih (fun m' h' => hm m' (List.mem_cons_of_mem _ h')) hf h2
      omega

theorem decStruct_consumes (hΓ : FmtOK Γ) : ∀ fuel, ProgS Γ (decStruct Γ A ctx fuel) := by
  intro fuel
  induction fuel with
  | zero => intro n w v r _ h; cases h
  | succ fuel ih =>
    intro n w v r hc h
    cases hc with
    | struct hs he hf ht =>
      simp only [decStruct, hs, he, Bool.false_eq_true, if_false] at h
      obtain ⟨⟨o, w'⟩, h1, h2⟩ := DOut.bind_eq_ok.1 h
      cases h2
      exact decMembers_consumes ih (decStruct_suffix fuel) (hΓ.structs _ _ hs he) ht (fun _ h => h) hf h1

end

/-! ## Decoding that never ends -/

/-- Timeout, or this outcome. -/
theorem decRem_timeout {elem : Bytes → DOut (Val × Bytes)} {v : Val} {w : Bytes} (hw : w ≠ [])
    (h : elem w = .timeout ∨ elem w = .ok (v, w)) : ∀ k acc, decRem elem k acc w = .timeout := by
  intro k
  induction k with
  | zero => intro acc; rfl
  | succ k ih =>
    intro acc
    have hl : 0 < w.length := by cases w with
      | nil => exact absurd rfl hw
      | cons b w => simp
    simp only [decRem, if_pos hl]
    rcases h with h | h
    · rw [h]; rfl
    · rw [h]; exact ih _

end Verif.Wire
