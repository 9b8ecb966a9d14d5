import Verif.TvClass
import Verif.Check
/-!
# Deciding the class of formats of `Verif/TvClass.lean`

A sound checker, so that concrete formats can be shown to be in the class by evaluation.
-/
namespace Verif.Tv
open Verif Verif.Ast Verif.Go Verif.Spec Verif.Wire

instance (K : String → Option Int) (l : IntegerList) : Decidable (ListOK K l) :=
  decidable_of_iff (∀ r ∈ l.ranges, ∃ p, bounds K r = some p ∧ (0 ≤ p.1 ∧ p.1 < 2 ^ 63 ∧ 0 ≤ p.2 ∧ p.2 < 2 ^ 63))
    ⟨fun h r hr => let ⟨p, h1, h2⟩ := h r hr; ⟨p.1, p.2, h1, h2⟩,
     fun h r hr => let ⟨a, b, h1, h2⟩ := h r hr; ⟨(a, b), h1, h2⟩⟩

instance (K : String → Option Int) (l : IntegerList) (n : Nat) : Decidable (Below K l n) := by
  unfold Below; infer_instance

instance (K : String → Option Int) (l : IntegerList) (n : Nat) : Decidable (ListGen K l n) := by
  unfold ListGen; infer_instance

instance (K : String → Option Int) (t : IntType) : Decidable (IntGen K t) := by unfold IntGen; infer_instance

instance (K : String → Option Int) : (t : Ty) → Decidable (CountTy K t)
  | .base (.int t) => inferInstanceAs (Decidable (SizeOK t ∧ t.size ≤ 32 ∧
      ∀ l, t.constraint = some l → ∀ x ∈ List.range' 1 20, listHas K l (x : Int) = true))
  | .base .char => .isTrue trivial
  | .base (.struct _) => .isFalse id
  | .ptr => .isFalse id
  | .nulterm => .isFalse id
  | .fixedArray _ _ => .isFalse id
  | .varArray _ _ => .isFalse id

instance (Γ : Fmt) (s : Struct) (r : IDRef) : Decidable (CountRef Γ s r) := by unfold CountRef; infer_instance

instance (B : Nat) : (t : Ty) → Decidable (LenTy B t)
  | .base (.int t) => inferInstanceAs (Decidable (SizeOK t ∧ t.constraint = none ∧ B ≤ 2 ^ t.size))
  | .base .char => inferInstanceAs (Decidable (B ≤ 2 ^ 8))
  | .base (.struct _) => .isFalse id
  | .ptr => .isFalse id
  | .nulterm => .isFalse id
  | .fixedArray _ _ => .isFalse id
  | .varArray _ _ => .isFalse id

instance (B : Nat) (s : Struct) (r : IDRef) : Decidable (LenRef B s r) := by unfold LenRef; infer_instance

instance (Γ : Fmt) {C O : String → Prop} [DecidablePred C] [DecidablePred O] : (b : Base) → Decidable (ElemGen Γ C O b)
  | .int t => inferInstanceAs (Decidable (IntGen Γ.K t))
  | .char => .isTrue trivial
  | .struct n => inferInstanceAs (Decidable (C n ∧ O n))

instance (K : String → Option Int) (r r' : IntegerRange) : Decidable (Apart K r r') := by unfold Apart; infer_instance

instance (K : String → Option Int) (cs : List UnionCase) : Decidable (CasesApart K cs) := by
  unfold CasesApart; infer_instance

instance (K : String → Option Int) (l l' : IntegerList) : Decidable (Within K l l') := by
  unfold Within; infer_instance

/-- Deciding what `TagGen` asks of the field used as tag. -/
def decTag (Γ : Fmt) (u : UnionMember) : (t : Ty) → Decidable (match t with
    | .base (.int t) => SizeOK t ∧ (∀ c ∈ u.cases, ∀ l, c.case = some l → Below Γ.K l t.size) ∧
        ∀ l, t.constraint = some l → ∀ c ∈ u.cases, c.members = [.fail] ∨
          ∃ l', c.case = some l' ∧ Within Γ.K l' l
    | _ => True)
  | .base (.int _) => inferInstance
  | .base .char => .isTrue trivial
  | .base (.struct _) => .isTrue trivial
  | .ptr => .isTrue trivial
  | .nulterm => .isTrue trivial
  | .fixedArray _ _ => .isTrue trivial
  | .varArray _ _ => .isTrue trivial

instance (Γ : Fmt) (s : Struct) (u : UnionMember) : Decidable (TagGen Γ s u) := by
  unfold TagGen
  have : DecidablePred fun f : Field => f.name = u.tag.name → (match f.type with
    | .base (.int t) => SizeOK t ∧ (∀ c ∈ u.cases, ∀ l, c.case = some l → Below Γ.K l t.size) ∧
        ∀ l, t.constraint = some l → ∀ c ∈ u.cases, c.members = [.fail] ∨
          ∃ l', c.case = some l' ∧ Within Γ.K l' l
    | _ => True) := fun f => @instDecidableForall _ _ _ (decTag Γ u f.type)
  infer_instance

/-- A sufficient condition for all encodings of a struct to be non-empty, looking `d` structs deep. -/
def consumesB (Γ : Fmt) : Nat → String → Bool
  | 0, _ => false
  | d + 1, n => match Γ.structs n with
    | none => false
    | some s => !s.extern && s.ms.any (fun m => match m with
      | .leaf (.field f) => match f.type with
        | .base (.int _) => true
        | .base .char => true
        | .base (.struct n) => consumesB Γ d n
        | .nulterm => true
        | _ => false
      | _ => false)

theorem consumesB_sound {Γ : Fmt} : ∀ {d : Nat} {n : String}, consumesB Γ d n = true → Consumes Γ n := by
  intro d
  induction d with
  | zero => intro n h; cases h
  | succ d ih =>
    intro n h
    simp only [consumesB] at h
    cases hs : Γ.structs n with
    | none => rw [hs] at h; cases h
    | some s =>
      rw [hs] at h
      simp only [Bool.and_eq_true, Bool.not_eq_true', List.any_eq_true] at h
      obtain ⟨he, m, hm, h⟩ := h
      cases m with
      | leaf l =>
        cases l with
        | field f =>
          refine .struct hs he hm ?_
          cases ht : f.type with
          | base b =>
            cases b with
            | int t => exact .int t
            | char => exact .char
            | struct n => simp only [ht] at h; exact .nested (ih h)
          | nulterm => exact .nulterm
          | ptr => simp [ht] at h
          | fixedArray b k => simp [ht] at h
          | varArray b c => simp [ht] at h
        | eos => cases h
        | ignore => cases h
        | fail => cases h
      | union u => cases h

/-- A sufficient condition for all encodings of an element to be non-empty. -/
def baseConsumesB (Γ : Fmt) (d : Nat) : Base → Bool
  | .int _ => true
  | .char => true
  | .struct n => consumesB Γ d n

theorem baseConsumesB_sound {Γ : Fmt} {d : Nat} {b : Base} (h : baseConsumesB Γ d b = true) :
    TyConsumes Γ (.base b) := by
  cases b with
  | int t => exact .int t
  | char => exact .char
  | struct n => exact .nested (consumesB_sound h)

section
variable (Γ : Fmt) (d B : Nat) (s : Struct) (C O : String → Prop) [DecidablePred C] [DecidablePred O]

/-- Checking `TyGen`. -/
def tyGenB (p : List String) : Ty → Bool
  | .base (.int t) => decide (IntGen Γ.K t)
  | .base .char => true
  | .base (.struct _) => p.isEmpty
  | .ptr => true
  | .nulterm => true
  | .fixedArray b n => decide (ElemGen Γ C O b ∧ NatOK Γ n)
  | .varArray b (some (.idRef r)) => decide (ElemGen Γ C O b ∧ CountRef Γ s r)
  | .varArray _ (some (.leftover _)) => true
  | .varArray b none => decide (ElemGen Γ C O b) && baseConsumesB Γ d b

/-- Checking `LeafGen`. -/
def leafGenB (p : List String) : Leaf → Bool
  | .field f => tyGenB Γ d s C O p f.type
  | _ => true

/-- Checking `LeavesGen`. -/
def leavesGenB (p : List String) : List Leaf → Bool
  | [] => true
  | l :: ls => (ls.isEmpty || decide (LeafClosed C l)) && leafGenB Γ d s C O (needLeaves ls ++ p) l &&
      leavesGenB p ls

/-- Checking `MemberGen`. -/
def memberGenB (p : List String) : Member → Bool
  | .leaf l => leafGenB Γ d s C O p l
  | .union u => decide (∀ k ∈ p, k ∉ memberNames (.union u)) && decide (TagGen Γ s u) &&
      (match u.length with | some (.idRef r) => decide (LenRef B s r) | _ => true) && decide (CasesApart Γ.K u.cases) &&
      decide (∀ c ∈ u.cases, ∀ l, c.case = some l → l.ranges ≠ [] ∧ ListOK Γ.K l) &&
      u.cases.all (fun c => decide (c.members = [.fail]) || leavesGenB Γ d s C O (refNames u.tag ++ p) c.members)

/-- Checking `MembersGen`. -/
def membersGenB : List Member → Bool
  | [] => true
  | m :: ms => (ms.isEmpty || decide (MemberClosed C m)) && memberGenB Γ d B s C O (needs ms) m && membersGenB ms

/-- Checking `StructGen`. -/
def structGenB : Bool :=
  !s.ms.isEmpty && decide (∀ f ∈ fieldsOf s.ms, f.name ≠ "") && (needs s.ms).isEmpty && membersGenB Γ d B s C O s.ms

end

section
variable {Γ : Fmt} {d B : Nat} {s : Struct} {C O : String → Prop} [DecidablePred C] [DecidablePred O]

theorem tyGenB_sound {p : List String} {t : Ty} (h : tyGenB Γ d s C O p t = true) : TyGen Γ s C O p t := by
  cases t with
  | base b =>
    cases b with
    | int t => simp only [tyGenB, decide_eq_true_eq] at h; exact h
    | char => trivial
    | struct n => exact List.isEmpty_iff.1 h
  | ptr => trivial
  | nulterm => trivial
  | fixedArray b k => simp only [tyGenB, decide_eq_true_eq] at h; exact h
  | varArray b c =>
    cases c with
    | none =>
      simp only [tyGenB, Bool.and_eq_true, decide_eq_true_eq] at h
      exact ⟨h.1, baseConsumesB_sound h.2⟩
    | some c =>
      cases c with
      | leftover k => trivial
      | idRef r => simp only [tyGenB, decide_eq_true_eq] at h; exact h

theorem leafGenB_sound {p : List String} {l : Leaf} (h : leafGenB Γ d s C O p l = true) : LeafGen Γ s C O p l := by
  cases l with
  | field f => exact tyGenB_sound h
  | _ => trivial

theorem leavesGenB_sound {p : List String} : ∀ {ls : List Leaf}, leavesGenB Γ d s C O p ls = true →
    LeavesGen Γ s C O p ls := by
  intro ls
  induction ls with
  | nil => intro _; trivial
  | cons l ls ih =>
    intro h
    simp only [leavesGenB, Bool.and_eq_true, Bool.or_eq_true, List.isEmpty_iff, decide_eq_true_eq] at h
    exact ⟨fun hne => h.1.1.resolve_left hne, leafGenB_sound h.1.2, ih h.2⟩

theorem memberGenB_sound {p : List String} {m : Member} (h : memberGenB Γ d B s C O p m = true) :
    MemberGen Γ B s C O p m := by
  cases m with
  | leaf l => exact leafGenB_sound h
  | union u =>
    simp only [memberGenB, Bool.and_eq_true, decide_eq_true_eq, List.all_eq_true, Bool.or_eq_true] at h
    obtain ⟨⟨⟨⟨⟨h1, h2⟩, h3⟩, h4⟩, h5⟩, h6⟩ := h
    refine ⟨h1, h2, fun r hr => ?_, h4, h5, fun c hc => (h6 c hc).imp id leavesGenB_sound⟩
    rw [hr] at h3
    exact of_decide_eq_true h3

theorem membersGenB_sound : ∀ {ms : List Member}, membersGenB Γ d B s C O ms = true → MembersGen Γ B s C O ms := by
  intro ms
  induction ms with
  | nil => intro _; trivial
  | cons m ms ih =>
    intro h
    simp only [membersGenB, Bool.and_eq_true, Bool.or_eq_true, List.isEmpty_iff, decide_eq_true_eq] at h
    exact ⟨fun hne => h.1.1.resolve_left hne, memberGenB_sound h.1.2, ih h.2⟩

theorem structGenB_sound (h : structGenB Γ d B s C O = true) : StructGen Γ B C O s := by
  simp only [structGenB, Bool.and_eq_true, Bool.not_eq_true', decide_eq_true_eq, List.isEmpty_iff] at h
  obtain ⟨⟨⟨h1, h2⟩, h3⟩, h4⟩ := h
  exact ⟨fun e => by simp [e] at h1, h2, h3, membersGenB_sound h4⟩

instance : (m : Member) → Decidable (OneMember O m)
  | .leaf (.field f) => match h : f.type with
    | .base (.struct n) => decidable_of_iff (O n) ⟨fun hn k e => by rw [h] at e; cases e; exact hn, fun h' => h' n h⟩
    | .base (.int _) => .isTrue (by intro k e; rw [h] at e; cases e)
    | .base .char => .isTrue (by intro k e; rw [h] at e; cases e)
    | .ptr => .isTrue (by intro k e; rw [h] at e; cases e)
    | .nulterm => .isTrue (by intro k e; rw [h] at e; cases e)
    | .fixedArray _ _ => .isTrue (by intro k e; rw [h] at e; cases e)
    | .varArray _ _ => .isTrue (by intro k e; rw [h] at e; cases e)
  | .leaf .ignore => .isFalse id
  | .leaf .eos => .isTrue trivial
  | .leaf .fail => .isTrue trivial
  | .union _ => .isFalse id

/-- Deciding that all integer fields of contexts have proper sizes. -/
def sizedB (D : Context) : Bool := D.members.all fun f => match f.type with
  | .base (.int t) => decide (SizeOK t)
  | _ => true

end

/-- What has to be evaluated to show files to be in the class: `cs` are the structs whose extent does not
depend on what follows, `os` those with one shape only. -/
theorem FmtGen.of_check {nm : String → String} {ext : Ext} {fs : List File} {B : Nat} (d : Nat) (cs os : List String)
    (hB : B ≤ 2 ^ 63)
    (hc : ∀ n ∈ cs, ∃ s, (fmtOf nm ext fs).structs n = some s ∧ s.extern = false ∧ ∀ m ∈ s.ms, MemberClosed (· ∈ cs) m)
    (ho : ∀ s ∈ fs.flatMap (·.structs), s.name ∈ os → s.extern = false → ∀ m ∈ s.ms, OneMember (· ∈ os) m)
    (hx : ∀ D ∈ fs.flatMap (·.contexts), sizedB D = true)
    (hs : ∀ s ∈ fs.flatMap (·.structs), s.extern = false →
      structGenB (fmtOf nm ext fs) d B s (· ∈ cs) (· ∈ os) = true) :
    FmtGen (fmtOf nm ext fs) B (· ∈ cs) (· ∈ os) := by
  refine ⟨hB, hc, ?_, ?_, fun n s h he => structGenB_sound (hs s (fmtOf_struct_mem h).1 he)⟩
  · intro n s hn h he
    obtain ⟨h1, rfl⟩ := fmtOf_struct_mem h
    exact ho s h1 hn he
  · intro c D hD f hf t ht
    have := List.all_eq_true.1 (hx D (lastDecl_mem hD).1) f hf
    simp only [ht] at this
    exact of_decide_eq_true this

end Verif.Tv
