import Verif.Sound
import Verif.Safety
import Verif.Term
/-!
# Deciding well-formedness

Instances that let concrete formats be shown well-formed by evaluation.
-/
namespace Verif.Wire
open Verif.Ast Verif.Go Verif.Spec

instance (t : IntType) : Decidable (SizeOK t) := by unfold SizeOK; infer_instance

instance {α : Type} (o : Option α) (p : α → Prop) [DecidablePred p] : Decidable (∀ a, o = some a → p a) :=
  match o with
  | none => .isTrue (by intro a h; cases h)
  | some b => decidable_of_iff (p b) ⟨fun h a ha => by cases ha; exact h, fun h => h b rfl⟩

instance {α : Type} (o : Option α) (p : α → Prop) [DecidablePred p] : Decidable (∃ a, o = some a ∧ p a) :=
  match o with
  | none => .isFalse (by rintro ⟨a, h, _⟩; cases h)
  | some b => decidable_of_iff (p b) ⟨fun h => ⟨b, rfl, h⟩, fun ⟨a, ha, h⟩ => by cases ha; exact h⟩

instance (t : IntType) : Decidable (ConstraintOK t) := by unfold ConstraintOK; infer_instance

instance : (t : Ty) → Decidable (IntLike t)
  | .base (.int t) => inferInstanceAs (Decidable (SizeOK t))
  | .base .char => .isTrue trivial
  | .base (.struct _) => .isFalse id
  | .ptr => .isTrue trivial
  | .nulterm => .isFalse id
  | .fixedArray _ _ => .isFalse id
  | .varArray _ _ => .isFalse id

instance (Γ : Fmt) (s : Struct) : (b : Base) → Decidable (BaseOK Γ s b)
  | .int t => inferInstanceAs (Decidable (SizeOK t ∧ ConstraintOK t))
  | .char => .isTrue trivial
  | .struct n => inferInstanceAs (Decidable (∃ s', Γ.structs n = some s' ∧ ∀ c ∈ s'.contexts, c ∈ s.contexts))

instance (Γ : Fmt) (s : Struct) (r : IDRef) : Decidable (RefOK Γ s r) := by unfold RefOK; infer_instance

instance (Γ : Fmt) (i : Integer) : Decidable (NatOK Γ i) := by unfold NatOK; infer_instance

instance (Γ : Fmt) (s : Struct) : (c : LengthConstraint) → Decidable (LenOK Γ s c)
  | .leftover k => inferInstanceAs (Decidable (NatOK Γ k))
  | .idRef r => inferInstanceAs (Decidable (RefOK Γ s r))

instance (Γ : Fmt) (s : Struct) : (t : Ty) → Decidable (TyOK Γ s t)
  | .base b => inferInstanceAs (Decidable (BaseOK Γ s b))
  | .ptr => .isTrue trivial
  | .nulterm => inferInstanceAs (Decidable (firstLetter s ≠ "i"))
  | .fixedArray b n => inferInstanceAs (Decidable (BaseOK Γ s b ∧ NatOK Γ n))
  | .varArray b none => inferInstanceAs (Decidable (BaseOK Γ s b))
  | .varArray b (some c) => inferInstanceAs (Decidable (BaseOK Γ s b ∧ LenOK Γ s c))

instance (Γ : Fmt) (s : Struct) : (l : Leaf) → Decidable (LeafOK Γ s l)
  | .field f => inferInstanceAs (Decidable (TyOK Γ s f.type))
  | .eos => .isTrue trivial
  | .ignore => .isTrue trivial
  | .fail => .isTrue trivial

instance (Γ : Fmt) (s : Struct) : (m : Member) → Decidable (MemberOK Γ s m)
  | .leaf l => inferInstanceAs (Decidable (LeafOK Γ s l))
  | .union u => inferInstanceAs (Decidable (RefOK Γ s u.tag ∧ (∀ c, u.length = some c → LenOK Γ s c) ∧
    ∀ c ∈ u.cases, (∀ l, c.case = some l → l.ranges ≠ []) ∧ ∀ l ∈ c.members, LeafOK Γ s l))

instance (Γ : Fmt) (s : Struct) : Decidable (StructOK Γ s) :=
  decidable_of_iff ((∀ m ∈ s.ms, MemberOK Γ s m) ∧ ((fieldsOf s.ms).map (fun f => Γ.nm f.name)).Nodup ∧
      firstLetter s ∉ reserved ∧ ∀ c ∈ s.contexts, c ∉ reserved ∧ c ≠ firstLetter s)
    ⟨fun ⟨a, b, c, d⟩ => ⟨a, b, c, d⟩, fun ⟨a, b, c, d⟩ => ⟨a, b, c, d⟩⟩

/-- Deciding the order of references inside a case. -/
def decLeavesOrd : (ls : List Leaf) → Decidable (LeavesOrd ls)
  | [] => .isTrue trivial
  | l :: ls =>
    match (inferInstance : Decidable (∀ n ∈ leafRefs l, n ∉ leafNames (l :: ls))), decLeavesOrd ls with
    | .isTrue h, .isTrue h' => .isTrue ⟨h, h'⟩
    | .isFalse h, _ => .isFalse (fun h' => h h'.1)
    | _, .isFalse h => .isFalse (fun h' => h h'.2)

instance (ls : List Leaf) : Decidable (LeavesOrd ls) := decLeavesOrd ls

instance : (m : Member) → Decidable (MemberOrd m)
  | .leaf l => inferInstanceAs (Decidable (LeavesOrd [l]))
  | .union u => inferInstanceAs (Decidable ((∀ n ∈ refNames u.tag, n ∉ memberNames (.union u)) ∧
      (∀ c, u.length = some c → ∀ n ∈ lenRefs c, n ∉ memberNames (.union u)) ∧
      ∀ c ∈ u.cases, LeavesOrd c.members))

/-- Deciding the order of references. -/
def decMembersOrd : (ms : List Member) → Decidable (MembersOrd ms)
  | [] => .isTrue trivial
  | m :: ms =>
    match (inferInstance : Decidable (MemberOrd m ∧ ∀ n ∈ memberRefs m, ∀ m' ∈ ms, n ∉ memberNames m')),
      decMembersOrd ms with
    | .isTrue h, .isTrue h' => .isTrue ⟨h.1, h.2, h'⟩
    | .isFalse h, _ => .isFalse (fun h' => h ⟨h'.1, h'.2.1⟩)
    | _, .isFalse h => .isFalse (fun h' => h h'.2.2)

instance (ms : List Member) : Decidable (MembersOrd ms) := decMembersOrd ms

theorem lastDecl_mem {α : Type} {key : α → String} {l : List α} {n : String} {a : α}
    (h : lastDecl key l n = some a) : a ∈ l ∧ key a = n := by
  have h1 := List.mem_of_find?_eq_some h
  have h2 := List.find?_some h
  exact ⟨by simpa using h1, by simpa using h2⟩

theorem fmtOf_struct_mem {nm : String → String} {ext : Ext} {fs : List File} {n : String} {s : Struct}
    (h : (fmtOf nm ext fs).structs n = some s) : s ∈ fs.flatMap (·.structs) ∧ s.name = n := lastDecl_mem h

theorem FilesOK.fmtOK {nm : String → String} {ext : Ext} {fs : List File} (h : FilesOK nm ext fs) :
    FmtOK (fmtOf nm ext fs) :=
  ⟨fun _ _ hs => (fmtOf_struct_mem hs).2, h.structs⟩

/-- What has to be evaluated to show files well-formed. -/
theorem FilesOK.of_check {nm : String → String} {ext : Ext} {fs : List File}
    (h1 : ∀ s ∈ fs.flatMap (·.structs), s.extern = false → StructOK (fmtOf nm ext fs) s)
    (h2 : (fs.flatMap (fun f => (typeNames f).map nm)).Nodup)
    (h3 : ∀ s ∈ fs.flatMap (·.structs), s.extern = true → (fmtOf nm ext fs).structs s.name = some s →
      nm s.name ∉ fs.flatMap (fun f => (typeNames f).map nm)) : FilesOK nm ext fs := by
  refine ⟨fun n s hs he => h1 s (fmtOf_struct_mem hs).1 he, h2, ?_⟩
  intro n s hs he
  obtain ⟨hm, rfl⟩ := fmtOf_struct_mem hs
  exact h3 s hm he hs

theorem OrdOK.of_check {nm : String → String} {ext : Ext} {fs : List File}
    (h : ∀ s ∈ fs.flatMap (·.structs), s.extern = false → MembersOrd s.ms) : OrdOK (fmtOf nm ext fs) :=
  fun _ s hs he => h s (fmtOf_struct_mem hs).1 he

instance : (t : Ty) → Decidable (Narrow t)
  | .base (.int t) => inferInstanceAs (Decidable (t.size ≤ 32))
  | .base .char => .isTrue trivial
  | .base (.struct _) => .isFalse id
  | .ptr => .isFalse id
  | .nulterm => .isFalse id
  | .fixedArray _ _ => .isFalse id
  | .varArray _ _ => .isFalse id

instance (Γ : Fmt) (s : Struct) (r : IDRef) : Decidable (NarrowRef Γ s r) := by unfold NarrowRef; infer_instance

instance (Γ : Fmt) (s : Struct) : (c : LengthConstraint) → Decidable (NarrowLen Γ s c)
  | .leftover _ => .isTrue trivial
  | .idRef r => inferInstanceAs (Decidable (NarrowRef Γ s r))

instance (Γ : Fmt) (s : Struct) : (l : Leaf) → Decidable (NarrowLeaf Γ s l)
  | .field ⟨_, .varArray _ (some c)⟩ => inferInstanceAs (Decidable (NarrowLen Γ s c))
  | .field ⟨_, .varArray _ none⟩ => .isTrue trivial
  | .field ⟨_, .base _⟩ => .isTrue trivial
  | .field ⟨_, .ptr⟩ => .isTrue trivial
  | .field ⟨_, .nulterm⟩ => .isTrue trivial
  | .field ⟨_, .fixedArray _ _⟩ => .isTrue trivial
  | .eos => .isTrue trivial
  | .ignore => .isTrue trivial
  | .fail => .isTrue trivial

instance (Γ : Fmt) (s : Struct) : (m : Member) → Decidable (NarrowMember Γ s m)
  | .leaf l => inferInstanceAs (Decidable (NarrowLeaf Γ s l))
  | .union u => inferInstanceAs (Decidable ((∀ c, u.length = some c → NarrowLen Γ s c) ∧
      ∀ c ∈ u.cases, ∀ l ∈ c.members, NarrowLeaf Γ s l))

theorem NarrowFmt.of_check {nm : String → String} {ext : Ext} {fs : List File}
    (h : ∀ s ∈ fs.flatMap (·.structs), s.extern = false → ∀ m ∈ s.ms, NarrowMember (fmtOf nm ext fs) s m) :
    NarrowFmt (fmtOf nm ext fs) :=
  fun _ s hs he => h s (fmtOf_struct_mem hs).1 he

/-- The struct an element type names. -/
def baseName : Base → Option String
  | .struct n => some n
  | _ => none

theorem Acyclic.of_check {nm : String → String} {ext : Ext} {fs : List File} (rank : String → Nat)
    (h : ∀ s ∈ fs.flatMap (·.structs), s.extern = false → ∀ f ∈ fieldsOf s.ms, ∀ b ∈ tyBases f.type,
      ∀ n', baseName b = some n' → rank n' < rank s.name) : Acyclic (fmtOf nm ext fs) := by
  refine ⟨rank, ?_⟩
  rintro n s hs he n' ⟨f, hf, hb⟩
  obtain ⟨hm, rfl⟩ := fmtOf_struct_mem hs
  exact h s hm he f hf _ hb n' rfl

end Verif.Wire
