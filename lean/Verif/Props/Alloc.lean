import Verif.Props.GenSafe
import Verif.Alloc
/-!
# Properties of generated parsers: sizes of slices (C74)

The emitted code makes a slice for an array whose number of elements is a field or context variable
before it looks at the elements (gen/decl.go:229).  `A` is the largest number of elements for which `make`
succeeds; above it the emitted code panics.  Hence a parser asks for more than `A` elements exactly if
it panics with limit `A` and does not with a larger one.
-/
set_option linter.unusedVariables false
namespace Verif.Wire
open Verif.Ast Verif.Go

instance (k : Nat) : (t : Ty) → Decidable (Bits k t)
  | .base (.int t) => inferInstanceAs (Decidable (t.size ≤ k))
  | .base .char => inferInstanceAs (Decidable (8 ≤ k))
  | .base (.struct _) => .isFalse id
  | .ptr => .isFalse id
  | .nulterm => .isFalse id
  | .fixedArray _ _ => .isFalse id
  | .varArray _ _ => .isFalse id

instance (Γ : Fmt) (k : Nat) (s : Struct) (r : IDRef) : Decidable (RefBits Γ k s r) := by unfold RefBits; infer_instance

instance (Γ : Fmt) (k : Nat) (s : Struct) : (l : Leaf) → Decidable (LeafBits Γ k s l)
  | .field ⟨_, .varArray _ (some (.idRef r))⟩ => inferInstanceAs (Decidable (RefBits Γ k s r))
  | .field ⟨_, .varArray _ (some (.leftover _))⟩ => .isTrue trivial
  | .field ⟨_, .varArray _ none⟩ => .isTrue trivial
  | .field ⟨_, .base _⟩ => .isTrue trivial
  | .field ⟨_, .ptr⟩ => .isTrue trivial
  | .field ⟨_, .nulterm⟩ => .isTrue trivial
  | .field ⟨_, .fixedArray _ _⟩ => .isTrue trivial
  | .eos => .isTrue trivial
  | .ignore => .isTrue trivial
  | .fail => .isTrue trivial

instance (Γ : Fmt) (k : Nat) (s : Struct) : (m : Member) → Decidable (MemberBits Γ k s m)
  | .leaf l => inferInstanceAs (Decidable (LeafBits Γ k s l))
  | .union u => inferInstanceAs (Decidable (∀ c ∈ u.cases, ∀ l ∈ c.members, LeafBits Γ k s l))

theorem CountBits.of_check {nm : String → String} {ext : Ext} {fs : List File} {k : Nat}
    (h : ∀ s ∈ fs.flatMap (·.structs), s.extern = false → ∀ m ∈ s.ms, MemberBits (fmtOf nm ext fs) k s m) :
    CountBits (fmtOf nm ext fs) k :=
  fun _ s hs he => h s (fmtOf_struct_mem hs).1 he

end Verif.Wire

namespace Verif.Props
open Verif Verif.Ast Verif.Go Verif.Gen Verif.Wire Verif.Spec Verif.Inspect Verif.Refine

variable {nm : String → String} {ext : Ext} {ord : IterOrder} {fs : List File} {p : Prog} {ctx : Ctx}
variable {n : String} {s : Struct} {A A' k : Nat}

/-- **C74.** If all fields that give numbers of elements have at most `k` bits, the limit on `make` does not matter
from 2^k - 1 on: on every input, the outcome is the same for any two such limits. -/
theorem C74_limit (G : Generated nm ext ord fs p ctx) (hk : CountBits (fmtOf nm ext fs) k) (hA : 2 ^ k ≤ A + 1)
    (hA' : 2 ^ k ≤ A' + 1) (hs : (fmtOf nm ext fs).structs n = some s) {w : Bytes} (hid : Bytes) (hw : w.length < 2 ^ 63) :
    (∀ v r, Accepts p ext A (nm n) (ctxArgs s ctx) w hid v r ↔ Accepts p ext A' (nm n) (ctxArgs s ctx) w hid v r) ∧
    (∀ m, Rejects p ext A (nm n) (ctxArgs s ctx) w hid m ↔ Rejects p ext A' (nm n) (ctxArgs s ctx) w hid m) ∧
    (Panics p ext A (nm n) (ctxArgs s ctx) w hid ↔ Panics p ext A' (nm n) (ctxArgs s ctx) w hid) ∧
    (Hangs p ext A (nm n) (ctxArgs s ctx) w hid ↔ Hangs p ext A' (nm n) (ctxArgs s ctx) w hid) := by
  have e : ∀ fuel, decStruct (fmtOf nm ext fs) A ctx fuel n w = decStruct (fmtOf nm ext fs) A' ctx fuel n w :=
    fun fuel => decStruct_same G.fmtOK hk G.ctxOK hA hA' fuel n s w hs hw
  refine ⟨fun v r => ?_, fun m => ?_, ?_, ?_⟩
  · simp only [accepts_iff G hs hid hw, e]
  · simp only [rejects_iff G hs hid hw, e]
  · simp only [panics_iff G hs hid hw, e]
  · simp only [hangs_iff G hs hid hw, e]

/-- **C74.** If all fields that give numbers of elements have at most `k` bits, and those that give lengths of unions at
most 32, the generated `Parse` makes no slice of more than 2^k - 1 elements. -/
theorem C74_bounded (G : Generated nm ext ord fs p ctx) (hn : NarrowFmt (fmtOf nm ext fs)) (hk : CountBits (fmtOf nm ext fs) k)
    (hA : 2 ^ k ≤ A + 1) (hs : (fmtOf nm ext fs).structs n = some s) {w : Bytes} (hid : Bytes) (hw : w.length < 2 ^ 63) :
    ¬ Panics p ext A (nm n) (ctxArgs s ctx) w hid := fun h =>
  parse_no_panic_partial (A := A + 2 ^ 32) G hn (by omega) hs hid hw
    ((C74_limit (A' := A + 2 ^ 32) G hk hA (by omega) hs hid hw).2.2.1.1 h)

theorem exMsg_bits : CountBits (fmtOf exNm exExt exMsg) 16 := CountBits.of_check (by decide +kernel)

example (w : Bytes) (hw : w.length < 2 ^ 63) :
    ¬ Panics (emitted exMsg) exExt 65535 (exNm "msg") (ctxArgs (structOf exMsg "msg") exCtx) w [] :=
  C74_bounded exMsg_gen exMsg_narrow exMsg_bits (by decide) exMsg_msg [] hw

/-- The beginning of a struct: a number without constraint, then as many elements. -/
def Counted (s : Struct) (c a : String) (W : Nat) (b : Base) : Prop :=
  ∃ rest, s.ms = .leaf (uF c W) :: .leaf (.field ⟨a, .varArray b (some (.idRef ⟨"", c⟩))⟩) :: rest

/-- The values of the fields when the array is reached. -/
theorem counted_dec (G : Generated nm ext ord fs p ctx) (hs : (fmtOf nm ext fs).structs n = some s) (he : s.extern = false)
    {c a : String} {W : Nat} {b : Base} (h : Counted s c a W b) {d t : Bytes} (hd : d.length = W / 8) (fuel : Nat) :
    ∃ rest o, refVal (fmtOf nm ext fs) ctx o ⟨"", c⟩ = some ((beNat d : Nat) : Int) ∧
      decStruct (fmtOf nm ext fs) A ctx (fuel + 1) n (d ++ t) =
        (do let (o, w) ← (do
              let (o, w) ← decLeaf (fmtOf nm ext fs) A (decStruct (fmtOf nm ext fs) A ctx fuel) fuel ctx (d ++ t).length o t
                (.field ⟨a, .varArray b (some (.idRef ⟨"", c⟩))⟩)
              decMembers (fmtOf nm ext fs) A (decStruct (fmtOf nm ext fs) A ctx fuel) fuel ctx (d ++ t).length rest o w)
            .ok (.obj (nm n) o, w)) := by
  obtain ⟨rest, hms⟩ := h
  have hok := G.fmtOK.structs n s hs he
  have hf : (⟨c, .base (.int ⟨W, none⟩)⟩ : Field) ∈ fieldsOf s.ms := by
    rw [hms]; exact List.mem_flatMap.2 ⟨_, List.mem_cons_self, by simp [memberFields, leafFields, uF]⟩
  obtain ⟨v0, hv0, _⟩ := zeroObj_typed hok _ hf
  refine ⟨rest, setF (zeroObj (fmtOf nm ext fs) s) (nm c) (.num (beNat d)), ?_, ?_⟩
  · have := getF_setF_same (v := .num (beNat d)) hv0
    have this : getF (setF (zeroObj (fmtOf nm ext fs) s) (nm c) (.num (beNat d))) ((fmtOf nm ext fs).nm c) = some (.num (beNat d)) := this
    simp [refVal, this]
  · have hi : decInt (fmtOf nm ext fs) ⟨W, none⟩ (d ++ t) = .ok (.num (beNat d), t) := by
      simp only [decInt]
      rw [if_neg (by simp [hd]), ← hd, List.take_left, List.drop_left]
    simp only [decStruct, hs, he, hms, decMembers, decMember, uF, decLeaf, decTy, decBase, hi]
    rfl

/-- **C74.** The number of elements asked for does not depend on how much data there is: if a struct begins with a number
and an array of that many elements, then whatever the number says (below 2^63) is asked for, on every input that begins
with that number, however short. -/
theorem C74_asks (G : Generated nm ext ord fs p ctx) (hs : (fmtOf nm ext fs).structs n = some s) (he : s.extern = false)
    {c a : String} {W : Nat} {b : Base} (h : Counted s c a W b) {d t : Bytes} (hd : d.length = W / 8) (hA : A < beNat d)
    (hd63 : beNat d < 2 ^ 63) (hid : Bytes) (hw : (d ++ t).length < 2 ^ 63) :
    Panics p ext A (nm n) (ctxArgs s ctx) (d ++ t) hid := by
  refine (panics_iff G hs hid hw).2 ⟨1, "makeslice: len out of range", ?_⟩
  obtain ⟨rest, o, ho, e⟩ := counted_dec (A := A) (t := t) G hs he h hd 0
  have hwx : wrap64 (beNat d) = beNat d := by unfold wrap64; omega
  rw [e]
  simp only [decLeaf, decTy, ho, hwx]
  rw [if_pos (by omega)]
  rfl

/-- **C74.** The same input is rejected when the slice can be made, if the elements are numbers: as many bytes as the number
has (at most eight) suffice to have `beNat d` elements allocated for nothing. -/
theorem C74_for_nothing (G : Generated nm ext ord fs p ctx) (hs : (fmtOf nm ext fs).structs n = some s) (he : s.extern = false)
    {c a : String} {W : Nat} {t : IntType} (h : Counted s c a W (.int t)) {d : Bytes} (hd : d.length = W / 8) (hA : beNat d ≤ A)
    (hd0 : 0 < beNat d) (hd63 : beNat d < 2 ^ 63) (hid : Bytes) :
    Rejects p ext A (nm n) (ctxArgs s ctx) d hid "data too short" := by
  have hok := G.fmtOK.structs n s hs he
  have ht : 0 < t.size / 8 := by
    obtain ⟨rest, hms⟩ := h
    have := hok.members (.leaf (.field ⟨a, .varArray (.int t) (some (.idRef ⟨"", c⟩))⟩)) (by rw [hms]; simp)
    have : SizeOK t := this.1.1
    unfold SizeOK at this
    omega
  have hW : W = 8 ∨ W = 16 ∨ W = 32 ∨ W = 64 := by
    obtain ⟨rest, hms⟩ := h
    have := hok.members (.leaf (uF c W)) (by rw [hms]; simp)
    have : SizeOK ⟨W, none⟩ := this.1
    exact this
  refine (rejects_iff G hs hid (by omega)).2 ⟨2, ?_⟩
  obtain ⟨rest, o, ho, e⟩ := counted_dec (A := A) (t := []) G hs he h hd 1
  have hwx : wrap64 (beNat d) = beNat d := by unfold wrap64; omega
  rw [List.append_nil] at e
  rw [e]
  simp only [decLeaf, decTy, ho, hwx]
  rw [if_neg (by omega)]
  simp only [decCount, decBase, decInt]
  rw [if_pos (by omega), if_pos (by simpa using ht)]
  rfl

/-- `struct a { u32 n; u16 x[n]; u8 y; }`. -/
def exCounted : List File := one "a"
  [.leaf (uF "n" 32), .leaf (.field ⟨"x", .varArray (.int ⟨16, none⟩) (some (.idRef ⟨"", "n"⟩))⟩), .leaf (uF "y" 8)]

theorem exCounted_gen : Generated exNm exExt idOrder exCounted (emitted exCounted) noCtx where
  gen := marshallers_emitted (by decide +kernel)
  ok := by refine FilesOK.of_check ?_ ?_ ?_ <;> decide +kernel
  ctxOK := ctxOK_of_check (by intro C hC; cases hC)

/-- Four bytes, rejected by all who can allocate 2^32 - 1 numbers of two bytes; the others panic. -/
example (A : Nat) :
    (A < 2 ^ 32 - 1 → Panics (emitted exCounted) exExt A (exNm "a") (ctxArgs (structOf exCounted "a") noCtx) [255, 255, 255, 255] []) ∧
    (2 ^ 32 - 1 ≤ A → Rejects (emitted exCounted) exExt A (exNm "a") (ctxArgs (structOf exCounted "a") noCtx) [255, 255, 255, 255] []
      "data too short") :=
  ⟨fun h => C74_asks (t := []) exCounted_gen (by decide +kernel) (by decide) ⟨_, rfl⟩ (d := [255, 255, 255, 255]) rfl
      (by have : beNat [255, 255, 255, 255] = 2 ^ 32 - 1 := by decide
          omega) (by decide) [] (by decide),
   fun h => C74_for_nothing exCounted_gen (by decide +kernel) (by decide) ⟨_, rfl⟩ (d := [255, 255, 255, 255]) rfl
      (by have : beNat [255, 255, 255, 255] = 2 ^ 32 - 1 := by decide
          omega) (by decide) (by decide) []⟩

end Verif.Props
