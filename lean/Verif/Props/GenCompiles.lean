import Verif.GoTypeProg
import Verif.Props.GenTotal
/-!
# Properties of generated parsers: the code compiles (C36)

`Verif/GoType` checks the scope and type rules of Go for the emitted subset.  `CompileOK` is a condition
on the trunnel source alone.
-/
set_option linter.unusedVariables false
namespace Verif.Props
open Verif Verif.Ast Verif.Go Verif.Gen Verif.Wire Verif.Spec Verif.Inspect Verif.Refine

/-- **C36.** For source whose integers fit their types and whose names do not clash, the emitted package
obeys Go's scope and type rules. -/
theorem emitted_compiles {nm : String → String} {ext : Ext} {ord : IterOrder} {fs : List File} {p : Prog}
    {exts : List (String × List String)} (h : marshallers nm ord fs = .ok p) (hok : CompileOK nm ext fs exts) :
    compiles p exts = true := compiles_of_ok h hok

/-! ### Deciding the condition -/

instance : (t : Ty) → (x : Int) → Decidable (FitsTy t x)
  | .base (.int t), x => inferInstanceAs (Decidable (0 ≤ x ∧ x < 2 ^ t.size))
  | .base .char, x => inferInstanceAs (Decidable (0 ≤ x ∧ x < 2 ^ 8))
  | .base (.struct _), _ => .isFalse id
  | .ptr, x => inferInstanceAs (Decidable (-2 ^ 63 ≤ x ∧ x < 2 ^ 63))
  | .nulterm, _ => .isFalse id
  | .fixedArray _ _, _ => .isFalse id
  | .varArray _ _, _ => .isFalse id

instance (Γ : Fmt) (t : Ty) (l : IntegerList) : Decidable (ListFits Γ t l) := by unfold ListFits; infer_instance

instance (Γ : Fmt) : (b : Base) → Decidable (BaseFits Γ b)
  | .int t => inferInstanceAs (Decidable (∀ l, t.constraint = some l → ListFits Γ (.base (.int t)) l))
  | .char => .isTrue trivial
  | .struct _ => .isTrue trivial

instance (Γ : Fmt) (s : Struct) (u : UnionMember) : Decidable (UnionFits Γ s u) := by unfold UnionFits; infer_instance

instance (Γ : Fmt) (s : Struct) : (m : Member) → Decidable (MemberFits Γ s m)
  | .leaf _ => .isTrue trivial
  | .union u => inferInstanceAs (Decidable (UnionFits Γ s u))

instance (Γ : Fmt) (s : Struct) : Decidable (StructFits Γ s) :=
  decidable_of_iff ((∀ f ∈ fieldsOf s.ms, ∀ b, tyBase f.type = some b → BaseFits Γ b) ∧ ∀ m ∈ s.ms, MemberFits Γ s m)
    ⟨fun ⟨a, b⟩ => ⟨a, b⟩, fun ⟨a, b⟩ => ⟨a, b⟩⟩

instance : (t : Ty) → Decidable (CtxTy t)
  | .base (.int t) => inferInstanceAs (Decidable (SizeOK t))
  | .base .char => .isFalse id
  | .base (.struct _) => .isFalse id
  | .ptr => .isFalse id
  | .nulterm => .isFalse id
  | .fixedArray _ _ => .isFalse id
  | .varArray _ _ => .isFalse id

/-! ### Examples -/

/-- `exMsg` compiles. -/
theorem exMsg_compileOK : CompileOK exNm exExt exMsg [] where
  files := exMsg_ok
  fits := by decide +kernel
  ctxDecl := by decide +kernel
  ctxFields := by decide +kernel
  fields := by decide +kernel
  names := by decide +kernel
  builtins := by decide +kernel
  types := by decide +kernel
  externs := by
    intro n s hs he
    obtain ⟨hm, rfl⟩ := fmtOf_struct_mem hs
    exact absurd he ((by decide +kernel : ∀ s ∈ exMsg.flatMap (·.structs), ¬ s.extern = true) s hm)

example : compiles (emitted exMsg) [] = true := emitted_compiles exMsg_gen.gen exMsg_compileOK

/-- `extern struct point; context c { u8 n; } struct seg with context c { u16 k IN [1..9]; struct point p[c.n];
union t[k] { 1..4: nulterm s; default: ...; }; }`, the type `Point` being written by the user. -/
def exUser : List File := [{
  constants := [], contexts := [⟨"c", [⟨"n", .base (.int ⟨8, none⟩)⟩]⟩], pragmas := []
  structs := [⟨"point", [], none⟩, ⟨"seg", ["c"], some [
    .leaf (.field ⟨"k", .base (.int ⟨16, some ⟨[⟨.literal 1, some (.literal 9)⟩]⟩⟩)⟩),
    .leaf (.field ⟨"p", .varArray (.struct "point") (some (.idRef ⟨"c", "n"⟩))⟩),
    .union ⟨"t", ⟨"", "k"⟩, none, [⟨some ⟨[⟨.literal 1, some (.literal 4)⟩]⟩, [.field ⟨"s", .nulterm⟩]⟩, ⟨none, [.ignore]⟩]⟩]⟩] }]

theorem exUser_compileOK : CompileOK exNm exExt exUser [("Point", [])] where
  files := by refine FilesOK.of_check ?_ ?_ ?_ <;> decide +kernel
  fits := by decide +kernel
  ctxDecl := by decide +kernel
  ctxFields := by decide +kernel
  fields := by decide +kernel
  names := by decide +kernel
  builtins := by decide +kernel
  types := by decide +kernel
  externs := by
    intro n s hs he
    obtain ⟨hm, rfl⟩ := fmtOf_struct_mem hs
    exact (by decide +kernel : ∀ s ∈ exUser.flatMap (·.structs), s.extern = true →
      [("Point", ([] : List String))].lookup (exNm s.name) = some (s.contexts.map exNm)) s hm he

example : compiles (emitted exUser) [("Point", [])] = true :=
  emitted_compiles (marshallers_emitted (by decide +kernel)) exUser_compileOK

/-- The rule on unused variables is not void: a variable that is only declared, only assigned to, or only used where
another one of its name hides it, is rejected. -/
example : usedL [.define "x" (.lit 1), .ret cur] = false ∧
    usedL [.varDecl "x" (.slice (.uint 8)), .assign (.var "x") .emptyBytes, .ret cur] = false ∧
    usedL [.define "x" (.lit 1), .forIdx "x" (.lit 3) [.assign (.var "y") (.var "x")], .ret cur] = false ∧
    usedL [.define "x" (.lit 1), .ifS (.lt (.var "x") (.lit 2)) [.ret cur], .ret cur] = true := by decide +kernel

/-! ### Accepted source that does not compile

None of these is rejected by the generator. -/

/-- The generator accepts the source, and what it emits does not compile. -/
def BadCode (fs : List File) : Prop :=
  (marshallers exNm idOrder fs).isOk = true ∧ compiles (emitted fs) [] = false

instance (fs : List File) : Decidable (BadCode fs) := by unfold BadCode; infer_instance

/-- C36 fails for a struct whose name starts with i and that holds a nul-terminated string: the variable `i`
of the string parser hides the receiver `i`. -/
theorem receiver_hidden : BadCode (one "info" [.leaf (.field ⟨"name", .nulterm⟩)]) ∧
    ¬ BadCode (one "data" [.leaf (.field ⟨"name", .nulterm⟩)]) := by decide +kernel

/-- The blank identifier as a receiver: `struct _a { u8 x; }`. -/
theorem receiver_blank : BadCode (one "_a" [.leaf (uF "x" 8)]) := by decide +kernel

/-- A constraint outside the type: `u8 x IN [300]`. -/
theorem constraint_overflows :
    BadCode (one "a" [.leaf (.field ⟨"x", .base (.int ⟨8, some ⟨[⟨.literal 300, none⟩]⟩⟩)⟩)]) := by decide +kernel

/-- Two default cases. -/
theorem defaults_repeat : BadCode (one "a" [.leaf (uF "t" 8),
    .union ⟨"u", ⟨"", "t"⟩, none, [⟨none, [.field ⟨"x", .base (.int ⟨8, none⟩)⟩]⟩, ⟨none, []⟩]⟩]) := by decide +kernel

/-- A field called `parse` next to the method `Parse`. -/
theorem field_is_method : BadCode (one "a" [.leaf (uF "parse" 8)]) := by decide +kernel

/-- The constructor of `foo` and the struct `parseFoo` have the same Go name. -/
theorem constructor_is_type : BadCode [{ constants := [], contexts := [], pragmas := []
                                         structs := [⟨"foo", [], some []⟩, ⟨"parseFoo", [], some []⟩] }] := by decide +kernel

/-- A context named like a keyword. -/
theorem context_is_keyword : BadCode [{
    constants := [], contexts := [⟨"range", [⟨"n", .base (.int ⟨8, none⟩)⟩]⟩], pragmas := []
    structs := [⟨"a", ["range"], some [.leaf (uF "x" 8)]⟩] }] := by decide +kernel

/-- The same field name in two cases. -/
theorem field_repeats : BadCode (one "a" [.leaf (uF "t" 8),
    .union ⟨"u", ⟨"", "t"⟩, none, [⟨some ⟨[⟨.literal 1, none⟩]⟩, [.field ⟨"x", .base (.int ⟨8, none⟩)⟩]⟩,
      ⟨some ⟨[⟨.literal 2, none⟩]⟩, [.field ⟨"x", .base (.int ⟨8, none⟩)⟩]⟩]⟩]) := by decide +kernel

/-- A length that is no number: `nulterm n; u8 x[n];`. -/
theorem length_not_number : BadCode (one "a" [.leaf (.field ⟨"n", .nulterm⟩),
    .leaf (.field ⟨"x", .varArray (.int ⟨8, none⟩) (some (.idRef ⟨"", "n"⟩))⟩)]) := by decide +kernel

/-- A struct that needs a context its user lacks. -/
theorem context_missing : BadCode [{
    constants := [], contexts := [⟨"ctx", [⟨"n", .base (.int ⟨8, none⟩)⟩]⟩], pragmas := []
    structs := [⟨"b", ["ctx"], some [.leaf (uF "x" 8)]⟩, ⟨"a", [], some [.leaf (.field ⟨"y", .base (.struct "b")⟩)]⟩] }] := by
  decide +kernel

end Verif.Props
