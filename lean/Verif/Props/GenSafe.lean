import Verif.Props.Gen
import Verif.Safety
import Verif.SafetyInput
import Verif.Term
/-!
# Properties of generated parsers: no panic, termination (C20, C21)

Notation as in `Verif/Props/Gen`.
-/
set_option linter.unusedVariables false
namespace Verif.Props
open Verif Verif.Ast Verif.Go Verif.Gen Verif.Wire Verif.Spec Verif.Inspect Verif.Refine

variable {nm : String → String} {ext : Ext} {ord : IterOrder} {fs : List File} {p : Prog} {ctx : Ctx}
variable {n : String} {s : Struct} {A : Nat}

/-! ## C20 -/

/-- **C20.** If every field used as a length has at most 32 bits, and 2^32 - 1 elements can be
allocated, the generated `Parse` does not panic on any input. -/
theorem parse_no_panic_partial (G : Generated nm ext ord fs p ctx) (hn : NarrowFmt (fmtOf nm ext fs)) (hA : 2 ^ 32 ≤ A + 1)
    (hs : (fmtOf nm ext fs).structs n = some s) {w : Bytes} (hid : Bytes) (hw : w.length < 2 ^ 63) :
    ¬ Panics p ext A (nm n) (ctxArgs s ctx) w hid := by
  intro h
  obtain ⟨k, m, hk⟩ := (panics_iff G hs hid hw).1 h
  exact decStruct_np G.fmtOK hn G.ctxOK hA k n s w hs hw m hk

theorem exMsg_narrow : NarrowFmt (fmtOf exNm exExt exMsg) := NarrowFmt.of_check (by decide +kernel)

example (w : Bytes) (hw : w.length < 2 ^ 63) :
    ¬ Panics (emitted exMsg) exExt (2 ^ 32) (exNm "msg") (ctxArgs (structOf exMsg "msg") exCtx) w [] :=
  parse_no_panic_partial exMsg_gen exMsg_narrow (by decide) exMsg_msg [] hw

/-- A single struct. -/
def one (n : String) (ms : List Member) : List File :=
  [{ constants := [], contexts := [], pragmas := [], structs := [⟨n, [], some ms⟩] }]

/-- `struct a { u64 n; u8 x[n]; }`. -/
def exWide : List File := one "a"
  [.leaf (uF "n" 64), .leaf (.field ⟨"x", .varArray (.int ⟨8, none⟩) (some (.idRef ⟨"", "n"⟩))⟩)]

theorem exWide_gen : Generated exNm exExt idOrder exWide (emitted exWide) noCtx where
  gen := marshallers_emitted (by decide +kernel)
  ok := by refine FilesOK.of_check ?_ ?_ ?_ <;> decide +kernel
  ctxOK := ctxOK_of_check (by intro C hC; cases hC)

/-- The condition on lengths is needed: with a 64-bit length the generated code panics on an input of
eight bytes, however large `A` below 2^63. -/
theorem parse_panics_wide (hA : A < 2 ^ 63) : ∃ w : Bytes, w.length = 8 ∧
    Panics (emitted exWide) exExt A (exNm "a") (ctxArgs (structOf exWide "a") noCtx) w [] := by
  refine ⟨[255, 255, 255, 255, 255, 255, 255, 255], rfl,
    (panics_iff exWide_gen (by decide +kernel) [] (by decide)).2 ⟨2, "makeslice: len out of range", ?_⟩⟩
  rfl

/-- `struct a { u8 t; u64 n; union u[t] with length n { 1: u8 x; }; }`. -/
def exWideUnion : List File := one "a"
  [.leaf (uF "t" 8), .leaf (uF "n" 64), .union ⟨"u", ⟨"", "t"⟩, some (.idRef ⟨"", "n"⟩),
    [⟨some ⟨[⟨.literal 1, none⟩]⟩, [uF "x" 8]⟩]⟩]

theorem exWideUnion_gen : Generated exNm exExt idOrder exWideUnion (emitted exWideUnion) noCtx where
  gen := marshallers_emitted (by decide +kernel)
  ok := by refine FilesOK.of_check ?_ ?_ ?_ <;> decide +kernel
  ctxOK := ctxOK_of_check (by intro C hC; cases hC)

/-- The same for the length of a union. -/
theorem parse_panics_wide_union : ∃ w : Bytes, w.length = 10 ∧
    Panics (emitted exWideUnion) exExt A (exNm "a") (ctxArgs (structOf exWideUnion "a") noCtx) w [] := by
  refine ⟨[1, 255, 255, 255, 255, 255, 255, 255, 255, 7], rfl,
    (panics_iff exWideUnion_gen (by decide +kernel) [] (by decide)).2 ⟨2, "slice bounds out of range", ?_⟩⟩
  rfl

/-- Without a condition on the format, a panic needs a large number in the input: if every field used as a
length has at most `k` bits, `A` elements can be allocated, and the generated `Parse` panics on an input of at
most `A` bytes, then the input contains a number of at most `k` bits, in one of the widths of number fields, that is
larger than `A` (or a context does). -/
theorem parse_panics_only (G : Generated nm ext ord fs p ctx) {k : Nat} (hn : LengthsWithin (fmtOf nm ext fs) k)
    (hcb : CtxBelow (fmtOf nm ext fs) k A ctx) (hA : A < 2 ^ 63) (hs : (fmtOf nm ext fs).structs n = some s) {w : Bytes} (hid : Bytes)
    (hw : w.length ≤ A) (h : Panics p ext A (nm n) (ctxArgs s ctx) w hid) :
    ∃ d : Bytes, d <:+: w ∧ IsWidth (8 * d.length) ∧ 8 * d.length ≤ k ∧ A < beNat d := by
  obtain ⟨fuel, m, hk⟩ := (panics_iff G hs hid (by omega)).1 h
  by_contra hno
  refine decStruct_npb G.fmtOK hn G.ctxOK hcb hA fuel n s w hs hw (fun d hd h1 h2 => ?_) m hk
  by_contra h3
  exact hno ⟨d, hd, h1, h2, by omega⟩

/-- For all formats: with room for 2^32 - 1 elements, a panic needs eight consecutive bytes in the input whose value,
as a number, is larger than what can be allocated. -/
theorem parse_panics_number (G : Generated nm ext ord fs p ctx) (hcb : CtxBelow (fmtOf nm ext fs) 64 A ctx) (hA : A < 2 ^ 63)
    (hA' : 2 ^ 32 ≤ A + 1) (hs : (fmtOf nm ext fs).structs n = some s) {w : Bytes} (hid : Bytes) (hw : w.length ≤ A)
    (h : Panics p ext A (nm n) (ctxArgs s ctx) w hid) : ∃ a d b : Bytes, w = a ++ d ++ b ∧ d.length = 8 ∧ A < beNat d := by
  obtain ⟨d, ⟨a, b, hab⟩, h1, _, h2⟩ := parse_panics_only G lengthsWithin_64 hcb hA hs hid hw h
  refine ⟨a, d, b, hab.symm, ?_, h2⟩
  have hlt := beNat_lt d
  unfold IsWidth at h1
  rcases h1 with h1 | h1 | h1 | h1
  · have : d.length = 1 := by omega
    rw [this] at hlt; omega
  · have : d.length = 2 := by omega
    rw [this] at hlt; omega
  · have : d.length = 4 := by omega
    rw [this] at hlt; omega
  · omega

theorem noCtx_below {k : Nat} : CtxBelow (fmtOf nm ext fs) k A noCtx := by
  intro c C hC f hf _ x hx
  simp [noCtx, getF] at hx

/-- In particular no input of fewer than eight bytes makes a parser without contexts panic, even with 64-bit lengths. -/
theorem parse_short_no_panic (G : Generated nm ext ord fs p noCtx) (hA : A < 2 ^ 63)
    (hA' : 2 ^ 32 ≤ A + 1) (hs : (fmtOf nm ext fs).structs n = some s) {w : Bytes} (hid : Bytes) (hw : w.length < 8) :
    ¬ Panics p ext A (nm n) (ctxArgs s noCtx) w hid := by
  intro h
  obtain ⟨a, d, b, rfl, hd, _⟩ := parse_panics_number G noCtx_below hA hA' hs hid (by omega) h
  simp at hw; omega

example {w : Bytes} (hw : w.length < 8) :
    ¬ Panics (emitted exWide) exExt (2 ^ 40) (exNm "a") (ctxArgs (structOf exWide "a") noCtx) w [] :=
  parse_short_no_panic exWide_gen (by decide) (by decide) (by decide +kernel) [] hw

/-- A format with 64-bit lengths and an input on which it panics: the number is there. -/
example : ∃ a d b : Bytes, ([255, 255, 255, 255, 255, 255, 255, 255] : Bytes) = a ++ d ++ b ∧ d.length = 8 ∧ 2 ^ 40 < beNat d :=
  have hs : (fmtOf exNm exExt exWide).structs "a" = some (structOf exWide "a") := by decide +kernel
  parse_panics_number exWide_gen noCtx_below (by decide) (by decide) hs [] (by decide)
    ((panics_iff exWide_gen hs [] (by decide)).2 ⟨2, "makeslice: len out of range", rfl⟩)

/-! ## C21 -/

/-- **C21.** If no struct contains itself, and no struct in a to-the-end array can be accepted from a
non-empty input without consuming anything, the generated `Parse` returns on every input. -/
theorem parse_ends (G : Generated nm ext ord fs p ctx) (hac : Acyclic (fmtOf nm ext fs))
    (hprog : ∀ n s, (fmtOf nm ext fs).structs n = some s → s.extern = false → ∀ n' s', NestsToEnd s n' →
      (fmtOf nm ext fs).structs n' = some s' → ∀ w v, w ≠ [] → w.length < 2 ^ 63 →
        ¬ Accepts p ext A (nm n') (ctxArgs s' ctx) w [] v w)
    (hs : (fmtOf nm ext fs).structs n = some s) {w : Bytes} (hid : Bytes) (hw : w.length < 2 ^ 63) :
    ¬ Hangs p ext A (nm n) (ctxArgs s ctx) w hid := by
  intro h
  have hconv := decStruct_conv (A := A) (ctx := ctx) G.fmtOK hac ?_ n w hw
  · obtain ⟨d, hd, F, hF⟩ := hconv
    exact hd ((hF F (Nat.le_refl _)).symm.trans ((hangs_iff G hs hid hw).1 h F))
  · intro n s hsn he n' hn' k w v r hne hw hk
    have hs' : ∃ s', (fmtOf nm ext fs).structs n' = some s' := by
      obtain ⟨f, hf, hb⟩ := hn'
      obtain ⟨s', hs', _⟩ := tyOK_base (field_tyOK (G.ok.structs n s hsn he) hf) (endBases_sub hb)
      exact ⟨s', hs'⟩
    obtain ⟨s', hs'⟩ := hs'
    have hsuf := decStruct_suffix k n' w v r hk
    rcases Nat.lt_or_ge r.length w.length with hlt | hge
    · exact hlt
    · have : r = w := hsuf.eq_of_length_le hge
      subst this
      exact absurd ((accepts_iff G hs' [] hw).2 ⟨k, hk⟩) (hprog n s hsn he n' s' hn' hs' r v hne hw)

/-- **C21**, a condition that can be read off the source: no struct contains itself, and every struct in
a to-the-end array has a member that is never empty. -/
theorem parse_ends_static (G : Generated nm ext ord fs p ctx) (hac : Acyclic (fmtOf nm ext fs))
    (hcons : ∀ n s, (fmtOf nm ext fs).structs n = some s → s.extern = false → ∀ n', NestsToEnd s n' →
      Consumes (fmtOf nm ext fs) n')
    (hs : (fmtOf nm ext fs).structs n = some s) {w : Bytes} (hid : Bytes) (hw : w.length < 2 ^ 63) :
    ¬ Hangs p ext A (nm n) (ctxArgs s ctx) w hid := by
  refine parse_ends G hac ?_ hs hid hw
  intro n s hsn he n' s' hn' hs' w v _ hw h
  obtain ⟨k, hk⟩ := (accepts_iff G hs' [] hw).1 h
  exact absurd (decStruct_consumes G.fmtOK k n' w v w (hcons n s hsn he n' hn') hk) (Nat.lt_irrefl _)

/-- With both conditions every call returns: a value and the rest, or an error. -/
theorem parse_total (G : Generated nm ext ord fs p ctx) (hn : NarrowFmt (fmtOf nm ext fs)) (hA : 2 ^ 32 ≤ A + 1)
    (hac : Acyclic (fmtOf nm ext fs))
    (hcons : ∀ n s, (fmtOf nm ext fs).structs n = some s → s.extern = false → ∀ n', NestsToEnd s n' →
      Consumes (fmtOf nm ext fs) n')
    (hs : (fmtOf nm ext fs).structs n = some s) {w : Bytes} (hid : Bytes) (hw : w.length < 2 ^ 63) :
    (∃ v r, Accepts p ext A (nm n) (ctxArgs s ctx) w hid v r) ∨ ∃ m, Rejects p ext A (nm n) (ctxArgs s ctx) w hid m := by
  rcases outcome_cases (A := A) G hs hid hw with h | h | h | h
  · exact Or.inl h
  · exact Or.inr h
  · exact absurd h (parse_no_panic_partial G hn hA hs hid hw)
  · exact absurd h (parse_ends_static G hac hcons hs hid hw)

/-- ```
struct entry { u8 kind; nulterm label; }
struct list { struct entry xs[]; }
``` -/
def exList : List File := [{
  constants := [], contexts := [], pragmas := []
  structs := [
    ⟨"entry", [], some [.leaf (uF "kind" 8), .leaf (.field ⟨"label", .nulterm⟩)]⟩,
    ⟨"list", [], some [.leaf (.field ⟨"xs", .varArray (.struct "entry") none⟩)]⟩] }]

theorem exList_gen : Generated exNm exExt idOrder exList (emitted exList) noCtx where
  gen := marshallers_emitted (by decide +kernel)
  ok := by refine FilesOK.of_check ?_ ?_ ?_ <;> decide +kernel
  ctxOK := ctxOK_of_check (by intro C hC; cases hC)

theorem exList_acyclic : Acyclic (fmtOf exNm exExt exList) :=
  Acyclic.of_check (fun n => if n = "list" then 1 else 0) (by decide +kernel)

theorem exList_consumes : ∀ n s, (fmtOf exNm exExt exList).structs n = some s → s.extern = false → ∀ n', NestsToEnd s n' →
    Consumes (fmtOf exNm exExt exList) n' := by
  rintro n s hs he n' ⟨f, hf, hb⟩
  have : ∀ s ∈ exList.flatMap (·.structs), s.extern = false → ∀ f ∈ fieldsOf s.ms, ∀ b ∈ endBases f.type,
    b = .struct "entry" := by decide +kernel
  cases this s (fmtOf_struct_mem hs).1 he f hf _ hb
  exact .struct (s := structOf exList "entry") (f := ⟨"kind", .base (.int ⟨8, none⟩)⟩) (by decide +kernel) (by decide +kernel)
    (by decide +kernel) (.int _)

example (w : Bytes) (hw : w.length < 2 ^ 63) :
    ¬ Hangs (emitted exList) exExt (2 ^ 32) (exNm "list") (ctxArgs (structOf exList "list") noCtx) w [] :=
  parse_ends_static exList_gen exList_acyclic exList_consumes (by decide +kernel) [] hw

example (w : Bytes) (hw : w.length < 2 ^ 63) :
    ¬ Hangs (emitted exList) exExt (2 ^ 32) (exNm "list") (ctxArgs (structOf exList "list") noCtx) w [] := by
  refine parse_ends exList_gen exList_acyclic ?_ (by decide +kernel) [] hw
  intro n s hsn he n' s' hn' hs' w v _ hw h
  obtain ⟨k, hk⟩ := (accepts_iff exList_gen hs' [] hw).1 h
  exact absurd (decStruct_consumes exList_gen.fmtOK k n' w v w (exList_consumes n s hsn he n' hn') hk) (Nat.lt_irrefl _)

theorem exMsg_acyclic : Acyclic (fmtOf exNm exExt exMsg) :=
  Acyclic.of_check (fun n => if n = "msg" then 1 else 0) (by decide +kernel)

example (w : Bytes) (hw : w.length < 2 ^ 63) :
    (∃ v r, Accepts (emitted exMsg) exExt (2 ^ 32) (exNm "msg") (ctxArgs (structOf exMsg "msg") exCtx) w [] v r) ∨
    ∃ m, Rejects (emitted exMsg) exExt (2 ^ 32) (exNm "msg") (ctxArgs (structOf exMsg "msg") exCtx) w [] m := by
  refine parse_total exMsg_gen exMsg_narrow (by decide) exMsg_acyclic ?_ exMsg_msg [] hw
  rintro n s hs he n' ⟨f, hf, hb⟩
  have : ∀ s ∈ exMsg.flatMap (·.structs), s.extern = false → ∀ f ∈ fieldsOf s.ms, endBases f.type = [] := by decide +kernel
  rw [this s (fmtOf_struct_mem hs).1 he f hf] at hb
  cases hb

/-- The condition on to-the-end arrays is needed: if the element struct can be accepted from a
non-empty input without consuming anything, a struct starting with such an array never returns on that
input. -/
theorem parse_hangs_empty_element (G : Generated nm ext ord fs p ctx) {n' x : String} {s' : Struct} {ms : List Member}
    (hs : (fmtOf nm ext fs).structs n = some s) (hm : s.members = some (.leaf (.field ⟨x, .varArray (.struct n') none⟩) :: ms))
    (hs' : (fmtOf nm ext fs).structs n' = some s') {w : Bytes} (hid : Bytes) (hw : w.length < 2 ^ 63) (hne : w ≠ []) {v : Val}
    (h : Accepts p ext A (nm n') (ctxArgs s' ctx) w [] v w) : Hangs p ext A (nm n) (ctxArgs s ctx) w hid := by
  rw [hangs_iff G hs hid hw]
  have hel : ∀ k, decStruct (fmtOf nm ext fs) A ctx k n' w = .timeout ∨ decStruct (fmtOf nm ext fs) A ctx k n' w = .ok (v, w) := by
    intro k
    obtain ⟨F, hF⟩ := (accepts_iff G hs' [] hw).1 h
    cases hd : decStruct (fmtOf nm ext fs) A ctx k n' w with
    | timeout => exact Or.inl rfl
    | ok q =>
      obtain ⟨h1, h2⟩ := ((accepts_iff G hs' [] hw).2 ⟨k, hd⟩ : Accepts p ext A _ _ _ _ _ _).unique h
      exact Or.inr (by rw [← h1, ← h2])
    | err m => exact absurd ((rejects_iff G hs' [] hw).2 ⟨k, hd⟩ : Rejects p ext A _ _ _ _ _) (fun hr => h.not_rejects hr)
    | panic m =>
      obtain ⟨_, hp⟩ := ((panics_iff G hs' [] hw).2 ⟨k, m, hd⟩ : Panics p ext A _ _ _ _)
      obtain ⟨_, h⟩ := h
      exact absurd (hp.unique h) (by simp)
  have he : s.extern = false := by simp [Struct.extern, hm]
  have hms : s.ms = .leaf (.field ⟨x, .varArray (.struct n') none⟩) :: ms := by simp [Struct.ms, hm]
  intro fuel
  cases fuel with
  | zero => rfl
  | succ k =>
    simp only [decStruct, hs, he, Bool.false_eq_true, if_false, hms, decMembers, decMember, decLeaf, decTy, decRemArr]
    rw [decRem_timeout hne (by exact hel k)]
    rfl

/-- `struct e { } struct a { struct e xs[]; }`. -/
def exEmpty : List File := [{
  constants := [], contexts := [], pragmas := []
  structs := [⟨"e", [], some []⟩, ⟨"a", [], some [.leaf (.field ⟨"xs", .varArray (.struct "e") none⟩)]⟩] }]

theorem exEmpty_gen : Generated exNm exExt idOrder exEmpty (emitted exEmpty) noCtx where
  gen := marshallers_emitted (by decide +kernel)
  ok := by refine FilesOK.of_check ?_ ?_ ?_ <;> decide +kernel
  ctxOK := ctxOK_of_check (by intro C hC; cases hC)

example : Hangs (emitted exEmpty) exExt A (exNm "a") (ctxArgs (structOf exEmpty "a") noCtx) [0] [] :=
  parse_hangs_empty_element exEmpty_gen (n' := "e") (s' := structOf exEmpty "e") (by decide +kernel) rfl (by decide +kernel) []
    (by decide) (by decide) ((accepts_iff exEmpty_gen (by decide +kernel) [] (by decide)).2 ⟨2, rfl⟩)

/-- The condition on nesting is needed: a struct starting with a field of its own type never returns. -/
theorem parse_hangs_self (G : Generated nm ext ord fs p ctx) {x : String} {ms : List Member}
    (hs : (fmtOf nm ext fs).structs n = some s) (hm : s.members = some (.leaf (.field ⟨x, .base (.struct n)⟩) :: ms))
    {w : Bytes} (hid : Bytes) (hw : w.length < 2 ^ 63) : Hangs p ext A (nm n) (ctxArgs s ctx) w hid := by
  rw [hangs_iff G hs hid hw]
  have he : s.extern = false := by simp [Struct.extern, hm]
  have hms : s.ms = .leaf (.field ⟨x, .base (.struct n)⟩) :: ms := by simp [Struct.ms, hm]
  intro fuel
  induction fuel with
  | zero => rfl
  | succ k ih =>
    simp only [decStruct, hs, he, Bool.false_eq_true, if_false, hms, decMembers, decMember, decLeaf, decTy, decBase]
    rw [ih]
    rfl

/-- `struct a { struct a x; u8 y; }`. -/
def exSelf : List File := one "a" [.leaf (.field ⟨"x", .base (.struct "a")⟩), .leaf (uF "y" 8)]

theorem exSelf_gen : Generated exNm exExt idOrder exSelf (emitted exSelf) noCtx where
  gen := marshallers_emitted (by decide +kernel)
  ok := by refine FilesOK.of_check ?_ ?_ ?_ <;> decide +kernel
  ctxOK := ctxOK_of_check (by intro C hC; cases hC)

example : Hangs (emitted exSelf) exExt A (exNm "a") (ctxArgs (structOf exSelf "a") noCtx) [1, 2] [] :=
  parse_hangs_self exSelf_gen (by decide +kernel) rfl [] (by decide)

end Verif.Props
