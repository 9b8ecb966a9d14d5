import Verif.Props.GenSafe
import Verif.TermBound
/-!
# Properties of generated parsers: how often loops run (C75)

`fuel` of `parseNew` bounds the depth of calls and the iterations of each loop (`Verif/GoSem`); a call that does not end in
`timeout` has stayed within the bound.
-/
set_option linter.unusedVariables false
namespace Verif.Props
open Verif Verif.Ast Verif.Go Verif.Gen Verif.Wire Verif.Spec Verif.Inspect Verif.Refine

variable {nm : String → String} {ext : Ext} {ord : IterOrder} {fs : List File} {p : Prog} {ctx : Ctx}
variable {n : String} {s : Struct} {A : Nat}

/-- **C75.** Structs nest at most `rank` deep, elements of arrays whose length is in the input are never empty, and arrays of a fixed
length have at most `c` elements, or elements that are never empty. Then on every input calls nest at most `rank n + max |w| c + 2` deep
and no loop runs longer than that. -/
theorem C75_loops (G : Generated nm ext ord fs p ctx) {rank : String → Nat} {c : Nat} (hr : Ranked (fmtOf nm ext fs) rank)
    (hl : ∀ n s, (fmtOf nm ext fs).structs n = some s → s.extern = false → ∀ f ∈ fieldsOf s.ms, LoopsIn (fmtOf nm ext fs) c f.type)
    (hs : (fmtOf nm ext fs).structs n = some s) {w : Bytes} (hid : Bytes) (hw : w.length < 2 ^ 63) :
    parseNew p ext A (rank n + max w.length c + 2) (nm n) (ctxArgs s ctx) w hid ≠ .timeout := by
  intro h
  have hd := parseNew_dec (A := A) G hs hid hw (rank n + max w.length c + 2)
  rw [h] at hd
  have hnt := decStruct_nt (A := A) (ctx := ctx) (N := w.length) G.fmtOK hr hl (rank n) n (Nat.le_refl _) w (Nat.le_refl _)
  cases hk : decStruct (fmtOf nm ext fs) A ctx (rank n + max w.length c + 2) n w with
  | ok q => rw [hk] at hd; obtain ⟨_, hd⟩ := hd; cases hd
  | err m => rw [hk] at hd; obtain ⟨_, hd⟩ := hd; cases hd
  | panic m => rw [hk] at hd; obtain ⟨_, hd⟩ := hd; cases hd
  | timeout => exact hnt hk

theorem Ranked.of_check {nm : String → String} {ext : Ext} {fs : List File} (rank : String → Nat)
    (h : ∀ s ∈ fs.flatMap (·.structs), s.extern = false → ∀ f ∈ fieldsOf s.ms, ∀ b ∈ tyBases f.type,
      ∀ n', baseName b = some n' → rank n' < rank s.name) : Ranked (fmtOf nm ext fs) rank := by
  rintro n s hs he n' ⟨f, hf, hb⟩
  obtain ⟨hm, rfl⟩ := fmtOf_struct_mem hs
  exact h s hm he f hf _ hb n' rfl

/-- ```
struct entry { u8 kind; nulterm label; }
struct list { u32 n; struct entry xs[n]; u8 pad[16]; struct entry ys[]; }
``` -/
def exLoops : List File := [{
  constants := [], contexts := [], pragmas := []
  structs := [
    ⟨"entry", [], some [.leaf (uF "kind" 8), .leaf (.field ⟨"label", .nulterm⟩)]⟩,
    ⟨"list", [], some [.leaf (uF "n" 32), .leaf (.field ⟨"xs", .varArray (.struct "entry") (some (.idRef ⟨"", "n"⟩))⟩),
      .leaf (.field ⟨"pad", .fixedArray (.int ⟨8, none⟩) (.literal 16)⟩), .leaf (.field ⟨"ys", .varArray (.struct "entry") none⟩)]⟩] }]

theorem exLoops_gen : Generated exNm exExt idOrder exLoops (emitted exLoops) noCtx where
  gen := marshallers_emitted (by decide +kernel)
  ok := by refine FilesOK.of_check ?_ ?_ ?_ <;> decide +kernel
  ctxOK := ctxOK_of_check (by intro C hC; cases hC)

theorem exLoops_ranked : Ranked (fmtOf exNm exExt exLoops) fun n => if n = "list" then 1 else 0 := Ranked.of_check _ (by decide +kernel)

theorem exLoops_in (n : String) (s : Struct) (hs : (fmtOf exNm exExt exLoops).structs n = some s) (he : s.extern = false) (f : Field)
    (hf : f ∈ fieldsOf s.ms) : LoopsIn (fmtOf exNm exExt exLoops) 0 f.type := by
  have hcons : TyConsumes (fmtOf exNm exExt exLoops) (.base (.struct "entry")) :=
    .nested (.struct (s := structOf exLoops "entry") (f := ⟨"kind", .base (.int ⟨8, none⟩)⟩) (by decide +kernel) (by decide +kernel)
      (by decide +kernel) (.int _))
  have key : ∀ s ∈ exLoops.flatMap (·.structs), s.extern = false → ∀ f ∈ fieldsOf s.ms,
      f.type = .base (.int ⟨8, none⟩) ∨ f.type = .nulterm ∨ f.type = .base (.int ⟨32, none⟩) ∨
      f.type = .varArray (.struct "entry") (some (.idRef ⟨"", "n"⟩)) ∨ f.type = .fixedArray (.int ⟨8, none⟩) (.literal 16) ∨
      f.type = .varArray (.struct "entry") none := by decide +kernel
  rcases key s (fmtOf_struct_mem hs).1 he f hf with h | h | h | h | h | h <;> rw [h]
  · trivial
  · trivial
  · trivial
  · exact hcons
  · exact Or.inl (.int _)
  · exact hcons

/-- Four bytes can ask for 2^32 - 1 elements, but no loop runs more often than there are bytes. -/
example (w : Bytes) (hw : w.length < 2 ^ 63) :
    parseNew (emitted exLoops) exExt A (1 + max w.length 0 + 2) (exNm "list") (ctxArgs (structOf exLoops "list") noCtx) w [] ≠ .timeout :=
  C75_loops (n := "list") exLoops_gen exLoops_ranked exLoops_in (by decide +kernel) [] hw

/-- ```
struct none { }
struct list { u32 n; struct none xs[n]; }
``` -/
def exIdle : List File := [{
  constants := [], contexts := [], pragmas := []
  structs := [
    ⟨"none", [], some []⟩,
    ⟨"list", [], some [.leaf (uF "n" 32), .leaf (.field ⟨"xs", .varArray (.struct "none") (some (.idRef ⟨"", "n"⟩))⟩)]⟩] }]

theorem exIdle_gen : Generated exNm exExt idOrder exIdle (emitted exIdle) noCtx where
  gen := marshallers_emitted (by decide +kernel)
  ok := by refine FilesOK.of_check ?_ ?_ ?_ <;> decide +kernel
  ctxOK := ctxOK_of_check (by intro C hC; cases hC)

/-- The condition on elements is needed: with empty elements an input of four bytes makes a loop run 2^32 - 1 times. -/
theorem C75_idle (hA : 2 ^ 32 ≤ A + 1) : ∃ w : Bytes, w.length = 4 ∧ ∀ fuel < 2 ^ 32,
    parseNew (emitted exIdle) exExt A fuel (exNm "list") (ctxArgs (structOf exIdle "list") noCtx) w [] = .timeout := by
  refine ⟨[255, 255, 255, 255], rfl, fun fuel hf => ?_⟩
  have hd := parseNew_dec (A := A) (n := "list") (s := structOf exIdle "list") exIdle_gen (by decide +kernel) (w := [255, 255, 255, 255]) []
    (by decide) fuel
  have : decStruct (fmtOf exNm exExt exIdle) A noCtx fuel "list" [255, 255, 255, 255] = .timeout := by
    cases fuel with
    | zero => rfl
    | succ fuel =>
      have helem : ∀ w, decBase (fmtOf exNm exExt exIdle) (decStruct (fmtOf exNm exExt exIdle) A noCtx fuel) (.struct "none") w = .timeout ∨
          decBase (fmtOf exNm exExt exIdle) (decStruct (fmtOf exNm exExt exIdle) A noCtx fuel) (.struct "none") w = .ok (.obj (exNm "none") [], w) := by
        intro w
        cases fuel with
        | zero => exact Or.inl rfl
        | succ fuel => exact Or.inr rfl
      have hc := decCount_timeout (n := 4294967295) (helem []) fuel 0 [] (by omega)
      have hs : (fmtOf exNm exExt exIdle).structs "list" = some (structOf exIdle "list") := by decide +kernel
      have hms : (structOf exIdle "list").ms = [.leaf (uF "n" 32),
        .leaf (.field ⟨"xs", .varArray (.struct "none") (some (.idRef ⟨"", "n"⟩))⟩)] := by decide +kernel
      have hx : refVal (fmtOf exNm exExt exIdle) noCtx
          (setF (zeroObj (fmtOf exNm exExt exIdle) (structOf exIdle "list")) (exNm "n") (.num 4294967295)) ⟨"", "n"⟩ = some 4294967295 := by
        decide +kernel
      have hi : decLeaf (fmtOf exNm exExt exIdle) A (decStruct (fmtOf exNm exExt exIdle) A noCtx fuel) fuel noCtx 4
          (zeroObj (fmtOf exNm exExt exIdle) (structOf exIdle "list")) [255, 255, 255, 255] (uF "n" 32) =
          .ok (setF (zeroObj (fmtOf exNm exExt exIdle) (structOf exIdle "list")) (exNm "n") (.num 4294967295), []) := by
        have hb : beNat [255, 255, 255, 255] = 4294967295 := by decide +kernel
        simp [decLeaf, uF, decTy, decBase, decInt, hb, fmtOf]
      have hw : wrap64 4294967295 = 4294967295 := by decide
      have hA' : ¬ ((4294967295 : Int) < 0 ∨ (A : Int) < 4294967295) := by omega
      have he : (structOf exIdle "list").extern = false := by decide +kernel
      have hm : decMembers (fmtOf exNm exExt exIdle) A (decStruct (fmtOf exNm exExt exIdle) A noCtx fuel) fuel noCtx 4
          (structOf exIdle "list").ms (zeroObj (fmtOf exNm exExt exIdle) (structOf exIdle "list")) [255, 255, 255, 255] = .timeout := by
        generalize decStruct (fmtOf exNm exExt exIdle) A noCtx fuel = S at hi hc
        rw [hms]
        simp only [decMembers, decMember]
        rw [hi, DOut.ok_bind]
        simp only [decLeaf, decTy, hx, hw, if_neg hA', hc]
        rfl
      rw [decStruct, hs]
      simp only [he, Bool.false_eq_true, if_false]
      have h4 : ([255, 255, 255, 255] : Bytes).length = 4 := rfl
      rw [h4, hm]
      rfl
  rw [this] at hd
  exact hd

end Verif.Props
