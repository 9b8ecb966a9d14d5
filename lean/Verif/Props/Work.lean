import Verif.Props.Loops
import Verif.CostLower
/-!
# Properties of generated parsers: how many statements they execute (C76)

`runCost` (`Verif/GoCost`) follows `runParse` and counts statements executed, conditions tested and bytes looked at by `bytes.IndexByte`;
`make` counts one (for its size see C74).
-/
set_option linter.unusedVariables false
namespace Verif.Props
open Verif Verif.Ast Verif.Go Verif.Gen Verif.Wire Verif.Spec Verif.Inspect Verif.Refine Verif.Cost

variable {nm : String → String} {ext : Ext} {ord : IterOrder} {fs : List File} {p : Prog} {ctx : Ctx}
variable {n : String} {s : Struct} {A : Nat}

/-- Statements executed by `parseNew`. -/
abbrev workNew (p : Prog) (ext : Ext) (A fuel : Nat) (T : String) (args : List Val) (w hid : Bytes) : Nat :=
  runCost ⟨p, ext, A⟩ fuel T (.obj T (zeroFields p T)) (.bytes w hid) args

/-- **C76.** Under the conditions of C75, if the methods have at most `Z` statements each, then on every input `w`, whatever the context,
parsing executes at most `K |w| + C` statements. `K` and `C` depend only on `Z`, on `c` and on how deep the struct nests. -/
theorem C76_linear (G : Generated nm ext ord fs p ctx) {rank : String → Nat} {c Z : Nat} (hr : Ranked (fmtOf nm ext fs) rank)
    (hl : ∀ n s, (fmtOf nm ext fs).structs n = some s → s.extern = false → ∀ f ∈ fieldsOf s.ms, LoopsIn (fmtOf nm ext fs) c f.type)
    (hZ : ∀ m ∈ p.methods, textSizes m.body ≤ Z)
    (hs : (fmtOf nm ext fs).structs n = some s) {w : Bytes} (hid : Bytes) (hw : w.length < 2 ^ 63) (fuel : Nat) :
    workNew p ext A fuel (nm n) (ctxArgs s ctx) w hid ≤ (lin Z c (rank n + 1)).1 * w.length + (lin Z c (rank n + 1)).2 := by
  obtain ⟨r, P⟩ := marshallers_progOK (ext := ext) G.gen G.ok
  exact runCost_le (A := A) P G.fmtOK G.ctxOK hr hl hZ hs hid hw (o := zeroFields p (nm n)) (fun he => by
    have : zeroFields p (nm n) = zeroObj (fmtOf nm ext fs) s := P.zeroFields hs he
    rw [this]
    exact zeroObj_typed (P.ok n s hs he)) fuel

/-- For the list of entries (`exLoops`) the constants are the following. -/
example (w : Bytes) (hw : w.length < 2 ^ 63) (fuel : Nat) :
    workNew (emitted exLoops) exExt A fuel (exNm "list") (ctxArgs (structOf exLoops "list") noCtx) w [] ≤ 1153 * w.length + 34721 := by
  exact C76_linear (A := A) (Z := 31) (n := "list") (s := structOf exLoops "list") exLoops_gen exLoops_ranked exLoops_in
    (by decide +kernel) (by decide +kernel) [] hw fuel

/-- For every program, a call that needs more than `fuel` executes at least `fuel` statements. -/
theorem C76_cut (fuel : Nat) (T : String) (args : List Val) (w hid : Bytes) (h : parseNew p ext A fuel T args w hid = .timeout) :
    fuel ≤ workNew p ext A fuel T args w hid := runCost_ge fuel _ _ _ _ h

/-- 25 bytes with two entries before and none after the padding execute 135 statements; with four more entries, 211; cut off after two
calls it has executed two statements at least. -/
example : workNew (emitted exLoops) exExt 100 50 (exNm "list") (ctxArgs (structOf exLoops "list") noCtx)
      ([0, 0, 0, 2, 7, 0, 8, 65, 0] ++ List.replicate 16 1) [] = 135 ∧
    workNew (emitted exLoops) exExt 100 50 (exNm "list") (ctxArgs (structOf exLoops "list") noCtx)
      ([0, 0, 0, 2, 7, 0, 8, 65, 0] ++ List.replicate 16 1 ++ [1, 0, 1, 0, 1, 0, 1, 0]) [] = 211 := by
  constructor <;> decide +kernel

example : 2 ≤ workNew (emitted exLoops) exExt 100 2 (exNm "list") (ctxArgs (structOf exLoops "list") noCtx)
    ([0, 0, 0, 2, 7, 0, 8, 65, 0] ++ List.replicate 16 1) [] :=
  C76_cut 2 _ _ _ _ (by rfl)

/-- The condition on elements is needed: with empty elements four bytes make the parser execute more than 2^32 - 2 statements, though
the text of a method has at most 15. -/
theorem C76_idle (hA : 2 ^ 32 ≤ A + 1) : (∀ m ∈ (emitted exIdle).methods, textSizes m.body ≤ 15) ∧ ∃ w : Bytes, w.length = 4 ∧
    2 ^ 32 - 1 ≤ workNew (emitted exIdle) exExt A (2 ^ 32 - 1) (exNm "list") (ctxArgs (structOf exIdle "list") noCtx) w [] := by
  refine ⟨by decide +kernel, ?_⟩
  obtain ⟨w, hw, h⟩ := C75_idle hA
  exact ⟨w, hw, C76_cut _ _ _ _ _ (h _ (by omega))⟩

end Verif.Props
