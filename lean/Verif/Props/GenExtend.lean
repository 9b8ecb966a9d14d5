import Verif.Props.GenFields
import Verif.Used
/-!
# Generated parsers: more input, less input, used objects (C30, C31, C34)
-/
set_option linter.unusedVariables false
namespace Verif.Props
open Verif Verif.Ast Verif.Go Verif.Gen Verif.Wire Verif.Spec Verif.Inspect Verif.Refine

variable {nm : String → String} {ext : Ext} {ord : IterOrder} {fs : List File} {p : Prog} {ctx : Ctx}
variable {n : String} {s : Struct} {A : Nat} {C : String → Prop}

/-! ## C30 -/

/-- **C30.** Without to-the-end constructs, bytes added to an accepted input are left over; the value is
the same. -/
theorem parse_extend (G : Generated nm ext ord fs p ctx) (hC : Closed (fmtOf nm ext fs) C) (hn : C n)
    (hs : (fmtOf nm ext fs).structs n = some s) {w x hid : Bytes} (hid' : Bytes) (hw : (w ++ x).length < 2 ^ 63) {v : Val} {r : Bytes}
    (h : Accepts p ext A (nm n) (ctxArgs s ctx) w hid v r) : Accepts p ext A (nm n) (ctxArgs s ctx) (w ++ x) hid' v (r ++ x) := by
  obtain ⟨k, hk⟩ := (accepts_iff G hs hid (by simp only [List.length_append] at hw; omega)).1 h
  exact (accepts_iff G hs hid' hw).2 ⟨k, decStruct_ext hC k n hn _ _ _ x hk⟩

/-- **C30.** And bytes left over can be taken away, up to all of them. -/
theorem parse_cut (G : Generated nm ext ord fs p ctx) (hC : Closed (fmtOf nm ext fs) C) (hn : C n)
    (hs : (fmtOf nm ext fs).structs n = some s) {w x hid : Bytes} (hid' : Bytes) (hw : (w ++ x).length < 2 ^ 63) {v : Val} {r : Bytes}
    (h : Accepts p ext A (nm n) (ctxArgs s ctx) (w ++ x) hid v (r ++ x)) : Accepts p ext A (nm n) (ctxArgs s ctx) w hid' v r := by
  obtain ⟨k, hk⟩ := (accepts_iff G hs hid hw).1 h
  exact (accepts_iff G hs hid' (by simp only [List.length_append] at hw; omega)).2 ⟨k, decStruct_cut hC k n hn _ _ _ x hk⟩

/-! ## C31 -/

/-- **C31.** Without to-the-end constructs, an input that ends before all consumed bytes is not accepted:
if `c ++ r` is accepted with `r` left, no proper prefix of `c` is accepted. -/
theorem parse_truncated (G : Generated nm ext ord fs p ctx) (hC : Closed (fmtOf nm ext fs) C) (hn : C n)
    (hs : (fmtOf nm ext fs).structs n = some s) {c r hid : Bytes} (hid' : Bytes) (hw : (c ++ r).length < 2 ^ 63) {v : Val}
    (h : Accepts p ext A (nm n) (ctxArgs s ctx) (c ++ r) hid v r) {c' : Bytes} (hp : c' <+: c) (hne : c' ≠ c) (v' : Val) (r' : Bytes) :
    ¬ Accepts p ext A (nm n) (ctxArgs s ctx) c' hid' v' r' := by
  intro h'
  obtain ⟨y, rfl⟩ := hp
  rw [List.append_assoc] at h hw
  obtain ⟨-, h1⟩ := (parse_extend G hC hn hs hid hw h').unique h
  have := congrArg List.length h1
  simp only [List.length_append] at this
  have : y = [] := List.eq_nil_of_length_eq_zero (by omega)
  subst this
  exact hne (by simp)

/-- **C31.** If moreover lengths are narrow and no struct contains itself, it is rejected with an error. -/
theorem parse_truncated_error (G : Generated nm ext ord fs p ctx) (hC : Closed (fmtOf nm ext fs) C) (hn : C n)
    (hnar : NarrowFmt (fmtOf nm ext fs)) (hA : 2 ^ 32 ≤ A + 1) (hac : Acyclic (fmtOf nm ext fs))
    (hcons : ∀ n s, (fmtOf nm ext fs).structs n = some s → s.extern = false → ∀ n', NestsToEnd s n' →
      Consumes (fmtOf nm ext fs) n')
    (hs : (fmtOf nm ext fs).structs n = some s) {c r hid : Bytes} (hid' : Bytes) (hw : (c ++ r).length < 2 ^ 63) {v : Val}
    (h : Accepts p ext A (nm n) (ctxArgs s ctx) (c ++ r) hid v r) {c' : Bytes} (hp : c' <+: c) (hne : c' ≠ c) :
    ∃ m, Rejects p ext A (nm n) (ctxArgs s ctx) c' hid' m := by
  have hw' : c'.length < 2 ^ 63 := by
    have := hp.length_le
    simp only [List.length_append] at hw
    omega
  rcases parse_total G hnar hA hac hcons hs hid' hw' with ⟨v', r', h'⟩ | h'
  · exact absurd h' (parse_truncated G hC hn hs hid' hw h hp hne v' r')
  · exact h'

/-- **C31.** No accepted encoding is a proper prefix of another one. -/
theorem encodings_prefix_free (G : Generated nm ext ord fs p ctx) (hC : Closed (fmtOf nm ext fs) C) (hn : C n)
    (hs : (fmtOf nm ext fs).structs n = some s) {c c' hid hid' : Bytes} (hw : c.length < 2 ^ 63) {v v' : Val}
    (h : Accepts p ext A (nm n) (ctxArgs s ctx) c hid v []) (h' : Accepts p ext A (nm n) (ctxArgs s ctx) c' hid' v' [])
    (hp : c' <+: c) : c' = c := by
  by_contra hne
  exact parse_truncated (r := []) (hid := hid) (v := v) G hC hn hs hid' (by simpa using hw) (by simpa using h) hp hne v' [] h'

/-- ```
struct pt { u8 x; u8 y; }
struct m { u8 t; u16 n; struct pt p; u8 body[n]; @ptr at; nulterm name;
  union u[t] with length n { 1: u8 rest[]; default: struct pt q; ignore; }; }
``` -/
def exShut : List File := [{
  constants := [], contexts := [], pragmas := []
  structs := [
    ⟨"pt", [], some [.leaf (uF "x" 8), .leaf (uF "y" 8)]⟩,
    ⟨"m", [], some [.leaf (uF "t" 8), .leaf (uF "n" 16), .leaf (.field ⟨"p", .base (.struct "pt")⟩),
      .leaf (.field ⟨"body", .varArray (.int ⟨8, none⟩) (some (.idRef ⟨"", "n"⟩))⟩), .leaf (.field ⟨"at", .ptr⟩),
      .leaf (.field ⟨"name", .nulterm⟩),
      .union ⟨"u", ⟨"", "t"⟩, some (.idRef ⟨"", "n"⟩),
        [⟨some ⟨[⟨.literal 1, none⟩]⟩, [.field ⟨"rest", .varArray (.int ⟨8, none⟩) none⟩]⟩,
         ⟨none, [.field ⟨"q", .base (.struct "pt")⟩, .ignore]⟩]⟩]⟩] }]

theorem exShut_gen : Generated exNm exExt idOrder exShut (emitted exShut) noCtx where
  gen := marshallers_emitted (by decide +kernel)
  ok := by refine FilesOK.of_check ?_ ?_ ?_ <;> decide +kernel
  ctxOK := ctxOK_of_check (by intro C hC; cases hC)

theorem exShut_closed : Closed (fmtOf exNm exExt exShut) (fun n => n = "pt" ∨ n = "m") := by
  rintro n (rfl | rfl)
  · exact ⟨structOf exShut "pt", by decide +kernel, by decide +kernel, by decide +kernel⟩
  · exact ⟨structOf exShut "m", by decide +kernel, by decide +kernel, by decide +kernel⟩

/-- Value in the examples. -/
def exShutVal : Val := .obj "M" [("T", .num 1), ("N", .num 2), ("P", .obj "Pt" [("X", .num 7), ("Y", .num 8)]),
  ("Body", .slice [.num 3, .num 4]), ("At", .num 7), ("Name", .str [65]), ("Rest", .slice [.num 5, .num 6]), ("Q", .nil)]

theorem exShut_accepts : Accepts (emitted exShut) exExt (2 ^ 32) (exNm "m") (ctxArgs (structOf exShut "m") noCtx)
    ([1, 0, 2, 7, 8, 3, 4, 65, 0, 5, 6] ++ [9]) [] exShutVal [9] :=
  (accepts_iff exShut_gen (by decide +kernel) [] (by decide)).2 ⟨9, by decide +kernel⟩

example (x : Bytes) (hx : x.length < 2 ^ 32) : Accepts (emitted exShut) exExt (2 ^ 32) (exNm "m") (ctxArgs (structOf exShut "m") noCtx)
    ([1, 0, 2, 7, 8, 3, 4, 65, 0, 5, 6] ++ [9] ++ x) [] exShutVal ([9] ++ x) :=
  parse_extend exShut_gen exShut_closed (by simp) (by decide +kernel) [] (by simp; omega) exShut_accepts

example : Accepts (emitted exShut) exExt (2 ^ 32) (exNm "m") (ctxArgs (structOf exShut "m") noCtx)
    [1, 0, 2, 7, 8, 3, 4, 65, 0, 5, 6] [] exShutVal [] :=
  parse_cut exShut_gen exShut_closed (by simp) (by decide +kernel) [] (by decide) exShut_accepts

example : ¬ ∃ v r, Accepts (emitted exShut) exExt (2 ^ 32) (exNm "m") (ctxArgs (structOf exShut "m") noCtx)
    [1, 0, 2, 7, 8, 3, 4, 65, 0, 5] [] v r := by
  rintro ⟨v, r, h⟩
  exact parse_truncated exShut_gen exShut_closed (by simp) (by decide +kernel) [] (by decide) exShut_accepts ⟨[6], rfl⟩ (by decide) v r h

example : ∃ m, Rejects (emitted exShut) exExt (2 ^ 32) (exNm "m") (ctxArgs (structOf exShut "m") noCtx)
    [1, 0, 2, 7, 8, 3, 4, 65, 0, 5] [] m := by
  refine parse_truncated_error exShut_gen exShut_closed (by simp) (NarrowFmt.of_check (by decide +kernel)) (by decide)
    (Acyclic.of_check (fun n => if n = "m" then 1 else 0) (by decide +kernel)) ?_ (by decide +kernel) [] (by decide) exShut_accepts
    ⟨[6], rfl⟩ (by decide)
  rintro n s hs he n' ⟨f, hf, hb⟩
  have : ∀ s ∈ exShut.flatMap (·.structs), s.extern = false → ∀ f ∈ fieldsOf s.ms, ∀ b ∈ endBases f.type, baseName b = none := by
    decide +kernel
  cases this s (fmtOf_struct_mem hs).1 he f hf _ hb

/-- To-the-end constructs do make a difference: `struct a { u8 x[]; }` accepts `[1]` and its proper prefix `[]`. -/
example : ∃ v v' : Val,
    Accepts (emitted (one "a" [.leaf (.field ⟨"x", .varArray (.int ⟨8, none⟩) none⟩)])) exExt (2 ^ 32) "A" [] [1] [] v [] ∧
    Accepts (emitted (one "a" [.leaf (.field ⟨"x", .varArray (.int ⟨8, none⟩) none⟩)])) exExt (2 ^ 32) "A" [] [] [] v' [] :=
  ⟨.obj "A" [("X", .slice [.num 1])], .obj "A" [("X", .slice [])], ⟨[], by simp, 5, by decide +kernel⟩, ⟨[], by simp, 5, by decide +kernel⟩⟩

/-! ## C34 -/

/-- `Parse` on an object of the struct's type holding fields `o` ends with outcome `out`. -/
def OutcomeOn (p : Prog) (ext : Ext) (A : Nat) (T : String) (o : Fields) (args : List Val) (w hid : Bytes) (out : CallOut) : Prop :=
  out ≠ .timeout ∧ ∃ fuel, runParse ⟨p, ext, A⟩ fuel T (.obj T o) (.bytes w hid) args = out

/-- `o` are contents an object of struct `s`'s Go type can have. -/
def Contents (Γ : Fmt) (s : Struct) (o : Fields) : Prop := HasFields Γ s o ∧ Typed Γ s o

/-- **C34.** If references only name fields parsed before, old contents of the object do not influence
whether `Parse` accepts, what it leaves and which error it gives; ordinary members end up the same. -/
theorem parse_used (G : Generated nm ext ord fs p ctx) (hs : (fmtOf nm ext fs).structs n = some s) (he : s.extern = false)
    (hk : MembersKnown [] s.ms) {o : Fields} (ho : Contents (fmtOf nm ext fs) s o) {w : Bytes} (hid : Bytes) (hw : w.length < 2 ^ 63) :
    (∀ f r, Accepts p ext A (nm n) (ctxArgs s ctx) w hid (.obj (nm n) f) r → ∃ f' h,
      OutcomeOn p ext A (nm n) o (ctxArgs s ctx) w hid (.done (.obj (nm n) f') (.bytes r h) none) ∧
      ∀ x ∈ topNames s.ms, getF f' (nm x) = getF f (nm x)) ∧
    (∀ m, Rejects p ext A (nm n) (ctxArgs s ctx) w hid m → ∃ v,
      OutcomeOn p ext A (nm n) o (ctxArgs s ctx) w hid (.done v .nil (some m))) ∧
    (Panics p ext A (nm n) (ctxArgs s ctx) w hid → ∃ m, OutcomeOn p ext A (nm n) o (ctxArgs s ctx) w hid (.panic m)) ∧
    (Hangs p ext A (nm n) (ctxArgs s ctx) w hid → ∀ fuel,
      runParse ⟨p, ext, A⟩ fuel (nm n) (.obj (nm n) o) (.bytes w hid) (ctxArgs s ctx) = .timeout) := by
  have hsk := G.fmtOK.structs n s hs he
  have sim : ∀ k, DSim (fmtOf nm ext fs) (topNames s.ms)
      (decMembers (fmtOf nm ext fs) A (decStruct (fmtOf nm ext fs) A ctx k) k ctx w.length s.ms (zeroObj (fmtOf nm ext fs) s) w)
      (decMembers (fmtOf nm ext fs) A (decStruct (fmtOf nm ext fs) A ctx k) k ctx w.length s.ms o w) := by
    intro k
    refine (decMembers_sim hk (fun n hn => by cases hn) ?_).mono (fun n hn => List.mem_append_left _ hn)
    rw [ho.1]; simp [zeroObj]
  have run := fun k => parse_dec (A := A) G hs he ho.2 hid hw k
  have unf : ∀ k, decStruct (fmtOf nm ext fs) A ctx (k + 1) n w =
      (decMembers (fmtOf nm ext fs) A (decStruct (fmtOf nm ext fs) A ctx k) k ctx w.length s.ms (zeroObj (fmtOf nm ext fs) s) w >>=
        fun q => .ok (.obj (nm n) q.1, q.2)) := by
    intro k
    simp only [decStruct, hs, he, Bool.false_eq_true, if_false]; rfl
  refine ⟨fun f r h => ?_, fun m h => ?_, fun h => ?_, fun h => ?_⟩
  · obtain ⟨k, hk⟩ := (accepts_iff G hs hid hw).1 h
    cases k with
    | zero => cases hk
    | succ k =>
      rw [unf] at hk
      obtain ⟨⟨f1, r1⟩, h1, h2⟩ := DOut.bind_eq_ok.1 hk
      cases h2
      have := sim k
      rw [h1] at this
      obtain ⟨o', h2, h3, _⟩ := this
      have hr := run k
      rw [h2] at hr
      obtain ⟨h4, hr⟩ := hr
      exact ⟨o', h4, ⟨by simp, k + 1, hr⟩, fun x hx => (h3 x hx).symm⟩
  · obtain ⟨k, hk⟩ := (rejects_iff G hs hid hw).1 h
    cases k with
    | zero => cases hk
    | succ k =>
      rw [unf] at hk
      have hsim := sim k
      have hr := run k
      revert hk hsim
      cases decMembers (fmtOf nm ext fs) A (decStruct (fmtOf nm ext fs) A ctx k) k ctx w.length s.ms (zeroObj (fmtOf nm ext fs) s) w <;>
        intro hk hsim <;> cases hk
      rw [hsim] at hr
      obtain ⟨v, hr⟩ := hr
      exact ⟨v, by simp, k + 1, hr⟩
  · obtain ⟨k, m, hk⟩ := (panics_iff G hs hid hw).1 h
    cases k with
    | zero => cases hk
    | succ k =>
      rw [unf] at hk
      have hsim := sim k
      have hr := run k
      revert hk hsim
      cases decMembers (fmtOf nm ext fs) A (decStruct (fmtOf nm ext fs) A ctx k) k ctx w.length s.ms (zeroObj (fmtOf nm ext fs) s) w <;>
        intro hk hsim <;> cases hk
      rw [hsim] at hr
      obtain ⟨m, hr⟩ := hr
      exact ⟨m, by simp, k + 1, hr⟩
  · intro fuel
    cases fuel with
    | zero => rfl
    | succ k =>
      have hk := (hangs_iff G hs hid hw).1 h (k + 1)
      rw [unf] at hk
      have hsim := sim k
      have hr := run k
      revert hk hsim
      cases decMembers (fmtOf nm ext fs) A (decStruct (fmtOf nm ext fs) A ctx k) k ctx w.length s.ms (zeroObj (fmtOf nm ext fs) s) w <;>
        intro hk hsim <;> cases hk
      rw [hsim] at hr
      exact hr

/-- Old contents in the examples. -/
def exOld : Fields := [("T", .num 9), ("N", .num 9), ("P", .nil),
  ("Body", .slice [.num 1]), ("At", .num 1), ("Name", .str []), ("Rest", .slice [.num 5]), ("Q", .obj "Pt" [("X", .num 7), ("Y", .num 8)])]

instance (Γ : Fmt) (s : Struct) (o : Fields) : Decidable (HasFields Γ s o) := by unfold HasFields; infer_instance

theorem exOld_contents : Contents (fmtOf exNm exExt exShut) (structOf exShut "m") exOld := by
  refine ⟨by decide +kernel, ?_⟩
  intro f hf
  have : fieldsOf (structOf exShut "m").ms = [⟨"t", .base (.int ⟨8, none⟩)⟩, ⟨"n", .base (.int ⟨16, none⟩)⟩, ⟨"p", .base (.struct "pt")⟩,
    ⟨"body", .varArray (.int ⟨8, none⟩) (some (.idRef ⟨"", "n"⟩))⟩, ⟨"at", .ptr⟩, ⟨"name", .nulterm⟩,
    ⟨"rest", .varArray (.int ⟨8, none⟩) none⟩, ⟨"q", .base (.struct "pt")⟩] := by decide +kernel
  rw [this] at hf
  simp only [List.mem_cons, List.not_mem_nil, or_false] at hf
  rcases hf with rfl | rfl | rfl | rfl | rfl | rfl | rfl | rfl
  · exact ⟨.num 9, rfl, 9, rfl, by decide, by decide⟩
  · exact ⟨.num 9, rfl, 9, rfl, by decide, by decide⟩
  · exact ⟨_, rfl, trivial⟩
  · exact ⟨_, rfl, trivial⟩
  · exact ⟨.num 1, rfl, 1, rfl, by decide, by decide⟩
  · exact ⟨_, rfl, trivial⟩
  · exact ⟨_, rfl, trivial⟩
  · exact ⟨_, rfl, trivial⟩

example : ∃ f' h, OutcomeOn (emitted exShut) exExt (2 ^ 32) (exNm "m") exOld (ctxArgs (structOf exShut "m") noCtx)
    ([1, 0, 2, 7, 8, 3, 4, 65, 0, 5, 6] ++ [9]) [] (.done (.obj (exNm "m") f') (.bytes [9] h) none) := by
  obtain ⟨f', h, h1, _⟩ := (parse_used exShut_gen (by decide +kernel) rfl (by decide +kernel) exOld_contents [] (by decide)).1 _ _ exShut_accepts
  exact ⟨f', h, h1⟩

/-- Fields of union cases not selected keep their old contents: here `x` stays 9, where a new object has
0. -/
theorem used_stale : OutcomeOn (emitted exNoDefault) exExt (2 ^ 32) "A" [("T", .num 1), ("X", .num 9)] [] [2] []
    (.done (.obj "A" [("T", .num 2), ("X", .num 9)]) (.bytes [] []) none) :=
  ⟨by simp, 5, by decide +kernel⟩

/-- The condition on references is needed: in `struct a { u8 x[n]; u8 n; }` a new object accepts `[1]`, an
object with `n = 1` does not. -/
theorem used_forward : Accepts (emitted exFwd) exExt (2 ^ 32) "A" [] [1] [] (.obj "A" [("X", .slice []), ("N", .num 1)]) [] ∧
    ∃ o, OutcomeOn (emitted exFwd) exExt (2 ^ 32) "A" [("X", .nil), ("N", .num 1)] [] [1] [] (.done o .nil (some "data too short")) :=
  ⟨⟨[], by simp, 5, by decide +kernel⟩, .obj "A" [("X", .slice [.num 1]), ("N", .num 1)], by simp, 5, by decide +kernel⟩

end Verif.Props
