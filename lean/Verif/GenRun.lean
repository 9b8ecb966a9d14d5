import Verif.RefineProg
import Verif.Complete
import Verif.Check
import Verif.ValEq
import Verif.GoMono
/-!
# Running generated parsers

Vocabulary of the properties about generated code, and a format used in examples.

Throughout, `fs` are files accepted by the generator model, `p` the program it emits, `A` the
largest slice length `make` accepts, `ctx` the context values passed in, `ext` the user code behind
structs left `extern`.  Inputs are shorter than 2^63 bytes, as every Go slice is.
-/
set_option linter.unusedVariables false
namespace Verif.Props
open Verif Verif.Ast Verif.Go Verif.Gen Verif.Wire Verif.Spec Verif.Inspect Verif.Refine

/-- Code `p` generated from well-formed files, and conforming context values. -/
structure Generated (nm : String → String) (ext : Ext) (ord : IterOrder) (fs : List File) (p : Prog)
    (ctx : Ctx) : Prop where
  gen : marshallers nm ord fs = .ok p
  ok : FilesOK nm ext fs
  ctxOK : CtxOK (fmtOf nm ext fs) ctx

/-- The context arguments of a call for struct `s`. -/
abbrev ctxArgs (s : Struct) (ctx : Ctx) : List Val := s.contexts.map (fun c => .struct (ctx c))

/-- `new(T).Parse(data, ctx...)`: `w` is the data, `hid` the bytes behind it up to its capacity. -/
abbrev parseNew (p : Prog) (ext : Ext) (A fuel : Nat) (T : String) (args : List Val) (w hid : Bytes) : CallOut :=
  runParse ⟨p, ext, A⟩ fuel T (.obj T (zeroFields p T)) (.bytes w hid) args

/-- `ParseT(data, ctx...)`. -/
abbrev parseCtor (p : Prog) (ext : Ext) (A fuel : Nat) (T : String) (args : List Val) (w hid : Bytes) : CallOut :=
  runCtor ⟨p, ext, A⟩ fuel T (.bytes w hid) args

/-- `new(T).Parse(data, ctx...)` ends with outcome `out`. -/
def Outcome (p : Prog) (ext : Ext) (A : Nat) (T : String) (args : List Val) (w hid : Bytes) (out : CallOut) : Prop :=
  out ≠ .timeout ∧ ∃ fuel, parseNew p ext A fuel T args w hid = out

/-- `new(T).Parse(data, ctx...)` returns without error: the object is then `v`, the slice returned is
`r`. -/
def Accepts (p : Prog) (ext : Ext) (A : Nat) (T : String) (args : List Val) (w hid : Bytes) (v : Val) (r : Bytes) : Prop :=
  ∃ h, Outcome p ext A T args w hid (.done v (.bytes r h) none)

/-- `new(T).Parse(data, ctx...)` returns nil and the error `m`. -/
def Rejects (p : Prog) (ext : Ext) (A : Nat) (T : String) (args : List Val) (w hid : Bytes) (m : String) : Prop :=
  ∃ o, Outcome p ext A T args w hid (.done o .nil (some m))

/-- `new(T).Parse(data, ctx...)` panics. -/
def Panics (p : Prog) (ext : Ext) (A : Nat) (T : String) (args : List Val) (w hid : Bytes) : Prop :=
  ∃ m, Outcome p ext A T args w hid (.panic m)

/-- `new(T).Parse(data, ctx...)` never returns. -/
def Hangs (p : Prog) (ext : Ext) (A : Nat) (T : String) (args : List Val) (w hid : Bytes) : Prop :=
  ∀ fuel, parseNew p ext A fuel T args w hid = .timeout

variable {nm : String → String} {ext : Ext} {ord : IterOrder} {fs : List File} {p : Prog} {ctx : Ctx}
variable {n : String} {s : Struct} {A : Nat}

/-! ## Running generated code is decoding -/

/-- Outcome of `Parse` against the outcome of the reference decoder. -/
theorem parse_dec (G : Generated nm ext ord fs p ctx) (hs : (fmtOf nm ext fs).structs n = some s)
    (he : s.extern = false) {o : Fields} (ho : Typed (fmtOf nm ext fs) s o) {w : Bytes} (hid : Bytes)
    (hw : w.length < 2 ^ 63) (fuel : Nat) :
    RunAgree (nm n) (decMembers (fmtOf nm ext fs) A (decStruct (fmtOf nm ext fs) A ctx fuel) fuel ctx w.length s.ms o w)
      (runParse ⟨p, ext, A⟩ (fuel + 1) (nm n) (.obj (nm n) o) (.bytes w hid) (ctxArgs s ctx)) := by
  obtain ⟨r, P⟩ := marshallers_progOK (ext := ext) G.gen G.ok
  exact runParse_agree P G.ctxOK fuel hs he ho w hid hw

theorem zeroFields_eq (G : Generated nm ext ord fs p ctx) (hs : (fmtOf nm ext fs).structs n = some s)
    (he : s.extern = false) : zeroFields p (nm n) = zeroObj (fmtOf nm ext fs) s := by
  obtain ⟨r, P⟩ := marshallers_progOK (ext := ext) G.gen G.ok
  exact P.zeroFields hs he

/-- Outcome of a call against the outcome of decoding a struct. -/
def CallDec (d : DOut (Val × Bytes)) (c : CallOut) : Prop :=
  match d with
  | .ok (v, r) => ∃ h, c = .done v (.bytes r h) none
  | .err m => ∃ o, c = .done o .nil (some m)
  | .panic _ => ∃ m, c = .panic m
  | .timeout => c = .timeout

/-- Outcome of `Parse` on a new object against the outcome of the reference decoder, for the same
fuel. For structs left extern, `Parse` is user code. -/
theorem parseNew_dec (G : Generated nm ext ord fs p ctx) (hs : (fmtOf nm ext fs).structs n = some s)
    {w : Bytes} (hid : Bytes) (hw : w.length < 2 ^ 63) (fuel : Nat) :
    CallDec (decStruct (fmtOf nm ext fs) A ctx fuel n w) (parseNew p ext A fuel (nm n) (ctxArgs s ctx) w hid) := by
  cases fuel with
  | zero => rfl
  | succ fuel =>
    cases he : s.extern with
    | true =>
      obtain ⟨r, P⟩ := marshallers_progOK (ext := ext) G.gen G.ok
      have h1 : p.methods.find? (·.type = nm n) = none := find_none_of_notMem (P.externM n s hs he)
      simp only [decStruct, hs, he, if_true, parseNew]
      unfold runParse
      simp only [h1, asBytes]
      simp only [show (fmtOf nm ext fs).ext = ext from rfl, show (fmtOf nm ext fs).nm = nm from rfl]
      cases hx : ext (nm n) (s.contexts.map (fun c => .struct (ctx c))) w with
      | ok q => obtain ⟨v, k⟩ := q; exact ⟨hid, rfl⟩
      | error m => exact ⟨_, rfl⟩
    | false =>
    have h := parse_dec (A := A) G hs he (zeroObj_typed (G.ok.structs n s hs he)) hid hw fuel
    rw [← zeroFields_eq G hs he] at h
    simp only [decStruct, hs, he, Bool.false_eq_true, if_false]
    rw [← zeroFields_eq G hs he]
    simp only [parseNew]
    cases hd : decMembers (fmtOf nm ext fs) A (decStruct (fmtOf nm ext fs) A ctx fuel) fuel ctx w.length s.ms
        (zeroFields p (nm n)) w with
    | ok q => obtain ⟨o, r⟩ := q; rw [hd] at h; exact h
    | err m => rw [hd] at h; exact h
    | panic m => rw [hd] at h; exact h
    | timeout => rw [hd] at h; exact h

theorem Generated.fmtOK (G : Generated nm ext ord fs p ctx) : FmtOK (fmtOf nm ext fs) := G.ok.fmtOK

/-- A run has at most one outcome. -/
theorem Outcome.unique {T : String} {args : List Val} {w hid : Bytes} {out out' : CallOut}
    (h : Outcome p ext A T args w hid out) (h' : Outcome p ext A T args w hid out') : out = out' := by
  obtain ⟨hn, k, hk⟩ := h
  obtain ⟨hn', k', hk'⟩ := h'
  rcases Nat.le_total k k' with hle | hle
  · rcases runParse_mono (M := ⟨p, ext, A⟩) hle T (.obj T (zeroFields p T)) (.bytes w hid) args with h | h
    · exact absurd (hk.symm.trans h) hn
    · exact hk.symm.trans (h.trans hk')
  · rcases runParse_mono (M := ⟨p, ext, A⟩) hle T (.obj T (zeroFields p T)) (.bytes w hid) args with h | h
    · exact absurd (hk'.symm.trans h) hn'
    · exact (hk'.symm.trans (h.trans hk)).symm

/-- The outcome of a run shows for all large fuel. -/
theorem Outcome.ev {T : String} {args : List Val} {w hid : Bytes} {out : CallOut}
    (h : Outcome p ext A T args w hid out) : Ev (fun k => parseNew p ext A k T args w hid = out) := by
  obtain ⟨hn, k, hk⟩ := h
  refine ⟨k, fun k' hle => ?_⟩
  rcases runParse_mono (M := ⟨p, ext, A⟩) hle T (.obj T (zeroFields p T)) (.bytes w hid) args with h | h
  · exact absurd (hk.symm.trans h) hn
  · exact h.symm.trans hk

section
variable (G : Generated nm ext ord fs p ctx) (hs : (fmtOf nm ext fs).structs n = some s)
    {w : Bytes} (hid : Bytes) (hw : w.length < 2 ^ 63)
include G hs hw

theorem accepts_iff {v : Val} {r : Bytes} : Accepts p ext A (nm n) (ctxArgs s ctx) w hid v r ↔
    ∃ fuel, decStruct (fmtOf nm ext fs) A ctx fuel n w = .ok (v, r) := by
  constructor
  · rintro ⟨h, _, k, hk⟩
    have := parseNew_dec (A := A) G hs hid hw k
    rw [hk] at this
    refine ⟨k, ?_⟩
    cases hd : decStruct (fmtOf nm ext fs) A ctx k n w with
    | ok q => rw [hd] at this; obtain ⟨h, this⟩ := this; cases this; rfl
    | err m => rw [hd] at this; obtain ⟨h, this⟩ := this; cases this
    | panic m => rw [hd] at this; obtain ⟨h, this⟩ := this; cases this
    | timeout => rw [hd] at this; cases this
  · rintro ⟨k, hk⟩
    have := parseNew_dec (A := A) G hs hid hw k
    rw [hk] at this
    obtain ⟨h, this⟩ := this
    exact ⟨h, by simp, k, this⟩

theorem rejects_iff {m : String} : Rejects p ext A (nm n) (ctxArgs s ctx) w hid m ↔
    ∃ fuel, decStruct (fmtOf nm ext fs) A ctx fuel n w = .err m := by
  constructor
  · rintro ⟨h, _, k, hk⟩
    have := parseNew_dec (A := A) G hs hid hw k
    rw [hk] at this
    refine ⟨k, ?_⟩
    cases hd : decStruct (fmtOf nm ext fs) A ctx k n w with
    | ok q => rw [hd] at this; obtain ⟨h, this⟩ := this; cases this
    | err m => rw [hd] at this; obtain ⟨h, this⟩ := this; cases this; rfl
    | panic m => rw [hd] at this; obtain ⟨h, this⟩ := this; cases this
    | timeout => rw [hd] at this; cases this
  · rintro ⟨k, hk⟩
    have := parseNew_dec (A := A) G hs hid hw k
    rw [hk] at this
    obtain ⟨h, this⟩ := this
    exact ⟨h, by simp, k, this⟩

theorem panics_iff : Panics p ext A (nm n) (ctxArgs s ctx) w hid ↔
    ∃ fuel m, decStruct (fmtOf nm ext fs) A ctx fuel n w = .panic m := by
  constructor
  · rintro ⟨h, _, k, hk⟩
    have := parseNew_dec (A := A) G hs hid hw k
    rw [hk] at this
    cases hd : decStruct (fmtOf nm ext fs) A ctx k n w with
    | ok q => rw [hd] at this; obtain ⟨h, this⟩ := this; cases this
    | err m => rw [hd] at this; obtain ⟨h, this⟩ := this; cases this
    | panic m => exact ⟨k, m, hd⟩
    | timeout => rw [hd] at this; cases this
  · rintro ⟨k, m, hk⟩
    have := parseNew_dec (A := A) G hs hid hw k
    rw [hk] at this
    obtain ⟨h, this⟩ := this
    exact ⟨h, by simp, k, this⟩

theorem hangs_iff : Hangs p ext A (nm n) (ctxArgs s ctx) w hid ↔
    ∀ fuel, decStruct (fmtOf nm ext fs) A ctx fuel n w = .timeout := by
  refine forall_congr' fun k => ?_
  have := parseNew_dec (A := A) G hs hid hw k
  constructor
  · intro hk
    rw [hk] at this
    cases hd : decStruct (fmtOf nm ext fs) A ctx k n w with
    | ok q => rw [hd] at this; obtain ⟨h, this⟩ := this; cases this
    | err m => rw [hd] at this; obtain ⟨h, this⟩ := this; cases this
    | panic m => rw [hd] at this; obtain ⟨h, this⟩ := this; cases this
    | timeout => rfl
  · intro hk
    rw [hk] at this
    exact this

/-- A run returns a value and a slice, returns an error, panics, or never ends. -/
theorem outcome_cases : (∃ v r, Accepts p ext A (nm n) (ctxArgs s ctx) w hid v r) ∨
    (∃ m, Rejects p ext A (nm n) (ctxArgs s ctx) w hid m) ∨ Panics p ext A (nm n) (ctxArgs s ctx) w hid ∨
    Hangs p ext A (nm n) (ctxArgs s ctx) w hid := by
  by_cases hh : ∀ fuel, decStruct (fmtOf nm ext fs) A ctx fuel n w = .timeout
  · exact Or.inr (Or.inr (Or.inr ((hangs_iff G hs hid hw).2 hh)))
  · simp only [not_forall] at hh
    obtain ⟨k, hk⟩ := hh
    cases hd : decStruct (fmtOf nm ext fs) A ctx k n w with
    | ok q => exact Or.inl ⟨q.1, q.2, (accepts_iff G hs hid hw).2 ⟨k, hd⟩⟩
    | err m => exact Or.inr (Or.inl ⟨m, (rejects_iff G hs hid hw).2 ⟨k, hd⟩⟩)
    | panic m => exact Or.inr (Or.inr (Or.inl ((panics_iff G hs hid hw).2 ⟨k, m, hd⟩)))
    | timeout => exact absurd hd hk

end

theorem Accepts.unique {T : String} {args : List Val} {w hid : Bytes} {v v' : Val} {r r' : Bytes}
    (h : Accepts p ext A T args w hid v r) (h' : Accepts p ext A T args w hid v' r') : v = v' ∧ r = r' := by
  obtain ⟨_, h⟩ := h
  obtain ⟨_, h'⟩ := h'
  have := h.unique h'
  simp only [CallOut.done.injEq, Val.bytes.injEq] at this
  exact ⟨this.1, this.2.1.1⟩

theorem Accepts.not_rejects {T : String} {args : List Val} {w hid : Bytes} {v : Val} {r : Bytes} {m : String}
    (h : Accepts p ext A T args w hid v r) (h' : Rejects p ext A T args w hid m) : False := by
  obtain ⟨_, h⟩ := h
  obtain ⟨_, h'⟩ := h'
  have := h.unique h'
  simp at this

/-! ## A format used in examples

```
const MAX = 3;
context env { u8 kind; }
struct point { u8 x; u8 y; }
struct msg with context env {
  u8 tag IN [1, 2..MAX];
  u16 len;
  struct point p;
  u8 body[len];
  nulterm name;
  union choice[env.kind] { 1: u16 a; 2..MAX: struct point b[2]; ignore; default: fail; };
}
```
-/

/-- Field of integer type. -/
def uF (n : String) (bits : Nat) : Leaf := .field ⟨n, .base (.int ⟨bits, none⟩)⟩

/-- A format used in examples. -/
def exMsg : List File := [{
  constants := [⟨"MAX", 3⟩]
  contexts := [⟨"env", [⟨"kind", .base (.int ⟨8, none⟩)⟩]⟩]
  structs := [
    ⟨"point", [], some [.leaf (uF "x" 8), .leaf (uF "y" 8)]⟩,
    ⟨"msg", ["env"], some [
      .leaf (.field ⟨"tag", .base (.int ⟨8, some ⟨[⟨.literal 1, none⟩, ⟨.literal 2, some (.constRef "MAX")⟩]⟩⟩)⟩),
      .leaf (uF "len" 16),
      .leaf (.field ⟨"p", .base (.struct "point")⟩),
      .leaf (.field ⟨"body", .varArray (.int ⟨8, none⟩) (some (.idRef ⟨"", "len"⟩))⟩),
      .leaf (.field ⟨"name", .nulterm⟩),
      .union ⟨"choice", ⟨"env", "kind"⟩, none, [
        ⟨some ⟨[⟨.literal 1, none⟩]⟩, [uF "a" 16]⟩,
        ⟨some ⟨[⟨.literal 2, some (.constRef "MAX")⟩]⟩, [.field ⟨"b", .fixedArray (.struct "point") (.literal 2)⟩, .ignore]⟩,
        ⟨none, [.fail]⟩]⟩]⟩]
  pragmas := [] }]

/-- Go names in examples: first letter in upper case. -/
def exNm (s : String) : String :=
  match s.toList with
  | [] => ""
  | c :: cs => String.ofList (c.toUpper :: cs)

/-- No user code. -/
def exExt : Ext := fun _ _ _ => .error "none"

/-- Context values in examples. -/
def exCtx : Ctx := fun c => if c = "env" then [("Kind", .num 2)] else []

/-- What the generator emits for `fs`. -/
def emitted (fs : List File) : Prog :=
  match marshallers exNm idOrder fs with
  | .ok p => p
  | _ => ⟨[], [], []⟩

theorem ctxOK_of_check {nm : String → String} {ext : Ext} {fs : List File} {ctx : Ctx}
    (h : ∀ C ∈ fs.flatMap (·.contexts), ∀ f ∈ C.members, IntLike f.type →
      ∃ x, getF (ctx C.name) (nm f.name) = some (.num x) ∧ NumOK f.type x) : CtxOK (fmtOf nm ext fs) ctx := by
  intro c C hC f hf hi
  obtain ⟨hm, rfl⟩ := lastDecl_mem hC
  exact h C hm f hf hi

theorem exMsg_ok : FilesOK exNm exExt exMsg := by
  refine FilesOK.of_check ?_ ?_ ?_ <;> decide +kernel

theorem exMsg_ord : OrdOK (fmtOf exNm exExt exMsg) := OrdOK.of_check (by decide +kernel)

theorem marshallers_emitted {fs : List File} (h : (marshallers exNm idOrder fs).isOk = true) :
    marshallers exNm idOrder fs = .ok (emitted fs) := by
  unfold emitted
  cases hm : marshallers exNm idOrder fs with
  | ok p => rfl
  | err m => rw [hm] at h; cases h
  | panic m => rw [hm] at h; cases h

theorem exMsg_gen : Generated exNm exExt idOrder exMsg (emitted exMsg) exCtx where
  gen := marshallers_emitted (by decide +kernel)
  ok := exMsg_ok
  ctxOK := ctxOK_of_check (by
    intro C hC f hf _
    simp only [exMsg, List.flatMap_cons, List.flatMap_nil, List.append_nil, List.mem_cons, List.not_mem_nil,
      or_false] at hC
    subst hC
    simp only [List.mem_cons, List.not_mem_nil, or_false] at hf
    subst hf
    exact ⟨2, by decide +kernel, by decide, by decide⟩)

/-- Struct `n` of a format. -/
def structOf (fs : List File) (n : String) : Struct := ((fmtOf exNm exExt fs).structs n).getD ⟨"", [], none⟩

/-- The input in the examples. -/
def exIn : Bytes := [3, 0, 2, 7, 8, 65, 66, 78, 0, 1, 2, 3, 4, 9, 9]

/-- The value in the examples. -/
def exVal : Val :=
  .obj "Msg" [("Tag", .num 3), ("Len", .num 2), ("P", .obj "Point" [("X", .num 7), ("Y", .num 8)]),
    ("Body", .slice [.num 65, .num 66]), ("Name", .str [78]), ("A", .num 0),
    ("B", .array [.obj "Point" [("X", .num 1), ("Y", .num 2)], .obj "Point" [("X", .num 3), ("Y", .num 4)]])]

/-- The emitted code, run. -/
example : parseNew (emitted exMsg) exExt (2 ^ 32) 9 "Msg" [.struct [("Kind", .num 2)]] exIn [55] =
    .done exVal (.bytes [] []) none := by decide +kernel

theorem exMsg_msg : (fmtOf exNm exExt exMsg).structs "msg" = some (structOf exMsg "msg") := by decide +kernel

theorem exMsg_accepts (hid : Bytes) :
    Accepts (emitted exMsg) exExt (2 ^ 32) (exNm "msg") (ctxArgs (structOf exMsg "msg") exCtx) exIn hid exVal [] :=
  (accepts_iff exMsg_gen exMsg_msg hid (by decide)).2 ⟨9, by decide +kernel⟩

end Verif.Props
