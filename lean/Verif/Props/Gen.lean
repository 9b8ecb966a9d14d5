import Verif.GenRun
/-!
# Properties of generated parsers: meaning of the format (C17–C19, C32, C55)

Throughout, `fs` are files accepted by the generator model, `p` the program it emits, `A` the
largest slice length `make` accepts, `ctx` the context values passed in, `ext` the user code behind
structs left `extern`.  Inputs are shorter than 2^63 bytes, as every Go slice is.
-/
set_option linter.unusedVariables false
namespace Verif.Props
open Verif Verif.Ast Verif.Go Verif.Gen Verif.Wire Verif.Spec Verif.Inspect Verif.Refine

variable {nm : String → String} {ext : Ext} {ord : IterOrder} {fs : List File} {p : Prog} {ctx : Ctx}
variable {n : String} {s : Struct} {A : Nat}

/-! ## C17 -/

/-- **C17.** What the generated `Parse` accepts is an encoding of the value it returns, followed by
the slice it returns. -/
theorem parse_sound (G : Generated nm ext ord fs p ctx) (hord : OrdOK (fmtOf nm ext fs))
    (hs : (fmtOf nm ext fs).structs n = some s) {w hid : Bytes} (hw : w.length < 2 ^ 63)
    {v : Val} {r : Bytes} (h : Accepts p ext A (nm n) (ctxArgs s ctx) w hid v r) :
    Enc (fmtOf nm ext fs) ctx n v w r ∧ ∃ c, w = c ++ r := by
  obtain ⟨k, hk⟩ := (accepts_iff G hs hid hw).1 h
  refine ⟨⟨k, decStruct_sound G.fmtOK hord G.ctxOK k n w v r hw hk⟩, ?_⟩
  obtain ⟨c, hc⟩ := decStruct_suffix k n w v r hk
  exact ⟨c, hc.symm⟩

example : Enc (fmtOf exNm exExt exMsg) exCtx "msg" exVal exIn [] :=
  (parse_sound exMsg_gen exMsg_ord exMsg_msg (by decide) (exMsg_accepts [])).1

/-- `struct a { u8 x[n]; u8 n; }`: the array comes before its length. -/
def exFwd : List File := [{
  constants := [], contexts := [], pragmas := []
  structs := [⟨"a", [], some [
    .leaf (.field ⟨"x", .varArray (.int ⟨8, none⟩) (some (.idRef ⟨"", "n"⟩))⟩), .leaf (uF "n" 8)]⟩] }]

/-- No context values. -/
def noCtx : Ctx := fun _ => []

theorem exFwd_gen : Generated exNm exExt idOrder exFwd (emitted exFwd) noCtx where
  gen := marshallers_emitted (by decide +kernel)
  ok := by refine FilesOK.of_check ?_ ?_ ?_ <;> decide +kernel
  ctxOK := ctxOK_of_check (by intro C hC; cases hC)

/-- C17 needs references to go back: for a well-formed format with a forward reference the generated
code accepts what is no encoding (the array is read with the length still zero). -/
theorem parse_unsound_forward : ∃ v r,
    Accepts (emitted exFwd) exExt (2 ^ 32) (exNm "a") (ctxArgs (structOf exFwd "a") noCtx) [1] [] v r ∧
    ¬ Enc (fmtOf exNm exExt exFwd) noCtx "a" v [1] r := by
  refine ⟨.obj "A" [("X", .slice []), ("N", .num 1)], [],
    (accepts_iff exFwd_gen (by decide +kernel) [] (by decide)).2 ⟨3, by decide +kernel⟩, ?_⟩
  rintro ⟨d, hd⟩
  cases d with
  | zero => exact hd
  | succ d =>
    obtain ⟨s, hs, hd⟩ := hd
    have : s = structOf exFwd "a" := by
      have h : (fmtOf exNm exExt exFwd).structs "a" = some (structOf exFwd "a") := by decide +kernel
      rw [h] at hs; cases hs; rfl
    subst this
    rw [if_neg (by decide)] at hd
    obtain ⟨o, ho, _, hd⟩ := hd
    cases ho
    obtain ⟨k, ⟨v, hv, vs, rfl, hr, _⟩, _⟩ := hd
    have h1 : getF [("X", Val.slice []), ("N", Val.num 1)] ((fmtOf exNm exExt exFwd).nm "x") = some (.slice []) := by decide +kernel
    simp only at hv
    rw [h1] at hv
    cases hv
    have h2 : refVal (fmtOf exNm exExt exFwd) noCtx [("X", Val.slice []), ("N", Val.num 1)] ⟨"", "n"⟩ = some 1 := by decide +kernel
    rw [h2] at hr
    exact absurd hr (by decide)

/-! ## C18 -/

/-- **C18.** The generated `Parse` accepts every encoding, with the value and the rest it describes.
Slices in the value have at most `A` elements; longer ones cannot be allocated. -/
theorem parse_complete (G : Generated nm ext ord fs p ctx) (hord : OrdOK (fmtOf nm ext fs)) (hA : A < 2 ^ 63)
    (hs : (fmtOf nm ext fs).structs n = some s) {w : Bytes} (hid : Bytes) (hw : w.length < 2 ^ 63)
    {v : Val} {r : Bytes} (hv : Fits A v) (h : Enc (fmtOf nm ext fs) ctx n v w r) :
    Accepts p ext A (nm n) (ctxArgs s ctx) w hid v r := by
  obtain ⟨d, hd⟩ := h
  obtain ⟨F, hF⟩ := decStruct_complete G.fmtOK hord hA d n v w r hv hw hd
  exact (accepts_iff G hs hid hw).2 ⟨F, hF F (Nat.le_refl _)⟩

/-- **C55.** Encodings are unambiguous: in a well-formed format whose references only go back, an input
has at most one value and one rest. -/
theorem enc_unique {Γ : Fmt} (hΓ : FmtOK Γ) (hord : OrdOK Γ) {w : Bytes} (hw : w.length < 2 ^ 63)
    {v v' : Val} {r r' : Bytes} (hv : Fits (2 ^ 63 - 1) v) (hv' : Fits (2 ^ 63 - 1) v')
    (h : Enc Γ ctx n v w r) (h' : Enc Γ ctx n v' w r') : v = v' ∧ r = r' := by
  obtain ⟨d, hd⟩ := h
  obtain ⟨d', hd'⟩ := h'
  obtain ⟨F, hF⟩ := decStruct_complete hΓ hord (by decide) d n v w r hv hw hd
  obtain ⟨F', hF'⟩ := decStruct_complete hΓ hord (by decide) d' n v' w r' hv' hw hd'
  have := (hF (max F F') (by omega)).symm.trans (hF' (max F F') (by omega))
  simp only [DOut.ok.injEq, Prod.mk.injEq] at this
  exact this

theorem exVal_fits : Fits (2 ^ 32) exVal := by simp [exVal, Fits, FitsL, FitsF]

example (hid : Bytes) : Accepts (emitted exMsg) exExt (2 ^ 32) (exNm "msg") (ctxArgs (structOf exMsg "msg") exCtx)
    exIn hid exVal [] :=
  parse_complete exMsg_gen exMsg_ord (by decide) exMsg_msg hid (by decide) exVal_fits
    (parse_sound exMsg_gen exMsg_ord exMsg_msg (by decide) (exMsg_accepts [])).1

/-- No other value has this encoding. -/
example {v : Val} {r : Bytes} (hv : Fits (2 ^ 63 - 1) v) (h : Enc (fmtOf exNm exExt exMsg) exCtx "msg" v exIn r) :
    v = exVal ∧ r = [] :=
  enc_unique exMsg_gen.fmtOK exMsg_ord (by decide) hv (by simp [exVal, Fits, FitsL, FitsF]) h
    (parse_sound exMsg_gen exMsg_ord exMsg_msg (by decide) (exMsg_accepts [])).1

/-! ## C19 -/

/-- **C19.** On success the slice returned is a suffix of the input. -/
theorem parse_suffix (G : Generated nm ext ord fs p ctx) (hs : (fmtOf nm ext fs).structs n = some s)
    {w hid : Bytes} (hw : w.length < 2 ^ 63) {v : Val} {r : Bytes}
    (h : Accepts p ext A (nm n) (ctxArgs s ctx) w hid v r) : r <:+ w := by
  obtain ⟨k, hk⟩ := (accepts_iff G hs hid hw).1 h
  exact decStruct_suffix k n w v r hk

/-- **C19.** The bytes behind the input, within its capacity, influence neither whether the call
returns, panics or hangs, nor the value, the rest or the error. -/
theorem parse_hidden (G : Generated nm ext ord fs p ctx) (hs : (fmtOf nm ext fs).structs n = some s)
    {w : Bytes} (hid hid' : Bytes) (hw : w.length < 2 ^ 63) :
    (∀ v r, Accepts p ext A (nm n) (ctxArgs s ctx) w hid v r → Accepts p ext A (nm n) (ctxArgs s ctx) w hid' v r) ∧
    (∀ m, Rejects p ext A (nm n) (ctxArgs s ctx) w hid m → Rejects p ext A (nm n) (ctxArgs s ctx) w hid' m) ∧
    (Panics p ext A (nm n) (ctxArgs s ctx) w hid → Panics p ext A (nm n) (ctxArgs s ctx) w hid') ∧
    (Hangs p ext A (nm n) (ctxArgs s ctx) w hid → Hangs p ext A (nm n) (ctxArgs s ctx) w hid') :=
  ⟨fun v r h => (accepts_iff G hs hid' hw).2 ((accepts_iff G hs hid hw).1 h),
   fun m h => (rejects_iff G hs hid' hw).2 ((rejects_iff G hs hid hw).1 h),
   fun h => (panics_iff G hs hid' hw).2 ((panics_iff G hs hid hw).1 h),
   fun h => (hangs_iff G hs hid' hw).2 ((hangs_iff G hs hid hw).1 h)⟩

/-- A truncated input is an error although the missing bytes are there behind it. -/
example : Rejects (emitted exMsg) exExt (2 ^ 32) (exNm "msg") (ctxArgs (structOf exMsg "msg") exCtx)
    [3, 0, 2, 7, 8, 65] [66, 78, 0, 1, 2, 3, 4, 9, 9] "data too short" :=
  (parse_hidden exMsg_gen exMsg_msg [] _ (by decide)).2.1 _
    ((rejects_iff exMsg_gen exMsg_msg [] (by decide)).2 ⟨9, by decide +kernel⟩)

example : ([] : Bytes) <:+ exIn := parse_suffix exMsg_gen exMsg_msg (by decide) (exMsg_accepts [1, 2])

/-! ## C32 -/

/-- **C32.** `ParseX` returns the object when `Parse` on a new object succeeds, nil and the error when
it fails, and panics or hangs when it does. -/
theorem ctor_wraps (G : Generated nm ext ord fs p ctx) (hs : (fmtOf nm ext fs).structs n = some s)
    (he : s.extern = false) (w hid : Bytes) (fuel : Nat) :
    parseCtor p ext A fuel (nm n) (ctxArgs s ctx) w hid =
      match parseNew p ext A fuel (nm n) (ctxArgs s ctx) w hid with
      | .done o _ none => .done .nil o none
      | .done _ _ (some m) => .done .nil .nil (some m)
      | .panic m => .panic m
      | .stuck m => .stuck m
      | .timeout => .timeout := by
  obtain ⟨r, P⟩ := marshallers_progOK (ext := ext) G.gen G.ok
  have := ctor_eq (A := A) (ctx := ctx) P fuel hs he ext (.bytes w hid)
  simp only [parseCtor, parseNew, ctxArgs]
  refine this.trans ?_
  show wrapped (runParse ⟨p, ext, A⟩ fuel (nm n) (.obj (nm n) (zeroFields p (nm n))) (.bytes w hid)
      (s.contexts.map (fun c => .struct (ctx c)))) = _
  cases runParse ⟨p, ext, A⟩ fuel (nm n) (.obj (nm n) (zeroFields p (nm n))) (.bytes w hid)
      (s.contexts.map (fun c => .struct (ctx c))) with
  | done o v e => cases e <;> rfl
  | _ => rfl

example : parseCtor (emitted exMsg) exExt (2 ^ 32) 9 "Msg" [.struct [("Kind", .num 2)]] exIn [] =
    .done .nil exVal none := by decide +kernel

example : parseCtor (emitted exMsg) exExt (2 ^ 32) 9 "Msg" [.struct [("Kind", .num 7)]] exIn [] =
    .done .nil .nil (some "disallowed case") := by decide +kernel

end Verif.Props
