import Verif.Formats
/-!
# Sources that pass a check (C69)

A check on source bytes, and what is true of all sources that pass it.
-/
set_option linter.unusedVariables false
namespace Verif.Props
open Verif Verif.Ast Verif.Go Verif.Go.Read Verif.Syntax Verif.Gen Verif.Wire Verif.Spec Verif.Inspect Verif.Refine Verif.Formats

/-! ## Specification -/

/-- The `Parse` methods of the program accept exactly the encodings, among values whose slices can be allocated. -/
def Exact (p : Prog) (ext : Ext) (nm : String → String) (fs : List File) : Prop :=
  ∀ ctx, CtxOK (fmtOf nm ext fs) ctx → ∀ n s, (fmtOf nm ext fs).structs n = some s →
    ∀ w hid : Bytes, w.length < 2 ^ 63 → ∀ A, A < 2 ^ 63 → ∀ v r, Fits A v →
      (Accepts p ext A (nm n) (ctxArgs s ctx) w hid v r ↔ Enc (fmtOf nm ext fs) ctx n v w r)

/-- On every input the methods decide whether it starts with an encoding, where slices of 2^32 - 1 elements and slices as
long as the input can be allocated: they return the value and the rest if it does, and an error otherwise. -/
def Decides (p : Prog) (ext : Ext) (nm : String → String) (fs : List File) : Prop :=
  ∀ ctx, CtxOK (fmtOf nm ext fs) ctx → ∀ n s, (fmtOf nm ext fs).structs n = some s →
    ∀ w hid : Bytes, ∀ A, A < 2 ^ 63 → 2 ^ 32 ≤ A + 1 → w.length ≤ A → ExtFits (fmtOf nm ext fs) A →
      (∀ v r, Accepts p ext A (nm n) (ctxArgs s ctx) w hid v r ↔ Enc (fmtOf nm ext fs) ctx n v w r) ∧
      ((∃ m, Rejects p ext A (nm n) (ctxArgs s ctx) w hid m) ↔ ∀ v r, ¬ Enc (fmtOf nm ext fs) ctx n v w r)

/-- The tool turns the sources into Go text, whatever the order in which it visits maps; the text is a Go program obeying the
scope and type rules of Go, given the user's types `exts`, and `P` holds for it whatever the user's code does. -/
def Yields (pkg : String) (nm : String → String) (exts : List (String × List String)) (srcs : List (List UInt8))
    (P : Prog → Ext → (String → String) → List File → Prop) : Prop :=
  ∃ fs, ParsesAll srcs fs ∧ ∀ ord, TextRuns pkg nm ord fs fun p => compiles p exts = true ∧ ∀ ext, P p ext nm fs

/-! ## The check -/

/-- The trees of the sources, if they parse within `N` nested calls. -/
def parseAll (N : Nat) : List (List UInt8) → Option (List File)
  | [] => some []
  | b :: bs =>
    match Peg.parseBytes N b with
    | some (.ok f) => (parseAll N bs).map (f :: ·)
    | _ => none

theorem parseAll_parses {N : Nat} : ∀ {bs : List (List UInt8)} {fs : List File}, parseAll N bs = some fs → ParsesAll bs fs
  | [], fs, h => by cases h; exact .nil
  | b :: bs, fs, h => by
    simp only [parseAll] at h
    split at h
    · next f hf =>
      cases hb : parseAll N bs with
      | none => rw [hb] at h; cases h
      | some gs => rw [hb] at h; cases h; exact .cons (parses_of_run hf) (parseAll_parses hb)
    · cases h

/-- Check that the sources parse and are well-formed. -/
def soundB (N : Nat) (pkg : String) (nm : String → String) (exts : List (String × List String)) (srcs : List (List UInt8)) : Bool :=
  match parseAll N srcs with
  | some fs => checkedB pkg nm fs && compilesB nm exts fs
  | none => false

/-- Check also what makes the methods return. -/
def totalB (N : Nat) (pkg : String) (nm : String → String) (exts : List (String × List String)) (srcs : List (List UInt8)) : Bool :=
  match parseAll N srcs with
  | some fs => checkedB pkg nm fs && compilesB nm exts fs && returnsB nm fs
  | none => false

section
variable {N : Nat} {pkg : String} {nm : String → String} {exts : List (String × List String)} {srcs : List (List UInt8)}
  {fs : List File} {ext : Ext} {ord : IterOrder} {p : Prog} {A : Nat} {T : String} {args : List Val} {w hid : Bytes}

/-- What a call returns is determined. -/
theorem accepts_not_rejects {v : Val} {r : Bytes} {m : String} (h : Accepts p ext A T args w hid v r)
    (h' : Rejects p ext A T args w hid m) : False := by
  obtain ⟨_, h⟩ := h
  obtain ⟨_, h'⟩ := h'
  cases h.unique h'

/-- **C69.** The methods of code emitted for checked files decide. -/
theorem decides_of (hm : marshallers nm ord fs = .ok p) (h : Accepted pkg nm ext fs) (hr : Returned nm ext fs) :
    Decides p ext nm fs := by
  intro ctx hctx n s hs w hid A hA hA' hw hext
  have G : Generated nm ext ord fs p ctx := ⟨hm, h.ok, hctx⟩
  have hw' : w.length < 2 ^ 63 := by omega
  have hiff : ∀ v r, Accepts p ext A (nm n) (ctxArgs s ctx) w hid v r ↔ Enc (fmtOf nm ext fs) ctx n v w r := fun v r =>
    ⟨fun ha => (parse_sound G h.ord hs hw' ha).1,
     fun he => parse_complete G h.ord hA hs hid hw' (enc_fits h.ok.fmtOK hctx hr.narrow hA' hr.consumes hext hw he) he⟩
  refine ⟨hiff, ⟨fun ⟨m, hm⟩ v r he => accepts_not_rejects ((hiff v r).2 he) hm, fun hno => ?_⟩⟩
  rcases parse_total G hr.narrow hA' hr.acyclic hr.consumes hs hid hw' with ⟨v, r, ha⟩ | h
  · exact absurd ((hiff v r).1 ha) (hno v r)
  · exact h

/-- **C69.** Sources that pass the first check yield code that accepts exactly the encodings. -/
theorem C69_exact (h : soundB N pkg nm exts srcs = true) : Yields pkg nm exts srcs Exact := by
  simp only [soundB] at h
  split at h
  · next fs hp =>
    rw [Bool.and_eq_true] at h
    have hp := parseAll_parses hp
    have hc := checkedB_sound h.1
    refine ⟨fs, hp, fun ord => textRuns_of hp (hc exExt).pkg (hc exExt).names (hc exExt).comp (hc exExt).res fun p hm =>
      ⟨emitted_compiles hm (compilesB_sound h.1 h.2), fun ext ctx hctx n s hs w hid hw A hA v r hv => ?_⟩⟩
    have G : Generated nm ext ord fs p ctx := ⟨hm, (hc ext).ok, hctx⟩
    exact ⟨fun h => (parse_sound G (hc ext).ord hs hw h).1, fun h => parse_complete G (hc ext).ord hA hs hid hw hv h⟩
  · cases h

/-- **C69.** Sources that pass the second check yield code that decides whether its input starts with an encoding. -/
theorem C69_decides (h : totalB N pkg nm exts srcs = true) : Yields pkg nm exts srcs Decides := by
  simp only [totalB] at h
  split at h
  · next fs hp =>
    simp only [Bool.and_eq_true] at h
    have hp := parseAll_parses hp
    have hc := checkedB_sound h.1.1
    exact ⟨fs, hp, fun ord => textRuns_of hp (hc exExt).pkg (hc exExt).names (hc exExt).comp (hc exExt).res fun p hm =>
      ⟨emitted_compiles hm (compilesB_sound h.1.1 h.1.2), fun ext => decides_of hm (hc ext) (returnsB_sound h.2 ext)⟩⟩
  · cases h

/-- Whether the bytes are answered by an error within `N` nested calls. -/
def refusedB (N : Nat) (b : List UInt8) : Bool :=
  match Peg.parseBytes N b with
  | some (.err _) => true
  | _ => false

theorem refuses_of {b : List UInt8} (h : refusedB N b = true) : Refuses b := by
  simp only [refusedB] at h
  split at h
  · next e he =>
    refine ⟨N, e, fun fuel hf => ?_⟩
    simp only [Peg.parseBytes, Peg.parseRunes] at he ⊢
    rw [Peg.parseExpr_mono Peg.rules N fuel hf _ _ _ (by intro ht; rw [ht] at he; cases he)]
    exact he
  · cases h

end

/-! ### Examples -/

/-- A source with a struct whose code the user writes. -/
def segText : List Char := List.flatten [
    chars! "extern struct point;\n",
    chars! "context c { u8 n; };\n",
    chars! "struct seg with context c {\n",
    chars! "  u16 k IN [1..9];\n",
    chars! "  struct point p[c.n];\n",
    chars! "  union t[k] { 1..4: nulterm s; default: u8 b[]; };\n",
    chars! "};\n"]

/-- Whatever the type `Point` written by the user does, the code for this source decides. -/
theorem seg_works : Yields "seg" Golden.camel [("Point", [])] [Peg.utf8 segText] Decides := C69_decides (N := 400) (by decide +kernel)

/-- Its struct. -/
def segStruct : Struct :=
  ⟨"seg", ["c"], some [.leaf (.field ⟨"k", .base (.int ⟨16, some ⟨[⟨.literal 1, some (.literal 9)⟩]⟩⟩)⟩),
    .leaf (.field ⟨"p", .varArray (.struct "point") (some (.idRef ⟨"c", "n"⟩))⟩),
    .union ⟨"t", ⟨"", "k"⟩, none, [⟨some ⟨[⟨.literal 1, some (.literal 4)⟩]⟩, [.field ⟨"s", .nulterm⟩]⟩,
      ⟨none, [.field ⟨"b", .varArray (.int ⟨8, none⟩) none⟩]⟩]⟩]⟩

/-- Its tree. -/
def segFile : File := ⟨[], [⟨"c", [⟨"n", .base (.int ⟨8, none⟩)⟩]⟩], [⟨"point", [], none⟩, segStruct], []⟩

theorem seg_parses : Parses (Peg.utf8 segText) segFile := parsesB_parses (N := 400) (by decide +kernel)

/-- A context with no points. -/
def segCtx : Ctx := fun _ => [("N", .num 0)]

/-- The value of the bytes 0, 1, 65, 0. -/
def segVal : Val := .obj "Seg" [("K", .num 1), ("P", .slice []), ("S", .str [65]), ("B", .nil)]

theorem seg_ctxOK (ext : Ext) : CtxOK (fmtOf Golden.camel ext [segFile]) segCtx := by
  intro c C hC f hf _
  have h : C = ⟨"c", [⟨"n", .base (.int ⟨8, none⟩)⟩]⟩ := by
    have := (lastDecl_mem (show lastDecl (·.name) _ c = some C from hC)).1
    simpa [segFile] using this
  subst h
  simp only [List.mem_singleton] at hf
  subst hf
  exact ⟨0, by show getF [("N", .num 0)] (Golden.camel "n") = _; decide +kernel, by decide, by decide⟩

theorem seg_struct (ext : Ext) : (fmtOf Golden.camel ext [segFile]).structs "seg" = some segStruct := by
  show lastDecl _ _ _ = _
  decide +kernel

theorem seg_enc (ext : Ext) (r : Bytes) : Enc (fmtOf Golden.camel ext [segFile]) segCtx "seg" segVal ([0, 1, 65, 0] ++ r) r := by
  have n1 : Golden.camel "seg" = "Seg" := by decide +kernel
  have n2 : Golden.camel "k" = "K" := by decide +kernel
  have n3 : Golden.camel "p" = "P" := by decide +kernel
  have n4 : Golden.camel "s" = "S" := by decide +kernel
  have n5 : Golden.camel "b" = "B" := by decide +kernel
  have n6 : Golden.camel "n" = "N" := by decide +kernel
  refine ⟨1, segStruct, seg_struct ext, ?_⟩
  rw [if_neg (by decide)]
  have K : (fmtOf Golden.camel ext [segFile]).K = fun _ => none := rfl
  refine ⟨[("K", .num 1), ("P", .slice []), ("S", .str [65]), ("B", .nil)], ?_, ?_, ?_⟩
  · show _ = Val.obj (Golden.camel "seg") _
    rw [n1]; rfl
  · show _ = [Golden.camel "k", Golden.camel "p", Golden.camel "s", Golden.camel "b"]
    rw [n2, n3, n4, n5]; rfl
  · refine ⟨[65, 0] ++ r, ⟨.num 1, ?_, [0, 1], rfl, rfl, by decide, ?_⟩, [65, 0] ++ r, ⟨.slice [], ?_, [], rfl, ?_, rfl⟩, r, ⟨1, ?_, ?_, ?_⟩, rfl⟩
    · show getF _ (Golden.camel "k") = _; rw [n2]; rfl
    · intro l hl; cases hl; rw [K]; decide
    · show getF _ (Golden.camel "p") = _; rw [n3]; rfl
    · simp only [refVal]
      show (match getF [("N", .num 0)] (Golden.camel "n") with | some (.num x) => some x | _ => none) = _
      rw [n6]; rfl
    · show (match getF [("K", .num 1), ("P", .slice []), ("S", .str [65]), ("B", .nil)] (Golden.camel "k") with
        | some (.num x) => some x | _ => none) = _
      rw [n2]; rfl
    · rw [K]
      show EncLeaves _ _ _ _ _ [.field ⟨"s", .nulterm⟩] _ _
      exact ⟨r, ⟨.str [65], by show getF _ (Golden.camel "s") = _; rw [n4]; rfl, [65], rfl, by decide, rfl⟩, rfl⟩
    · intro c hc hne f hf
      rcases List.mem_cons.1 hc with rfl | hc
      · exact absurd (by rw [K]; rfl) hne
      · rw [List.mem_singleton] at hc
        subst hc
        rw [show leafFields _ = [⟨"b", .varArray (.int ⟨8, none⟩) none⟩] from rfl, List.mem_singleton] at hf
        subst hf
        show getF _ (Golden.camel "b") = _; rw [n5]; rfl

/-- The text printed for this source accepts 0, 1, 65, 0 followed by anything, and answers inputs of one byte with an error. -/
example : ∃ fs, ParsesAll [Peg.utf8 segText] fs ∧ ∀ ord, TextRuns "seg" Golden.camel ord fs fun p => ∀ ext : Ext,
    (∀ T args w v k, ext T args w = .ok (v, k) → Fits (2 ^ 32) v) →
    (∀ r : Bytes, r.length < 1000 → Accepts p ext (2 ^ 32) "Seg" [.struct [("N", .num 0)]] ([0, 1, 65, 0] ++ r) [] segVal r) ∧
    ∀ b : UInt8, ∃ m, Rejects p ext (2 ^ 32) "Seg" [.struct [("N", .num 0)]] [b] [] m := by
  obtain ⟨fs, hp, h⟩ := seg_works
  cases hp with
  | cons h1 h2 =>
    cases h2
    have := parses_unique h1 seg_parses
    subst this
    refine ⟨_, .cons seg_parses .nil, fun ord => ?_⟩
    obtain ⟨t, p, ht, hr, _, h⟩ := h ord
    refine ⟨t, p, ht, hr, fun ext hext => ?_⟩
    have hd := fun (w : Bytes) (hw : w.length < 2000) => h ext segCtx (seg_ctxOK ext) "seg" segStruct (seg_struct ext) w [] (2 ^ 32)
      (by decide) (by decide) (by omega) (fun n s _ _ args w v k => hext _ args w v k)
    have n1 : Golden.camel "seg" = "Seg" := by decide +kernel
    rw [n1] at hd
    refine ⟨fun r hr => ((hd _ (by simp; omega)).1 segVal r).2 (seg_enc ext r), fun b => (hd [b] (by simp)).2.2 ?_⟩
    rintro v r ⟨d, hd⟩
    cases d with
    | zero => exact hd.elim
    | succ d =>
      obtain ⟨s, hs, hd⟩ := hd
      rw [seg_struct ext] at hs
      cases hs
      rw [if_neg (by decide)] at hd
      obtain ⟨o, _, _, m, ⟨v, _, bs, h1, h2, _⟩, _⟩ := hd
      have := congrArg List.length h1
      simp [h2] at this
      omega

/-- A length of 64 bits: exact, but the method can panic, so the second check fails. -/
example : soundB 400 "p" Golden.camel [] [Peg.utf8 (chars! "struct a { u64 n; u8 x[n]; }")] = true ∧
    totalB 400 "p" Golden.camel [] [Peg.utf8 (chars! "struct a { u64 n; u8 x[n]; }")] = false := by decide +kernel

end Verif.Props
