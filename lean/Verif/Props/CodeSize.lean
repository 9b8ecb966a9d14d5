import Verif.CodeSize
import Verif.Props.Work
import Verif.Props.Formats
/-!
# The size of generated code, and a check on sources under which its work is linear (C78)

`codeSize` and `parts` (`Verif/CodeSize`) are functions of the source.
-/
set_option linter.unusedVariables false
namespace Verif.Props
open Verif Verif.Ast Verif.Go Verif.Gen Verif.Wire Verif.Spec Verif.Inspect Verif.Refine Verif.Cost Verif.Formats Verif.Tv

variable {nm : String → String} {ext : Ext} {ord : IterOrder} {fs : List File} {p : Prog} {ctx : Ctx}

/-! ## Size -/

theorem fileStructs_size {g : Cfg} : ∀ {ss : List Struct} {p : Prog}, fileStructs g ss = .ok p →
    p.methods.map (fun m => textSizes m.body) = (ss.filter fun s => !s.extern).map codeSize
  | [], _, h => by cases h; rfl
  | s :: ss, _, h => by
    obtain ⟨p1, h1, h⟩ := Res.bind_eq_ok.1 h
    obtain ⟨p2, h2, h⟩ := Res.bind_eq_ok.1 h
    cases h
    have ih := fileStructs_size h2
    unfold Gen.structure_ at h1
    split at h1
    · next he => cases h1; simp [Gen.append, ih, he]
    · next he =>
      obtain ⟨r, hr, h1⟩ := Res.bind_eq_ok.1 h1
      obtain ⟨d, hd, h1⟩ := Res.bind_eq_ok.1 h1
      obtain ⟨m, hm, h1⟩ := Res.bind_eq_ok.1 h1
      cases h1
      simp [Gen.append, ih, he, parse_size hm]

theorem fileContexts_methods {g : Cfg} : ∀ {cs : List Context} {p : Prog}, fileContexts g cs = .ok p → p.methods = []
  | [], _, h => by cases h; rfl
  | c :: cs, _, h => by
    obtain ⟨p1, h1, h⟩ := Res.bind_eq_ok.1 h
    obtain ⟨p2, h2, h⟩ := Res.bind_eq_ok.1 h
    cases h
    simp [Gen.append, fileContexts_methods h2]

theorem fileList_size {g : Cfg} : ∀ {fs : List File} {p : Prog}, fileList g fs = .ok p →
    p.methods.map (fun m => textSizes m.body) = ((fs.flatMap (·.structs)).filter fun s => !s.extern).map codeSize
  | [], _, h => by cases h; rfl
  | f :: fs, _, h => by
    obtain ⟨p1, h1, h⟩ := Res.bind_eq_ok.1 h
    obtain ⟨p2, h2, h⟩ := Res.bind_eq_ok.1 h
    cases h
    obtain ⟨q1, hq1, h1⟩ := Res.bind_eq_ok.1 h1
    obtain ⟨q2, hq2, h1⟩ := Res.bind_eq_ok.1 h1
    cases h1
    simp [Gen.append, fileContexts_methods hq1, fileStructs_size hq2, fileList_size h2]

/-- **C78.** The methods printed have, in order, exactly as many statements as `codeSize` says for the structs that are defined. -/
theorem C78_exact (h : marshallers nm ord fs = .ok p) :
    p.methods.map (fun m => textSizes m.body) = ((fs.flatMap (·.structs)).filter fun s => !s.extern).map codeSize := by
  obtain ⟨r, hr, h⟩ := Res.bind_eq_ok.1 h
  exact fileList_size h

/-- **C78.** Each has between one and eighteen statements per part of the struct, and two more. -/
theorem C78_linear (h : marshallers nm ord fs = .ok p) {m : Method} (hm : m ∈ p.methods) :
    ∃ s ∈ fs.flatMap (·.structs), s.extern = false ∧ parts s ≤ textSizes m.body ∧ textSizes m.body ≤ 18 * parts s + 2 := by
  have h1 : textSizes m.body ∈ p.methods.map (fun m => textSizes m.body) := List.mem_map_of_mem hm
  rw [C78_exact h] at h1
  obtain ⟨s, hs, he⟩ := List.mem_map.1 h1
  obtain ⟨hs, hx⟩ := List.mem_filter.1 hs
  exact ⟨s, hs, by simpa using hx, he ▸ (codeSize_parts s).1, he ▸ (codeSize_parts s).2⟩

/-- The list of entries: two structs, with two and four parts. -/
example : (emitted exLoops).methods.map (fun m => textSizes m.body) = ((exLoops.flatMap (·.structs)).filter fun s => !s.extern).map codeSize ∧
    (exLoops.flatMap (·.structs)).map codeSize = [12, 31] ∧ (exLoops.flatMap (·.structs)).map parts = [2, 4] :=
  ⟨C78_exact exLoops_gen.gen, by decide +kernel, by decide +kernel⟩

/-! ## Work -/

/-- Parsing executes at most `K |w| + C` statements, whatever the struct, the input, the context and the memory. -/
def Linear (K C : Nat) (p : Prog) (ext : Ext) (nm : String → String) (fs : List File) : Prop :=
  ∀ ctx, CtxOK (fmtOf nm ext fs) ctx → ∀ n s, (fmtOf nm ext fs).structs n = some s → ∀ w hid : Bytes, w.length < 2 ^ 63 →
    ∀ A fuel, workNew p ext A fuel (nm n) (ctxArgs s ctx) w hid ≤ K * w.length + C

/-- Whether elements of this type are never empty, as far as `consumesB` sees. -/
def eatsB (Γ : Fmt) : Base → Bool
  | .struct n => consumesB Γ 20 n
  | _ => true

/-- The condition on a field: `LoopsIn`. -/
def loopsB (Γ : Fmt) (c : Nat) : Ty → Bool
  | .fixedArray b k => eatsB Γ b || (match ival Γ.K k with | some x => decide (x ≤ c) | none => false)
  | .varArray b _ => eatsB Γ b
  | _ => true

/-- How many structs deep a struct nests. -/
def rankOf (fs : List File) (n : String) : Nat := depth fs (fs.flatMap (·.structs)).length.succ n - 1

/-- The bound for all structs of the files, when arrays of a fixed length have at most `c` elements. -/
def boundB (c K C : Nat) (fs : List File) : Bool :=
  let Z := ((fs.flatMap (·.structs)).map codeSize).foldr max 0
  (fs.flatMap (·.structs)).all fun s => decide ((lin Z c (rankOf fs s.name + 1)).1 ≤ K) && decide ((lin Z c (rankOf fs s.name + 1)).2 ≤ C)

/-- The condition on all structs. -/
def linearB (c K C : Nat) (nm : String → String) (fs : List File) : Bool :=
  definedB fs (fun s => (fieldsOf s.ms).all fun f => loopsB (fmtOf nm exExt fs) c f.type &&
    (tyBases f.type).all fun b => (baseName b).all fun n' => decide (rankOf fs n' < rankOf fs s.name)) && boundB c K C fs

theorem eatsB_sound {Γ : Fmt} {b : Base} (h : eatsB Γ b = true) : TyConsumes Γ (.base b) := by
  cases b with
  | int t => exact .int t
  | char => exact .char
  | struct n => exact .nested (consumesB_sound h)

theorem loopsB_sound {Γ : Fmt} {c : Nat} {t : Ty} (h : loopsB Γ c t = true) (e : Ext) : LoopsIn (withExt Γ e) c t := by
  cases t with
  | fixedArray b k =>
    simp only [loopsB, Bool.or_eq_true] at h
    rcases h with h | h
    · exact .inl (tyConsumes_ext (eatsB_sound h))
    · split at h
      · next x hx => exact .inr ⟨x, hx, of_decide_eq_true h⟩
      · cases h
  | varArray b c => exact tyConsumes_ext (eatsB_sound h)
  | _ => trivial

theorem le_foldr_max : ∀ {l : List Nat} {x : Nat}, x ∈ l → x ≤ l.foldr max 0
  | y :: l, x, h => by
    rcases List.mem_cons.1 h with rfl | h
    · simp only [List.foldr_cons]; omega
    · have := le_foldr_max h
      simp only [List.foldr_cons]; omega

theorem linear_of {c K C : Nat} (hm : marshallers nm ord fs = .ok p) (hok : FilesOK nm ext fs)
    (h : linearB c K C nm fs = true) : Linear K C p ext nm fs := by
  simp only [linearB, Bool.and_eq_true] at h
  intro ctx hctx n s hs w hid hw A fuel
  have hb := List.all_eq_true.1 h.2 s (fmtOf_struct_mem hs).1
  simp only [Bool.and_eq_true, decide_eq_true_eq] at hb
  rw [(fmtOf_struct_mem hs).2] at hb
  refine Nat.le_trans (C76_linear (A := A) (c := c) (Z := ((fs.flatMap (·.structs)).map codeSize).foldr max 0)
    (rank := rankOf fs) ⟨hm, hok, hctx⟩ ?_ ?_ ?_ hs hid hw fuel)
    (Nat.add_le_add (Nat.mul_le_mul_right _ hb.1) hb.2)
  · rintro n s hs he n' ⟨f, hf, hb⟩
    have := List.all_eq_true.1 (definedB_mem h.1 (fmtOf_struct_mem hs).1 he) f hf
    rw [Bool.and_eq_true] at this
    have := List.all_eq_true.1 this.2 _ hb
    rw [(fmtOf_struct_mem hs).2] at this
    simpa [baseName] using this
  · intro n s hs he f hf
    rw [fmtOf_withExt nm ext exExt]
    have := List.all_eq_true.1 (definedB_mem h.1 (fmtOf_struct_mem hs).1 he) f hf
    rw [Bool.and_eq_true] at this
    exact loopsB_sound this.1 ext
  · intro m hmm
    have h1 : textSizes m.body ∈ p.methods.map (fun m => textSizes m.body) := List.mem_map_of_mem hmm
    rw [C78_exact hm] at h1
    obtain ⟨s, hs, he⟩ := List.mem_map.1 h1
    exact le_foldr_max (List.mem_map.2 ⟨s, (List.mem_filter.1 hs).1, he⟩)

/-- The check of C69 (`totalB`) and the one above, on source text. -/
def workB (N c K C : Nat) (pkg : String) (nm : String → String) (exts : List (String × List String)) (srcs : List (List UInt8)) : Bool :=
  match parseAll N srcs with
  | some fs => checkedB pkg nm fs && compilesB nm exts fs && returnsB nm fs && linearB c K C nm fs
  | none => false

/-- **C78.** Sources that pass the check yield code that decides whether its input starts with an encoding, in at most `K |w| + C` statements. -/
theorem C78_work {N c K C : Nat} {pkg : String} {exts : List (String × List String)} {srcs : List (List UInt8)}
    (h : workB N c K C pkg nm exts srcs = true) :
    Yields pkg nm exts srcs fun p ext nm fs => Decides p ext nm fs ∧ Linear K C p ext nm fs := by
  simp only [workB] at h
  split at h
  · next fs hp =>
    simp only [Bool.and_eq_true] at h
    have hp := parseAll_parses hp
    have hc := checkedB_sound h.1.1.1
    exact ⟨fs, hp, fun ord => textRuns_of hp (hc exExt).pkg (hc exExt).names (hc exExt).comp (hc exExt).res fun p hm =>
      ⟨emitted_compiles hm (compilesB_sound h.1.1.1 h.1.1.2), fun ext => ⟨decides_of hm (hc ext) (returnsB_sound h.1.2 ext),
        linear_of hm (hc ext).ok h.2⟩⟩⟩
  · cases h

end Verif.Props
