import Verif.EncFits
import Verif.TvCheck
import Verif.Golden
import Verif.Props.EndToEnd
/-!
# A checker for sources

Evaluating `checked` on the trees of source files shows that everything proved about generated code applies to them
(`Verif/Props/Formats.lean`).
-/
set_option linter.unusedVariables false
namespace Verif.Formats
open Verif Verif.Ast Verif.Go Verif.Go.Read Verif.Syntax Verif.Gen Verif.Wire Verif.Spec Verif.Refine Verif.Props Verif.Tv

/-! ## User code does not matter for the conditions on sources -/

/-- The format with other user code. -/
def withExt (Γ : Fmt) (e : Ext) : Fmt := { Γ with ext := e }

theorem fmtOf_withExt (nm : String → String) (e e' : Ext) (fs : List File) : fmtOf nm e fs = withExt (fmtOf nm e' fs) e := rfl

variable {Γ : Fmt} {s : Struct} {e : Ext}

theorem structOK_ext (h : StructOK Γ s) : StructOK (withExt Γ e) s := by
  refine ⟨fun m hm => ?_, h.fields, h.recv, h.ctxs⟩
  have hl : ∀ l, LeafOK Γ s l → LeafOK (withExt Γ e) s l := by
    intro l hl
    cases l with
    | field f =>
      obtain ⟨n, t⟩ := f
      match t with
      | .base (.int _) | .base .char | .base (.struct _) => exact hl
      | .ptr => exact hl
      | .nulterm => exact hl
      | .fixedArray (.int _) _ | .fixedArray .char _ | .fixedArray (.struct _) _ => exact hl
      | .varArray (.int _) none | .varArray .char none | .varArray (.struct _) none => exact hl
      | .varArray (.int _) (some (.idRef _)) | .varArray .char (some (.idRef _)) | .varArray (.struct _) (some (.idRef _)) => exact hl
      | .varArray (.int _) (some (.leftover _)) | .varArray .char (some (.leftover _))
      | .varArray (.struct _) (some (.leftover _)) => exact hl
    | eos => trivial
    | ignore => trivial
    | fail => trivial
  have h := h.members m hm
  cases m with
  | leaf l => exact hl l h
  | union u =>
    refine ⟨h.1, fun c hc => ?_, fun c hc => ⟨(h.2.2 c hc).1, fun l hm => hl l ((h.2.2 c hc).2 l hm)⟩⟩
    have := h.2.1 c hc
    cases c with
    | leftover k => exact this
    | idRef r => exact this

theorem narrow_ext {m : Member} (h : NarrowMember Γ s m) : NarrowMember (withExt Γ e) s m := by
  have hc : ∀ c, NarrowLen Γ s c → NarrowLen (withExt Γ e) s c := by
    intro c h
    cases c with
    | leftover k => exact h
    | idRef r => exact h
  have hl : ∀ l, NarrowLeaf Γ s l → NarrowLeaf (withExt Γ e) s l := by
    intro l h
    match l with
    | .field ⟨_, .varArray _ (some c)⟩ => exact hc c h
    | .field ⟨_, .varArray _ none⟩ => trivial
    | .field ⟨_, .base _⟩ => trivial
    | .field ⟨_, .ptr⟩ => trivial
    | .field ⟨_, .nulterm⟩ => trivial
    | .field ⟨_, .fixedArray _ _⟩ => trivial
    | .eos => trivial
    | .ignore => trivial
    | .fail => trivial
  cases m with
  | leaf l => exact hl l h
  | union u => exact ⟨fun c hc' => hc c (h.1 c hc'), fun c hc' l hl' => hl l (h.2 c hc' l hl')⟩

mutual
theorem consumes_ext {n : String} : Consumes Γ n → Consumes (withExt Γ e) n
  | .struct hs he hf ht => .struct hs he hf (tyConsumes_ext ht)
theorem tyConsumes_ext {t : Ty} : TyConsumes Γ t → TyConsumes (withExt Γ e) t
  | .int t => .int t
  | .char => .char
  | .nulterm => .nulterm
  | .nested h => .nested (consumes_ext h)
  | .array h hk hx => .array (tyConsumes_ext h) hk hx
end

/-! ## The checker -/

/-- Levels of nesting below a struct, up to the given number. -/
def depth (fs : List File) : Nat → String → Nat
  | 0, _ => 0
  | k + 1, n =>
    match lastDecl (·.name) (fs.flatMap (·.structs)) n with
    | none => 0
    | some s => 1 + ((fieldsOf s.ms).flatMap fun f => (tyBases f.type).filterMap baseName).foldl (fun a n => max a (depth fs k n)) 0

/-- Structs of the files with their definition. -/
def definedB (fs : List File) (q : Struct → Bool) : Bool := (fs.flatMap (·.structs)).all fun s => s.extern || q s

/-- What is needed for the printed text to be a program that accepts exactly the encodings. -/
def checkedB (pkg : String) (nm : String → String) (fs : List File) : Bool :=
  goIdentB pkg &&
  (fs.all fun f => (printedNames f).all (fun n => goIdentB (nm n)) &&
    (paramNames f).all fun c => decide (Read.keywords.lookup c.toList = none)) &&
  decide (FilesCompatible fs) && decide (Resolved fs) &&
  definedB fs (fun s => decide (StructOK (fmtOf nm exExt fs) s)) &&
  decide (fs.flatMap (fun f => (typeNames f).map nm)).Nodup &&
  (fs.flatMap (·.structs)).all (fun s => !s.extern || decide ((fmtOf nm exExt fs).structs s.name ≠ some s) ||
    !(fs.flatMap (fun f => (typeNames f).map nm)).contains (nm s.name)) &&
  definedB fs (fun s => decide (MembersOrd s.ms))

/-- What is needed for it to return whatever the input. -/
def returnsB (nm : String → String) (fs : List File) : Bool :=
  definedB fs (fun s => s.ms.all fun m => decide (NarrowMember (fmtOf nm exExt fs) s m)) &&
  definedB fs (fun s => (fieldsOf s.ms).all fun f => (tyBases f.type).all fun b => ((baseName b).all fun n' =>
    depth fs (fs.flatMap (·.structs)).length.succ n' < depth fs (fs.flatMap (·.structs)).length.succ s.name)) &&
  definedB fs (fun s => (fieldsOf s.ms).all fun f => (endBases f.type).all fun b => ((baseName b).all fun n' =>
    consumesB (fmtOf nm exExt fs) 20 n'))

/-- What is needed for it to obey the scope and type rules of Go, given the types written by the user. -/
def compilesB (nm : String → String) (exts : List (String × List String)) (fs : List File) : Bool :=
  definedB fs (fun s => decide (StructFits (fmtOf nm exExt fs) s)) &&
  definedB fs (fun s => decide s.contexts.Nodup && s.contexts.all fun c => ((fs.flatMap (·.contexts)).map (·.name)).contains c) &&
  (fs.flatMap (·.contexts)).all (fun C => (C.members.all fun f => decide (CtxTy f.type) && goodName (nm f.name)) &&
    decide (C.members.map fun f => nm f.name).Nodup) &&
  definedB fs (fun s => (fieldsOf s.ms).all fun f => goodName (nm f.name) && decide (nm f.name ≠ "Parse")) &&
  decide (goTypes nm fs ++ goCtors nm fs ++ exts.map (·.1)).Nodup &&
  (goTypes nm fs ++ goCtors nm fs).all (fun x => !builtins.contains x) &&
  (goTypes nm fs ++ exts.map (·.1)).all (fun x => goodName x && !["cur", "data", "restore", "idx", "tmp", "err", "i"].contains x &&
    definedB fs fun s => decide (x ≠ firstLetter s) && !s.contexts.contains x) &&
  (fs.flatMap (·.structs)).all (fun s => !s.extern || decide ((fmtOf nm exExt fs).structs s.name ≠ some s) ||
    decide (exts.lookup (nm s.name) = some (s.contexts.map nm)))

/-! ## It is sound -/

variable {pkg : String} {nm : String → String} {exts : List (String × List String)} {fs : List File} {ext : Ext}

theorem definedB_mem {q : Struct → Bool} (h : definedB fs q = true) {s : Struct} (hs : s ∈ fs.flatMap (·.structs))
    (he : s.extern = false) : q s = true := by
  have := List.all_eq_true.1 h s hs
  simpa [he] using this

/-- The conditions of `C61_accepts`. -/
structure Accepted (pkg : String) (nm : String → String) (ext : Ext) (fs : List File) : Prop where
  pkg : GoIdent pkg
  names : ∀ f ∈ fs, TextNames nm f
  comp : FilesCompatible fs
  res : Resolved fs
  ok : FilesOK nm ext fs
  ord : OrdOK (fmtOf nm ext fs)

theorem checkedB_sound (h : checkedB pkg nm fs = true) (ext : Ext) : Accepted pkg nm ext fs := by
  simp only [checkedB, Bool.and_eq_true, decide_eq_true_eq] at h
  obtain ⟨⟨⟨⟨⟨⟨⟨h1, h2⟩, h3⟩, h4⟩, h5⟩, h6⟩, h7⟩, h8⟩ := h
  refine ⟨goIdent_of h1, fun f hf => ?_, h3, h4, FilesOK.of_check (fun s hs he => ?_) h6 (fun s hs he hd => ?_),
    OrdOK.of_check fun s hs he => of_decide_eq_true (definedB_mem h8 hs he)⟩
  · have := List.all_eq_true.1 h2 f hf
    rw [Bool.and_eq_true] at this
    exact textNames_of this.1 this.2
  · rw [fmtOf_withExt nm ext exExt]
    exact structOK_ext (of_decide_eq_true (definedB_mem h5 hs he))
  · have := List.all_eq_true.1 h7 s hs
    simp only [he, Bool.not_true, Bool.false_or, Bool.or_eq_true, decide_eq_true_eq, Bool.not_eq_true'] at this
    rcases this with h | h
    · exact absurd hd h
    · intro hm
      rw [List.contains_iff_mem.2 hm] at h
      cases h

/-- The further conditions of `C61_returns`. -/
structure Returned (nm : String → String) (ext : Ext) (fs : List File) : Prop where
  narrow : NarrowFmt (fmtOf nm ext fs)
  acyclic : Acyclic (fmtOf nm ext fs)
  consumes : ∀ n s, (fmtOf nm ext fs).structs n = some s → s.extern = false → ∀ n', NestsToEnd s n' → Consumes (fmtOf nm ext fs) n'

theorem returnsB_sound (h : returnsB nm fs = true) (ext : Ext) : Returned nm ext fs := by
  simp only [returnsB, Bool.and_eq_true] at h
  obtain ⟨⟨h1, h2⟩, h3⟩ := h
  refine ⟨NarrowFmt.of_check fun s hs he m hm => ?_, Acyclic.of_check (depth fs (fs.flatMap (·.structs)).length.succ) fun s hs he f hf b hb n' hn => ?_, ?_⟩
  · rw [fmtOf_withExt nm ext exExt]
    exact narrow_ext (of_decide_eq_true (List.all_eq_true.1 (definedB_mem h1 hs he) m hm))
  · have := List.all_eq_true.1 (List.all_eq_true.1 (definedB_mem h2 hs he) f hf) b hb
    rw [hn] at this
    simpa using this
  · rintro n s hs he n' ⟨f, hf, hb⟩
    have := List.all_eq_true.1 (List.all_eq_true.1 (definedB_mem h3 (fmtOf_struct_mem hs).1 he) f hf) _ hb
    rw [fmtOf_withExt nm ext exExt]
    exact consumes_ext (consumesB_sound (by simpa [baseName] using this))

theorem compilesB_sound (hc : checkedB pkg nm fs = true) (h : compilesB nm exts fs = true) : CompileOK nm exExt fs exts := by
  simp only [compilesB, Bool.and_eq_true, decide_eq_true_eq] at h
  obtain ⟨⟨⟨⟨⟨⟨⟨h1, h2⟩, h3⟩, h4⟩, h5⟩, h6⟩, h7⟩, h8⟩ := h
  have neg : ∀ {l : List String} {x : String}, (!l.contains x) = true → x ∉ l := by
    intro l x h hm
    rw [List.contains_iff_mem.2 hm] at h
    cases h
  refine ⟨(checkedB_sound hc exExt).ok, fun s hs he => of_decide_eq_true (definedB_mem h1 hs he), fun s hs he => ?_,
    fun C hC => ?_, fun s hs he f hf => ?_, h5, fun x hx => neg (List.all_eq_true.1 h6 x hx), fun x hx => ?_, fun n s hs he => ?_⟩
  · have := definedB_mem h2 hs he
    rw [Bool.and_eq_true, decide_eq_true_eq, List.all_eq_true] at this
    exact ⟨this.1, fun c hc => List.contains_iff_mem.1 (this.2 c hc)⟩
  · have := List.all_eq_true.1 h3 C hC
    rw [Bool.and_eq_true, decide_eq_true_eq, List.all_eq_true] at this
    refine ⟨fun f hf => ?_, this.2⟩
    have := this.1 f hf
    rwa [Bool.and_eq_true, decide_eq_true_eq] at this
  · have := List.all_eq_true.1 (definedB_mem h4 hs he) f hf
    rwa [Bool.and_eq_true, decide_eq_true_eq] at this
  · have := List.all_eq_true.1 h7 x hx
    simp only [Bool.and_eq_true] at this
    refine ⟨this.1.1, neg this.1.2, fun s hs he => ?_⟩
    have := definedB_mem this.2 hs he
    rw [Bool.and_eq_true, decide_eq_true_eq] at this
    exact ⟨this.1, neg this.2⟩
  · obtain ⟨hm, rfl⟩ := fmtOf_struct_mem hs
    have := List.all_eq_true.1 h8 s hm
    simp only [he, Bool.not_true, Bool.false_or, Bool.or_eq_true, decide_eq_true_eq] at this
    rcases this with h | h
    · exact absurd hs h
    · exact h

end Verif.Formats
