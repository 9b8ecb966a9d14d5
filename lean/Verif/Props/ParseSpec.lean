import Verif.PegComplete
import Verif.Utf8
import Verif.PrintLemmas
import Verif.GoodLemmas
/-!
# What the parser accepts and returns (C50–C53, C56)
-/
namespace Verif.Props
open Verif Verif.Ast Verif.Peg Verif.Syntax

/-- With any sufficient bound on nested calls, the bytes parse to the file. -/
def Parses (b : List UInt8) (f : File) : Prop := ∃ N, ∀ fuel, N ≤ fuel → parseBytes fuel b = some (.ok f)

/-- With any sufficient bound on nested calls, the bytes are answered by an error. -/
def Refuses (b : List UInt8) : Prop := ∃ N e, ∀ fuel, N ≤ fuel → parseBytes fuel b = some (.err e)

theorem parses_outcome {b : List UInt8} {f : File} : Parses b f ↔ outcome (decode b) = .ok f := by
  obtain ⟨N, hN⟩ := parseRunes_outcome (decode b)
  constructor
  · rintro ⟨M, hM⟩
    have h1 := hM (max M N) (by omega)
    have h2 := hN (max M N) (by omega)
    unfold parseBytes at h1
    rw [h2] at h1
    exact Option.some.inj h1
  · intro h
    exact ⟨N, fun fuel hf => by unfold parseBytes; rw [hN fuel hf, h]⟩

theorem refuses_iff {b : List UInt8} : Refuses b ↔ ¬ ∃ f, Parses b f := by
  obtain ⟨N, hN⟩ := parseRunes_outcome (decode b)
  constructor
  · rintro ⟨M, e, hM⟩ ⟨f, M', hM'⟩
    have h1 := hM (max M M') (by omega)
    have h2 := hM' (max M M') (by omega)
    rw [h1] at h2
    cases h2
  · intro h
    rcases outcome_cases (decode b) with ⟨f, hf⟩ | hf | hf
    · exact absurd ⟨f, parses_outcome.2 hf⟩ h
    · exact ⟨N, _, fun fuel hfu => by unfold parseBytes; rw [hN fuel hfu, hf]⟩
    · exact ⟨N, _, fun fuel hfu => by unfold parseBytes; rw [hN fuel hfu, hf]⟩

/-- **C56.** The parser accepts exactly the UTF-8 encodings of the ways to write declarations, and returns the file
these denote; `Writes` and `denote` are the specification of the language in `Verif.Syntax`. -/
theorem C56_language {b : List UInt8} {f : File} : Parses b f ↔
    ∃ s : List Char, b = utf8 s ∧ ∃ (k : Nat) (ds : List (Decl (Tree k))), Writes ds s ∧ f = denote ds := by
  rw [parses_outcome, outcome_iff]
  constructor
  · rintro ⟨s, h, rest⟩
    exact ⟨s, decode_iff.1 h, rest⟩
  · rintro ⟨s, h, rest⟩
    exact ⟨s, decode_iff.2 h, rest⟩

theorem parses_writes {k : Nat} {ds : List (Decl (Tree k))} {s : List Char} (h : Writes ds s) : Parses (utf8 s) (denote ds) :=
  C56_language.2 ⟨s, rfl, k, ds, h, rfl⟩

theorem parses_unique {b : List UInt8} {f f' : File} (h : Parses b f) (h' : Parses b f') : f = f' := by
  rw [parses_outcome] at h h'
  rw [h] at h'
  exact (Res.ok.inj h')

/-- No text has two meanings: the language is unambiguous. -/
theorem C56_unambiguous {k k' : Nat} {ds : List (Decl (Tree k))} {ds' : List (Decl (Tree k'))} {s : List Char}
    (h : Writes ds s) (h' : Writes ds' s) : denote ds = denote ds' :=
  parses_unique (parses_writes h) (parses_writes h')

/-! For the examples: a way to check that a text is laid out as some pieces say; literals are in decimal, side conditions do not
occur. -/

/-- The text after a piece, if it is there. -/
def readPiece : Piece → List Char → Option (List Char)
  | .tok t, s => if t.toList <+: s then some (s.drop t.toList.length) else none
  | .id n, s =>
    match n.toList with
    | [] => none
    | c :: cs => if c :: cs <+: s ∧ isIdStart c = true ∧ (∀ x ∈ cs, isIdChar x = true) ∧ (s.drop (c :: cs).length).head?.any isIdChar = false
      then some (s.drop (c :: cs).length) else none
  | .cid n, s =>
    match n.toList with
    | [] => none
    | c :: cs => if c :: cs <+: s ∧ isConstStart c = true ∧ ∀ x ∈ cs, isConstChar x = true then some (s.drop (c :: cs).length) else none
  | .int v, s => if v.toNat.repr.toList <+: s ∧ 0 ≤ v ∧ v < 2 ^ 63 then some (s.drop v.toNat.repr.toList.length) else none
  | .gap, s => some (skip s)
  | .gap1, s => if skip s = s then none else some (skip s)
  | .need _, _ => none

/-- The text after some pieces, if they are there. -/
def readPieces : List Piece → List Char → Option (List Char)
  | [], s => some s
  | p :: ps, s => (readPiece p s).bind (readPieces ps)

theorem prefix_drop {t s : List Char} (h : t <+: s) : s = t ++ s.drop t.length := by
  obtain ⟨u, rfl⟩ := h
  simp

theorem readPiece_at {p : Piece} {s s' : List Char} (h : readPiece p s = some s') : p.At s s' := by
  cases p with
  | tok t =>
    simp only [readPiece, Option.ite_none_right_eq_some, Option.some.injEq] at h
    obtain ⟨h1, rfl⟩ := h
    exact prefix_drop h1
  | id n =>
    simp only [readPiece] at h
    split at h
    · cases h
    · rename_i c cs he
      simp only [Option.ite_none_right_eq_some, Option.some.injEq] at h
      obtain ⟨⟨h1, h2, h3, h4⟩, rfl⟩ := h
      refine ⟨⟨c, cs, he, h2, h3⟩, by rw [he]; exact prefix_drop h1, ?_⟩
      intro x t ht
      rw [ht] at h4
      simpa using h4
  | cid n =>
    simp only [readPiece] at h
    split at h
    · cases h
    · rename_i c cs he
      simp only [Option.ite_none_right_eq_some, Option.some.injEq] at h
      obtain ⟨⟨h1, h2, h3⟩, rfl⟩ := h
      exact ⟨⟨c, cs, he, h2, h3⟩, by rw [he]; exact prefix_drop h1⟩
  | int v =>
    simp only [readPiece, Option.ite_none_right_eq_some, Option.some.injEq] at h
    obtain ⟨⟨h1, h2, h3⟩, rfl⟩ := h
    exact ⟨_, v.toNat, isLiteral_repr (by omega), by omega, prefix_drop h1⟩
  | gap =>
    simp only [readPiece, Option.some.injEq] at h
    subst h
    exact gap_skip s
  | gap1 =>
    simp only [readPiece, Option.ite_none_left_eq_some, Option.some.injEq] at h
    obtain ⟨h1, rfl⟩ := h
    exact ⟨gap_skip s, fun he => h1 he.symm⟩
  | need p => cases h

theorem readPieces_layout {ps : List Piece} {s s' : List Char} (h : readPieces ps s = some s') : Layout ps s s' := by
  induction ps generalizing s with
  | nil => exact Option.some.inj h
  | cons p ps ih =>
    simp only [readPieces, Option.bind_eq_some_iff] at h
    obtain ⟨s1, h1, h2⟩ := h
    exact ⟨s1, readPiece_at h1, ih h2⟩

/-- A constant, a struct declared inside another, and an extern struct. -/
def exDecls : List (Decl (Tree 1)) :=
  [.const "SIZE" 4,
   .struct ⟨"outer", ["ctx"],
     [.field (.struct (.decl ⟨"inner", [], [.field (.int .w8 "a" none)], none⟩) "x"),
      .field (.fixed (.int .w16) "ws" (.constRef "SIZE"))], some .eos⟩ true,
   .extern "other" []]

/-- A way to write them. -/
def exText : List Char :=
  "const SIZE = 4;\nstruct outer with context ctx { struct inner { u8 a; } x; u16 ws[SIZE]; eos; };\nextern struct other;\n".toList

/-- Another. -/
def exText' : List Char :=
  "/* size */const\tSIZE=4; struct\n outer with context ctx{struct inner{u8\n\na;} x;u16 ws [SIZE] ; // end\neos;}\t;extern  struct other;".toList

/-- The file they denote. -/
def exParsed : File :=
  ⟨[⟨"SIZE", 4⟩], [],
   [⟨"outer", ["ctx"], some [.leaf (.field ⟨"x", .base (.struct "inner")⟩),
      .leaf (.field ⟨"ws", .fixedArray (.int ⟨16, none⟩) (.constRef "SIZE")⟩), .leaf .eos]⟩,
    ⟨"other", [], none⟩,
    ⟨"inner", [], some [.leaf (.field ⟨"a", .base (.int ⟨8, none⟩)⟩)]⟩], []⟩

theorem exText_writes : Writes exDecls exText := readPieces_layout (by decide +kernel)
theorem exText_writes' : Writes exDecls exText' := readPieces_layout (by decide +kernel)
theorem exDecls_denote : denote exDecls = exParsed := by decide

example : Parses (utf8 exText) exParsed := by
  have := parses_writes exText_writes
  rwa [exDecls_denote] at this

/-! ## Printing and parsing -/

/-- **C50.** A well-formed file, written out by the printer, parses back to exactly that file. -/
theorem C50_print_parse {f : File} (h : GoodFile f) : Parses (utf8 (printFile f).toList) f := by
  obtain ⟨ds, hd, hw⟩ := print_file h
  have := parses_writes hw
  rwa [hd] at this

theorem exParsed_good : GoodFile exParsed := by
  have := good_denote exText_writes
  rwa [exDecls_denote] at this

example : Parses (utf8 (printFile exParsed).toList) exParsed := C50_print_parse exParsed_good

example : printFile exParsed = "const SIZE = 4;\nstruct outer with context ctx {\nstruct inner x;\nu16 ws[SIZE];\neos;\n}\n" ++
    "extern struct other;\nstruct inner {\nu8 a;\n}\n" := by decide +kernel

/-- **C52.** Every file the parser returns obeys the structural rules. -/
theorem C52_rules {b : List UInt8} {f : File} (h : Parses b f) : GoodFile f := by
  obtain ⟨s, _, k, ds, hw, rfl⟩ := C56_language.1 h
  exact good_denote hw

/-- A file with an array that extends to the end but is not last is never returned. -/
example : ¬ ∃ b, Parses b ⟨[], [], [⟨"s", [], some [.leaf (.field ⟨"r", .varArray .char none⟩),
    .leaf (.field ⟨"a", .base (.int ⟨8, none⟩)⟩)]⟩], []⟩ := by
  rintro ⟨b, h⟩
  obtain ⟨_, _, hs, _⟩ := C52_rules h
  obtain ⟨init, last, he, hi, hl⟩ := (hs _ List.mem_cons_self).2.2 _ rfl
  rcases hl with rfl | rfl | ⟨r, rfl, _⟩
  · rw [List.append_nil] at he
    subst he
    rcases hi _ List.mem_cons_self with ⟨f, hf, hp⟩ | ⟨n, hf, _⟩
    · cases hf; exact hp.2
    · cases hf
  · have := congrArg List.getLast? he
    simp at this
  · have h1 := congrArg List.length he
    simp only [List.length_cons, List.length_nil, List.length_append] at h1
    match init, h1 with
    | [m], _ =>
      simp only [List.cons_append, List.nil_append, List.cons.injEq] at he
      obtain ⟨rfl, _⟩ := he
      rcases hi _ List.mem_cons_self with ⟨f, hf, hp⟩ | ⟨n, hf, _⟩
      · cases hf; exact hp.2
      · cases hf

/-- The structural rules are exactly what the parser guarantees: a file obeys them if and only if some text parses to it. -/
theorem C52_exact {f : File} : GoodFile f ↔ ∃ b, Parses b f :=
  ⟨fun h => ⟨_, C50_print_parse h⟩, fun ⟨_, h⟩ => C52_rules h⟩

/-- What was parsed can be printed and parsed again. -/
theorem C50_reparse {b : List UInt8} {f : File} (h : Parses b f) : Parses (utf8 (printFile f).toList) f :=
  C50_print_parse (C52_rules h)

/-! Two of the rules, spelled out. -/

/-- A to-the-end array or `eos` is the last member of its struct. -/
theorem C52_end_last {b : List UInt8} {f : File} (h : Parses b f) {s : Struct} (hs : s ∈ f.structs) {ms : List Member} (hm : s.members = some ms)
    {i : Nat} {l : Leaf} (hi : ms[i]? = some (.leaf l)) (hl : l = .eos ∨ ∃ n e, l = .field ⟨n, .varArray e none⟩) : i + 1 = ms.length := by
  obtain ⟨_, _, hst, _⟩ := C52_rules h
  obtain ⟨init, last, rfl, h1, h2⟩ := (hst s hs).2.2 ms hm
  have hlen : last.length ≤ 1 := by rcases h2 with rfl | rfl | ⟨r, rfl, _⟩ <;> simp
  by_cases hlt : i < init.length
  · rw [List.getElem?_append_left hlt] at hi
    have hg := h1 _ (List.mem_of_getElem? hi)
    exfalso
    rcases hl with rfl | ⟨n, e, rfl⟩
    · rcases hg with ⟨f, hf, _⟩ | ⟨n, hf, _⟩ <;> cases hf
    · rcases hg with ⟨f, hf, hp⟩ | ⟨n, hf, _⟩
      · cases hf; exact hp.2
      · cases hf
  · have := (List.getElem?_eq_some_iff.1 hi).1
    rw [List.length_append] at this ⊢
    omega

/-- `fail` stands alone in its case. -/
theorem C52_fail_alone {b : List UInt8} {f : File} (h : Parses b f) {s : Struct} (hs : s ∈ f.structs) {ms : List Member} (hm : s.members = some ms)
    {u : UnionMember} (hu : .union u ∈ ms) {c : UnionCase} (hc : c ∈ u.cases) (hf : .fail ∈ c.members) : c.members = [.fail] := by
  obtain ⟨_, _, hst, _⟩ := C52_rules h
  obtain ⟨init, last, rfl, h1, h2⟩ := (hst s hs).2.2 ms hm
  have hu' : GoodMember (.union u) := by
    rcases List.mem_append.1 hu with hu | hu
    · exact h1 _ hu
    · rcases h2 with rfl | rfl | ⟨r, rfl, _⟩ <;> simp at hu
  obtain ⟨_, _, _, hcs⟩ := hu'
  rcases (hcs c hc).2 with he | ⟨fs, last, he, hp, hl⟩
  · exact he
  · exfalso
    rw [he] at hf
    rcases List.mem_append.1 hf with hf | hf
    · obtain ⟨f, hf, _⟩ := hp _ hf; cases hf
    · rcases hl with rfl | rfl | ⟨r, rfl, _, _, rfl, _⟩ <;> simp at hf

/-! ## Layout -/

/-- **C51.** Two ways to write the same declarations parse to the same file. The ways differ in the white space and comments
between tokens, and in how literals are written. -/
theorem C51_layout {k : Nat} {ds : List (Decl (Tree k))} {s s' : List Char} (h : Writes ds s) (h' : Writes ds s') :
    ∃ f, Parses (utf8 s) f ∧ Parses (utf8 s') f := ⟨denote ds, parses_writes h, parses_writes h'⟩

example : ∃ f, Parses (utf8 exText) f ∧ Parses (utf8 exText') f := C51_layout exText_writes exText_writes'

/-- A gap between two parts of a text may be replaced by any other gap. The parts are pieces `ps` before and `qs` after it;
the replacement does not change how the first part reads (it starts with no letter, digit or underscore, like the gap it replaces,
or the first part does not end in an identifier). -/
theorem C51_replace {k : Nat} {ds : List (Decl (Tree k))} {ps qs : List Piece} {a g g' t : List Char}
    (hds : fileSpell ds = ps ++ .gap :: qs) (hp : Layout ps (a ++ (g ++ t)) (g ++ t)) (hp' : Layout ps (a ++ (g' ++ t)) (g' ++ t))
    (hg : Gap (g ++ t) t) (hg' : Gap (g' ++ t) t) (hq : Layout qs t []) :
    ∃ f, Parses (utf8 (a ++ (g ++ t))) f ∧ Parses (utf8 (a ++ (g' ++ t))) f := by
  refine C51_layout (ds := ds) ?_ ?_
  · unfold Writes
    rw [hds, layout_append]
    exact ⟨_, hp, _, hg, hq⟩
  · unfold Writes
    rw [hds, layout_append]
    exact ⟨_, hp', _, hg', hq⟩

example : ∃ f, Parses (utf8 "const A  = 1;".toList) f ∧ Parses (utf8 "const A/* one */= 1;".toList) f :=
  C51_replace (k := 0) (ds := [.const "A" 1]) (ps := [.gap, .tok "const", .gap1, .cid "A"]) (qs := [.tok "=", .gap, .int 1, .gap, .tok ";", .gap])
    (a := "const A".toList) (g := [' ', ' ']) (g' := "/* one */".toList) (t := "= 1;".toList) rfl
    (readPieces_layout (by decide +kernel)) (readPieces_layout (by decide +kernel))
    (.white _ _ _ (by simp) (.white _ _ _ (by simp) (.done _)))
    (by have := gap_skip ("/* one */".toList ++ "= 1;".toList); rwa [show skip ("/* one */".toList ++ "= 1;".toList) = "= 1;".toList by decide +kernel] at this)
    (readPieces_layout (by decide +kernel))

theorem decls_fresh {k : Nat} {ds : List (Decl (Tree k))} {s : List Char} (h : Layout (declsSpell ds) s []) : Stops isSkipStart s := by
  cases ds with
  | nil => cases h; exact stops_nil
  | cons d ds =>
    simp only [declsSpell, layout_append] at h
    obtain ⟨_, ⟨_, h, _⟩, _⟩ := h
    exact (decl_starts h).stops (fun c hc => (declStart_fresh c hc).1)

/-- A gap in front of the text makes no difference, whether the text parses or not. -/
theorem C51_leading {g s : List Char} (hg : Gap (g ++ s) s) {f : File} : Parses (utf8 (g ++ s)) f ↔ Parses (utf8 s) f := by
  rw [C56_language, C56_language]
  have inj : ∀ {x y : List Char}, utf8 x = utf8 y → x = y := by
    intro x y h
    have := congrArg decode h
    rw [decode_utf8, decode_utf8] at this
    exact List.map_inj_right (fun a b h => Rune.ok.inj h) |>.1 this
  constructor
  · rintro ⟨s0, h0, k, ds, ⟨s1, h1, h2⟩, rfl⟩
    obtain rfl := inj h0
    refine ⟨s, rfl, k, ds, ⟨s1, ?_, h2⟩, rfl⟩
    have h3 : skip (g ++ s) = s1 := gap_to h1 (decls_fresh h2)
    rw [skip_gap hg] at h3
    rw [← h3]
    exact gap_skip s
  · rintro ⟨s0, h0, k, ds, ⟨s1, h1, h2⟩, rfl⟩
    obtain rfl := inj h0
    refine ⟨g ++ s, rfl, k, ds, ⟨s1, ?_, h2⟩, rfl⟩
    have h3 : skip s = s1 := gap_to h1 (decls_fresh h2)
    rw [← skip_gap hg] at h3
    rw [← h3]
    exact gap_skip _

example {f : File} : Parses (utf8 (' ' :: '\n' :: exText)) f ↔ Parses (utf8 exText) f :=
  C51_leading (g := [' ', '\n']) (.white _ _ _ (by simp) (.white _ _ _ (by simp) (.done _)))

/-! ## Structs declared in place -/

section
variable {ι : Type}

/-- The struct declared in place by a reference, if any. -/
def refInline : Ref ι → List ι
  | .name _ => []
  | .decl d => [d]

/-- The struct declared in place by an element type, if any. -/
def elemInline : Elem ι → List ι
  | .ref r => refInline r
  | _ => []

/-- The struct declared in place by a field, if any. -/
def fieldInline : SField ι → List ι
  | .fixed b _ _ => elemInline b
  | .var b _ _ => elemInline b
  | .int _ _ _ => []
  | .str _ => []
  | .struct r _ => refInline r

/-- The structs declared in place in a union case. -/
def bodyInline : Body ι → List ι
  | .fields fs none => fs.flatMap fieldInline
  | .fields fs (some .dots) => fs.flatMap fieldInline
  | .fields fs (some (.rest b _)) => fs.flatMap fieldInline ++ elemInline b
  | _ => []

/-- The structs declared in place by a member. -/
def memberInline : SMember ι → List ι
  | .field f => fieldInline f
  | .ptr _ => []
  | .union _ _ _ cs => cs.flatMap (fun c => bodyInline c.body)

/-- The structs declared in place directly inside a struct, in the order of the text. -/
def structInline (s : SStruct ι) : List ι :=
  s.members.flatMap memberInline ++
    match s.ending with
    | some (.rest b _) => elemInline b
    | _ => []

end

/-- The names of a struct declared in place and all those declared inside it, inner ones first. -/
def treeNames : (k : Nat) → Tree k → List String
  | 0, t => nomatch t
  | k + 1, t => (structInline (ι := Tree k) t).flatMap (treeNames k) ++ [SStruct.name (ι := Tree k) t]

/-- The name of the struct declared by a declaration, extern or not. -/
def topName {k : Nat} : Decl (Tree k) → List String
  | .struct s _ => [s.name]
  | .extern n _ => [n]
  | _ => []

/-- The names of all structs declared in place inside a declaration. -/
def innerNames {k : Nat} : Decl (Tree k) → List String
  | .struct s _ => (structInline s).flatMap (treeNames k)
  | _ => []

section
variable {ι : Type} (mn : ι → Struct × List Struct)

theorem elem_hoist (e : Elem ι) : e.hoist mn = (elemInline e).flatMap (fun d => (mn d).2 ++ [(mn d).1]) := by
  cases e with
  | ref r => cases r <;> simp [Elem.hoist, Ref.hoist, elemInline, refInline]
  | _ => rfl

theorem field_hoist (f : SField ι) : f.hoist mn = (fieldInline f).flatMap (fun d => (mn d).2 ++ [(mn d).1]) := by
  cases f with
  | fixed b n k => exact elem_hoist mn b
  | var b n k => exact elem_hoist mn b
  | struct r n => cases r <;> simp [SField.hoist, Ref.hoist, fieldInline, refInline]
  | _ => rfl

theorem fields_hoist (fs : List (SField ι)) :
    fs.flatMap (SField.hoist mn) = (fs.flatMap fieldInline).flatMap (fun d => (mn d).2 ++ [(mn d).1]) := by
  induction fs with
  | nil => rfl
  | cons f fs ih => simp only [List.flatMap_cons, List.flatMap_append, ih, field_hoist]

theorem body_hoist (b : Body ι) : b.hoist mn = (bodyInline b).flatMap (fun d => (mn d).2 ++ [(mn d).1]) := by
  cases b with
  | fields fs e =>
    cases e with
    | none => simp [Body.hoist, bodyInline, fields_hoist]
    | some e =>
      cases e with
      | dots => simp [Body.hoist, bodyInline, fields_hoist, Extent.hoist]
      | rest b n => simp [Body.hoist, bodyInline, fields_hoist, Extent.hoist, elem_hoist, List.flatMap_append]
  | _ => rfl

theorem member_hoist (m : SMember ι) : m.hoist mn = (memberInline m).flatMap (fun d => (mn d).2 ++ [(mn d).1]) := by
  cases m with
  | field f => exact field_hoist mn f
  | ptr n => rfl
  | union n t l cs =>
    simp only [SMember.hoist, memberInline]
    induction cs with
    | nil => rfl
    | cons c cs ih => rw [List.flatMap_cons, List.flatMap_cons, List.flatMap_append, ih, body_hoist]

theorem struct_hoist (s : SStruct ι) : s.hoist mn = (structInline s).flatMap (fun d => (mn d).2 ++ [(mn d).1]) := by
  unfold SStruct.hoist structInline
  rw [List.flatMap_append]
  congr 1
  · generalize s.members = ms
    induction ms with
    | nil => rfl
    | cons m ms ih => simp only [List.flatMap_cons, List.flatMap_append, ih, member_hoist]
  · cases s.ending with
    | none => rfl
    | some e => cases e <;> simp [Ending.hoist, elem_hoist]

end

theorem tree_names : ∀ (k : Nat) (t : Tree k), ((Tree.mean k t).2 ++ [(Tree.mean k t).1]).map Struct.name = treeNames k t
  | 0, t => nomatch t
  | k + 1, t => by
    have ih := tree_names k
    change SStruct (Tree k) at t
    show (SStruct.hoist (Tree.mean k) t ++ [SStruct.struct (Tree.mean k) t]).map Struct.name = (structInline t).flatMap (treeNames k) ++ [t.name]
    rw [struct_hoist, List.map_append, List.map_flatMap]
    congr 2
    funext d
    exact ih d

/-- **C53.** Each struct declared in place appears among the file's structs exactly once: the file's structs are the top-level
ones in the order of the text, followed by those declared in place, inner ones first. This holds however often the parser tries
a rule, backtracks and reads a declaration again. -/
theorem C53_once {k : Nat} {ds : List (Decl (Tree k))} {s : List Char} (h : Writes ds s) :
    ∃ f, Parses (utf8 s) f ∧ f.structs.map Struct.name = ds.flatMap topName ++ ds.flatMap innerNames := by
  refine ⟨denote ds, parses_writes h, ?_⟩
  simp only [denote, List.map_append, List.map_flatMap]
  congr 1
  · clear h
    induction ds with
    | nil => rfl
    | cons d ds ih => simp only [List.flatMap_cons, ih]; cases d <;> rfl
  · clear h
    induction ds with
    | nil => rfl
    | cons d ds ih =>
      simp only [List.flatMap_cons, ih]
      congr 1
      cases d with
      | struct s semi =>
        simp only [Decl.hoist, innerNames, struct_hoist, List.map_flatMap]
        congr 1
        funext t
        exact tree_names k t
      | _ => rfl

example : exDecls.flatMap topName ++ exDecls.flatMap innerNames = ["outer", "other", "inner"] := by decide

example : ∃ f, Parses (utf8 exText) f ∧ f.structs.map Struct.name = ["outer", "other", "inner"] := C53_once exText_writes

/-- A field whose type is a struct declared in place refers to it by name, and the file has that struct. -/
theorem C53_reference {k : Nat} {ds : List (Decl (Tree (k + 1)))} {t : List Char} (h : Writes ds t) {s : SStruct (Tree (k + 1))} {semi : Bool}
    (hs : .struct s semi ∈ ds) {d : SStruct (Tree k)} {n : String} {i : Nat} (hi : s.members[i]? = some (.field (.struct (.decl d) n))) :
    ∃ f, Parses (utf8 t) f ∧
      (∃ S ∈ f.structs, S.name = s.name ∧ ∃ ms, S.members = some ms ∧ ms[i]? = some (.leaf (.field ⟨n, .base (.struct d.name)⟩))) ∧
      ∃ S ∈ f.structs, S = SStruct.struct (Tree.mean k) d := by
  refine ⟨denote ds, parses_writes h, ⟨s.struct (Tree.mean (k + 1)), ?_, rfl, _, rfl, ?_⟩, SStruct.struct (Tree.mean k) d, ?_, rfl⟩
  · exact List.mem_append_left _ (List.mem_flatMap.2 ⟨_, hs, by simp [Decl.structs]⟩)
  · rw [List.getElem?_append_left (by simp only [List.length_map]; exact (List.getElem?_eq_some_iff.1 hi).1), List.getElem?_map, hi]
    rfl
  · refine List.mem_append_right _ (List.mem_flatMap.2 ⟨_, hs, ?_⟩)
    simp only [Decl.hoist, struct_hoist]
    refine List.mem_flatMap.2 ⟨d, ?_, by simp [Tree.mean]⟩
    unfold structInline
    refine List.mem_append_left _ (List.mem_flatMap.2 ⟨_, List.mem_of_getElem? hi, ?_⟩)
    exact List.mem_cons_self

example : ∃ f, Parses (utf8 exText) f ∧
    (∃ S ∈ f.structs, S.name = "outer" ∧ ∃ ms, S.members = some ms ∧ ms[0]? = some (.leaf (.field ⟨"x", .base (.struct "inner")⟩))) ∧
    ∃ S ∈ f.structs, S = ⟨"inner", [], some [.leaf (.field ⟨"a", .base (.int ⟨8, none⟩)⟩)]⟩ := by
  have := C53_reference exText_writes (List.mem_cons_of_mem _ List.mem_cons_self) (i := 0) rfl
  exact this

end Verif.Props
