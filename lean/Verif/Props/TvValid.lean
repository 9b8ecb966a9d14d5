import Verif.TvCtx
import Verif.TvCheck
import Verif.Props.Gen
import Verif.Props.TvBasic
/-!
# C40: vectors are accepted by the generated parser
-/
namespace Verif.Props
open Verif Verif.Ast Verif.Gen Verif.Inspect Verif.Tv Verif.Go Verif.Spec Verif.Wire Verif.Refine

/-- **C40.** In a format of the class `FmtGen`, every vector shorter than the bound is, given context values
as recorded with the vector, a complete encoding of a value of its struct. Missing: formats outside the
class, for some of which this is false (see below). -/
theorem C40_encodings_partial {E : Tv.Env} (hsel : Selects E) {nm : String → String} {ext : Go.Ext} {fs : List File}
    {fuel : Nat} {seed : E.R.σ} {corpus : Corpus} (h : generateFiles E fuel seed fs = .ok corpus)
    (hok : FilesOK nm ext fs) {B : Nat} {C O : String → Prop} (hg : FmtGen (fmtOf nm ext fs) B C O) {ctx : Ctx}
    (hctx : CtxOK (fmtOf nm ext fs) ctx) {t : Tv.Suite} (ht : t ∈ corpus) {v : Tv.Vector} (hv : v ∈ t.vectors)
    (hm : Meets (fmtOf nm ext fs) ctx v.cst) (hB : v.data.length < B) :
    (∃ s, (fmtOf nm ext fs).structs t.type = some s ∧ s.extern = false) ∧
      ∃ val, Fits (2 ^ 32 - 1) val ∧ Enc (fmtOf nm ext fs) ctx t.type val v.data [] := by
  obtain ⟨h1, h2⟩ := generateFiles_ok hsel h hok hg (A := 2 ^ 32 - 1) (by omega) hctx t ht
  exact ⟨h1, h2 v hv hm hB⟩

/-- **C40.** In a format of the class `FmtGen` whose references only go back, the generated `Parse` accepts
every vector shorter than the bound, given context values as recorded with the vector, and leaves no input.
Missing: formats outside the class, for some of which this is false (see below). -/
theorem C40_accepted_partial {E : Tv.Env} (hsel : Selects E) {nm : String → String} {ext : Go.Ext}
    {ord : IterOrder} {fs : List File} {p : Prog} {ctx : Ctx} (G : Generated nm ext ord fs p ctx)
    (hord : OrdOK (fmtOf nm ext fs)) {fuel : Nat} {seed : E.R.σ} {corpus : Corpus}
    (h : generateFiles E fuel seed fs = .ok corpus) {B : Nat} {C O : String → Prop}
    (hg : FmtGen (fmtOf nm ext fs) B C O) {t : Tv.Suite} (ht : t ∈ corpus) {v : Tv.Vector} (hv : v ∈ t.vectors)
    (hm : Meets (fmtOf nm ext fs) ctx v.cst) (hB : v.data.length < B) {A : Nat} (hA : 2 ^ 32 ≤ A + 1) (hA' : A < 2 ^ 63)
    (hid : Bytes) :
    ∃ s val, (fmtOf nm ext fs).structs t.type = some s ∧ s.extern = false ∧
      Accepts p ext A (nm t.type) (ctxArgs s ctx) v.data hid val [] := by
  obtain ⟨⟨s, h1, he⟩, h2⟩ := generateFiles_ok hsel h G.ok hg hA G.ctxOK t ht
  obtain ⟨val, hf, henc⟩ := h2 v hv hm hB
  have := hg.bound
  exact ⟨s, val, h1, he, parse_complete G hord hA' h1 hid (by omega) hf henc⟩

/-- **C40.** In a format of the class whose context variables can hold the values the generator chooses for
them (`FmtCtx`), for every vector shorter than the bound there are context values as recorded with the vector,
and the generated `Parse` accepts the vector with them. Missing: formats outside the class. -/
theorem C40_usable_partial {E : Tv.Env} (hsel : Selects E) {nm : String → String} {ext : Go.Ext}
    {ord : IterOrder} {fs : List File} {p : Prog} (hp : marshallers nm ord fs = .ok p) (hok : FilesOK nm ext fs)
    (hord : OrdOK (fmtOf nm ext fs)) {fuel : Nat} {seed : E.R.σ} {corpus : Corpus}
    (h : generateFiles E fuel seed fs = .ok corpus) {B : Nat} {C O : String → Prop}
    (hg : FmtGen (fmtOf nm ext fs) B C O) (hx : FmtCtx (fmtOf nm ext fs)) {t : Tv.Suite} (ht : t ∈ corpus)
    {v : Tv.Vector} (hv : v ∈ t.vectors) (hB : v.data.length < B) {A : Nat} (hA : 2 ^ 32 ≤ A + 1) (hA' : A < 2 ^ 63)
    (hid : Bytes) :
    ∃ ctx s val, CtxOK (fmtOf nm ext fs) ctx ∧ Meets (fmtOf nm ext fs) ctx v.cst ∧
      (fmtOf nm ext fs).structs t.type = some s ∧ s.extern = false ∧
      Accepts p ext A (nm t.type) (ctxArgs s ctx) v.data hid val [] := by
  obtain ⟨ctx, h1, h2⟩ := generateFiles_ctx hsel h hok hg hx t ht v hv
  obtain ⟨s, val, h3⟩ := C40_accepted_partial hsel ⟨hp, hok, h1⟩ hord h hg ht hv h2 hB hA hA' hid
  exact ⟨ctx, s, val, h1, h2, h3⟩

/-! ## A format in the class -/

/-- `u8`, `u16`, `u32`. -/
def tvU (n : Nat) : Ty := .base (.int ⟨n, none⟩)

/-- A literal as range. -/
def tvLit (a : Int) : IntegerRange := ⟨.literal a, none⟩

/-- A format with a constrained tag, a union limited by a length field, arrays counted by a field, a constant
and a context variable, an array of structs, strings and an array to the end. -/
def tvFile : File :=
  { constants := [⟨"N", 2⟩]
    contexts := [⟨"c", [⟨"n", tvU 8⟩]⟩]
    structs := [
      ⟨"name", [], some [.leaf (.field ⟨"x", tvU 16⟩), .leaf (.field ⟨"text", .nulterm⟩)]⟩,
      ⟨"msg", ["c"], some [
        .leaf (.field ⟨"tag", .base (.int ⟨8, some ⟨[tvLit 1, ⟨.literal 5, some (.literal 9)⟩]⟩⟩)⟩),
        .leaf (.field ⟨"ulen", tvU 16⟩),
        .leaf (.field ⟨"cnt", tvU 8⟩),
        .leaf (.field ⟨"items", .varArray (.int ⟨32, none⟩) (some (.idRef ⟨"", "cnt"⟩))⟩),
        .leaf (.field ⟨"extra", .varArray (.int ⟨8, none⟩) (some (.idRef ⟨"c", "n"⟩))⟩),
        .union ⟨"u", ⟨"", "tag"⟩, some (.idRef ⟨"", "ulen"⟩),
          [⟨some ⟨[tvLit 1]⟩, [.field ⟨"a", tvU 8⟩]⟩,
           ⟨some ⟨[⟨.literal 5, some (.literal 9)⟩]⟩, [.field ⟨"b", .varArray (.int ⟨16, none⟩) none⟩]⟩,
           ⟨none, [.fail]⟩]⟩,
        .leaf (.field ⟨"pair", .fixedArray (.struct "name") (.constRef "N")⟩),
        .leaf (.field ⟨"last", .base (.struct "name")⟩),
        .leaf (.field ⟨"rest", .varArray (.int ⟨8, none⟩) none⟩)]⟩]
    pragmas := [] }

/-- Context values as recorded with the first vector for `msg`. -/
def tvCtx : Ctx := fun c => if c = "c" then [("N", .num 17)] else []

theorem tvFile_gen : Generated exNm exExt idOrder [tvFile] (emitted [tvFile]) tvCtx where
  gen := marshallers_emitted (by decide +kernel)
  ok := by refine FilesOK.of_check ?_ ?_ ?_ <;> decide +kernel
  ctxOK := ctxOK_of_check (by
    intro C hC f hf _
    simp only [tvFile, List.flatMap_cons, List.flatMap_nil, List.append_nil, List.mem_cons, List.not_mem_nil,
      or_false] at hC
    subst hC
    simp only [List.mem_cons, List.not_mem_nil, or_false] at hf
    subst hf
    exact ⟨17, by decide +kernel, by decide, by decide⟩)

theorem tvFile_class : FmtGen (fmtOf exNm exExt [tvFile]) (2 ^ 16) (· ∈ ["name"]) (· ∈ ["name"]) := by
  refine FmtGen.of_check 1 _ _ (by decide) ?_ ?_ ?_ ?_ <;> decide +kernel

theorem exEnv_selects : Selects exEnv := fun _ _ => List.Subperm.refl _

/-- The corpus for files, in the example environment. -/
def corpusOf (fs : List File) : Corpus :=
  match generateFiles exEnv 5 (0 : Nat) fs with
  | .ok c => c
  | _ => []

/-- The vectors for a struct. -/
def vectorsOf (fs : List File) (n : String) : List Tv.Vector :=
  (corpusOf fs).flatMap fun t => if t.type = n then t.vectors else []

theorem corpusOf_eq {fs : List File} {n : String} {v : Tv.Vector} (h : v ∈ vectorsOf fs n) :
    generateFiles exEnv 5 (0 : Nat) fs = .ok (corpusOf fs) ∧ ∃ t ∈ corpusOf fs, t.type = n ∧ v ∈ t.vectors := by
  obtain ⟨t, ht, hv⟩ := List.mem_flatMap.1 h
  refine ⟨?_, t, ht, ?_⟩
  · unfold corpusOf at ht ⊢
    split at ht
    · rename_i c hc; rw [hc]
    · cases ht
  · split at hv
    · exact ⟨by assumption, hv⟩
    · cases hv

/-- The first vector for `msg`. -/
def tvVec : Tv.Vector :=
  ⟨[1, 0, 1, 11, 121, 122, 123, 124, 120, 121, 122, 123, 119, 120, 121, 122, 118, 119, 120, 121, 117, 118, 119, 120,
    116, 117, 118, 119, 115, 116, 117, 118, 114, 115, 116, 117, 113, 114, 115, 116, 112, 113, 114, 115, 111, 112, 113,
    114, 93, 92, 91, 90, 89, 88, 87, 86, 85, 84, 83, 82, 81, 80, 79, 78, 77, 53, 50, 51, 105, 106, 107, 108, 109, 110,
    111, 112, 113, 114, 115, 116, 117, 118, 119, 120, 0, 32, 33, 122, 97, 98, 99, 100, 101, 102, 0, 23, 24, 108, 109,
    110, 111, 112, 113, 114, 115, 116, 117, 118, 119, 0, 9, 8, 7, 6, 5],
   ⟨⟨[("c", ⟨[("n", 17)]⟩)]⟩⟩⟩

theorem tvVec_mem : tvVec ∈ vectorsOf [tvFile] "msg" := by decide +kernel

theorem tvVec_meets : Meets (fmtOf exNm exExt [tvFile]) tvCtx tvVec.cst := by
  intro s k x _ hx
  simp only [tvVec, Cst.lookup, GoMap.get, List.lookup] at hx
  split at hx
  · cases hx
  · rename_i m hm
    split at hm
    · rename_i hs
      cases hm
      simp only [beq_iff_eq] at hs
      simp only [List.lookup] at hx
      split at hx
      · rename_i hk
        simp only [beq_iff_eq] at hk
        cases hx
        subst hs hk
        decide +kernel
      · cases hx
    · cases hm

/-- The generated parser accepts the vector, for every content of the memory behind it. -/
example (hid : Bytes) : ∃ s val, (fmtOf exNm exExt [tvFile]).structs "msg" = some s ∧ s.extern = false ∧
    Accepts (emitted [tvFile]) exExt (2 ^ 32) (exNm "msg") (ctxArgs s tvCtx) tvVec.data hid val [] := by
  obtain ⟨h, t, ht, hn, hv⟩ := corpusOf_eq tvVec_mem
  rw [← hn]
  exact C40_accepted_partial exEnv_selects tvFile_gen (OrdOK.of_check (by decide +kernel)) h tvFile_class ht hv
    tvVec_meets (by decide) (by decide) (by decide) hid

/-- Checking what `FmtCtx` asks of tags. -/
def ctxTagB (Γ : Fmt) : Member → Bool
  | .leaf _ => true
  | .union u => (decide (u.tag.scope = "") || (match Γ.contexts u.tag.scope with
      | none => true
      | some D => D.members.all fun f => decide (f.name ≠ u.tag.name) || (match f.type with
        | .base (.int t) => u.cases.all fun c => match c.case with
          | none => true
          | some l => decide (Below Γ.K l t.size)
        | _ => true)))

/-- A union that takes no length from a context. -/
def ctxLenB : Member → Bool
  | .leaf _ => true
  | .union u => match u.length with
    | some (.idRef r) => decide (r.scope = "")
    | _ => true

/-- Checking what `FmtCtx` asks of a member. -/
def ctxMemberB (Γ : Fmt) (m : Member) : Bool := ctxTagB Γ m && ctxLenB m

theorem ctxTagB_tags {nm : String → String} {ext : Go.Ext} {fs : List File}
    (h2 : ∀ s ∈ fs.flatMap (·.structs), s.extern = false → s.ms.all (ctxTagB (fmtOf nm ext fs)) = true) :
    ∀ n s, (fmtOf nm ext fs).structs n = some s → s.extern = false → ∀ u, .union u ∈ s.ms → u.tag.scope ≠ "" →
    ∀ D, (fmtOf nm ext fs).contexts u.tag.scope = some D → ∀ f ∈ D.members, f.name = u.tag.name → ∀ t, f.type = .base (.int t) →
      ∀ c ∈ u.cases, ∀ l, c.case = some l → Below (fmtOf nm ext fs).K l t.size := by
  intro n s hs he u hu hsc D hD f hf hn t ht c hc l hl
  have := List.all_eq_true.1 (h2 s (fmtOf_struct_mem hs).1 he) _ hu
  simp only [ctxTagB, Bool.or_eq_true, decide_eq_true_eq, hD, List.all_eq_true] at this
  have := ((this.resolve_left hsc) f hf).resolve_left (fun h => h hn)
  rw [ht] at this
  simp only [List.all_eq_true] at this
  have := this c hc
  rw [hl] at this
  exact of_decide_eq_true this

theorem FmtCtx.of_check {nm : String → String} {ext : Go.Ext} {fs : List File}
    (h1 : ∀ D ∈ fs.flatMap (·.contexts), (D.members.map (fun f => nm f.name)).Nodup)
    (h2 : ∀ s ∈ fs.flatMap (·.structs), s.extern = false → s.ms.all (ctxMemberB (fmtOf nm ext fs)) = true) :
    FmtCtx (fmtOf nm ext fs) := by
  refine ⟨fun c D hD => h1 D (lastDecl_mem hD).1, ctxTagB_tags fun s hs he => ?_, .inl ?_⟩
  · have := h2 s hs he
    simp only [List.all_eq_true, ctxMemberB, Bool.and_eq_true] at this ⊢
    exact fun m hm => (this m hm).1
  · intro n s hs he u hu ref hr
    have := List.all_eq_true.1 (h2 s (fmtOf_struct_mem hs).1 he) _ hu
    simp only [ctxMemberB, ctxLenB, Bool.and_eq_true, hr, decide_eq_true_eq] at this
    exact this.2

/-- Each vector of the format above can be used, whatever the random source, the growth of slices, and the
selection. -/
example (E : Tv.Env) (hsel : Selects E) (seed : E.R.σ) {corpus : Corpus} (h : generateFiles E 5 seed [tvFile] = .ok corpus)
    {t : Tv.Suite} (ht : t ∈ corpus) {v : Tv.Vector} (hv : v ∈ t.vectors) (hB : v.data.length < 2 ^ 16) (hid : Bytes) :
    ∃ ctx s val, CtxOK (fmtOf exNm exExt [tvFile]) ctx ∧ Meets (fmtOf exNm exExt [tvFile]) ctx v.cst ∧
      (fmtOf exNm exExt [tvFile]).structs t.type = some s ∧ s.extern = false ∧
      Accepts (emitted [tvFile]) exExt (2 ^ 32) (exNm t.type) (ctxArgs s ctx) v.data hid val [] :=
  C40_usable_partial hsel tvFile_gen.gen tvFile_gen.ok (OrdOK.of_check (by decide +kernel)) h tvFile_class
    (by refine FmtCtx.of_check ?_ ?_ <;> decide +kernel) ht hv hB (by decide) (by decide) hid

/-! ## Formats outside the class

Well-formed formats, with references that only go back, for which the generator of test vectors returns a
vector that the generated parser does not accept. -/

/-- The formats are well-formed and their references go back, the generators of code and of vectors succeed,
and the generated `Parse` does not accept one of the vectors for struct `n`, or leaves input. -/
def BadVector (fs : List File) (n : String) : Prop :=
  Generated exNm exExt idOrder fs (emitted fs) noCtx ∧ OrdOK (fmtOf exNm exExt fs) ∧
  ∃ corpus, generateFiles exEnv 5 (0 : Nat) fs = .ok corpus ∧ ∃ t ∈ corpus, t.type = n ∧ ∃ v ∈ t.vectors,
    Meets (fmtOf exNm exExt fs) noCtx v.cst ∧ ∃ s, (fmtOf exNm exExt fs).structs n = some s ∧ s.extern = false ∧
      ∀ val, ¬ Accepts (emitted fs) exExt (2 ^ 32) (exNm n) (ctxArgs s noCtx) v.data [] val []

/-- Whether the parser, run for `F` steps, rejects the bytes or leaves some. -/
def refusesB (fs : List File) (F : Nat) (n : String) (w : Bytes) : Bool :=
  match decStruct (fmtOf exNm exExt fs) (2 ^ 32) noCtx F n w with
  | .ok (_, r) => !r.isEmpty
  | .err _ => true
  | _ => false

theorem BadVector.of_check {fs : List File} {n : String} (F : Nat) (hx : fs.flatMap (·.contexts) = [])
    (h1 : (marshallers exNm idOrder fs).isOk = true)
    (h2 : ∀ s ∈ fs.flatMap (·.structs), s.extern = false → StructOK (fmtOf exNm exExt fs) s)
    (h3 : (fs.flatMap (fun f => (typeNames f).map exNm)).Nodup)
    (h4 : ∀ s ∈ fs.flatMap (·.structs), s.extern = true → (fmtOf exNm exExt fs).structs s.name = some s →
      exNm s.name ∉ fs.flatMap (fun f => (typeNames f).map exNm))
    (h5 : ∀ s ∈ fs.flatMap (·.structs), s.extern = false → MembersOrd s.ms)
    (h6 : ∃ s, (fmtOf exNm exExt fs).structs n = some s ∧ s.extern = false)
    (h7 : ∃ v ∈ vectorsOf fs n, v.cst.scopes.entries = [] ∧ v.data.length < 1000 ∧ refusesB fs F n v.data = true) :
    BadVector fs n := by
  have G : Generated exNm exExt idOrder fs (emitted fs) noCtx :=
    ⟨marshallers_emitted h1, .of_check h2 h3 h4, ctxOK_of_check (by intro C hC; rw [hx] at hC; cases hC)⟩
  obtain ⟨v, hv, he, hl, hr⟩ := h7
  obtain ⟨hc, t, ht, hn, hv⟩ := corpusOf_eq hv
  obtain ⟨s, hs, hse⟩ := h6
  refine ⟨G, .of_check h5, _, hc, t, ht, hn, v, hv, ?_, s, hs, hse, ?_⟩
  · intro c k x _ hx
    simp [Cst.lookup, GoMap.get, he] at hx
  · intro val hacc
    unfold refusesB at hr
    have hl' : v.data.length < 2 ^ 63 := by omega
    cases hd : decStruct (fmtOf exNm exExt fs) (2 ^ 32) noCtx F n v.data with
    | ok p =>
      obtain ⟨w, r⟩ := p
      obtain ⟨_, rfl⟩ := hacc.unique ((accepts_iff G hs [] hl').2 ⟨F, hd⟩)
      rw [hd] at hr; cases hr
    | err m => exact hacc.not_rejects ((rejects_iff G hs [] hl').2 ⟨F, hd⟩)
    | panic m => rw [hd] at hr; cases hr
    | timeout => rw [hd] at hr; cases hr

/-- A file of structs only. -/
def tvStructs (ss : List Struct) : List File := [⟨[], [], ss, []⟩]

/-- An array of `u8`. -/
def tvBytes (k : LengthConstraint) : Ty := .varArray (.int ⟨8, none⟩) (some k)

/-- `struct p { u8 x; } struct t { u8 tag; union u [tag] { 5: struct p q; default: fail; } }` -/
def badCase : List File := tvStructs
  [⟨"p", [], some [.leaf (uF "x" 8)]⟩,
   ⟨"t", [], some [.leaf (uF "tag" 8), .union ⟨"u", ⟨"", "tag"⟩, none,
     [⟨some ⟨[tvLit 5]⟩, [.field ⟨"q", .base (.struct "p")⟩]⟩, ⟨none, [.fail]⟩]⟩]⟩]

/-- A struct in a union case makes the generator forget the tag value it chose. -/
theorem C40_struct_in_case : BadVector badCase "t" := by
  refine BadVector.of_check 5 rfl ?_ ?_ ?_ ?_ ?_ ?_ ?_ <;> decide +kernel

/-- `struct p { u8 x; } struct t { u8 n; struct p q; u8 a[n]; }` -/
def badBetween : List File := tvStructs
  [⟨"p", [], some [.leaf (uF "x" 8)]⟩,
   ⟨"t", [], some [.leaf (uF "n" 8), .leaf (.field ⟨"q", .base (.struct "p")⟩),
     .leaf (.field ⟨"a", tvBytes (.idRef ⟨"", "n"⟩)⟩)]⟩]

/-- A struct between an array and its length makes the generator forget the length. -/
theorem C40_struct_between : BadVector badBetween "t" := by
  refine BadVector.of_check 5 rfl ?_ ?_ ?_ ?_ ?_ ?_ ?_ <;> decide +kernel

/-- `struct t { u8 tag IN [1]; union u [tag] { 1: u8 a; 2: u8 b; } }` -/
def badTag : List File := tvStructs
  [⟨"t", [], some [.leaf (.field ⟨"tag", .base (.int ⟨8, some ⟨[tvLit 1]⟩⟩)⟩), .union ⟨"u", ⟨"", "tag"⟩, none,
     [⟨some ⟨[tvLit 1]⟩, [uF "a" 8]⟩, ⟨some ⟨[tvLit 2]⟩, [uF "b" 8]⟩]⟩]⟩]

/-- The constraint of the tag is ignored when a tag value is chosen. -/
theorem C40_constrained_tag : BadVector badTag "t" := by
  refine BadVector.of_check 5 rfl ?_ ?_ ?_ ?_ ?_ ?_ ?_ <;> decide +kernel

/-- `struct t { u8 n IN [30]; u8 a[n]; }` -/
def badCount : List File := tvStructs
  [⟨"t", [], some [.leaf (.field ⟨"n", .base (.int ⟨8, some ⟨[tvLit 30]⟩⟩)⟩),
     .leaf (.field ⟨"a", tvBytes (.idRef ⟨"", "n"⟩)⟩)]⟩]

/-- The constraint of a length is ignored when the number of elements is chosen. -/
theorem C40_constrained_length : BadVector badCount "t" := by
  refine BadVector.of_check 5 rfl ?_ ?_ ?_ ?_ ?_ ?_ ?_ <;> decide +kernel

/-- `struct t { u8 tag; u8 n; union u [tag] with length n { 1: u64 a[40]; } }` -/
def badLen : List File := tvStructs
  [⟨"t", [], some [.leaf (uF "tag" 8), .leaf (uF "n" 8), .union ⟨"u", ⟨"", "tag"⟩, some (.idRef ⟨"", "n"⟩),
     [⟨some ⟨[tvLit 1]⟩, [.field ⟨"a", .fixedArray (.int ⟨64, none⟩) (.literal 40)⟩]⟩]⟩]⟩]

/-- The length of a union is written to a field too small for it. -/
theorem C40_long_union : BadVector badLen "t" := by
  refine BadVector.of_check 50 rfl ?_ ?_ ?_ ?_ ?_ ?_ ?_ <;> decide +kernel

/-- `struct t { u8 x IN [300]; }` -/
def badIn : List File := tvStructs [⟨"t", [], some [.leaf (.field ⟨"x", .base (.int ⟨8, some ⟨[tvLit 300]⟩⟩)⟩)]⟩]

/-- A value is drawn that the field cannot hold. -/
theorem C40_wide_value : BadVector badIn "t" := by
  refine BadVector.of_check 5 rfl ?_ ?_ ?_ ?_ ?_ ?_ ?_ <;> decide +kernel

/-- `struct t { u8 tag; union u [tag] { 1: u8 a; 1: u16 b; } }` -/
def badOverlap : List File := tvStructs
  [⟨"t", [], some [.leaf (uF "tag" 8), .union ⟨"u", ⟨"", "tag"⟩, none,
     [⟨some ⟨[tvLit 1]⟩, [uF "a" 8]⟩, ⟨some ⟨[tvLit 1]⟩, [uF "b" 16]⟩]⟩]⟩]

/-- Cases with a common value are accepted, and vectors made for the second. -/
theorem C40_overlap : BadVector badOverlap "t" := by
  refine BadVector.of_check 5 rfl ?_ ?_ ?_ ?_ ?_ ?_ ?_ <;> decide +kernel

/-- `struct t { u8 tag; union u [tag] { 1: u8 a[]; } u8 z; }` -/
def badRest : List File := tvStructs
  [⟨"t", [], some [.leaf (uF "tag" 8), .union ⟨"u", ⟨"", "tag"⟩, none,
     [⟨some ⟨[tvLit 1]⟩, [.field ⟨"a", .varArray (.int ⟨8, none⟩) none⟩]⟩]⟩, .leaf (uF "z" 8)]⟩]

/-- An array to the end of the input is followed by something. -/
theorem C40_rest_not_last : BadVector badRest "t" := by
  refine BadVector.of_check 50 rfl ?_ ?_ ?_ ?_ ?_ ?_ ?_ <;> decide +kernel

/-- `struct e { u8 tag; union u [tag] { 1: u8 a; 2: u16 b; default: fail; } } struct t { struct e x[3]; }` -/
def badShare : List File := tvStructs
  [⟨"e", [], some [.leaf (uF "tag" 8), .union ⟨"u", ⟨"", "tag"⟩, none,
     [⟨some ⟨[tvLit 1]⟩, [uF "a" 8]⟩, ⟨some ⟨[tvLit 2]⟩, [uF "b" 16]⟩, ⟨none, [.fail]⟩]⟩]⟩,
   ⟨"t", [], some [.leaf (.field ⟨"x", .fixedArray (.struct "e") (.literal 3)⟩)]⟩]

/-- Vectors for arrays of structs with several shapes share memory and overwrite each other. -/
theorem C40_shared : BadVector badShare "t" := by
  refine BadVector.of_check 6 rfl ?_ ?_ ?_ ?_ ?_ ?_ ?_ <;> decide +kernel

end Verif.Props
