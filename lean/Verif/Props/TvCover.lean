import Verif.TvCover
import Verif.Props.TvValid
/-!
# C41: every case of a union that does not fail gets a vector
-/
namespace Verif.Props
open Verif Verif.Ast Verif.Gen Verif.Inspect Verif.Tv Verif.Go Verif.Spec Verif.Wire Verif.Refine

/-- **C41.** With a selector that keeps all vectors, in a format of the classes `FmtGen` and `FmtCov` (tags and
lengths of unions are fields or context variables that no later member decides), every case of a union of a struct
that can be selected and does not fail is shown by one of the vectors for the struct: provided it is shorter than
the bound, it encodes a record for which the tag, in the record or in a context, selects the case, whatever the
context values, so long as they are as recorded with the vector. Missing: formats outside the class, for some of
which this is false (see below). -/
theorem C41_covered_partial {E : Tv.Env} (hkeep : Keeps E) {nm : String → String} {ext : Go.Ext} {fs : List File}
    {fuel : Nat} {seed : E.R.σ} {corpus : Corpus} (h : generateFiles E fuel seed fs = .ok corpus)
    (hok : FilesOK nm ext fs) {B : Nat} {C O : String → Prop} (hg : FmtGen (fmtOf nm ext fs) B C O)
    {G : Glob} (hcov : FmtCov (fmtOf nm ext fs) G) {t : Tv.Suite} (ht : t ∈ corpus) : ∃ s,
      (fmtOf nm ext fs).structs t.type = some s ∧ s.extern = false ∧
      ∀ u, .union u ∈ s.ms → ∀ c, Leaf.fail ∉ c.members → (∃ x, selectCase (fmtOf nm ext fs).K u.cases x = some c) →
        ∃ v ∈ t.vectors, v.data.length < B → ∀ ctx, CtxOK (fmtOf nm ext fs) ctx → Meets (fmtOf nm ext fs) ctx v.cst →
          ∃ rec x, Enc (fmtOf nm ext fs) ctx t.type (.obj (nm t.type) rec) v.data [] ∧
            refVal (fmtOf nm ext fs) ctx rec u.tag = some x ∧ selectCase (fmtOf nm ext fs).K u.cases x = some c := by
  obtain ⟨s, h1, h2, h3⟩ := generateFiles_cover hkeep h hok hg hcov (A := 2 ^ 32 - 1) (by omega) t ht
  refine ⟨s, h1, h2, fun u hu c hf hx => ?_⟩
  obtain ⟨v, hv, hq⟩ := h3 u hu c ⟨hf, hx⟩
  refine ⟨v, hv, fun hB ctx hctx hm => ?_⟩
  obtain ⟨rec, x, _, e⟩ := hq hB ctx hctx hm
  exact ⟨rec, x, e⟩

/-- **C41.** The same seen through the generated parser: in a format whose references only go back and whose
context variables can hold what is recorded (`FmtCtx`), there are context values as recorded with that vector, and
with them the generated `Parse` accepts it and returns a record for which the tag selects the case. -/
theorem C41_parsed_partial {E : Tv.Env} (hkeep : Keeps E) {nm : String → String} {ext : Go.Ext} {ord : IterOrder}
    {fs : List File} {p : Prog} (hp : marshallers nm ord fs = .ok p) (hok : FilesOK nm ext fs)
    (hord : OrdOK (fmtOf nm ext fs)) {fuel : Nat} {seed : E.R.σ} {corpus : Corpus}
    (h : generateFiles E fuel seed fs = .ok corpus) {B : Nat} {C O : String → Prop}
    (hg : FmtGen (fmtOf nm ext fs) B C O) {G : Glob} (hcov : FmtCov (fmtOf nm ext fs) G) (hx : FmtCtx (fmtOf nm ext fs))
    {t : Tv.Suite} (ht : t ∈ corpus) {A : Nat} (hA : 2 ^ 32 ≤ A + 1) (hA' : A < 2 ^ 63) (hid : Bytes) : ∃ s,
      (fmtOf nm ext fs).structs t.type = some s ∧ s.extern = false ∧
      ∀ u, .union u ∈ s.ms → ∀ c, Leaf.fail ∉ c.members → (∃ x, selectCase (fmtOf nm ext fs).K u.cases x = some c) →
        ∃ v ∈ t.vectors, v.data.length < B → ∃ ctx rec x, CtxOK (fmtOf nm ext fs) ctx ∧
          Meets (fmtOf nm ext fs) ctx v.cst ∧
          Accepts p ext A (nm t.type) (ctxArgs s ctx) v.data hid (.obj (nm t.type) rec) [] ∧
          refVal (fmtOf nm ext fs) ctx rec u.tag = some x ∧ selectCase (fmtOf nm ext fs).K u.cases x = some c := by
  obtain ⟨s, h1, h2, h3⟩ := generateFiles_cover hkeep h hok hg hcov hA t ht
  refine ⟨s, h1, h2, fun u hu c hf hsel => ?_⟩
  obtain ⟨v, hv, hq⟩ := h3 u hu c ⟨hf, hsel⟩
  refine ⟨v, hv, fun hB => ?_⟩
  obtain ⟨ctx, hctx, hm⟩ := generateFiles_ctx hkeep.selects h hok hg hx t ht v hv
  obtain ⟨rec, x, e1, e2, e3⟩ := hq hB ctx hctx hm
  have := hg.bound
  exact ⟨ctx, rec, x, hctx, hm, parse_complete ⟨hp, hok, hctx⟩ hord hA' h1 hid (by omega) e1 e2, e3⟩

/-! ## A format in the class -/

/-- Values that might select a case. -/
def tagValues (K : String → Option Int) (u : UnionMember) : List Int :=
  0 :: u.cases.flatMap fun c => match c.case with
    | none => []
    | some l => l.ranges.flatMap fun r => match bounds K r with
      | none => []
      | some p => [p.1, p.2, p.2 + 1]

instance (G : Glob) : DecidablePred (LeafPlain G) := fun l => by
  unfold LeafPlain; split <;> infer_instance

/-- Checking `LeavesCov`. -/
def leavesCovB (G : Glob) (L : List Key) : List Leaf → Bool
  | [] => true
  | l :: ls => decide (LeafPlain G l) && decide (Disj (leafTags G l) (L ++ ls.flatMap (leafKeys G))) && leavesCovB G L ls

theorem leavesCov_of_check {G : Glob} {L : List Key} : ∀ {ls : List Leaf}, leavesCovB G L ls = true → LeavesCov G L ls
  | [], _ => trivial
  | l :: ls, h => by
    simp only [leavesCovB, Bool.and_eq_true, decide_eq_true_eq] at h
    exact ⟨h.1.1, h.1.2, leavesCov_of_check h.2⟩

/-- Checking `UnionCov`. -/
def unionCovB (G : Glob) (K : String → Option Int) (u : UnionMember) (L : List Key) : Bool :=
  decide (refKey u.tag ∉ L) &&
  (match u.length with
    | some (.idRef ref) => decide (refKey ref ∉ L ∧ refKey ref ≠ refKey u.tag ∧ refKey ref ∉ casesKeys G u)
    | _ => true) &&
  u.cases.all (fun c => leavesCovB G (refKey u.tag :: L) c.members) &&
  (tagValues K u).any fun x => match selectCase K u.cases x with
    | some c => decide (Leaf.fail ∉ c.members)
    | none => false

theorem unionCov_of_check {G : Glob} {K : String → Option Int} {u : UnionMember} {L : List Key}
    (h : unionCovB G K u L = true) : UnionCov G K u L := by
  simp only [unionCovB, Bool.and_eq_true, decide_eq_true_eq, List.any_eq_true, List.all_eq_true] at h
  obtain ⟨⟨⟨h2, h3⟩, h5⟩, x, _, h4⟩ := h
  refine ⟨h2, fun ref hr => ?_, fun c hc => leavesCov_of_check (h5 c hc), ?_⟩
  · rw [hr] at h3; exact of_decide_eq_true h3
  · cases hs : selectCase K u.cases x with
    | none => rw [hs] at h4; cases h4
    | some c => rw [hs] at h4; exact ⟨c, of_decide_eq_true h4, x, hs⟩

/-- Checking `MembersCov`. -/
def membersCovB (G : Glob) (K : String → Option Int) (L : List Key) : List Member → Bool
  | [] => true
  | .leaf l :: ms => decide (l ≠ .fail) && decide (LeafPlain G l) && decide (Disj (leafTags G l) (L ++ keysOf G ms)) &&
      membersCovB G K L ms
  | .union u :: ms => unionCovB G K u (L ++ keysOf G ms) && membersCovB G K L ms

theorem membersCov_of_check {G : Glob} {K : String → Option Int} {L : List Key} : ∀ {ms : List Member},
    membersCovB G K L ms = true → MembersCov G K L ms
  | [], _ => trivial
  | .leaf l :: ms, h => by
    simp only [membersCovB, Bool.and_eq_true, decide_eq_true_eq] at h
    exact ⟨⟨h.1.1.1, h.1.1.2, h.1.2⟩, membersCov_of_check h.2⟩
  | .union u :: ms, h => by
    simp only [membersCovB, Bool.and_eq_true] at h
    exact ⟨unionCov_of_check h.1, membersCov_of_check h.2⟩

/-- Context variables that structs use, and that decide their unions, up to a depth of nesting. -/
def globOf (Γ : Fmt) : Nat → Glob
  | 0 => ⟨fun _ => [], fun _ => []⟩
  | k + 1 => ⟨fun n => match Γ.structs n with | some s => globs (keysOf (globOf Γ k) s.ms) | none => [],
      fun n => match Γ.structs n with | some s => globs (tagsOf (globOf Γ k) s.ms) | none => []⟩

theorem FmtCov.of_check {nm : String → String} {ext : Go.Ext} {fs : List File} (k : Nat)
    (h : ∀ s ∈ fs.flatMap (·.structs), s.extern = false →
      globs (keysOf (globOf (fmtOf nm ext fs) k) s.ms) ⊆ (globOf (fmtOf nm ext fs) k).uses s.name ∧
      globs (tagsOf (globOf (fmtOf nm ext fs) k) s.ms) ⊆ (globOf (fmtOf nm ext fs) k).tags s.name ∧
      membersCovB (globOf (fmtOf nm ext fs) k) (fmtOf nm ext fs).K [] s.ms = true) :
    FmtCov (fmtOf nm ext fs) (globOf (fmtOf nm ext fs) k) := by
  constructor <;> intro n s hs he <;> obtain ⟨hm, hn⟩ := fmtOf_struct_mem hs <;> have := h s hm he
  · rw [← hn]; exact this.1
  · rw [← hn]; exact this.2.1
  · exact membersCov_of_check this.2.2

theorem exEnv_keeps : Keeps exEnv := fun _ _ => List.Perm.refl _

theorem tvFile_cov : FmtCov (fmtOf exNm exExt [tvFile]) (globOf (fmtOf exNm exExt [tvFile]) 3) := by
  refine FmtCov.of_check 3 ?_; decide +kernel

/-- A tag that is a field. -/
theorem refVal_local {Γ : Fmt} {ctx : Ctx} {rec : Fields} {ref : IDRef} {x : Int} (hs : ref.scope = "")
    (h : refVal Γ ctx rec ref = some x) : getF rec (Γ.nm ref.name) = some (.num x) := by
  unfold refVal at h
  rw [if_pos hs] at h
  split at h
  · cases h; assumption
  · cases h

theorem case_of_select {K : String → Option Int} {cs : List UnionCase} {x : Int} {c : UnionCase}
    (h : selectCase K cs x = some c) (hc : c.case.isSome = true) : caseHas K x c = true := by
  unfold selectCase at h
  cases h1 : cs.find? (caseHas K x) with
  | some c' => rw [h1] at h; cases h; exact List.find?_some h1
  | none =>
    rw [h1] at h
    have := List.find?_some (show cs.reverse.find? (fun c => c.case.isNone) = some c from h)
    cases hcc : c.case <;> simp_all

/-- The generator succeeds on the format, and vectors are short, so that what follows is not empty. -/
example : ∃ corpus, generateFiles exEnv 5 (0 : Nat) [tvFile] = .ok corpus ∧ ∃ t ∈ corpus, t.type = "msg" ∧
    ∀ v ∈ t.vectors, v.data.length < 2 ^ 16 := by
  obtain ⟨h, t, ht, hn, _⟩ := corpusOf_eq tvVec_mem
  refine ⟨_, h, t, ht, hn, ?_⟩
  have : ∀ t ∈ corpusOf [tvFile], ∀ v ∈ t.vectors, v.data.length < 2 ^ 16 := by decide +kernel
  exact this t ht

/-- Both cases of `msg` have vectors, for every random source and growth of slices: one that is parsed to a
record with tag 1, and one parsed to a record with tag from 5 to 9. -/
example (E : Tv.Env) (hkeep : Keeps E) (seed : E.R.σ) {corpus : Corpus} (h : generateFiles E 5 seed [tvFile] = .ok corpus)
    {t : Tv.Suite} (ht : t ∈ corpus) (hn : t.type = "msg") (hB : ∀ v ∈ t.vectors, v.data.length < 2 ^ 16) (hid : Bytes) :
    ∃ s, (fmtOf exNm exExt [tvFile]).structs "msg" = some s ∧ ∀ lo hi, (lo = 1 ∧ hi = 1) ∨ (lo = 5 ∧ hi = 9) →
      ∃ v ∈ t.vectors, ∃ ctx rec x, Accepts (emitted [tvFile]) exExt (2 ^ 32) (exNm "msg") (ctxArgs s ctx) v.data hid
        (.obj (exNm "msg") rec) [] ∧ getF rec (exNm "tag") = some (.num x) ∧ lo ≤ x ∧ x ≤ hi := by
  obtain ⟨s, h1, _, h3⟩ := C41_parsed_partial hkeep tvFile_gen.gen tvFile_gen.ok (OrdOK.of_check (by decide +kernel)) h
    tvFile_class tvFile_cov (by refine FmtCtx.of_check ?_ ?_ <;> decide +kernel) ht (A := 2 ^ 32) (by decide) (by decide) hid
  rw [hn] at h1 h3
  refine ⟨s, h1, fun lo hi hlh => ?_⟩
  have e : (fmtOf exNm exExt [tvFile]).structs "msg" = some (tvFile.structs[1]'(by decide)) := by decide +kernel
  rw [e] at h1
  cases h1
  let u : UnionMember := ⟨"u", ⟨"", "tag"⟩, some (.idRef ⟨"", "ulen"⟩),
    [⟨some ⟨[tvLit 1]⟩, [.field ⟨"a", tvU 8⟩]⟩,
     ⟨some ⟨[⟨.literal 5, some (.literal 9)⟩]⟩, [.field ⟨"b", .varArray (.int ⟨16, none⟩) none⟩]⟩,
     ⟨none, [.fail]⟩]⟩
  have hu : .union u ∈ (tvFile.structs[1]'(by decide)).ms := by decide +kernel
  rcases hlh with ⟨rfl, rfl⟩ | ⟨rfl, rfl⟩
  · obtain ⟨v, hv, hq⟩ := h3 u hu ⟨some ⟨[tvLit 1]⟩, [.field ⟨"a", tvU 8⟩]⟩ (by decide) ⟨1, by decide +kernel⟩
    obtain ⟨ctx, rec, x, _, _, q1, q2, q3⟩ := hq (hB v hv)
    have q4 : getF rec (exNm u.tag.name) = some (.num x) := refVal_local rfl q2
    refine ⟨v, hv, ctx, rec, x, q1, q4, ?_⟩
    have := case_of_select q3 rfl
    simpa [caseHas, listHas, rangeHas, bounds, ival, tvLit] using this
  · obtain ⟨v, hv, hq⟩ := h3 u hu ⟨some ⟨[⟨.literal 5, some (.literal 9)⟩]⟩, [.field ⟨"b", .varArray (.int ⟨16, none⟩) none⟩]⟩
      (by decide) ⟨5, by decide +kernel⟩
    obtain ⟨ctx, rec, x, _, _, q1, q2, q3⟩ := hq (hB v hv)
    have q4 : getF rec (exNm u.tag.name) = some (.num x) := refVal_local rfl q2
    refine ⟨v, hv, ctx, rec, x, q1, q4, ?_⟩
    have := case_of_select q3 rfl
    simpa [caseHas, listHas, rangeHas, bounds, ival] using this

/-! ## A tag in a context -/

/-- `context c { u8 kind; u8 n; };
struct in { u8 z[c.n]; union u [c.kind] { 1: u8 a; 2..3: u16 b; default: fail; }; };
struct out { struct in x; u8 len; u8 y[len]; };`, both `with context c`. -/
def kindFile : List File :=
  [{ constants := []
     pragmas := []
     contexts := [⟨"c", [⟨"kind", tvU 8⟩, ⟨"n", tvU 8⟩]⟩]
     structs := [
      ⟨"in", ["c"], some [.leaf (.field ⟨"z", tvBytes (.idRef ⟨"c", "n"⟩)⟩), .union ⟨"u", ⟨"c", "kind"⟩, none,
        [⟨some ⟨[tvLit 1]⟩, [uF "a" 8]⟩, ⟨some ⟨[⟨.literal 2, some (.literal 3)⟩]⟩, [uF "b" 16]⟩, ⟨none, [.fail]⟩]⟩]⟩,
      ⟨"out", ["c"], some [.leaf (.field ⟨"x", .base (.struct "in")⟩), .leaf (uF "len" 8),
        .leaf (.field ⟨"y", tvBytes (.idRef ⟨"", "len"⟩)⟩)]⟩] }]

theorem kind_ok : FilesOK exNm exExt kindFile := by refine FilesOK.of_check ?_ ?_ ?_ <;> decide +kernel

theorem kind_class : FmtGen (fmtOf exNm exExt kindFile) (2 ^ 63) (fun n => n ∈ ["in"]) (fun n => n ∈ []) :=
  FmtGen.of_check 2 ["in"] [] (by decide) (by decide +kernel) (by decide +kernel) (by decide +kernel) (by decide +kernel)

theorem kind_cov : FmtCov (fmtOf exNm exExt kindFile) (globOf (fmtOf exNm exExt kindFile) 3) := by
  refine FmtCov.of_check 3 ?_; decide +kernel

theorem kind_ctx : FmtCtx (fmtOf exNm exExt kindFile) := by
  refine FmtCtx.of_check ?_ ?_ <;> decide +kernel

/-- Both cases have vectors: one parsed in a context whose `kind` is 1, and one in a context whose `kind` is 2 or 3. -/
example (E : Tv.Env) (hkeep : Keeps E) (fuel : Nat) (seed : E.R.σ) {corpus : Corpus}
    (h : generateFiles E fuel seed kindFile = .ok corpus) {t : Tv.Suite} (ht : t ∈ corpus) (hn : t.type = "in")
    (hB : ∀ v ∈ t.vectors, v.data.length < 2 ^ 63) (hid : Bytes) :
    ∀ lo hi, (lo = 1 ∧ hi = 1) ∨ (lo = 2 ∧ hi = 3) → ∃ v ∈ t.vectors, ∃ ctx rec x,
      Accepts (emitted kindFile) exExt (2 ^ 32) (exNm "in") (ctxArgs (structOf kindFile "in") ctx) v.data hid
        (.obj (exNm "in") rec) [] ∧ getF (ctx "c") (exNm "kind") = some (.num x) ∧ lo ≤ x ∧ x ≤ hi := by
  obtain ⟨s, h1, _, h3⟩ := C41_parsed_partial hkeep (marshallers_emitted (by decide +kernel)) kind_ok
    (OrdOK.of_check (by decide +kernel)) h kind_class kind_cov kind_ctx ht (A := 2 ^ 32) (by decide) (by decide) hid
  have hs : (fmtOf exNm exExt kindFile).structs "in" = some (structOf kindFile "in") := by decide +kernel
  rw [hn] at h1 h3
  rw [hs] at h1
  cases h1
  let u : UnionMember := ⟨"u", ⟨"c", "kind"⟩, none,
    [⟨some ⟨[tvLit 1]⟩, [uF "a" 8]⟩, ⟨some ⟨[⟨.literal 2, some (.literal 3)⟩]⟩, [uF "b" 16]⟩, ⟨none, [.fail]⟩]⟩
  have hu : .union u ∈ (structOf kindFile "in").ms := by decide +kernel
  have hval : ∀ {ctx rec x}, refVal (fmtOf exNm exExt kindFile) ctx rec u.tag = some x →
      getF (ctx "c") (exNm "kind") = some (.num x) := by
    intro ctx rec x hx
    unfold refVal at hx
    rw [if_neg (show u.tag.scope ≠ "" by decide)] at hx
    have e : (fmtOf exNm exExt kindFile).nm u.tag.name = exNm u.tag.name := rfl
    rw [e] at hx
    split at hx
    · cases hx; assumption
    · cases hx
  rintro lo hi (⟨rfl, rfl⟩ | ⟨rfl, rfl⟩)
  · obtain ⟨v, hv, hq⟩ := h3 u hu ⟨some ⟨[tvLit 1]⟩, [uF "a" 8]⟩ (by decide) ⟨1, by decide +kernel⟩
    obtain ⟨ctx, rec, x, _, _, q1, q2, q3⟩ := hq (hB v hv)
    refine ⟨v, hv, ctx, rec, x, q1, hval q2, ?_⟩
    have := case_of_select q3 rfl
    simpa [caseHas, listHas, rangeHas, bounds, ival, tvLit] using this
  · obtain ⟨v, hv, hq⟩ := h3 u hu ⟨some ⟨[⟨.literal 2, some (.literal 3)⟩]⟩, [uF "b" 16]⟩ (by decide) ⟨2, by decide +kernel⟩
    obtain ⟨ctx, rec, x, _, _, q1, q2, q3⟩ := hq (hB v hv)
    refine ⟨v, hv, ctx, rec, x, q1, hval q2, ?_⟩
    have := case_of_select q3 rfl
    simpa [caseHas, listHas, rangeHas, bounds, ival, tvLit] using this

/-- The generator returns such a corpus: two vectors for each struct. -/
example : generateFiles exEnv 5 (0 : Nat) kindFile = .ok (corpusOf kindFile) ∧
    (corpusOf kindFile).map (fun t => (t.type, t.vectors.length)) = [("in", 2), ("out", 2)] ∧
    ∀ t ∈ corpusOf kindFile, ∀ v ∈ t.vectors, v.data.length < 2 ^ 63 := by
  obtain ⟨v, hv⟩ : ∃ v, v ∈ vectorsOf kindFile "in" := List.exists_mem_of_ne_nil _ (by decide +kernel)
  exact ⟨(corpusOf_eq hv).1, by decide +kernel, by decide +kernel⟩

/-! ## A format outside the class -/

/-- `struct t { u8 tag; union u [tag] { 100: u8 a; 200: u8 b; } u8 x[tag]; }` -/
def badCover : List File := tvStructs
  [⟨"t", [], some [.leaf (uF "tag" 8), .union ⟨"u", ⟨"", "tag"⟩, none,
     [⟨some ⟨[tvLit 100]⟩, [uF "a" 8]⟩, ⟨some ⟨[tvLit 200]⟩, [uF "b" 8]⟩]⟩,
     .leaf (.field ⟨"x", tvBytes (.idRef ⟨"", "tag"⟩)⟩)]⟩]

/-- If the tag is also the length of a later array, the generator settles on a number of elements first, from 1 to
20, and no case of the union gets a vector: there are none. -/
theorem C41_tag_as_length : Keeps exEnv ∧ Generated exNm exExt idOrder badCover (emitted badCover) noCtx ∧
    OrdOK (fmtOf exNm exExt badCover) ∧
    FmtGen (fmtOf exNm exExt badCover) (2 ^ 63) (fun _ => False) (fun _ => False) ∧
    generateFiles exEnv 5 (0 : Nat) badCover = .ok [⟨"t", []⟩] := by
  refine ⟨exEnv_keeps, ⟨marshallers_emitted (by decide +kernel), ?_, ?_⟩, .of_check (by decide +kernel), ?_, by decide +kernel⟩
  · refine FilesOK.of_check ?_ ?_ ?_ <;> decide +kernel
  · exact ctxOK_of_check (by intro C hC; cases hC)
  · have := FmtGen.of_check (nm := exNm) (ext := exExt) (fs := badCover) (B := 2 ^ 63) 1 [] [] (by decide) (by decide +kernel)
      (by decide +kernel) (by decide +kernel) (by decide +kernel)
    simpa using this

/-- `struct t { u8 tag; union u [tag] { 1: u8 a; default: ; } union w [tag] { 0..9: u8 b; default: fail; } }` -/
def sharedTag : List File := tvStructs
  [⟨"t", [], some [.leaf (uF "tag" 8), .union ⟨"u", ⟨"", "tag"⟩, none,
     [⟨some ⟨[tvLit 1]⟩, [uF "a" 8]⟩, ⟨none, []⟩]⟩,
     .union ⟨"w", ⟨"", "tag"⟩, none,
     [⟨some ⟨[⟨.literal 0, some (.literal 9)⟩]⟩, [uF "b" 8]⟩, ⟨none, [.fail]⟩]⟩]⟩]

/-- Whether the parser, run for `F` steps, accepts the bytes and leaves none. -/
def takesB (fs : List File) (F : Nat) (n : String) (w : Bytes) : Bool :=
  match decStruct (fmtOf exNm exExt fs) (2 ^ 32) noCtx F n w with
  | .ok (_, r) => r.isEmpty
  | _ => false

theorem takesB_ok {fs : List File} {F : Nat} {n : String} {w : Bytes} (h : takesB fs F n w = true) :
    ∃ v, decStruct (fmtOf exNm exExt fs) (2 ^ 32) noCtx F n w = .ok (v, []) := by
  unfold takesB at h
  split at h
  · rename_i v r e
    cases List.isEmpty_iff.1 h
    exact ⟨v, e⟩
  · cases h

/-- If two unions have the same tag, the last one settles it, by one draw for each of its cases: here no vector shows
the case of `u` for tag 1, although there are encodings with this tag. -/
theorem C41_shared_tag : Keeps exEnv ∧ Generated exNm exExt idOrder sharedTag (emitted sharedTag) noCtx ∧
    OrdOK (fmtOf exNm exExt sharedTag) ∧
    FmtGen (fmtOf exNm exExt sharedTag) (2 ^ 63) (fun _ => False) (fun _ => False) ∧
    (∃ val, Accepts (emitted sharedTag) exExt (2 ^ 32) (exNm "t") (ctxArgs (structOf sharedTag "t") noCtx)
      [1, 7, 8] [] val []) ∧
    generateFiles exEnv 5 (0 : Nat) sharedTag = .ok (corpusOf sharedTag) ∧
    (corpusOf sharedTag).map (fun t => (t.type, t.vectors.map fun v => v.data)) = [("t", [[0, 2]])] := by
  have G : Generated exNm exExt idOrder sharedTag (emitted sharedTag) noCtx := by
    refine ⟨marshallers_emitted (by decide +kernel), ?_, ctxOK_of_check (by intro C hC; cases hC)⟩
    refine FilesOK.of_check ?_ ?_ ?_ <;> decide +kernel
  refine ⟨exEnv_keeps, G, .of_check (by decide +kernel), ?_, ?_, ?_, by decide +kernel⟩
  · have := FmtGen.of_check (nm := exNm) (ext := exExt) (fs := sharedTag) (B := 2 ^ 63) 1 [] [] (by decide) (by decide +kernel)
      (by decide +kernel) (by decide +kernel) (by decide +kernel)
    simpa using this
  · have hs : (fmtOf exNm exExt sharedTag).structs "t" = some (structOf sharedTag "t") := by decide +kernel
    have h : takesB sharedTag 3 "t" [1, 7, 8] = true := by decide +kernel
    obtain ⟨v, e⟩ := takesB_ok h
    exact ⟨v, (accepts_iff G hs [] (by simp)).2 ⟨3, e⟩⟩
  · obtain ⟨v, hv⟩ : ∃ v, v ∈ vectorsOf sharedTag "t" := List.exists_mem_of_ne_nil _ (by decide +kernel)
    exact (corpusOf_eq hv).1

end Verif.Props
