import Verif.TestRun
import Verif.TvCover
import Verif.Props.TvValid
/-!
# C57: the generated tests pass; C58: one suite for each struct
-/
namespace Verif.Props
open Verif Verif.Ast Verif.Gen Verif.Inspect Verif.Tv Verif.Go Verif.Spec Verif.Wire Verif.Refine Verif.Effects

/-! ## C58 -/

theorem suites_types {E : Tv.Env} {r : Resolver} {fuel : Nat} : ∀ {ss : List Struct} {st st' : St E} {out : List SuiteRef},
    suites r fuel ss st = .ok (out, st') → out.map (·.type) = (ss.filter (fun s => !s.extern)).map (·.name)
  | [], st, st', out, h => by cases h; rfl
  | s :: ss, st, st', out, h => by
    simp only [suites] at h
    cases he : s.extern with
    | true =>
      rw [he] at h
      simp only [if_true] at h
      simpa [he] using suites_types h
    | false =>
      rw [he] at h
      simp only [Bool.false_eq_true, if_false] at h
      obtain ⟨c, st1, h1, h⟩ := bind_ok h
      obtain ⟨_, st2, h2, h⟩ := bind_ok h
      obtain ⟨vs, st3, h3, h⟩ := bind_ok h
      obtain ⟨rest, st4, h4, h⟩ := bind_ok h
      cases h
      simpa [he] using suites_types h4

/-- **C58.** A corpus has one suite for each struct that is not extern, in the order of the files and of the
declarations in them. -/
theorem C58_suites {E : Tv.Env} {fuel : Nat} {seed : E.R.σ} {fs : List File} {corpus : Corpus}
    (h : generateFiles E fuel seed fs = .ok corpus) :
    corpus.map (·.type) = ((fs.flatMap (·.structs)).filter (fun s => !s.extern)).map (·.name) := by
  unfold generateFiles at h
  split at h
  · cases h
  · cases h
  · split at h
    · rename_i ss st hs
      cases h
      rw [← suites_types hs, List.map_map]; rfl
    all_goals cases h

example : (corpusOf [tvFile]).map (·.type) = ["name", "msg"] := by decide +kernel

/-! ## C57 -/

theorem callParse_eq (M : Mach) (fuel : Nat) (T : String) (d : Wire.Bytes) :
    callParse M fuel ("Parse" ++ T) d = runCtor M fuel T (.bytes d []) [] := by
  have hp : (fun c : Ctor => decide ("Parse" ++ c.type = "Parse" ++ T)) = (fun c => decide (c.type = T)) := by
    funext c
    have : "Parse" ++ c.type = "Parse" ++ T ↔ c.type = T := by
      constructor
      · intro h
        have := congrArg String.toList h
        rw [String.toList_append, String.toList_append] at this
        exact String.toList_injective (List.append_cancel_left this)
      · rintro rfl; rfl
    exact decide_eq_decide.2 this
  unfold callParse
  rw [hp]
  cases hf : M.prog.ctors.find? (fun c => decide (c.type = T)) with
  | none => unfold runCtor; rw [hf]
  | some c =>
    have := List.find?_some hf
    simp only [decide_eq_true_eq] at this
    subst this; rfl

/-- A test function that runs to its end passes. -/
def Passes (p : Prog) (ext : Go.Ext) (A : Nat) (t : TestFn) : Prop :=
  ∃ F, ∀ fuel, F ≤ fuel → runTest ⟨p, ext, A⟩ fuel t = .pass

theorem runCases_pass {M : Mach} {fn : String} : ∀ {ds : List Wire.Bytes},
    (∀ d ∈ ds, ∃ k o, callParse M k fn d = .done .nil o none) → (∀ d k k', k ≤ k' →
      callParse M k fn d = .timeout ∨ callParse M k fn d = callParse M k' fn d) →
    ∃ F, ∀ fuel, F ≤ fuel → runCases M fuel fn ds = .pass
  | [], _, _ => ⟨0, fun _ _ => rfl⟩
  | d :: ds, h, hm => by
    obtain ⟨F, hF⟩ := runCases_pass (ds := ds) (fun d hd => h d (List.mem_cons_of_mem _ hd)) hm
    obtain ⟨k, o, hk⟩ := h d (List.mem_cons_self ..)
    refine ⟨max F k, fun fuel hf => ?_⟩
    have : callParse M fuel fn d = .done .nil o none := by
      rcases hm d k fuel (by omega) with h | h
      · rw [hk] at h; cases h
      · rw [← h, hk]
    simp only [runCases, this]
    exact hF fuel (by omega)

theorem unconstrained_entries : ∀ {vs : List Tv.Vector}, Effects.constrained vs = false → ∀ v ∈ vs, v.cst.scopes.entries = []
  | v :: vs, h, w, hw => by
    simp only [Effects.constrained] at h
    split at h
    · cases h
    · rename_i hl
      rcases List.mem_cons.1 hw with rfl | hw
      · exact List.length_eq_zero_iff.1 (by omega)
      · exact unconstrained_entries h w hw

theorem meets_of_empty {Γ : Fmt} {ctx : Ctx} {c : Cst} (h : c.scopes.entries = []) : Meets Γ ctx c := by
  intro s k x _ hx
  rw [Cst.lookup, GoMap.get, h] at hx
  cases hx

/-- **C57.** In a format of the class `FmtGen` whose references only go back, if no test is emitted for a struct
that takes context values, then every test emitted whose cases are shorter than the bound passes, run with the
generated parsers. Missing: formats outside the class, and structs that take context values and for whose
vectors none were recorded: there the test does not compile (see below). -/
theorem C57_tests_pass_partial {E : Tv.Env} (hsel : Selects E) {nm : String → String} {ext : Go.Ext}
    {ord : IterOrder} {fs : List File} {p : Prog} (hp : marshallers nm ord fs = .ok p) (hok : FilesOK nm ext fs)
    (hord : OrdOK (fmtOf nm ext fs)) {fuel : Nat} {seed : E.R.σ} {corpus : Corpus}
    (h : generateFiles E fuel seed fs = .ok corpus) {B : Nat} {C O : String → Prop}
    (hg : FmtGen (fmtOf nm ext fs) B C O) {A : Nat} (hA : 2 ^ 32 ≤ A + 1) (hA' : A < 2 ^ 63)
    (hctx : ∀ t ∈ corpus, t.vectors ≠ [] → Effects.constrained t.vectors = false → ∀ s, (fmtOf nm ext fs).structs t.type = some s → s.contexts = []) :
    ∀ f ∈ corpusTests nm corpus, (∀ d ∈ f.cases, d.length < B) → Passes p ext A f := by
  intro f hf hB
  obtain ⟨t, ht, hc, rfl⟩ : ∃ t ∈ corpus, Effects.constrained t.vectors = false ∧
      f = ⟨"Test" ++ nm t.type ++ "Corpus", t.vectors.map (·.data), "Parse" ++ nm t.type⟩ := by
    clear h hctx
    induction corpus with
    | nil => cases hf
    | cons t c ih =>
      simp only [corpusTests] at hf
      split at hf
      · obtain ⟨t', h1, h2⟩ := ih hf
        exact ⟨t', List.mem_cons_of_mem _ h1, h2⟩
      · rename_i hn
        rcases List.mem_cons.1 hf with rfl | hf
        · exact ⟨t, List.mem_cons_self .., by simpa using hn, rfl⟩
        · obtain ⟨t', h1, h2⟩ := ih hf
          exact ⟨t', List.mem_cons_of_mem _ h1, h2⟩
  obtain ⟨ctx, hx⟩ := ctxOK_zero (fmtOf nm ext fs)
  have G : Generated nm ext ord fs p ctx := ⟨hp, hok, hx⟩
  refine runCases_pass ?_ ?_
  · intro d hd
    obtain ⟨v, hv, rfl⟩ := List.mem_map.1 hd
    obtain ⟨s, val, h1, he, h2⟩ := C40_accepted_partial hsel G hord h hg ht hv
      (meets_of_empty (unconstrained_entries hc v hv)) (hB _ hd) hA hA' []
    obtain ⟨hid', hno, k, hk⟩ := h2
    refine ⟨k, val, ?_⟩
    rw [callParse_eq]
    have := ctor_wraps (A := A) G h1 he v.data [] k
    rw [hk] at this
    rw [show ctxArgs s ctx = [] by simp [ctxArgs, hctx t ht (List.ne_nil_of_mem hv) hc s h1]] at this
    exact this
  · intro d k k' hk
    rw [callParse_eq, callParse_eq]
    exact runCtor_mono hk _ _ _

/-- The structs of the example format: the one without contexts is tested, and the test passes; the other one is
not tested. -/
example : corpusTests exNm (corpusOf [tvFile]) ≠ [] ∧
    ∀ f ∈ corpusTests exNm (corpusOf [tvFile]), Passes (emitted [tvFile]) exExt (2 ^ 32) f := by
  refine ⟨by decide +kernel, ?_⟩
  obtain ⟨h, _⟩ := corpusOf_eq tvVec_mem
  have h1 : ∀ t ∈ corpusOf [tvFile], Effects.constrained t.vectors = false →
      (match (fmtOf exNm exExt [tvFile]).structs t.type with | some s => s.contexts | none => []) = [] := by decide +kernel
  have h2 : ∀ f ∈ corpusTests exNm (corpusOf [tvFile]), ∀ d ∈ f.cases, d.length < 2 ^ 16 := by decide +kernel
  intro f hf
  refine C57_tests_pass_partial exEnv_selects tvFile_gen.gen tvFile_gen.ok (OrdOK.of_check (by decide +kernel)) h tvFile_class
    (by decide) (by decide) ?_ f hf (h2 f hf)
  intro t ht _ hc s hs
  have := h1 t ht hc
  rw [hs] at this
  exact this

/-- `context c { u8 n; }  struct t with context c { u8 a; }`: a context that is not used. -/
def badUnused : List File := [{
  constants := [], contexts := [⟨"c", [⟨"n", tvU 8⟩]⟩], pragmas := []
  structs := [⟨"t", ["c"], some [.leaf (uF "a" 8)]⟩] }]

/-- If a struct takes context values but does not use them, no values are recorded with its vectors, a test is
emitted, and it calls `Parse` with too few arguments: the Go compiler rejects it. -/
theorem C57_missing_argument : (∃ ctx, Generated exNm exExt idOrder badUnused (emitted badUnused) ctx) ∧
    OrdOK (fmtOf exNm exExt badUnused) ∧ generateFiles exEnv 5 (0 : Nat) badUnused = .ok (corpusOf badUnused) ∧
    ∃ f ∈ corpusTests exNm (corpusOf badUnused), ∀ ext A fuel,
      runTest ⟨emitted badUnused, ext, A⟩ fuel f = .stuck "wrong number of arguments" := by
  refine ⟨?_, .of_check (by decide +kernel), by decide +kernel,
    ⟨"TestTCorpus", ((corpusOf badUnused).flatMap (·.vectors)).map (·.data), "ParseT"⟩, by decide +kernel, ?_⟩
  · obtain ⟨ctx, h⟩ := ctxOK_zero (fmtOf exNm exExt badUnused)
    refine ⟨ctx, marshallers_emitted (by decide +kernel), ?_, h⟩
    refine FilesOK.of_check ?_ ?_ ?_ <;> decide +kernel
  · intro ext A fuel
    have : ∃ d ds, ((corpusOf badUnused).flatMap (·.vectors)).map (·.data) = d :: ds := by
      cases h : ((corpusOf badUnused).flatMap (·.vectors)).map (·.data) with
      | nil => exact absurd h (by decide +kernel)
      | cons d ds => exact ⟨d, ds, rfl⟩
    obtain ⟨d, ds, hd⟩ := this
    simp only [runTest, hd, runCases]
    have : callParse ⟨emitted badUnused, ext, A⟩ fuel "ParseT" d = .stuck "wrong number of arguments" := by
      rw [show "ParseT" = "Parse" ++ "T" by decide, callParse_eq]
      have hc : ∃ c, (emitted badUnused).ctors.find? (·.type = "T") = some c ∧ c.params.map (·.1) = ["c"] := by
        have h : ((emitted badUnused).ctors.find? (·.type = "T")).map (fun c => c.params.map (·.1)) = some ["c"] := by
          decide +kernel
        cases hf : (emitted badUnused).ctors.find? (·.type = "T") with
        | none => rw [hf] at h; cases h
        | some c => rw [hf] at h; exact ⟨c, rfl, Option.some.inj h⟩
      obtain ⟨c, h1, h2⟩ := hc
      unfold runCtor
      simp only [h1, h2]
      rfl
    rw [this]

/-- A fuzzing function for a struct without contexts returns 1 exactly on the data that begin with an encoding
of a value, and 0 exactly on those `Parse` rejects. -/
theorem C57_fuzz {nm : String → String} {ext : Go.Ext} {ord : IterOrder} {fs : List File} {p : Prog}
    (hp : marshallers nm ord fs = .ok p) (hok : FilesOK nm ext fs) (hord : OrdOK (fmtOf nm ext fs)) {n : String} {s : Struct}
    (hs : (fmtOf nm ext fs).structs n = some s) (he : s.extern = false) (hc : s.contexts = []) {A : Nat} {d : Wire.Bytes}
    (hd : d.length < 2 ^ 63) {ctx : Ctx} (hx : CtxOK (fmtOf nm ext fs) ctx) :
    ((∃ fuel, runFuzz ⟨p, ext, A⟩ fuel ⟨"Fuzz" ++ nm n, "Parse" ++ nm n⟩ d = .ret 1) →
      ∃ v r, Enc (fmtOf nm ext fs) ctx n v d r) ∧
    (∀ v r, A < 2 ^ 63 → Fits A v → Enc (fmtOf nm ext fs) ctx n v d r →
      ∃ fuel, runFuzz ⟨p, ext, A⟩ fuel ⟨"Fuzz" ++ nm n, "Parse" ++ nm n⟩ d = .ret 1) ∧
    ((∃ fuel, runFuzz ⟨p, ext, A⟩ fuel ⟨"Fuzz" ++ nm n, "Parse" ++ nm n⟩ d = .ret 0) ↔
      ∃ m, Rejects p ext A (nm n) [] d [] m) := by
  have G : Generated nm ext ord fs p ctx := ⟨hp, hok, hx⟩
  have ha : ctxArgs s ctx = [] := by simp [ctxArgs, hc]
  have hw : ∀ k, runCtor ⟨p, ext, A⟩ k (nm n) (.bytes d []) [] =
      match parseNew p ext A k (nm n) [] d [] with
      | .done o _ none => .done .nil o none
      | .done _ _ (some m) => .done .nil .nil (some m)
      | .panic m => .panic m
      | .stuck m => .stuck m
      | .timeout => .timeout := fun k => by
    have := ctor_wraps (A := A) G hs he d [] k
    rw [ha] at this
    exact this
  have hagree : ∀ k, CallDec (decStruct (fmtOf nm ext fs) A ctx k n d) (parseNew p ext A k (nm n) [] d []) := fun k => by
    have := parseNew_dec (A := A) G hs [] hd k
    rw [ha] at this
    exact this
  refine ⟨?_, ?_, ?_⟩
  · rintro ⟨k, hk⟩
    simp only [runFuzz, callParse_eq, hw k] at hk
    have hq := hagree k
    cases hdec : decStruct (fmtOf nm ext fs) A ctx k n d with
    | ok q =>
      obtain ⟨v, r⟩ := q
      have := parse_sound G hord hs hd ((accepts_iff G hs [] hd).2 ⟨k, hdec⟩)
      exact ⟨v, r, this.1⟩
    | err m => rw [hdec] at hq; obtain ⟨o, ho⟩ := hq; rw [ho] at hk; cases hk
    | panic m => rw [hdec] at hq; obtain ⟨o, ho⟩ := hq; rw [ho] at hk; cases hk
    | timeout => rw [hdec] at hq; rw [show parseNew p ext A k (nm n) [] d [] = .timeout from hq] at hk; cases hk
  · intro v r hA hf henc
    obtain ⟨h', _, k, hk⟩ := parse_complete G hord hA hs [] hd hf henc
    rw [ha] at hk
    refine ⟨k, ?_⟩
    simp only [runFuzz, callParse_eq, hw k, hk]
  · constructor
    · rintro ⟨k, hk⟩
      simp only [runFuzz, callParse_eq, hw k] at hk
      have hq := hagree k
      cases hdec : decStruct (fmtOf nm ext fs) A ctx k n d with
      | ok q => obtain ⟨v, r⟩ := q; rw [hdec] at hq; obtain ⟨o, ho⟩ := hq; rw [ho] at hk; cases hk
      | err m =>
        have := (rejects_iff (A := A) G hs [] hd).2 ⟨k, hdec⟩
        rw [ha] at this
        exact ⟨m, this⟩
      | panic m => rw [hdec] at hq; obtain ⟨o, ho⟩ := hq; rw [ho] at hk; cases hk
      | timeout => rw [hdec] at hq; rw [show parseNew p ext A k (nm n) [] d [] = .timeout from hq] at hk; cases hk
    · rintro ⟨m, o, _, k, hk⟩
      refine ⟨k, ?_⟩
      simp only [runFuzz, callParse_eq, hw k, hk]

/-- The fuzzing function for `struct point { u8 x; u8 y; }` of the example, on two inputs. -/
example : (∃ v r, Enc (fmtOf exNm exExt exMsg) exCtx "point" v [7, 8, 9] r) ∧
    ∃ m, Rejects (emitted exMsg) exExt (2 ^ 32) "Point" [] [7] [] m := by
  have h := fun d hd => C57_fuzz exMsg_gen.gen exMsg_gen.ok exMsg_ord (n := "point") (s := structOf exMsg "point")
    (by decide +kernel) (by decide +kernel) (by decide +kernel) (A := 2 ^ 32) (d := d) hd exMsg_gen.ctxOK
  exact ⟨(h [7, 8, 9] (by decide)).1 ⟨9, by decide +kernel⟩, (h [7] (by decide)).2.2.1 ⟨9, by decide +kernel⟩⟩

end Verif.Props
