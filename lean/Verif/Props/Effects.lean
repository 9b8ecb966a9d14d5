import Verif.Effects
import Verif.Props.TvBasic
/-!
# C44, C45, C46, C54: files written and read

The specification of a sequence of operations: they happen in order up to and including the first
that fails.
-/
namespace Verif.Props
open Verif Verif.Ast Verif.Inspect Verif.Tv Verif.Effects

/-- Starting in `w`, the operations `ops` were attempted in order; if none failed the result is `r`, and
otherwise an error was returned right after the first failing one. -/
def Attempts (orc : Oracle) (ops : List Op) (r : Result) (w : World) (out : Result × World) : Prop :=
  ((∀ i, i < ops.length → orc (w.done.length + i) = none) ∧
    out = (r, ⟨ops.foldl FS.apply w.fs, ops.reverse ++ w.done⟩)) ∨
  ∃ pre op post f m, ops = pre ++ op :: post ∧
    (∀ i, i < pre.length → orc (w.done.length + i) = none) ∧
    orc (w.done.length + pre.length) = some f ∧
    out = (.err m, ⟨(pre.foldl FS.apply w.fs).applyFailed f op, op :: (pre.reverse ++ w.done)⟩)

theorem attempts_nil (orc : Oracle) (r : Result) (w : World) : Attempts orc [] r w (r, w) :=
  .inl ⟨by simp, by simp⟩

theorem attempts_perform {orc : Oracle} {op : Op} {msg : String} {k : World → Result × World}
    {ops : List Op} {r : Result} {w : World}
    (h : ∀ w', w'.done = op :: w.done → Attempts orc ops r w' (k w')) :
    Attempts orc (op :: ops) r w (perform orc op msg k w) := by
  unfold perform
  cases ho : orc w.done.length with
  | some f => exact .inr ⟨[], op, ops, f, msg, rfl, by simp, by simpa using ho, by simp⟩
  | none =>
    simp only
    rcases h ⟨w.fs.apply op, op :: w.done⟩ rfl with ⟨h1, h2⟩ | ⟨pre, op', post, f, m, h1, h2, h3, h4⟩
    · refine .inl ⟨?_, by rw [h2]; simp⟩
      intro i hi
      cases i with
      | zero => exact ho
      | succ i =>
        have := h1 i (by simpa using hi)
        simp only [List.length_cons] at this
        rw [← this]; congr 1; omega
    · refine .inr ⟨op :: pre, op', post, f, m, by rw [h1]; rfl, ?_, ?_, by rw [h4]; simp⟩
      · intro i hi
        cases i with
        | zero => exact ho
        | succ i =>
          have := h2 i (by simpa using hi)
          simp only [List.length_cons] at this
          rw [← this]; congr 1; omega
      · simp only [List.length_cons] at h3 ⊢
        rw [← h3]; congr 1; omega

/-! ## C45: the corpus on disk -/

/-- Where a vector is stored. -/
def vectorPath (namer : Bytes → String) (base : Path) (s : Suite) (v : Tv.Vector) : Path :=
  base ++ [s.type, "corpus"] ++ [namer v.data]

/-- The operations that store a corpus. -/
def corpusOps (namer : Bytes → String) (base : Path) (c : Corpus) : List Op :=
  c.flatMap fun s => .mkdirAll (base ++ [s.type, "corpus"]) ::
    s.vectors.map fun v => .write (vectorPath namer base s v) v.data

theorem writeVectors_attempts {orc : Oracle} (namer : Bytes → String) (base : Path) (s : Suite)
    {k : World → Result × World} {ops : List Op} {r : Result} (h : ∀ w, Attempts orc ops r w (k w))
    (vs : List Tv.Vector) (w : World) :
    Attempts orc ((vs.map fun v => .write (vectorPath namer base s v) v.data) ++ ops) r w
      (writeVectors orc namer (base ++ [s.type, "corpus"]) vs k w) := by
  induction vs generalizing w with
  | nil => exact h w
  | cons v vs ih =>
    simp only [writeVectors, List.map_cons, List.cons_append]
    exact attempts_perform (fun w' _ => ih w')

theorem writeCorpus_attempts {orc : Oracle} (namer : Bytes → String) (base : Path)
    {k : World → Result × World} {ops : List Op} {r : Result} (h : ∀ w, Attempts orc ops r w (k w))
    (c : Corpus) (w : World) :
    Attempts orc (corpusOps namer base c ++ ops) r w (writeCorpus orc namer base c k w) := by
  induction c generalizing w with
  | nil => exact h w
  | cons s c ih =>
    simp only [writeCorpus, corpusOps, List.flatMap_cons, List.cons_append, List.append_assoc]
    refine attempts_perform (fun w' _ => ?_)
    exact writeVectors_attempts namer base s (fun w => ih w) s.vectors w'

/-- `WriteCorpus` (tv/corpus.go:48-51) with nothing after it. -/
def writeCorpusOnly (orc : Oracle) (namer : Bytes → String) (base : Path) (c : Corpus) (w : World) :
    Result × World := writeCorpus orc namer base c (fun w => (.ok, w)) w

theorem writeCorpusOnly_attempts (orc : Oracle) (namer : Bytes → String) (base : Path) (c : Corpus)
    (w : World) : Attempts orc (corpusOps namer base c) .ok w (writeCorpusOnly orc namer base c w) := by
  have := writeCorpus_attempts (orc := orc) namer base (fun w => attempts_nil orc .ok w) c w
  simpa [writeCorpusOnly] using this

/-- The hash tells the data of the vectors apart. -/
def NoCollision (namer : Bytes → String) (c : Corpus) : Prop :=
  ∀ s ∈ c, ∀ v ∈ s.vectors, ∀ s' ∈ c, ∀ v' ∈ s'.vectors, namer v.data = namer v'.data → v.data = v'.data

theorem foldl_files_unchanged (ops : List Op) (fs : FS) (q : Path)
    (h : ∀ p b, Op.write p b ∈ ops → p ≠ q) : (ops.foldl FS.apply fs).files q = fs.files q := by
  induction ops generalizing fs with
  | nil => rfl
  | cons op ops ih =>
    rw [List.foldl_cons, ih _ (fun p b hm => h p b (List.mem_cons_of_mem _ hm))]
    cases op with
    | mkdirAll p => rfl
    | write p b =>
      simp only [FS.apply, FS.put]
      rw [if_neg]
      exact fun he => h p b List.mem_cons_self he.symm

theorem foldl_files_written (ops : List Op) (fs : FS) (q : Path) (c : Bytes)
    (h : ∀ b, Op.write q b ∈ ops → b = c) (hm : ∃ b, Op.write q b ∈ ops) :
    (ops.foldl FS.apply fs).files q = some c := by
  induction ops generalizing fs with
  | nil => obtain ⟨b, hb⟩ := hm; cases hb
  | cons op ops ih =>
    rw [List.foldl_cons]
    by_cases hrest : ∃ b, Op.write q b ∈ ops
    · exact ih _ (fun b hb => h b (List.mem_cons_of_mem _ hb)) hrest
    · rw [foldl_files_unchanged]
      · obtain ⟨b, hb⟩ := hm
        rcases List.mem_cons.1 hb with hb | hb
        · subst hb
          have := h b List.mem_cons_self
          subst this
          simp [FS.apply, FS.put]
        · exact absurd ⟨b, hb⟩ hrest
      · rintro p b hb rfl
        exact hrest ⟨b, hb⟩

theorem mem_corpusOps {namer : Bytes → String} {base : Path} {c : Corpus} {p : Path} {b : Bytes} :
    Op.write p b ∈ corpusOps namer base c ↔
      ∃ s ∈ c, ∃ v ∈ s.vectors, p = vectorPath namer base s v ∧ b = v.data := by
  simp only [corpusOps, List.mem_flatMap, List.mem_cons, List.mem_map, reduceCtorEq, false_or, Op.write.injEq]
  constructor
  · rintro ⟨s, hs, v, hv, h1, h2⟩; exact ⟨s, hs, v, hv, h1.symm, h2.symm⟩
  · rintro ⟨s, hs, v, hv, h1, h2⟩; exact ⟨s, hs, v, hv, h1.symm, h2.symm⟩

theorem vectorPath_inj {namer : Bytes → String} {base : Path} {s s' : Suite} {v v' : Tv.Vector}
    (h : vectorPath namer base s v = vectorPath namer base s' v') :
    s.type = s'.type ∧ namer v.data = namer v'.data := by
  simp only [vectorPath, List.append_assoc, List.append_cancel_left_eq, List.cons_append, List.nil_append,
    List.cons.injEq, true_and, and_true] at h
  exact h

/-- C45: if `WriteCorpus` returns no error, then for every suite and vector the file named by the hash in
the suite's directory holds exactly the vector's data, and every other file is as before. Any prior file
system, any corpus. -/
theorem C45_corpus_written (orc : Oracle) (namer : Bytes → String) (base : Path) (c : Corpus) (w w' : World)
    (hc : NoCollision namer c) (h : writeCorpusOnly orc namer base c w = (.ok, w')) :
    (∀ s ∈ c, ∀ v ∈ s.vectors, w'.fs.files (vectorPath namer base s v) = some v.data) ∧
    (∀ q, (∀ s ∈ c, ∀ v ∈ s.vectors, q ≠ vectorPath namer base s v) → w'.fs.files q = w.fs.files q) := by
  rcases writeCorpusOnly_attempts orc namer base c w with ⟨-, h'⟩ | ⟨_, _, _, _, m, _, _, _, h'⟩
  · rw [h] at h'
    have hw : w' = _ := (Prod.mk.inj h').2
    subst hw
    refine ⟨?_, ?_⟩
    · intro s hs v hv
      apply foldl_files_written
      · intro b hb
        obtain ⟨s', hs', v', hv', hp, hb'⟩ := mem_corpusOps.1 hb
        rw [hb']
        exact (hc s hs v hv s' hs' v' hv' (vectorPath_inj hp).2).symm
      · exact ⟨_, mem_corpusOps.2 ⟨s, hs, v, hv, rfl, rfl⟩⟩
    · intro q hq
      apply foldl_files_unchanged
      rintro p b hb rfl
      obtain ⟨s, hs, v, hv, hp, -⟩ := mem_corpusOps.1 hb
      exact hq s hs v hv hp
  · rw [h] at h'; cases h'

/-- C45, also when it fails half-way: only files of the corpus are touched. -/
theorem C45_no_other_path (orc : Oracle) (namer : Bytes → String) (base : Path) (c : Corpus) (w : World)
    (q : Path) (hq : ∀ s ∈ c, ∀ v ∈ s.vectors, q ≠ vectorPath namer base s v) :
    (writeCorpusOnly orc namer base c w).2.fs.files q = w.fs.files q := by
  have hne : ∀ p b, Op.write p b ∈ corpusOps namer base c → p ≠ q := by
    rintro p b hb rfl
    obtain ⟨s, hs, v, hv, hp, -⟩ := mem_corpusOps.1 hb
    exact hq s hs v hv hp
  rcases writeCorpusOnly_attempts orc namer base c w with ⟨-, h⟩ | ⟨pre, op, post, f, m, hops, _, _, h⟩
  · rw [h]; exact foldl_files_unchanged _ _ _ hne
  · rw [h]
    rw [hops] at hne
    have hpre : (pre.foldl FS.apply w.fs).files q = w.fs.files q :=
      foldl_files_unchanged _ _ _ (fun p b hb => hne p b (List.mem_append_left _ hb))
    cases op with
    | mkdirAll p => exact hpre
    | write p b =>
      simp only [FS.applyFailed, FS.put]
      rw [if_neg, hpre]
      exact fun he => hne p b (List.mem_append_right _ List.mem_cons_self) he.symm

theorem dirs_mono (ops : List Op) (fs : FS) (q : Path) (h : fs.dirs q = true) :
    (ops.foldl FS.apply fs).dirs q = true := by
  induction ops generalizing fs with
  | nil => exact h
  | cons op ops ih =>
    apply ih
    cases op with
    | mkdirAll p => simp [FS.apply, FS.mkdirs, h]
    | write p b => exact h

theorem dirs_made (ops : List Op) (fs : FS) (p q : Path) (hp : Op.mkdirAll p ∈ ops)
    (hq : q.isPrefixOf p = true) : (ops.foldl FS.apply fs).dirs q = true := by
  induction ops generalizing fs with
  | nil => cases hp
  | cons op ops ih =>
    rcases List.mem_cons.1 hp with rfl | hp
    · rw [List.foldl_cons]
      apply dirs_mono
      have := (List.isPrefixOf_iff_prefix.1 hq).length_le
      simp [FS.apply, FS.mkdirs, hq, this]
    · exact ih _ hp

theorem foldl_dirs (ops : List Op) (fs : FS)
    (h : ∀ p, Op.mkdirAll p ∈ ops → ∀ q, q.isPrefixOf p = true → fs.dirs q = true) :
    (ops.foldl FS.apply fs).dirs = fs.dirs := by
  induction ops generalizing fs with
  | nil => rfl
  | cons op ops ih =>
    have hd : (fs.apply op).dirs = fs.dirs := by
      cases op with
      | write p b => rfl
      | mkdirAll p =>
        funext q
        simp only [FS.apply, FS.mkdirs]
        cases hq : q.isPrefixOf p with
        | false => simp
        | true => simp [h p List.mem_cons_self q hq]
    rw [List.foldl_cons, ih, hd]
    intro p hp q hq
    rw [hd]
    exact h p (List.mem_cons_of_mem _ hp) q hq

/-- C45: writing the same corpus again changes nothing. -/
theorem C45_idempotent (orc orc' : Oracle) (namer : Bytes → String) (base : Path) (c : Corpus)
    (w w1 w2 : World) (hc : NoCollision namer c) (h1 : writeCorpusOnly orc namer base c w = (.ok, w1))
    (h2 : writeCorpusOnly orc' namer base c w1 = (.ok, w2)) : w2.fs = w1.fs := by
  obtain ⟨a1, a2⟩ := C45_corpus_written orc namer base c w w1 hc h1
  obtain ⟨b1, b2⟩ := C45_corpus_written orc' namer base c w1 w2 hc h2
  have hfiles : w2.fs.files = w1.fs.files := by
    funext q
    by_cases hq : ∃ s ∈ c, ∃ v ∈ s.vectors, q = vectorPath namer base s v
    · obtain ⟨s, hs, v, hv, rfl⟩ := hq
      rw [a1 s hs v hv, b1 s hs v hv]
    · exact b2 q (fun s hs v hv he => hq ⟨s, hs, v, hv, he⟩)
  have hdirs : w2.fs.dirs = w1.fs.dirs := by
    rcases writeCorpusOnly_attempts orc' namer base c w1 with ⟨-, h⟩ | ⟨_, _, _, _, m, _, _, _, h⟩
    · rw [h2] at h
      have hw := (Prod.mk.inj h).2
      rw [hw]
      apply foldl_dirs
      intro p hp q hq
      rcases writeCorpusOnly_attempts orc namer base c w with ⟨-, h⟩ | ⟨_, _, _, _, m, _, _, _, h⟩
      · rw [h1] at h
        rw [(Prod.mk.inj h).2]
        exact dirs_made _ _ _ _ hp hq
      · rw [h1] at h; cases h
    · rw [h2] at h; cases h
  cases hw2 : w2.fs
  cases hw1 : w1.fs
  rw [hw1, hw2] at hfiles hdirs
  simp only at hfiles hdirs
  rw [hfiles, hdirs]

def exCorpus : Corpus := [⟨"msg", [⟨[1, 2], .empty⟩, ⟨[3], .empty⟩]⟩, ⟨"opt", [⟨[], exCst⟩]⟩]
def exNamer (b : Bytes) : String := toString (b.map (·.toNat))
def exFS : FS := ⟨fun _ => none, fun _ => false⟩

example : NoCollision exNamer exCorpus := by
  unfold NoCollision exCorpus exNamer; decide +kernel

example : ((writeCorpusOnly (fun _ => none) exNamer ["out"] exCorpus ⟨exFS, []⟩).2.fs.files
    ["out", "msg", "corpus", "[1, 2]"]) = some [1, 2] := by decide +kernel

/-! ## C46: tests and fuzzers -/

/-- A suite is free of constraints: no vector records a value for any name. -/
def Unconstrained (s : Suite) : Prop := ∀ v ∈ s.vectors, ∀ sc k, v.cst.lookup sc k = none

theorem entries_zero_iff {c : Cst} (h : c.WF) :
    ¬ c.scopes.entries.length > 0 ↔ ∀ s k, c.lookup s k = none := by
  constructor
  · intro hz s k
    have : c.scopes.entries = [] := List.length_eq_zero_iff.1 (by omega)
    simp [Cst.lookup, GoMap.get, this]
  · intro hn hpos
    cases he : c.scopes.entries with
    | nil => rw [he] at hpos; simp at hpos
    | cons e es =>
      obtain ⟨s, vals⟩ := e
      have hi := h.inner (s, vals) (by rw [he]; exact List.mem_cons_self)
      cases hv : vals.entries with
      | nil => exact hi.2 hv
      | cons p ps =>
        obtain ⟨k, v⟩ := p
        have := hn s k
        simp [Cst.lookup, GoMap.get, he, hv] at this

theorem constrainedVec_iff (s : Suite) (h : ∀ v ∈ s.vectors, v.cst.WF) :
    constrained s.vectors = false ↔ Unconstrained s := by
  unfold Unconstrained
  generalize s.vectors = vs at h
  induction vs with
  | nil => simp [constrained]
  | cons v vs ih =>
    have hv := entries_zero_iff (h v List.mem_cons_self)
    have := ih (fun v hv => h v (List.mem_cons_of_mem _ hv))
    simp only [constrained, List.mem_cons, forall_eq_or_imp, ← hv, ← this]
    by_cases hz : v.cst.scopes.entries.length > 0 <;> simp [hz]

/-- C46: `CorpusTests` emits a test function for exactly the suites without constraints, in corpus order,
with the data of all their vectors; `Fuzzers` emits a fuzzing function for exactly those. -/
theorem C46_emitted (nm : String → String) (c : Corpus) (h : ∀ s ∈ c, ∀ v ∈ s.vectors, Reach v.cst) :
    ∃ keep : List Suite, keep.Sublist c ∧ (∀ s ∈ c, s ∈ keep ↔ Unconstrained s) ∧
      corpusTests nm c = keep.map (fun s =>
        ⟨"Test" ++ nm s.type ++ "Corpus", s.vectors.map (·.data), "Parse" ++ nm s.type⟩) ∧
      fuzzers nm c = keep.map (fun s => ⟨"Fuzz" ++ nm s.type, "Parse" ++ nm s.type⟩) := by
  refine ⟨c.filter (fun s => !constrained s.vectors), List.filter_sublist, ?_, ?_, ?_⟩
  · intro s hs
    rw [← constrainedVec_iff s (fun v hv => (h s hs v hv).wf)]
    simp [hs]
  · clear h
    induction c with
    | nil => rfl
    | cons s c ih => cases hc : constrained s.vectors <;> simp [corpusTests, hc, ih]
  · clear h
    induction c with
    | nil => rfl
    | cons s c ih => cases hc : constrained s.vectors <;> simp [fuzzers, hc, ih]

/-- C46: how many functions there are. -/
theorem C46_count (nm : String → String) (c : Corpus) :
    (corpusTests nm c).length = (fuzzers nm c).length ∧
    (corpusTests nm c).map (·.calls) = (fuzzers nm c).map (·.calls) := by
  induction c with
  | nil => exact ⟨rfl, rfl⟩
  | cons s c ih => cases hc : constrained s.vectors <;> simp [corpusTests, fuzzers, hc, ih]

example : ∀ s ∈ exCorpus, ∀ v ∈ s.vectors, Reach v.cst := by
  intro s hs v hv
  simp only [exCorpus, List.mem_cons, List.not_mem_nil, or_false] at hs
  rcases hs with rfl | rfl <;> simp only [List.mem_cons, List.not_mem_nil, or_false] at hv
  · rcases hv with rfl | rfl <;> exact .new
  · subst hv; exact exCst_reach

example : corpusTests id exCorpus = [⟨"TestmsgCorpus", [[1, 2], [3]], "Parsemsg"⟩] := by decide +kernel

/-! ## C44: Package -/

/-- The operations `Package` is meant to do, in order, and its result if all succeed. -/
def packagePlan (S : Sys) (cfg : Config) (fs : List File) : List Op × Result :=
  match GenText.marshallers cfg.pkg S.nm S.E.order fs with
  | .err m => ([], .err m)
  | .panic m => ([], .panic m)
  | .ok p =>
    match S.process p with
    | .error m => ([], .err m)
    | .ok b =>
      let first := Op.write (cfg.dir ++ ["gen-marshallers.go"]) b
      match generateFiles S.E S.fuel S.seed fs with
      | .err .notImplemented => ([first], .ok)
      | .err (.other m) => ([first], .err m)
      | .panic m => ([first], .panic m)
      | .timeout => ([first], .timeout)
      | .ok c =>
        let corpus := corpusOps S.namer (cfg.dir ++ ["testdata", "fuzz"]) c
        match S.process (GenText.corpusTests cfg.pkg S.nm c) with
        | .error m => (first :: corpus, .err m)
        | .ok b' =>
          let tests := Op.write (cfg.dir ++ ["gen-marshallers_test.go"]) b'
          match S.process (GenText.fuzzers cfg.pkg S.nm c) with
          | .error m => (first :: corpus ++ [tests], .err m)
          | .ok b'' => (first :: corpus ++ [tests, .write (cfg.dir ++ ["gen-fuzz.go"]) b''], .ok)

/-- C44: `Package` attempts the planned operations in order, stopping at the first failure with an
error. -/
theorem C44_plan (S : Sys) (cfg : Config) (fs : List File) (w : World) :
    Attempts S.orc (packagePlan S cfg fs).1 (packagePlan S cfg fs).2 w (package S cfg fs w) := by
  unfold packagePlan package
  cases hm : GenText.marshallers cfg.pkg S.nm S.E.order fs with
  | err m => exact attempts_nil _ _ _
  | panic m => exact attempts_nil _ _ _
  | ok p =>
    simp only
    cases hp : S.process p with
    | error m => exact attempts_nil _ _ _
    | ok b =>
      simp only
      cases hg : generateFiles S.E S.fuel S.seed fs with
      | err e =>
        cases e <;> exact attempts_perform (fun w' _ => by simp only [packageVectors, hg]; exact attempts_nil _ _ _)
      | panic m => exact attempts_perform (fun w' _ => by simp only [packageVectors, hg]; exact attempts_nil _ _ _)
      | timeout => exact attempts_perform (fun w' _ => by simp only [packageVectors, hg]; exact attempts_nil _ _ _)
      | ok c =>
        simp only
        cases ht : S.process (GenText.corpusTests cfg.pkg S.nm c) with
        | error m =>
          simp only
          refine attempts_perform (fun w' _ => ?_)
          simp only [packageVectors, hg]
          have := writeCorpus_attempts (orc := S.orc) (k := packageTests S cfg c) (ops := []) (r := .err m)
            S.namer (cfg.dir ++ ["testdata", "fuzz"])
            (fun w => by simp only [packageTests, ht]; exact attempts_nil _ _ _) c w'
          simpa using this
        | ok b' =>
          simp only
          cases hf : S.process (GenText.fuzzers cfg.pkg S.nm c) with
          | error m =>
            simp only [List.cons_append]
            refine attempts_perform (fun w' _ => ?_)
            simp only [packageVectors, hg]
            refine writeCorpus_attempts _ _ (fun w => ?_) c w'
            simp only [packageTests, ht]
            refine attempts_perform (fun w' _ => ?_)
            simp only [packageFuzz, hf]
            exact attempts_nil _ _ _
          | ok b'' =>
            simp only [List.cons_append]
            refine attempts_perform (fun w' _ => ?_)
            simp only [packageVectors, hg]
            refine writeCorpus_attempts _ _ (fun w => ?_) c w'
            simp only [packageTests, ht]
            refine attempts_perform (fun w' _ => ?_)
            simp only [packageFuzz, hf]
            exact attempts_perform (fun w' _ => attempts_nil _ _ _)

/-- C44: whatever is written, the marshaller file is written first. -/
theorem C44_marshallers_first (S : Sys) (cfg : Config) (fs : List File) (fs0 : FS) :
    (package S cfg fs ⟨fs0, []⟩).2.done = [] ∨
    ∃ b rest, (package S cfg fs ⟨fs0, []⟩).2.done = rest ++ [.write (cfg.dir ++ ["gen-marshallers.go"]) b] := by
  have hplan : (packagePlan S cfg fs).1 = [] ∨
      ∃ b rest, (packagePlan S cfg fs).1 = .write (cfg.dir ++ ["gen-marshallers.go"]) b :: rest := by
    unfold packagePlan
    repeat' first | (left; rfl) | (right; exact ⟨_, _, rfl⟩) | split
  rcases C44_plan S cfg fs ⟨fs0, []⟩ with ⟨-, h⟩ | ⟨pre, op, post, f, m, hops, -, -, h⟩
  · rw [h]
    rcases hplan with hp | ⟨b, rest, hp⟩
    · left; simp [hp]
    · right; exact ⟨b, rest.reverse, by simp [hp]⟩
  · rw [h]
    rcases hplan with hp | ⟨b, rest, hp⟩
    · rw [hp] at hops; simp at hops
    · right
      rw [hp] at hops
      cases pre with
      | nil => cases hops; exact ⟨b, [], by simp⟩
      | cons a pre => cases hops; exact ⟨b, op :: pre.reverse, by simp⟩

/-- C44: after a failed operation nothing more is attempted, and an error is returned; without a failed
operation the result does not depend on the file system. -/
theorem C44_stops (S : Sys) (cfg : Config) (fs : List File) (fs0 : FS) :
    let out := package S cfg fs ⟨fs0, []⟩
    (∀ i, i + 1 < out.2.done.length → S.orc i = none) ∧
    ((∃ i f, i < out.2.done.length ∧ S.orc i = some f) → ∃ m, out.1 = .err m) ∧
    ((∀ i, i < out.2.done.length → S.orc i = none) → out.1 = (packagePlan S cfg fs).2 ∧
      out.2.done = (packagePlan S cfg fs).1.reverse) := by
  intro out
  rcases C44_plan S cfg fs ⟨fs0, []⟩ with ⟨ho, h⟩ | ⟨pre, op, post, f, m, hops, ho, hf, h⟩
  · simp only [List.length_nil, Nat.zero_add] at ho
    have hout : out = _ := h
    rw [hout]
    simp only [List.append_nil, List.length_reverse]
    refine ⟨fun i hi => ho i (by omega), ?_, fun _ => ⟨trivial, trivial⟩⟩
    rintro ⟨i, f, hi, hf⟩
    rw [ho i hi] at hf; cases hf
  · simp only [List.length_nil, Nat.zero_add] at ho hf
    have hout : out = _ := h
    rw [hout]
    simp only [List.append_nil, List.length_cons, List.length_reverse]
    refine ⟨fun i hi => ho i (by omega), fun _ => ⟨m, rfl⟩, fun hall => ?_⟩
    rw [hall pre.length (by omega)] at hf; cases hf

/-- C44: if vector generation is not implemented for the format, `Package` succeeds having written the
marshaller file and nothing else. -/
theorem C44_not_implemented (S : Sys) (cfg : Config) (fs : List File) (fs0 : FS) (t : GenText.Text) (b : Bytes)
    (hm : GenText.marshallers cfg.pkg S.nm S.E.order fs = .ok t) (hb : S.process t = .ok b)
    (hg : generateFiles S.E S.fuel S.seed fs = .err .notImplemented) (ho : S.orc 0 = none) :
    let out := package S cfg fs ⟨fs0, []⟩
    out.1 = .ok ∧ out.2.done = [.write (cfg.dir ++ ["gen-marshallers.go"]) b] ∧
    out.2.fs.files (cfg.dir ++ ["gen-marshallers.go"]) = some b ∧
    (∀ q, q ≠ cfg.dir ++ ["gen-marshallers.go"] → out.2.fs.files q = fs0.files q) ∧
    out.2.fs.dirs = fs0.dirs := by
  simp only [package, hm, hb, perform, List.length_nil, ho, packageVectors, hg]
  refine ⟨trivial, trivial, by simp [FS.apply, FS.put], ?_, rfl⟩
  intro q hq
  simp [FS.apply, FS.put, hq]

/-- A format whose vectors are not implemented: an array that leaves four bytes. -/
def exLeftover : File :=
  ⟨[], [], [⟨"sig", [], some [
      .leaf (.field ⟨"body", .varArray (.int ⟨8, none⟩) (some (.leftover (.literal 4)))⟩),
      .leaf (.field ⟨"mac", .base (.int ⟨32, none⟩)⟩)]⟩], []⟩

def exSys : Sys := ⟨id, fun t => .ok (t.map fun c => UInt8.ofNat c.toNat), exNamer, exEnv, 5, (0 : Nat), fun _ => none⟩

example : (GenText.marshallers "sig" exSys.nm exSys.E.order [exLeftover]).isOk = true := by decide +kernel
example : generateFiles exSys.E exSys.fuel exSys.seed [exLeftover] = .err .notImplemented := by
  decide +kernel

/-- C44: any other failure of generation is returned, and nothing further is written. -/
theorem C44_generation_fails (S : Sys) (cfg : Config) (fs : List File) (fs0 : FS) (m : String)
    (hg : generateFiles S.E S.fuel S.seed fs = .err (.other m)) :
    (∃ m', (package S cfg fs ⟨fs0, []⟩).1 = .err m' ∨ (package S cfg fs ⟨fs0, []⟩).1 = .panic m') ∧
    (package S cfg fs ⟨fs0, []⟩).2.done.length ≤ 1 := by
  unfold package
  cases hm : GenText.marshallers cfg.pkg S.nm S.E.order fs with
  | err m => exact ⟨⟨m, .inl rfl⟩, by simp⟩
  | panic m => exact ⟨⟨m, .inr rfl⟩, by simp⟩
  | ok p =>
    simp only
    cases hp : S.process p with
    | error m => exact ⟨⟨m, .inl rfl⟩, by simp⟩
    | ok b =>
      simp only [perform, List.length_nil]
      cases ho : S.orc 0 with
      | some f => exact ⟨⟨_, .inl rfl⟩, by simp⟩
      | none => simp only [packageVectors, hg]; exact ⟨⟨_, .inl rfl⟩, by simp⟩

/-! ## C54: reading several files -/

theorem map_ok_inj : ∀ {a b : List File},
    a.map (Except.ok (ε := String)) = b.map Except.ok → a = b
  | [], [], _ => rfl
  | x :: a, y :: b, h => by
    simp only [List.map_cons, List.cons.injEq, Except.ok.injEq] at h
    rw [h.1, map_ok_inj h.2]

/-- C54: `Files` returns one file per name, in order, or the error of the first name that fails. -/
theorem C54_files (file : String → Except String File) (names : List String) :
    (∀ fs, parseFiles file names = .ok fs ↔ names.map file = fs.map .ok) ∧
    (∀ m, parseFiles file names = .error m ↔
      ∃ pre n post, names = pre ++ n :: post ∧ (∀ p ∈ pre, ∃ f, file p = .ok f) ∧ file n = .error m) := by
  induction names with
  | nil =>
    refine ⟨fun fs => ?_, fun m => by simp [parseFiles]⟩
    cases fs <;> simp [parseFiles]
  | cons n ns ih =>
    obtain ⟨ih1, ih2⟩ := ih
    cases hf : file n with
    | error m0 =>
      refine ⟨fun fs => ?_, fun m => ?_⟩
      · cases fs <;> simp [parseFiles, hf]
      · simp only [parseFiles, hf, Except.error.injEq]
        constructor
        · rintro rfl; exact ⟨[], n, ns, rfl, by simp, hf⟩
        · rintro ⟨pre, n', post, heq, hpre, hn⟩
          cases pre with
          | nil => cases heq; rw [hf] at hn; cases hn; rfl
          | cons a pre =>
            cases heq
            obtain ⟨f, hf'⟩ := hpre n List.mem_cons_self
            rw [hf] at hf'; cases hf'
    | ok f =>
      refine ⟨fun fs => ?_, fun m => ?_⟩
      · cases hr : parseFiles file ns with
        | error m =>
          simp only [parseFiles, hf, hr, reduceCtorEq, List.map_cons, false_iff]
          cases fs with
          | nil => simp
          | cons g fs =>
            simp only [List.map_cons, List.cons.injEq, not_and]
            intro _ h
            have := (ih1 fs).2 h
            rw [hr] at this; cases this
        | ok gs =>
          simp only [parseFiles, hf, hr, Except.ok.injEq, List.map_cons]
          have hgs := (ih1 gs).1 hr
          cases fs with
          | nil => simp
          | cons g fs =>
            simp only [List.cons.injEq, List.map_cons, Except.ok.injEq, hgs]
            refine and_congr_right (fun _ => ?_)
            constructor
            · rintro rfl; rfl
            · intro h
              exact map_ok_inj h
      · cases hr : parseFiles file ns with
        | error m' =>
          simp only [parseFiles, hf, hr, Except.error.injEq]
          have := ih2 m
          rw [hr, Except.error.injEq] at this
          rw [this]
          constructor
          · rintro ⟨pre, n', post, heq, hpre, hn⟩
            exact ⟨n :: pre, n', post, by rw [heq]; rfl, by simpa using ⟨⟨f, hf⟩, hpre⟩, hn⟩
          · rintro ⟨pre, n', post, heq, hpre, hn⟩
            cases pre with
            | nil => cases heq; rw [hf] at hn; cases hn
            | cons a pre =>
              cases heq
              exact ⟨pre, n', post, rfl, fun p hp => hpre p (List.mem_cons_of_mem _ hp), hn⟩
        | ok gs =>
          simp only [parseFiles, hf, hr, reduceCtorEq, false_iff]
          rintro ⟨pre, n', post, heq, hpre, hn⟩
          cases pre with
          | nil => cases heq; rw [hf] at hn; cases hn
          | cons a pre =>
            cases heq
            have := (ih2 m).2 ⟨pre, n', post, rfl, fun p hp => hpre p (List.mem_cons_of_mem _ hp), hn⟩
            rw [hr] at this; cases this

/-- C54: the build command writes nothing when it is given no file or when any input fails to parse or to
be read, and returns an error then. -/
theorem C54_build_all_or_nothing (S : Sys) (cfg : Config) (read : String → Except String Bytes)
    (parser : Bytes → Except String File) (names : List String) (w : World)
    (h : names = [] ∨ ∃ n ∈ names, (∃ m, read n = .error m) ∨ ∃ b m, read n = .ok b ∧ parser b = .error m) :
    (∃ m, (build S cfg (parseFile read parser) names w).1 = .err m) ∧
    (build S cfg (parseFile read parser) names w).2 = w := by
  unfold build
  rcases h with rfl | ⟨n, hn, h⟩
  · simp
  · have hne : ¬ names.length = 0 := by
      intro h0; rw [List.length_eq_zero_iff.1 h0] at hn; cases hn
    have hbad : ∃ m, parseFile read parser n = .error m := by
      rcases h with ⟨m, h⟩ | ⟨b, m, h, h'⟩
      · exact ⟨m, by simp [parseFile, h]⟩
      · exact ⟨m, by simp [parseFile, h, h']⟩
    simp only [hne, if_false]
    cases hp : parseFiles (parseFile read parser) names with
    | error m => exact ⟨⟨m, rfl⟩, rfl⟩
    | ok fs =>
      have := ((C54_files _ names).1 fs).1 hp
      obtain ⟨m, hm⟩ := hbad
      have hmem : (Except.error m : Except String File) ∈ names.map (parseFile read parser) :=
        List.mem_map.2 ⟨n, hn, hm⟩
      rw [this] at hmem
      obtain ⟨f, _, hf⟩ := List.mem_map.1 hmem
      cases hf

/-- C54: otherwise it runs `Package` on the files in the order given. -/
theorem C54_build_runs (S : Sys) (cfg : Config) (file : String → Except String File) (names : List String)
    (fs : List File) (w : World) (hne : names ≠ []) (h : names.map file = fs.map .ok) :
    build S cfg file names w = package S cfg fs w := by
  have h0 : ¬ names.length = 0 := fun h0 => hne (List.length_eq_zero_iff.1 h0)
  simp only [build, h0, if_false, ((C54_files file names).1 fs).2 h]

example : ∃ names : List String, ∃ read : String → Except String Bytes,
    ∃ n ∈ names, ∃ m, read n = .error m :=
  ⟨["a.trunnel", "b.trunnel"], fun n => if n = "b.trunnel" then .error "no such file" else .ok [],
    "b.trunnel", by simp, "no such file", by simp⟩

end Verif.Props
