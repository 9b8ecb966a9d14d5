import Verif.TvCombos
import Verif.Props.TvCover
import Mathlib.Data.List.Nodup
/-!
# C64: every combination of cases gets a vector, so that their number is exponential
-/
namespace Verif.Props
open Verif Verif.Ast Verif.Gen Verif.Inspect Verif.Tv Verif.Go Verif.Spec Verif.Wire Verif.Refine

/-- **C64.** With a selector that keeps all vectors, as the one used by default (tv/generator.go:60), in a format of
the class of C41: whatever case that can be selected and does not fail is chosen for each union of a struct, one of
the vectors for the struct shows all these cases at once. There are context values as recorded with that vector, and
with them the generated `Parse` accepts it and returns a record for which each tag, in the record or in a context,
selects the case chosen. -/
theorem C64_combinations {E : Tv.Env} (hkeep : Keeps E) {nm : String → String} {ext : Go.Ext} {ord : IterOrder}
    {fs : List File} {p : Prog} (hp : marshallers nm ord fs = .ok p) (hok : FilesOK nm ext fs)
    (hord : OrdOK (fmtOf nm ext fs)) {fuel : Nat} {seed : E.R.σ} {corpus : Corpus}
    (h : generateFiles E fuel seed fs = .ok corpus) {B : Nat} {C O : String → Prop}
    (hg : FmtGen (fmtOf nm ext fs) B C O) {G : Glob} (hcov : FmtCov (fmtOf nm ext fs) G) (hx : FmtCtx (fmtOf nm ext fs))
    {t : Tv.Suite} (ht : t ∈ corpus) {A : Nat} (hA : 2 ^ 32 ≤ A + 1) (hA' : A < 2 ^ 63) (hid : Bytes) : ∃ s,
      (fmtOf nm ext fs).structs t.type = some s ∧ s.extern = false ∧
      ∀ ch : UnionMember → UnionCase, (∀ u, .union u ∈ s.ms → Leaf.fail ∉ (ch u).members ∧
        ∃ x, selectCase (fmtOf nm ext fs).K u.cases x = some (ch u)) →
        ∃ v ∈ t.vectors, v.data.length < B → ∃ ctx rec, CtxOK (fmtOf nm ext fs) ctx ∧
          Meets (fmtOf nm ext fs) ctx v.cst ∧
          Accepts p ext A (nm t.type) (ctxArgs s ctx) v.data hid (.obj (nm t.type) rec) [] ∧
          ∀ u, .union u ∈ s.ms → ∃ x, refVal (fmtOf nm ext fs) ctx rec u.tag = some x ∧
            selectCase (fmtOf nm ext fs).K u.cases x = some (ch u) := by
  obtain ⟨s, h1, h2, h3⟩ := generateFiles_combos hkeep h hok hg hcov hA t ht
  refine ⟨s, h1, h2, fun ch hch => ?_⟩
  obtain ⟨v, hv, hq⟩ := h3 ch hch
  refine ⟨v, hv, fun hB => ?_⟩
  obtain ⟨ctx, hctx, hm⟩ := generateFiles_ctx hkeep.selects h hok hg hx t ht v hv
  obtain ⟨rec, e1, e2, e3⟩ := hq hB ctx hctx hm
  have := hg.bound
  exact ⟨ctx, rec, hctx, hm, parse_complete ⟨hp, hok, hctx⟩ hord hA' h1 hid (by omega) e1 e2, e3⟩

/-! ## Counting -/

/-- The unions among members. -/
def unionsOf : List Member → List UnionMember
  | [] => []
  | .leaf _ :: ms => unionsOf ms
  | .union u :: ms => u :: unionsOf ms

theorem mem_unionsOf {u : UnionMember} : ∀ {ms : List Member}, u ∈ unionsOf ms ↔ .union u ∈ ms
  | [] => by simp [unionsOf]
  | .leaf l :: ms => by simp [unionsOf, mem_unionsOf (ms := ms)]
  | .union u' :: ms => by simp [unionsOf, mem_unionsOf (ms := ms)]

theorem tag_mem_keys {G : Glob} {u : UnionMember} {ms : List Member} (h : .union u ∈ ms) : refKey u.tag ∈ keysOf G ms :=
  List.mem_flatMap.2 ⟨_, h, List.mem_cons_self⟩

theorem unionsOf_nodup {G : Glob} {K : String → Option Int} {L : List Key} : ∀ {ms : List Member},
    MembersCov G K L ms → (unionsOf ms).Nodup
  | [], _ => by simp [unionsOf]
  | .leaf l :: ms, h => unionsOf_nodup (ms := ms) h.2
  | .union u :: ms, h => by
    refine List.nodup_cons.2 ⟨fun hm => ?_, unionsOf_nodup h.2⟩
    exact h.1.tag (List.mem_append_right _ (tag_mem_keys (mem_unionsOf.1 hm)))

/-- All choices from lists of cases. -/
def choices (g : UnionMember → List UnionCase) : List UnionMember → List (UnionMember → UnionCase)
  | [] => [fun _ => ⟨none, []⟩]
  | u :: us => (g u).flatMap fun c => (choices g us).map fun f => fun u' => if u' = u then c else f u'

theorem choices_length (g : UnionMember → List UnionCase) : ∀ us,
    (choices g us).length = (us.map fun u => (g u).length).prod
  | [] => rfl
  | u :: us => by simp [choices, choices_length g us]

theorem choices_mem {g : UnionMember → List UnionCase} : ∀ {us : List UnionMember} {ch : UnionMember → UnionCase},
    ch ∈ choices g us → ∀ u ∈ us, ch u ∈ g u
  | [], _, _, u, hu => by simp at hu
  | u0 :: us, ch, h, u, hu => by
    simp only [choices, List.mem_flatMap, List.mem_map] at h
    obtain ⟨c, hc, f, hf, rfl⟩ := h
    by_cases e : u = u0
    · subst e; simpa using hc
    · simp only [e, if_false]
      exact choices_mem hf u ((List.mem_cons.1 hu).resolve_left e)

/-- Choices that differ, differ in a union of the list. -/
theorem choices_pairwise {g : UnionMember → List UnionCase} : ∀ {us : List UnionMember}, us.Nodup →
    (∀ u ∈ us, (g u).Nodup) → (choices g us).Pairwise fun a b => ∃ u ∈ us, a u ≠ b u
  | [], _, _ => by simp [choices]
  | u0 :: us, hn, hg => by
    obtain ⟨hn1, hn2⟩ := List.nodup_cons.1 hn
    have ih := choices_pairwise hn2 fun u hu => hg u (List.mem_cons_of_mem _ hu)
    rw [choices, List.pairwise_flatMap]
    refine ⟨fun c _ => ?_, (hg u0 List.mem_cons_self).imp ?_⟩
    · rw [List.pairwise_map]
      refine ih.imp ?_
      rintro a b ⟨u, hu, hab⟩
      refine ⟨u, List.mem_cons_of_mem _ hu, ?_⟩
      have : u ≠ u0 := fun e => hn1 (e ▸ hu)
      simpa [this] using hab
    · intro c c' hcc a ha b hb
      obtain ⟨f, _, rfl⟩ := List.mem_map.1 ha
      obtain ⟨f', _, rfl⟩ := List.mem_map.1 hb
      exact ⟨u0, List.mem_cons_self, by simpa using hcc⟩

/-- A list in which different elements of another, told apart by what they have, each have something. -/
theorem length_le_of_witness {α β : Type} {W : α → β → Prop} {D : α → α → Prop} {l : List β} :
    ∀ {as : List α}, as.Pairwise D → (∀ a ∈ as, ∃ b ∈ l, W a b) →
      (∀ a ∈ as, ∀ a' ∈ as, ∀ b ∈ l, W a b → W a' b → ¬ D a a') → as.length ≤ l.length := by
  intro as hp hw hd
  classical
  have : ∃ bs : List β, bs.length = as.length ∧ bs ⊆ l ∧ bs.Nodup ∧ ∀ b ∈ bs, ∃ a ∈ as, W a b := by
    induction as with
    | nil => exact ⟨[], rfl, by simp, by simp, by simp⟩
    | cons a as ih =>
      rw [List.pairwise_cons] at hp
      obtain ⟨bs, i1, i2, i3, i4⟩ := ih hp.2 (fun a ha => hw a (List.mem_cons_of_mem _ ha))
        (fun a ha a' ha' => hd a (List.mem_cons_of_mem _ ha) a' (List.mem_cons_of_mem _ ha'))
      obtain ⟨b, hb, hab⟩ := hw a List.mem_cons_self
      refine ⟨b :: bs, by simp [i1], ?_, List.nodup_cons.2 ⟨fun hm => ?_, i3⟩, ?_⟩
      · intro x hx
        rcases List.mem_cons.1 hx with rfl | hx
        · exact hb
        · exact i2 hx
      · obtain ⟨a', ha', hw'⟩ := i4 b hm
        exact hd a List.mem_cons_self a' (List.mem_cons_of_mem _ ha') b hb hab hw' (hp.1 a' ha')
      · intro x hx
        rcases List.mem_cons.1 hx with rfl | hx
        · exact ⟨a, List.mem_cons_self, hab⟩
        · obtain ⟨a', ha', h'⟩ := i4 x hx
          exact ⟨a', List.mem_cons_of_mem _ ha', h'⟩
  obtain ⟨bs, h1, h2, h3, _⟩ := this
  rw [← h1]
  exact (List.subperm_of_subset h3 h2).length_le

/-- **C64.** The number of vectors for a struct is at least the product, over its unions, of the numbers of cases
that can be selected and do not fail. -/
theorem C64_count {E : Tv.Env} (hkeep : Keeps E) {nm : String → String} {ext : Go.Ext} {fs : List File}
    (hok : FilesOK nm ext fs) (hord : OrdOK (fmtOf nm ext fs)) {fuel : Nat} {seed : E.R.σ} {corpus : Corpus}
    (h : generateFiles E fuel seed fs = .ok corpus) {B : Nat} {C O : String → Prop}
    (hg : FmtGen (fmtOf nm ext fs) B C O) {G : Glob} (hcov : FmtCov (fmtOf nm ext fs) G) (hx : FmtCtx (fmtOf nm ext fs))
    {t : Tv.Suite} (ht : t ∈ corpus) (hB : ∀ v ∈ t.vectors, v.data.length < B) {s : Struct}
    (hs : (fmtOf nm ext fs).structs t.type = some s)
    {g : UnionMember → List UnionCase} (hgood : ∀ u, .union u ∈ s.ms → (g u).Nodup ∧ ∀ c ∈ g u, Leaf.fail ∉ c.members ∧
      ∃ x, selectCase (fmtOf nm ext fs).K u.cases x = some c) :
    ((unionsOf s.ms).map fun u => (g u).length).prod ≤ t.vectors.length := by
  obtain ⟨s', h1, h2, h3⟩ := generateFiles_combos hkeep h hok hg hcov (A := 2 ^ 63 - 1) (by decide) t ht
  rw [hs] at h1
  cases h1
  rw [← choices_length]
  refine length_le_of_witness (W := fun ch v => v.data.length < B →
        ∀ ctx, CtxOK (fmtOf nm ext fs) ctx → Meets (fmtOf nm ext fs) ctx v.cst → ∃ rec,
          Fits (2 ^ 63 - 1) (.obj (nm t.type) rec) ∧ Enc (fmtOf nm ext fs) ctx t.type (.obj (nm t.type) rec) v.data [] ∧
          ∀ u, .union u ∈ s.ms → ∃ x, refVal (fmtOf nm ext fs) ctx rec u.tag = some x ∧
            selectCase (fmtOf nm ext fs).K u.cases x = some (ch u))
    (choices_pairwise (unionsOf_nodup (hcov.members _ _ hs h2)) fun u hu => (hgood u (mem_unionsOf.1 hu)).1)
    (fun ch hch => h3 ch fun u hu => (hgood u hu).2 _ (choices_mem hch u (mem_unionsOf.2 hu))) ?_
  rintro a _ b _ v hv ha hb ⟨u, hu, hab⟩
  obtain ⟨ctx, hctx, hm⟩ := generateFiles_ctx hkeep.selects h hok hg hx t ht v hv
  obtain ⟨rec, a1, a2, a3⟩ := ha (hB v hv) ctx hctx hm
  obtain ⟨rec', b1, b2, b3⟩ := hb (hB v hv) ctx hctx hm
  have hlen := hB v hv
  have := hg.bound
  obtain ⟨e, _⟩ := enc_unique hok.fmtOK hord (by omega) a1 b1 a2 b2
  cases e
  obtain ⟨x, x1, x2⟩ := a3 u (mem_unionsOf.1 hu)
  obtain ⟨y, y1, y2⟩ := b3 u (mem_unionsOf.1 hu)
  rw [x1] at y1
  cases y1
  rw [x2] at y2
  exact hab (by simpa using y2)

/-- **C64.** The number of vectors is exponential in the number of unions: at least `2 ^ n` for a struct with `n`
unions that have at least two cases each that can be selected and do not fail. -/
theorem C64_exponential {E : Tv.Env} (hkeep : Keeps E) {nm : String → String} {ext : Go.Ext} {fs : List File}
    (hok : FilesOK nm ext fs) (hord : OrdOK (fmtOf nm ext fs)) {fuel : Nat} {seed : E.R.σ} {corpus : Corpus}
    (h : generateFiles E fuel seed fs = .ok corpus) {B : Nat} {C O : String → Prop}
    (hg : FmtGen (fmtOf nm ext fs) B C O) {G : Glob} (hcov : FmtCov (fmtOf nm ext fs) G) (hx : FmtCtx (fmtOf nm ext fs))
    {t : Tv.Suite} (ht : t ∈ corpus) (hB : ∀ v ∈ t.vectors, v.data.length < B) {s : Struct}
    (hs : (fmtOf nm ext fs).structs t.type = some s)
    (htwo : ∀ u, .union u ∈ s.ms → ∃ c c', c ≠ c' ∧ (Leaf.fail ∉ c.members ∧
      ∃ x, selectCase (fmtOf nm ext fs).K u.cases x = some c) ∧ (Leaf.fail ∉ c'.members ∧
      ∃ x, selectCase (fmtOf nm ext fs).K u.cases x = some c')) :
    2 ^ (unionsOf s.ms).length ≤ t.vectors.length := by
  classical
  have : ∃ g : UnionMember → List UnionCase, (∀ u, .union u ∈ s.ms → (g u).Nodup ∧ ∀ c ∈ g u, Leaf.fail ∉ c.members ∧
      ∃ x, selectCase (fmtOf nm ext fs).K u.cases x = some c) ∧ ∀ u, .union u ∈ s.ms → (g u).length = 2 := by
    have hall : ∀ u, ∃ l : List UnionCase, .union u ∈ s.ms → (l.Nodup ∧ ∀ c ∈ l, Leaf.fail ∉ c.members ∧
      ∃ x, selectCase (fmtOf nm ext fs).K u.cases x = some c) ∧ l.length = 2 := by
      intro u
      by_cases hu : .union u ∈ s.ms
      · obtain ⟨c, c', hne, h1, h2⟩ := htwo u hu
        refine ⟨[c, c'], fun _ => ⟨⟨by simpa using hne, ?_⟩, rfl⟩⟩
        intro d hd
        rcases List.mem_cons.1 hd with rfl | hd
        · exact h1
        · rw [List.mem_singleton.1 hd]; exact h2
      · exact ⟨[], fun h => (hu h).elim⟩
    choose g hg using hall
    exact ⟨g, fun u hu => (hg u hu).1, fun u hu => (hg u hu).2⟩
  obtain ⟨g, g1, g2⟩ := this
  refine Nat.le_trans (Nat.le_of_eq ?_) (C64_count hkeep hok hord h hg hcov hx ht hB hs g1)
  have : (unionsOf s.ms).map (fun u => (g u).length) = List.replicate (unionsOf s.ms).length 2 := by
    rw [List.eq_replicate_iff]
    refine ⟨by simp, fun b hb => ?_⟩
    obtain ⟨u, hu, rfl⟩ := List.mem_map.1 hb
    exact g2 u (mem_unionsOf.1 hu)
  rw [this]
  generalize (unionsOf s.ms).length = k
  induction k with
  | zero => rfl
  | succ k ih => rw [List.replicate_succ, List.prod_cons, ← ih, Nat.pow_succ, Nat.mul_comm]

/-! ## Three unions -/

/-- A union of one byte and of none. -/
def wideUnion (n tag : String) : Member := .union ⟨n, ⟨"", tag⟩, none,
  [⟨some ⟨[tvLit 1]⟩, [.field ⟨n ++ "_a", tvU 8⟩]⟩, ⟨some ⟨[tvLit 2]⟩, []⟩, ⟨none, [.fail]⟩]⟩

/-- `struct w { u8 p; u8 q; u8 r; union x [p] { 1: u8 x_a; 2: ; default: fail; }; union y [q] { … }; union z [r] { … }; }` -/
def wideFile : List File := tvStructs [⟨"w", [], some [.leaf (uF "p" 8), .leaf (uF "q" 8), .leaf (uF "r" 8),
  wideUnion "x" "p", wideUnion "y" "q", wideUnion "z" "r"]⟩]

theorem wide_ok : FilesOK exNm exExt wideFile := by refine FilesOK.of_check ?_ ?_ ?_ <;> decide +kernel

theorem wide_class : FmtGen (fmtOf exNm exExt wideFile) (2 ^ 63) (fun _ => False) (fun _ => False) := by
  have := FmtGen.of_check (nm := exNm) (ext := exExt) (fs := wideFile) (B := 2 ^ 63) 1 [] [] (by decide) (by decide +kernel)
    (by decide +kernel) (by decide +kernel) (by decide +kernel)
  simpa using this

theorem wide_cov : FmtCov (fmtOf exNm exExt wideFile) (globOf (fmtOf exNm exExt wideFile) 1) := by
  refine FmtCov.of_check 1 ?_; decide +kernel

theorem wide_ctx : FmtCtx (fmtOf exNm exExt wideFile) := by
  refine FmtCtx.of_check ?_ ?_ <;> decide +kernel

/-- Checking that 1 and 2 select different cases that do not fail. -/
def twoB (K : String → Option Int) (u : UnionMember) : Bool :=
  match selectCase K u.cases 1, selectCase K u.cases 2 with
  | some c, some c' => decide (c ≠ c' ∧ Leaf.fail ∉ c.members ∧ Leaf.fail ∉ c'.members)
  | _, _ => false

theorem twoB_spec {K : String → Option Int} {u : UnionMember} (h : twoB K u = true) : ∃ c c', c ≠ c' ∧
    (Leaf.fail ∉ c.members ∧ ∃ x, selectCase K u.cases x = some c) ∧
    (Leaf.fail ∉ c'.members ∧ ∃ x, selectCase K u.cases x = some c') := by
  unfold twoB at h
  split at h
  · rename_i c c' e e'
    obtain ⟨h1, h2, h3⟩ := of_decide_eq_true h
    exact ⟨c, c', h1, ⟨h2, 1, e⟩, h3, 2, e'⟩
  · cases h

/-- Three unions of two cases have at least eight vectors, for every random source and growth of slices. -/
example (E : Tv.Env) (hkeep : Keeps E) (fuel : Nat) (seed : E.R.σ) {corpus : Corpus}
    (h : generateFiles E fuel seed wideFile = .ok corpus) {t : Tv.Suite} (ht : t ∈ corpus) (hn : t.type = "w")
    (hB : ∀ v ∈ t.vectors, v.data.length < 2 ^ 63) : 8 ≤ t.vectors.length := by
  have hs : (fmtOf exNm exExt wideFile).structs t.type = some (structOf wideFile "w") := by rw [hn]; decide +kernel
  refine C64_exponential hkeep wide_ok (OrdOK.of_check (by decide +kernel)) h wide_class wide_cov wide_ctx ht hB hs ?_
  intro u hu
  exact twoB_spec ((show ∀ u ∈ unionsOf (structOf wideFile "w").ms, twoB (fmtOf exNm exExt wideFile).K u = true by
    decide +kernel) u (mem_unionsOf.2 hu))

/-- It returns exactly eight here, and they are short. -/
example : generateFiles exEnv 5 (0 : Nat) wideFile = .ok (corpusOf wideFile) ∧
    (corpusOf wideFile).map (fun t => (t.type, t.vectors.length)) = [("w", 8)] ∧
    ∀ t ∈ corpusOf wideFile, ∀ v ∈ t.vectors, v.data.length < 2 ^ 63 := by
  obtain ⟨v, hv⟩ : ∃ v, v ∈ vectorsOf wideFile "w" := List.exists_mem_of_ne_nil _ (by decide +kernel)
  exact ⟨(corpusOf_eq hv).1, by decide +kernel, by decide +kernel⟩

/-- The first case of the first union, the second of the second and the first of the third. -/
def wideChoice (u : UnionMember) : UnionCase :=
  if u.name = "y" then ⟨some ⟨[tvLit 2]⟩, []⟩ else ⟨some ⟨[tvLit 1]⟩, [.field ⟨u.name ++ "_a", tvU 8⟩]⟩

/-- Among them is one that takes these. -/
example (hid : Bytes) : ∃ v ∈ vectorsOf wideFile "w", ∃ ctx rec,
    Accepts (emitted wideFile) exExt (2 ^ 32) (exNm "w") (ctxArgs (structOf wideFile "w") ctx) v.data hid
      (.obj (exNm "w") rec) [] ∧ getF rec (exNm "p") = some (.num 1) ∧ getF rec (exNm "q") = some (.num 2) ∧
      getF rec (exNm "r") = some (.num 1) := by
  obtain ⟨v0, hv0⟩ : ∃ v, v ∈ vectorsOf wideFile "w" := List.exists_mem_of_ne_nil _ (by decide +kernel)
  obtain ⟨h, t, ht, hn, _⟩ := corpusOf_eq hv0
  obtain ⟨s, h1, _, h3⟩ := C64_combinations exEnv_keeps (marshallers_emitted (by decide +kernel)) wide_ok
    (OrdOK.of_check (by decide +kernel)) h wide_class wide_cov wide_ctx ht (A := 2 ^ 32) (by decide) (by decide) hid
  have hs : (fmtOf exNm exExt wideFile).structs "w" = some (structOf wideFile "w") := by decide +kernel
  rw [hn, hs] at h1
  cases h1
  obtain ⟨v, hv, hq⟩ := h3 wideChoice fun u hu => by
    have := (show ∀ u ∈ unionsOf (structOf wideFile "w").ms, Leaf.fail ∉ (wideChoice u).members ∧
      selectCase (fmtOf exNm exExt wideFile).K u.cases (if u.name = "y" then 2 else 1) = some (wideChoice u) by
        decide +kernel) u (mem_unionsOf.2 hu)
    exact ⟨this.1, _, this.2⟩
  have hB : ∀ t ∈ corpusOf wideFile, ∀ v ∈ t.vectors, v.data.length < 2 ^ 63 := by decide +kernel
  obtain ⟨ctx, rec, _, _, q1, q2⟩ := hq (hB t ht v hv)
  rw [hn] at q1
  have hsel : ∀ u, .union u ∈ (structOf wideFile "w").ms → ∃ x, getF rec (exNm u.tag.name) = some (.num x) ∧
      x = if u.name = "y" then 2 else 1 := by
    intro u hu
    obtain ⟨x, x1, x2⟩ := q2 u hu
    refine ⟨x, refVal_local ((show ∀ u ∈ unionsOf (structOf wideFile "w").ms, u.tag.scope = "" by
      decide +kernel) u (mem_unionsOf.2 hu)) x1, ?_⟩
    have := case_of_select x2 (by unfold wideChoice; split <;> rfl)
    unfold wideChoice at this
    split at this <;> rename_i e <;>
      simpa [caseHas, listHas, rangeHas, bounds, ival, tvLit, e, Int.le_antisymm_iff, and_comm] using this
  have hw : ∀ n tag, Member.union ⟨n, ⟨"", tag⟩, none,
      [⟨some ⟨[tvLit 1]⟩, [.field ⟨n ++ "_a", tvU 8⟩]⟩, ⟨some ⟨[tvLit 2]⟩, []⟩, ⟨none, [.fail]⟩]⟩ = wideUnion n tag :=
    fun _ _ => rfl
  refine ⟨v, List.mem_flatMap.2 ⟨t, ht, by rw [if_pos hn]; exact hv⟩, ctx, rec, q1, ?_, ?_, ?_⟩
  · obtain ⟨x, x1, x2⟩ := hsel _ (by rw [hw "x" "p"]; decide +kernel)
    rw [x1, x2]; rfl
  · obtain ⟨x, x1, x2⟩ := hsel _ (by rw [hw "y" "q"]; decide +kernel)
    rw [x1, x2]; rfl
  · obtain ⟨x, x1, x2⟩ := hsel _ (by rw [hw "z" "r"]; decide +kernel)
    rw [x1, x2]; rfl

end Verif.Props
