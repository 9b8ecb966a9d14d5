import Verif.BranchLemmas
import Mathlib.Data.List.Pairwise
/-!
# Properties C09–C16: the resolver and union branches
-/
namespace Verif.Props
open Verif Verif.Ast Verif.Intervals Verif.Inspect Verif.Spec

/-! ## C09 -/

/-- Names are unique within each kind of declaration. -/
def UniqueNames (f : File) : Prop :=
  (f.structs.map (·.name)).Nodup ∧ (f.contexts.map (·.name)).Nodup ∧ (f.constants.map (·.name)).Nodup

/-- Two outcomes of loading are indistinguishable: same error, or lookups agree. -/
def SameOutcome (a b : Res Resolver) : Prop :=
  match a, b with
  | .ok r, .ok r' => (∀ n, r.struct n = r'.struct n) ∧ (∀ n, r.context n = r'.context n) ∧
      (∀ n, r.constant n = r'.constant n)
  | .err m, .err m' => m = m'
  | _, _ => False

theorem emptyFits (f : File) : FileFits newResolverEmpty f ↔ UniqueNames f := by
  unfold FileFits UniqueNames FileUnique
  simp [newResolverEmpty, Resolver.struct, Resolver.context, Resolver.constant]

/-- C09: a file with unique names loads, and each lookup returns exactly the declaration of that name,
or nothing. -/
theorem C09_lookup (o : IterOrder) (f : File) (h : UniqueNames f) :
    ∃ r, newResolver o f = .ok r ∧
      (∀ n s, r.struct n = some s ↔ s ∈ f.structs ∧ s.name = n) ∧
      (∀ n c, r.context n = some c ↔ c ∈ f.contexts ∧ c.name = n) ∧
      (∀ n v, r.constant n = some v ↔ ∃ c ∈ f.constants, c.name = n ∧ c.value = v) := by
  obtain ⟨r, h1, h2, h3, h4⟩ := (addFile_spec o 0 newResolverEmpty f).1 ((emptyFits f).2 h)
  have find_iff : ∀ {α : Type} (key : α → String) (l : List α), (l.map key).Nodup → ∀ n a,
      l.find? (fun x => key x = n) = some a ↔ a ∈ l ∧ key a = n := by
    intro α key l hn n a
    induction l with
    | nil => simp
    | cons x l ih =>
      simp only [List.map_cons, List.nodup_cons] at hn
      rw [List.find?_cons]
      by_cases hx : key x = n
      · simp only [hx, decide_true, Option.some.injEq, List.mem_cons]
        constructor
        · rintro rfl; exact ⟨Or.inl rfl, hx⟩
        · rintro ⟨rfl | hm, he⟩
          · rfl
          · exact absurd (List.mem_map.2 ⟨a, hm, by rw [he, hx]⟩) hn.1
      · simp only [hx, decide_false, ih hn.2, List.mem_cons]
        constructor
        · rintro ⟨hm, he⟩; exact ⟨Or.inr hm, he⟩
        · rintro ⟨rfl | hm, he⟩
          · exact absurd he hx
          · exact ⟨hm, he⟩
  have e1 : ∀ n, newResolverEmpty.struct n = none := fun _ => rfl
  have e2 : ∀ n, newResolverEmpty.context n = none := fun _ => rfl
  have e3 : ∀ n, newResolverEmpty.constant n = none := fun _ => rfl
  refine ⟨r, by simp [newResolver, newResolverFiles, Resolver.addFiles, h1], ?_, ?_, ?_⟩
  · intro n s; rw [h2, e1, Option.or_none]; exact find_iff _ _ h.1 n s
  · intro n s; rw [h3, e2, Option.or_none]; exact find_iff _ _ h.2.1 n s
  · intro n v
    rw [h4, e3, Option.or_none, Option.map_eq_some_iff]
    constructor
    · rintro ⟨c, hc, rfl⟩
      have := (find_iff (fun s : Constant => s.name) _ h.2.2 n c).1 hc
      exact ⟨c, this.1, this.2, rfl⟩
    · rintro ⟨c, hc, hn, rfl⟩
      exact ⟨c, (find_iff (fun s : Constant => s.name) _ h.2.2 n c).2 ⟨hc, hn⟩, rfl⟩

/-- C09: a file declaring a name twice within one kind is rejected with an error (not a panic). -/
theorem C09_duplicate (o : IterOrder) (f : File) (h : ¬ UniqueNames f) :
    ∃ m, newResolver o f = .err m := by
  obtain ⟨m, h1, _⟩ := (addFile_spec o 0 newResolverEmpty f).2 (fun hc => h ((emptyFits f).1 hc))
  exact ⟨m, by simp [newResolver, newResolverFiles, Resolver.addFiles, h1]⟩

/-- A small file used in examples: two constants, a context, an extern and a defined struct. -/
def exFile : File :=
  { constants := [⟨"A", 3⟩, ⟨"B", 9⟩]
    contexts := [⟨"ctx", [⟨"n", .base (.int ⟨16, none⟩)⟩]⟩]
    structs := [⟨"ext", [], none⟩, ⟨"point", [], some [.leaf (.field ⟨"x", .base (.int ⟨8, none⟩)⟩)]⟩]
    pragmas := [] }

example : UniqueNames exFile := by
  refine ⟨by decide, by decide, by decide⟩

/-- Iteration in reverse order, used in examples. -/
def revOrder : IterOrder := ⟨fun _ _ l => l.reverse, fun _ _ l => List.reverse_perm l⟩

example : (newResolver revOrder exFile).isOk = true := by decide +kernel

/-! ## C10 -/

theorem addFile_same (o o' : IterOrder) (k k' : Nat) (r r' : Resolver) (f : File)
    (h1 : ∀ n, r.struct n = r'.struct n) (h2 : ∀ n, r.context n = r'.context n)
    (h3 : ∀ n, r.constant n = r'.constant n) :
    SameOutcome (r.addFile o k f) (r'.addFile o' k' f) := by
  obtain ⟨a1, a2⟩ := addFile_spec o k r f
  obtain ⟨b1, b2⟩ := addFile_spec o' k' r' f
  by_cases hf : FileFits r f
  · have hf' : FileFits r' f := by
      unfold FileFits at hf ⊢
      simpa only [h1, h2, h3] using hf
    obtain ⟨q, c1, c2, c3, c4⟩ := a1 hf
    obtain ⟨q', d1, d2, d3, d4⟩ := b1 hf'
    rw [c1, d1]
    exact ⟨fun n => by rw [c2, d2, h1], fun n => by rw [c3, d3, h2], fun n => by rw [c4, d4, h3]⟩
  · obtain ⟨m, c1, c2⟩ := a2 hf
    rw [c1, c2 o' k' r' (fun n => (h1 n).symm) (fun n => (h2 n).symm) (fun n => (h3 n).symm)]
    rfl

theorem addFiles_same (o o' : IterOrder) (fs : List File) : ∀ (k k' : Nat) (r r' : Resolver),
    (∀ n, r.struct n = r'.struct n) → (∀ n, r.context n = r'.context n) →
    (∀ n, r.constant n = r'.constant n) →
    SameOutcome (Resolver.addFiles o k r fs) (Resolver.addFiles o' k' r' fs) := by
  induction fs with
  | nil => intro k k' r r' h1 h2 h3; exact ⟨h1, h2, h3⟩
  | cons f fs ih =>
    intro k k' r r' h1 h2 h3
    have := addFile_same o o' k k' r r' f h1 h2 h3
    unfold Resolver.addFiles
    cases ha : r.addFile o k f with
    | ok q =>
      cases hb : r'.addFile o' k' f with
      | ok q' =>
        rw [ha, hb] at this
        exact ih _ _ q q' this.1 this.2.1 this.2.2
      | err m => rw [ha, hb] at this; exact this.elim
      | panic m => rw [ha, hb] at this; exact this.elim
    | err m =>
      cases hb : r'.addFile o' k' f with
      | ok q' => rw [ha, hb] at this; exact this.elim
      | err m' => rw [ha, hb] at this; exact this
      | panic m => rw [ha, hb] at this; exact this.elim
    | panic m =>
      cases hb : r'.addFile o' k' f <;> (rw [ha, hb] at this; exact this.elim)

/-- C10: whatever order Go iterates its maps in, loading gives the same error or the same lookups. -/
theorem C10_map_order_independent (o o' : IterOrder) (fs : List File) :
    SameOutcome (newResolverFiles o fs) (newResolverFiles o' fs) :=
  addFiles_same o o' fs 0 0 _ _ (fun _ => rfl) (fun _ => rfl) (fun _ => rfl)

/-- The identity iteration order, used in examples. -/
def idOrder : IterOrder := ⟨fun _ _ l => l, fun _ _ _ => List.Perm.refl _⟩

example : SameOutcome (newResolverFiles idOrder [exFile]) (newResolverFiles revOrder [exFile]) :=
  C10_map_order_independent _ _ _

/-! ## C11 -/

/-- The condition under which several files can be loaded together. -/
def FilesCompatible (fs : List File) : Prop :=
  (∀ f ∈ fs, UniqueNames f) ∧
  (fs.flatMap (·.structs)).Pairwise (fun a b => a.name = b.name → a.members = none) ∧
  ((fs.flatMap (·.contexts)).map (·.name)).Nodup ∧
  (fs.flatMap (·.constants)).Pairwise (fun a b => a.name = b.name → a.value = b.value)

/-- The last declaration with a given name. -/
def lastNamed {α : Type} (key : α → String) (l : List α) (n : String) : Option α :=
  l.reverse.find? (fun a => key a = n)

theorem lastNamed_append {α : Type} (key : α → String) (l l' : List α) (n : String) :
    lastNamed key (l ++ l') n = (lastNamed key l' n).or (lastNamed key l n) := by
  simp [lastNamed, List.find?_append]

theorem lastNamed_nodup {α : Type} (key : α → String) (l : List α) (h : (l.map key).Nodup) (n : String) :
    lastNamed key l n = l.find? (fun a => key a = n) := by
  induction l with
  | nil => rfl
  | cons a l ih =>
    simp only [List.map_cons, List.nodup_cons] at h
    have := lastNamed_append key [a] l n
    rw [List.singleton_append] at this
    rw [this, ih h.2, List.find?_cons]
    by_cases ha : key a = n
    · have hnone : l.find? (fun x => key x = n) = none := by
        rw [List.find?_eq_none]
        intro x hx
        simp only [decide_eq_true_eq]
        intro hxn
        exact h.1 (List.mem_map.2 ⟨x, hx, by rw [hxn, ha]⟩)
      simp [hnone, lastNamed, ha]
    · simp [lastNamed, ha]

theorem lastNamed_mem {α : Type} (key : α → String) (l : List α) (n : String) (a : α)
    (h : lastNamed key l n = some a) : a ∈ l ∧ key a = n := by
  unfold lastNamed at h
  have h1 := List.mem_of_find?_eq_some h
  have h2 := List.find?_some h
  exact ⟨List.mem_reverse.1 h1, by simpa using h2⟩

theorem lastNamed_isSome {α : Type} (key : α → String) (l : List α) (n : String) :
    lastNamed key l n = none ↔ ∀ a ∈ l, key a ≠ n := by
  simp [lastNamed]

/-- The resolver represents the declarations seen so far. -/
def Represents (r : Resolver) (S : List Struct) (C : List Context) (V : List Constant) : Prop :=
  (∀ n, r.struct n = lastNamed (·.name) S n) ∧ (∀ n, r.context n = lastNamed (·.name) C n) ∧
  (∀ n, r.constant n = (lastNamed (·.name) V n).map (·.value))

theorem addFiles_spec (o : IterOrder) (fs : List File) : ∀ (k : Nat) (r : Resolver) S C V,
    Represents r S C V →
    S.Pairwise (fun a b => a.name = b.name → a.members = none) → (C.map (·.name)).Nodup →
    V.Pairwise (fun a b => a.name = b.name → a.value = b.value) →
    (((∀ f ∈ fs, UniqueNames f) ∧
      (S ++ fs.flatMap (·.structs)).Pairwise (fun a b => a.name = b.name → a.members = none) ∧
      ((C ++ fs.flatMap (·.contexts)).map (·.name)).Nodup ∧
      (V ++ fs.flatMap (·.constants)).Pairwise (fun a b => a.name = b.name → a.value = b.value)) →
      ∃ r', Resolver.addFiles o k r fs = .ok r' ∧
        Represents r' (S ++ fs.flatMap (·.structs)) (C ++ fs.flatMap (·.contexts))
          (V ++ fs.flatMap (·.constants))) ∧
    (¬ ((∀ f ∈ fs, UniqueNames f) ∧
      (S ++ fs.flatMap (·.structs)).Pairwise (fun a b => a.name = b.name → a.members = none) ∧
      ((C ++ fs.flatMap (·.contexts)).map (·.name)).Nodup ∧
      (V ++ fs.flatMap (·.constants)).Pairwise (fun a b => a.name = b.name → a.value = b.value)) →
      ∃ m, Resolver.addFiles o k r fs = .err m) := by
  induction fs with
  | nil =>
    intro k r S C V hr hS hC hV
    refine ⟨fun _ => ⟨r, rfl, by simpa using hr⟩, fun h => absurd ?_ h⟩
    simpa using ⟨hS, hC, hV⟩
  | cons f fs ih =>
    intro k r S C V hr hS hC hV
    obtain ⟨hr1, hr2, hr3⟩ := hr
    -- local condition for this file
    have key : FileFits r f ↔ (UniqueNames f ∧
        (S ++ f.structs).Pairwise (fun a b => a.name = b.name → a.members = none) ∧
        ((C ++ f.contexts).map (·.name)).Nodup ∧
        (V ++ f.constants).Pairwise (fun a b => a.name = b.name → a.value = b.value)) := by
      constructor
      · rintro ⟨hu, h1, h2, h3⟩
        refine ⟨hu, ?_, ?_, ?_⟩
        · rw [List.pairwise_append]
          refine ⟨hS, ?_, ?_⟩
          · have := hu.1
            rw [List.Nodup, List.pairwise_map] at this
            exact this.imp (fun h he => absurd he h)
          · intro a ha b hb hab
            have hex : ∃ e, lastNamed (fun s : Struct => s.name) S b.name = some e := by
              cases h : lastNamed (fun s : Struct => s.name) S b.name with
              | some e => exact ⟨e, rfl⟩
              | none => exact absurd hab ((lastNamed_isSome _ _ _).1 h a ha)
            obtain ⟨e, he⟩ := hex
            have hext := h1 b hb e (by rw [hr1]; exact he)
            -- every earlier declaration of that name is extern, being before or equal to e
            have : ∀ (S : List Struct), S.Pairwise (fun a b => a.name = b.name → a.members = none) →
                ∀ e, lastNamed (fun s : Struct => s.name) S b.name = some e → e.extern = true →
                ∀ a ∈ S, a.name = b.name → a.members = none := by
              intro S
              induction S with
              | nil => intro _ e he; simp [lastNamed] at he
              | cons s S ihS =>
                intro hp e he hx a ha hab
                have hp' := List.pairwise_cons.1 hp
                have hap := lastNamed_append (fun s : Struct => s.name) [s] S b.name
                rw [List.singleton_append] at hap
                rw [hap] at he
                cases hl : lastNamed (fun s : Struct => s.name) S b.name with
                | some e' =>
                  rw [hl] at he
                  simp at he
                  subst he
                  have hm := lastNamed_mem _ _ _ _ hl
                  rcases List.mem_cons.1 ha with rfl | ha
                  · exact hp'.1 e' hm.1 (by rw [hab]; exact hm.2.symm)
                  · exact ihS hp'.2 e' hl hx a ha hab
                | none =>
                  rw [hl, Option.none_or] at he
                  have hm := lastNamed_mem _ _ _ _ he
                  have hes : e = s := by simpa using hm.1
                  subst hes
                  rcases List.mem_cons.1 ha with rfl | ha
                  · simpa [Struct.extern] using hx
                  · exact absurd hab ((lastNamed_isSome _ _ _).1 hl a ha)
            exact this S hS e he hext a ha hab
        · rw [List.map_append, List.nodup_append]
          refine ⟨hC, hu.2.1, ?_⟩
          intro a ha b hb hab
          obtain ⟨ca, hca, rfl⟩ := List.mem_map.1 ha
          obtain ⟨cb, hcb, rfl⟩ := List.mem_map.1 hb
          have := h2 cb hcb
          rw [hr2, lastNamed_isSome] at this
          exact this ca hca hab
        · rw [List.pairwise_append]
          refine ⟨hV, ?_, ?_⟩
          · have := hu.2.2
            rw [List.Nodup, List.pairwise_map] at this
            exact this.imp (fun h he => absurd he h)
          · intro a ha b hb hab
            have hex : ∃ e, lastNamed (fun s : Constant => s.name) V b.name = some e := by
              cases h : lastNamed (fun s : Constant => s.name) V b.name with
              | some e => exact ⟨e, rfl⟩
              | none => exact absurd hab ((lastNamed_isSome _ _ _).1 h a ha)
            obtain ⟨e, he⟩ := hex
            have hev := h3 b hb e.value (by rw [hr3, he]; rfl)
            have hm := lastNamed_mem _ _ _ _ he
            -- all constants of that name in V agree
            have : ∀ (V : List Constant), V.Pairwise (fun a b => a.name = b.name → a.value = b.value) →
                ∀ a ∈ V, ∀ e ∈ V, a.name = e.name → a.value = e.value := by
              intro V hV
              have hsym : Std.Symm (fun a b : Constant => a.name = b.name → a.value = b.value) :=
                ⟨fun a b h he => (h he.symm).symm⟩
              intro a ha e he
              by_cases hae : a = e
              · intro _; rw [hae]
              · exact hV.forall ha he hae
            rw [this V hV a ha e hm.1 (by rw [hab]; exact hm.2.symm), hev]
      · rintro ⟨hu, h1, h2, h3⟩
        refine ⟨hu, ?_, ?_, ?_⟩
        · intro s hs e he
          rw [hr1] at he
          have hm := lastNamed_mem _ _ _ _ he
          have := (List.pairwise_append.1 h1).2.2 e hm.1 s hs hm.2
          simp [Struct.extern, this]
        · intro c hc
          rw [hr2, lastNamed_isSome]
          intro a ha hac
          rw [List.map_append, List.nodup_append] at h2
          exact h2.2.2 _ (List.mem_map.2 ⟨a, ha, rfl⟩) _ (List.mem_map.2 ⟨c, hc, rfl⟩) hac
        · intro c hc e he
          rw [hr3, Option.map_eq_some_iff] at he
          obtain ⟨a, ha, rfl⟩ := he
          have hm := lastNamed_mem _ _ _ _ ha
          exact (List.pairwise_append.1 h3).2.2 a hm.1 c hc hm.2
    obtain ⟨a1, a2⟩ := addFile_spec o k r f
    unfold Resolver.addFiles
    by_cases hf : FileFits r f
    · obtain ⟨q, c1, c2, c3, c4⟩ := a1 hf
      obtain ⟨hu, g1, g2, g3⟩ := key.1 hf
      have hrep : Represents q (S ++ f.structs) (C ++ f.contexts) (V ++ f.constants) := by
        refine ⟨fun n => ?_, fun n => ?_, fun n => ?_⟩
        · rw [c2, hr1, lastNamed_append, lastNamed_nodup _ _ hu.1]
        · rw [c3, hr2, lastNamed_append, lastNamed_nodup _ _ hu.2.1]
        · rw [c4, hr3, lastNamed_append, lastNamed_nodup _ _ hu.2.2, Option.map_or]
      obtain ⟨i1, i2⟩ := ih (k + 1) q _ _ _ hrep g1 g2 g3
      simp only [c1, Res.ok_bind]
      simp only [List.append_assoc] at i1 i2
      simp only [List.flatMap_cons, List.forall_mem_cons]
      refine ⟨fun h => i1 ⟨h.1.2, h.2⟩, fun h => i2 (fun hc => h ⟨⟨hu, hc.1⟩, hc.2⟩)⟩
    · obtain ⟨m, c1, _⟩ := a2 hf
      simp only [c1, Res.err_bind]
      refine ⟨fun h => absurd (key.2 ?_) hf, fun _ => ⟨m, rfl⟩⟩
      simp only [List.flatMap_cons, List.forall_mem_cons, ← List.append_assoc] at h
      obtain ⟨⟨hu, _⟩, g1, g2, g3⟩ := h
      refine ⟨hu, (List.pairwise_append.1 g1).1, ?_, (List.pairwise_append.1 g3).1⟩
      rw [List.map_append, List.nodup_append] at g2
      exact g2.1

/-- C11: several files load exactly when they are compatible; lookups then give the last declaration of
the name, in file order (for constants, its value). Otherwise loading returns an error. -/
theorem C11_multi_file (o : IterOrder) (fs : List File) :
    (FilesCompatible fs → ∃ r, newResolverFiles o fs = .ok r ∧
      (∀ n, r.struct n = lastNamed (·.name) (fs.flatMap (·.structs)) n) ∧
      (∀ n, r.context n = lastNamed (·.name) (fs.flatMap (·.contexts)) n) ∧
      (∀ n, r.constant n = (lastNamed (·.name) (fs.flatMap (·.constants)) n).map (·.value))) ∧
    (¬ FilesCompatible fs → ∃ m, newResolverFiles o fs = .err m) := by
  have := addFiles_spec o fs 0 newResolverEmpty [] [] []
    ⟨fun _ => rfl, fun _ => rfl, fun _ => rfl⟩ (by simp) (by simp) (by simp)
  simpa [FilesCompatible, newResolverFiles, Represents] using this

/-- C11 (file order matters): an extern declaration is accepted before the definition but not after. -/
theorem C11_order_matters :
    ∃ f g : File, ∀ o, (newResolverFiles o [f, g]).isOk = true ∧ (newResolverFiles o [g, f]).isErr = true := by
  refine ⟨⟨[], [], [⟨"p", [], none⟩], []⟩, ⟨[], [], [⟨"p", [], some []⟩], []⟩, fun o => ⟨?_, ?_⟩⟩
  · obtain ⟨r, h, _⟩ := (C11_multi_file o _).1 (show FilesCompatible [⟨[], [], [⟨"p", [], none⟩], []⟩,
      ⟨[], [], [⟨"p", [], some []⟩], []⟩] by
        refine ⟨?_, ?_, ?_, ?_⟩ <;> simp [UniqueNames])
    rw [h]; rfl
  · obtain ⟨m, h⟩ := (C11_multi_file o _).2 (show ¬ FilesCompatible [⟨[], [], [⟨"p", [], some []⟩], []⟩,
      ⟨[], [], [⟨"p", [], none⟩], []⟩] by
        intro h
        have := h.2.1
        simp at this)
    rw [h]; rfl

example : FilesCompatible [⟨[⟨"A", 1⟩], [], [⟨"p", [], none⟩], []⟩,
    ⟨[⟨"A", 1⟩, ⟨"B", 2⟩], [⟨"c", []⟩], [⟨"p", [], some []⟩, ⟨"q", ["c"], some []⟩], []⟩] := by
  refine ⟨?_, ?_, ?_, ?_⟩ <;> simp [UniqueNames]

/-! ## C12 -/

/-- C12: a literal resolves to itself, a constant to its declared value, and the only failure is an
undeclared constant (an error, never a panic). -/
theorem C12_integer (r : Resolver) :
    (∀ v, r.integer (.literal v) = .ok v) ∧
    (∀ n v, r.integer (.constRef n) = .ok v ↔ r.constant n = some v) ∧
    (∀ i, (∃ m, r.integer i = .err m) ↔ ∃ n, i = .constRef n ∧ r.constant n = none) ∧
    (∀ i m, r.integer i ≠ .panic m) := by
  refine ⟨fun v => rfl, fun n v => ?_, fun i => ?_, fun i m => ?_⟩
  · simp only [Resolver.integer]
    cases r.constant n <;> simp
  · cases i with
    | literal v => simp [Resolver.integer]
    | constRef n =>
      simp only [Resolver.integer]
      cases h : r.constant n <;> simp [h]
  · cases i with
    | literal v => simp [Resolver.integer]
    | constRef n =>
      simp only [Resolver.integer]
      cases h : r.constant n <;> simp

/-- C12, from source: in a file with unique names, constant `n` resolves to `v` exactly when the file
declares `const n = v`. -/
theorem C12_integer_file (o : IterOrder) (f : File) (h : UniqueNames f) :
    ∃ r, newResolver o f = .ok r ∧
      ∀ n v, r.integer (.constRef n) = .ok v ↔ ∃ c ∈ f.constants, c.name = n ∧ c.value = v := by
  obtain ⟨r, h1, _, _, h4⟩ := C09_lookup o f h
  exact ⟨r, h1, fun n v => by rw [(C12_integer r).2.1, h4]⟩

/-! ## C13 -/

/-- Every value involved is a non-negative `int64`, as in every file the parser produces. -/
def NonnegValues (r : Resolver) (l : IntegerList) : Prop := Nonneg r.constant l.ranges

/-- C13: the set is built exactly when every constant is declared, no range is reversed and no integer
is listed by two entries; it then contains exactly the listed integers. -/
theorem C13_intervals (r : Resolver) (l : IntegerList) (hn : NonnegValues r l) :
    ((∃ s, r.intervals l = .ok s) ↔
      ((∀ rng ∈ l.ranges, ∃ lo hi, bounds r.constant rng = some (lo, hi) ∧ lo ≤ hi) ∧
       ¬ ∃ (x : UInt64) (j k : Nat) (a b : IntegerRange), j < k ∧ l.ranges[j]? = some a ∧
          l.ranges[k]? = some b ∧ rangeHas r.constant x.toNat a = true ∧
          rangeHas r.constant x.toNat b = true)) ∧
    (∀ s, r.intervals l = .ok s →
      ∀ x : UInt64, s.contains x = true ↔ listHas r.constant l x.toNat = true) := by
  refine ⟨?_, fun s hs => (intervals_canonical hn hs).2.2⟩
  have share : ∀ is, List.Forall₂ (Matches r.constant) l.ranges is →
      ((∃ x : UInt64, ∃ j k : Nat, ∃ a c : Interval, j < k ∧ is[j]? = some a ∧
        is[k]? = some c ∧ InIv a x ∧ InIv c x) ↔
      ∃ (x : UInt64) (j k : Nat) (a b : IntegerRange), j < k ∧ l.ranges[j]? = some a ∧
          l.ranges[k]? = some b ∧ rangeHas r.constant x.toNat a = true ∧
          rangeHas r.constant x.toNat b = true) := by
    intro is hm
    constructor
    · rintro ⟨x, j, k, a, c, hjk, ha, hc, hax, hcx⟩
      obtain ⟨ra, h1, h2⟩ := (forall₂_get hm j).1 a ha
      obtain ⟨rc, h3, h4⟩ := (forall₂_get hm k).1 c hc
      exact ⟨x, j, k, ra, rc, hjk, h1, h3, (rangeHas_of_matches h2 x).2 hax,
        (rangeHas_of_matches h4 x).2 hcx⟩
    · rintro ⟨x, j, k, ra, rc, hjk, ha, hc, hax, hcx⟩
      obtain ⟨a, h1, h2⟩ := (forall₂_get hm j).2 ra ha
      obtain ⟨c, h3, h4⟩ := (forall₂_get hm k).2 rc hc
      exact ⟨x, j, k, a, c, hjk, h1, h3, (rangeHas_of_matches h2 x).1 hax,
        (rangeHas_of_matches h4 x).1 hcx⟩
  constructor
  · rintro ⟨s, hs⟩
    unfold Resolver.intervals at hs
    obtain ⟨is, his, hs⟩ := Res.bind_eq_ok.1 hs
    obtain ⟨b, hb, hs⟩ := Res.bind_eq_ok.1 hs
    have hm := rangeIntervals_ok r _ _ hn his
    refine ⟨?_, ?_⟩
    · intro rng hrng
      obtain ⟨j, hj⟩ := List.mem_iff_getElem?.1 hrng
      obtain ⟨a, _, h2⟩ := (forall₂_get hm j).2 rng hj
      exact ⟨_, _, h2.1, by have := UInt64.le_iff_toNat_le.1 h2.2; omega⟩
    · intro hshare
      obtain ⟨b', hb', hiff⟩ := C03_overlaps_iff is (forall₂_valid hm)
      rw [hb'] at hb; cases hb
      rw [hiff.2 ((share is hm).2 hshare)] at hs
      simp at hs
  · rintro ⟨h1, h2⟩
    obtain ⟨is, his⟩ := rangeIntervals_exists r _ hn h1
    have hm := rangeIntervals_ok r _ _ hn his
    obtain ⟨b, hb, hiff⟩ := C03_overlaps_iff is (forall₂_valid hm)
    obtain ⟨s, hs, _⟩ := C01_newSet_contains is (forall₂_valid hm)
    refine ⟨s, ?_⟩
    have : b = false := by
      cases b with
      | false => rfl
      | true => exact absurd ((share is hm).1 (hiff.1 rfl)) h2
    subst this
    simp [Resolver.intervals, his, hb, hs]

/-- C13: it panics exactly when some range is reversed and every entry before it is in order. -/
theorem C13_intervals_panic (r : Resolver) (l : IntegerList) (hn : NonnegValues r l) :
    (∃ m, r.intervals l = .panic m) ↔
      ∃ pre rng post lo hi, l.ranges = pre ++ rng :: post ∧ bounds r.constant rng = some (lo, hi) ∧
        hi < lo ∧ ∀ e ∈ pre, ∃ lo hi, bounds r.constant e = some (lo, hi) ∧ lo ≤ hi := by
  have key : ∀ rs, Nonneg r.constant rs → ((∃ m, r.rangeIntervals rs = .panic m) ↔
      ∃ pre rng post lo hi, rs = pre ++ rng :: post ∧ bounds r.constant rng = some (lo, hi) ∧
        hi < lo ∧ ∀ e ∈ pre, ∃ lo hi, bounds r.constant e = some (lo, hi) ∧ lo ≤ hi) := by
    intro rs
    induction rs with
    | nil => intro _; simp [Resolver.rangeIntervals]
    | cons rng rs ih =>
      intro hn
      obtain ⟨hn1, hn2⟩ := nonneg_tail hn
      obtain ⟨s1, s2, s3⟩ := entry_spec r rng hn1
      rw [rangeIntervals_cons]
      cases hb : bounds r.constant rng with
      | none =>
        rw [s1 hb]
        simp only [Res.err_bind, reduceCtorEq, exists_false, false_iff]
        rintro ⟨pre, rng', post, lo, hi, he, hbb, hlt, hpre⟩
        cases pre with
        | nil =>
          simp at he
          rw [← he.1, hb] at hbb; cases hbb
        | cons p pre =>
          simp at he
          obtain ⟨_, _, h, _⟩ := hpre p List.mem_cons_self
          rw [← he.1, hb] at h; cases h
      | some p =>
        obtain ⟨lo, hi⟩ := p
        by_cases hle : lo ≤ hi
        · obtain ⟨i, e1, _, _⟩ := s2 lo hi hb hle
          rw [e1]
          simp only [Res.ok_bind]
          have : (∃ m, (do let is ← r.rangeIntervals rs; Res.ok (i :: is)) = Res.panic m) ↔
              ∃ m, r.rangeIntervals rs = .panic m := by
            cases r.rangeIntervals rs <;> simp
          rw [this, ih hn2]
          constructor
          · rintro ⟨pre, rng', post, lo', hi', he, hbb, hlt, hpre⟩
            refine ⟨rng :: pre, rng', post, lo', hi', by rw [he]; rfl, hbb, hlt, ?_⟩
            intro e he'
            rcases List.mem_cons.1 he' with rfl | he'
            · exact ⟨lo, hi, hb, hle⟩
            · exact hpre e he'
          · rintro ⟨pre, rng', post, lo', hi', he, hbb, hlt, hpre⟩
            cases pre with
            | nil =>
              simp at he
              rw [← he.1, hb] at hbb
              simp only [Option.some.injEq, Prod.mk.injEq] at hbb
              omega
            | cons p pre =>
              simp at he
              exact ⟨pre, rng', post, lo', hi', he.2, hbb, hlt,
                fun e he' => hpre e (List.mem_cons_of_mem _ he')⟩
        · rw [s3 lo hi hb (by omega)]
          simp only [Res.panic_bind]
          refine ⟨fun _ => ⟨[], rng, rs, lo, hi, rfl, hb, by omega, by simp⟩, fun _ => ⟨_, rfl⟩⟩
  rw [← key l.ranges hn]
  unfold Resolver.intervals
  constructor
  · rintro ⟨m, h⟩
    cases his : r.rangeIntervals l.ranges with
    | panic m => exact ⟨m, rfl⟩
    | err m => rw [his] at h; simp at h
    | ok is =>
      exfalso
      rw [his] at h
      have hm := rangeIntervals_ok r _ _ hn his
      obtain ⟨b, hb, _⟩ := C03_overlaps_iff is (forall₂_valid hm)
      obtain ⟨s, hs, _⟩ := C01_newSet_contains is (forall₂_valid hm)
      simp only [Res.ok_bind, hb, hs] at h
      cases b <;> simp at h
  · rintro ⟨m, h⟩
    exact ⟨m, by rw [h]; rfl⟩

example : NonnegValues newResolverEmpty ⟨[⟨.literal 1, some (.literal 4)⟩, ⟨.literal 7, none⟩]⟩ := by
  intro r hr v hv
  simp only [List.mem_cons, List.not_mem_nil, or_false] at hr
  rcases hr with rfl | rfl <;> simp [ival] at hv <;> omega

example : newResolverEmpty.intervals ⟨[⟨.literal 1, some (.literal 4)⟩, ⟨.literal 7, none⟩]⟩ =
    .ok ⟨[⟨1, 4⟩, ⟨7, 7⟩]⟩ := by decide +kernel
example : (newResolverEmpty.intervals ⟨[⟨.literal 1, some (.literal 4)⟩, ⟨.literal 4, none⟩]⟩).isErr := by
  decide +kernel
example : (newResolverEmpty.intervals ⟨[⟨.literal 5, some (.literal 3)⟩]⟩).isPanic := by
  decide +kernel

/-! ## C14 -/

/-- C14: a reference gives type `t` exactly when the first field of that name, among the struct's own
top-level fields or the named context's fields, is an integer of type `t`; otherwise it is an error. -/
theorem C14_intType (r : Resolver) (ref : IDRef) (s : Struct) (fs : List Field)
    (hfs : (ref.scope = "" ∧ fs = s.ms.filterMap (fun | .leaf (.field f) => some f | _ => none)) ∨
      (ref.scope ≠ "" ∧ ∃ c, r.context ref.scope = some c ∧ fs = c.members)) :
    (∀ t, r.intType ref s = .ok t ↔
      ∃ pre f post, fs = pre ++ f :: post ∧ (∀ g ∈ pre, g.name ≠ ref.name) ∧ f.name = ref.name ∧
        f.type = .base (.int t)) ∧
    ((∀ t, r.intType ref s ≠ .ok t) → ∃ m, r.intType ref s = .err m) := by
  have hr : r.intType ref s = findIntType ref.name fs := by
    unfold Resolver.intType
    rcases hfs with ⟨h, rfl⟩ | ⟨h, c, hc, rfl⟩
    · rw [if_pos h]; rfl
    · rw [if_neg h, hc]
  rw [hr]
  clear hr hfs
  constructor
  · intro t
    induction fs with
    | nil => simp [findIntType]
    | cons g fs ih =>
      unfold findIntType
      by_cases hg : g.name = ref.name
      · rw [if_neg (by simpa using hg)]
        constructor
        · intro h
          refine ⟨[], g, fs, rfl, by simp, hg, ?_⟩
          split at h
          · rename_i t' ht; cases h; exact ht
          · cases h
        · rintro ⟨pre, f, post, he, hpre, hf, ht⟩
          cases pre with
          | nil =>
            simp at he
            rw [he.1, ht]
          | cons p pre =>
            simp at he
            exact absurd (he.1 ▸ hg) (hpre p List.mem_cons_self)
      · rw [if_pos hg, ih]
        constructor
        · rintro ⟨pre, f, post, he, hpre, h⟩
          refine ⟨g :: pre, f, post, by rw [he]; rfl, ?_, h⟩
          intro x hx
          rcases List.mem_cons.1 hx with rfl | hx
          · exact hg
          · exact hpre x hx
        · rintro ⟨pre, f, post, he, hpre, hf, ht⟩
          cases pre with
          | nil =>
            simp at he
            exact absurd (he.1 ▸ hf) hg
          | cons p pre =>
            simp at he
            exact ⟨pre, f, post, he.2, fun x hx => hpre x (List.mem_cons_of_mem _ hx), hf, ht⟩
  · intro h
    induction fs with
    | nil => exact ⟨_, rfl⟩
    | cons g fs ih =>
      unfold findIntType at h ⊢
      by_cases hg : g.name = ref.name
      · rw [if_neg (by simpa using hg)] at h ⊢
        split
        · rename_i t ht
          exact absurd (by rw [ht]) (h t)
        · exact ⟨_, rfl⟩
      · rw [if_pos hg] at h ⊢
        exact ih h

/-- C14: a reference into an undeclared context is an error. -/
theorem C14_intType_noContext (r : Resolver) (ref : IDRef) (s : Struct) (h : ref.scope ≠ "")
    (hc : r.context ref.scope = none) : ∃ m, r.intType ref s = .err m :=
  ⟨_, by unfold Resolver.intType; rw [if_neg h, hc]⟩

example : newResolverEmpty.intType ⟨"", "n"⟩ ⟨"s", [], some [.leaf (.field ⟨"x", .ptr⟩),
    .leaf (.field ⟨"n", .base (.int ⟨16, none⟩)⟩)]⟩ = .ok ⟨16, none⟩ := by decide

/-! ## C15, C16 -/

/-- Cases the parser can produce: non-empty lists of non-negative integers. -/
def CasesOK (r : Resolver) (cs : List UnionCase) : Prop :=
  ∀ c ∈ cs, ∀ l, c.case = some l → l.ranges ≠ [] ∧ NonnegValues r l

/-- C15: for every tag value of the tag's type, `Lookup` finds the case the tag selects: the first
listing the value, else the default, else none. (`C26` shows the generated parser runs that case.) -/
theorem C15_lookup (r : Resolver) (s : Struct) (u : UnionMember) (bs : List Branch) (t : IntType)
    (hb : newBranches r s u = .ok bs) (ht : r.intType u.tag s = .ok t) (hsz : t.size ≤ 64)
    (hc : CasesOK r u.cases) (x : Int) (h0 : 0 ≤ x) (hx : x < 2 ^ t.size) :
    (lookupBranch bs x).map (·.case) = selectCase r.constant u.cases x := by
  unfold newBranches at hb
  rw [ht] at hb
  simp only [Res.ok_bind] at hb
  obtain ⟨d0, hd0, hcan, hmem⟩ := C05_intType t.size hsz
  rw [hd0] at hb
  simp only [Res.ok_bind] at hb
  obtain ⟨⟨bs', d1, dc⟩, hl, hb⟩ := Res.bind_eq_ok.1 hb
  obtain ⟨a1, a2, a3, a4, a5, a6⟩ := branchLoop_spec r t.size u.cases d0 none [] bs' d1 dc hc hcan
    (by simpa using hmem) hl
  have hlt : (2 : Int) ^ t.size ≤ 2 ^ 64 := by
    have : (2 : Nat) ^ t.size ≤ 2 ^ 64 := Nat.pow_le_pow_right (by omega) hsz
    exact_mod_cast this
  have hcast := castU64_toNat x h0 (by omega)
  have h4 := a4 (Resolver.castU64 x)
  have h2 := a2 (Resolver.castU64 x)
  rw [hcast] at h4 h2
  simp only [Option.or_none] at a3
  unfold lookupBranch selectCase
  cases hdc : dc with
  | none =>
    rw [hdc] at hb a3
    simp only [Res.ok.injEq] at hb
    subst hb
    rw [h4, ← a3, Option.or_none]
  | some d =>
    rw [hdc] at hb a3
    simp only [Res.ok.injEq] at hb
    subst hb
    rw [List.find?_append, Option.map_or, h4]
    cases hfind : u.cases.find? (caseHas r.constant x) with
    | some c => simp
    | none =>
      have hd1 : d1.contains (Resolver.castU64 x) = true := by
        rw [h2]
        refine ⟨by
          have : ((2 : Nat) ^ t.size : Int) = (2 : Int) ^ t.size := by norm_cast
          omega, ?_⟩
        intro c hc
        have := List.find?_eq_none.1 hfind c (by simpa using hc)
        simpa using this
      simp [hd1, ← a3]

/-- C16: a default branch exists exactly when the union has a default case, and then its value set is
exactly the values of the tag type that no case lists, wherever `default` stands. -/
theorem C16_default (r : Resolver) (s : Struct) (u : UnionMember) (bs : List Branch) (t : IntType)
    (hb : newBranches r s u = .ok bs) (ht : r.intType u.tag s = .ok t) (hsz : t.size ≤ 64)
    (hc : CasesOK r u.cases) :
    (∀ b ∈ bs, b.case.case = none → ∀ x : UInt64, b.set.contains x = true ↔
      (x.toNat < 2 ^ t.size ∧ ∀ c ∈ u.cases, caseHas r.constant x.toNat c = false)) ∧
    ((∃ b ∈ bs, b.case.case = none) ↔ ∃ c ∈ u.cases, c.case = none) ∧
    (∀ b ∈ bs, b.case ∈ u.cases) := by
  unfold newBranches at hb
  rw [ht] at hb
  simp only [Res.ok_bind] at hb
  obtain ⟨d0, hd0, hcan, hmem⟩ := C05_intType t.size hsz
  rw [hd0] at hb
  simp only [Res.ok_bind] at hb
  obtain ⟨⟨bs', d1, dc⟩, hl, hb⟩ := Res.bind_eq_ok.1 hb
  obtain ⟨a1, a2, a3, a4, a5, a6⟩ := branchLoop_spec r t.size u.cases d0 none [] bs' d1 dc hc hcan
    (by simpa using hmem) hl
  simp only [Option.or_none] at a3
  have hsome : ∀ b ∈ bs', b.case.case ≠ none := by
    intro b hb hn
    have : b.case ∈ bs'.map (·.case) := List.mem_map.2 ⟨b, hb, rfl⟩
    rw [a6, List.mem_filter] at this
    rw [hn] at this
    simp at this
  cases hdc : dc with
  | none =>
    rw [hdc] at hb a3
    simp only [Res.ok.injEq] at hb
    subst hb
    refine ⟨fun b hb hn => absurd hn (hsome b hb), ?_, fun b hb => (a5 b hb).1⟩
    constructor
    · rintro ⟨b, hb, hn⟩; exact absurd hn (hsome b hb)
    · rintro ⟨c, hc, hn⟩
      have := List.find?_eq_none.1 a3.symm c (List.mem_reverse.2 hc)
      rw [hn] at this; simp at this
  | some d =>
    rw [hdc] at hb a3
    simp only [Res.ok.injEq] at hb
    subst hb
    have hd : d ∈ u.cases := List.mem_reverse.1 (List.mem_of_find?_eq_some a3.symm)
    have hdn : d.case = none := by
      have := List.find?_some a3.symm
      simpa using this
    refine ⟨?_, ?_, ?_⟩
    · intro b hb hn
      rcases List.mem_append.1 hb with hb | hb
      · exact absurd hn (hsome b hb)
      · rw [List.mem_singleton.1 hb]
        simpa using a2
    · exact ⟨fun _ => ⟨d, hd, hdn⟩, fun _ => ⟨⟨d1, d⟩, by simp, hdn⟩⟩
    · intro b hb
      rcases List.mem_append.1 hb with hb | hb
      · exact (a5 b hb).1
      · rw [List.mem_singleton.1 hb]; exact hd

/-- A union with the default in the middle, used in examples. -/
def exUnion : UnionMember :=
  ⟨"u", ⟨"", "tag"⟩, none, [⟨some ⟨[⟨.literal 1, some (.literal 4)⟩]⟩, []⟩, ⟨none, [.fail]⟩,
    ⟨some ⟨[⟨.literal 9, none⟩]⟩, [.ignore]⟩]⟩

/-- The struct holding `exUnion`'s tag, used in examples. -/
def exUnionStruct : Struct := ⟨"s", [], some [.leaf (.field ⟨"tag", .base (.int ⟨8, none⟩)⟩), .union exUnion]⟩

example : (newBranches newResolverEmpty exUnionStruct exUnion).isOk = true := by decide +kernel
example : CasesOK newResolverEmpty exUnion.cases := by
  intro c hc l hl
  simp only [exUnion, List.mem_cons, List.not_mem_nil, or_false] at hc
  rcases hc with rfl | rfl | rfl
  · cases hl
    refine ⟨by simp, ?_⟩
    intro r hr v hv
    simp at hr; subst hr
    simp [ival] at hv; omega
  · cases hl
  · cases hl
    refine ⟨by simp, ?_⟩
    intro r hr v hv
    simp at hr; subst hr
    simp [ival] at hv; omega
example : selectCase newResolverEmpty.constant exUnion.cases 9 =
    some ⟨some ⟨[⟨.literal 9, none⟩]⟩, [.ignore]⟩ := by decide +kernel
example : selectCase newResolverEmpty.constant exUnion.cases 7 = some ⟨none, [.fail]⟩ := by
  decide +kernel

end Verif.Props
