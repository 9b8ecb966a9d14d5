import Verif.TvOrder
import Verif.Props.Inspect
import Verif.Props.TvBasic
/-!
# C42: generation does not depend on map iteration order
-/
namespace Verif.Props
open Verif Verif.Ast Verif.Inspect Verif.Tv

/-- Vectors with the same bytes whose stores answer every lookup alike and are empty alike. -/
def SameVector (v w : Vector) : Prop :=
  v.data = w.data ∧ (∀ s k, v.cst.lookup s k = w.cst.lookup s k) ∧
    (v.cst.scopes.entries = [] ↔ w.cst.scopes.entries = [])

/-- A store with a scope answers some lookup. -/
theorem lookup_of_entries {c : Cst} (hw : c.WF) (hc : c.scopes.entries ≠ []) : ∃ s k, c.lookup s k ≠ none := by
  obtain ⟨e, es, he⟩ := List.exists_cons_of_ne_nil hc
  obtain ⟨s, m⟩ := e
  have hm : m.entries ≠ [] := (hw.inner (s, m) (by rw [he]; exact List.mem_cons_self ..)).2
  obtain ⟨f, gs, hf⟩ := List.exists_cons_of_ne_nil hm
  obtain ⟨k, v⟩ := f
  exact ⟨s, k, by simp [Cst.lookup, GoMap.get, he, hf]⟩

theorem entries_of_lookup {c d : Cst} (hw : c.WF) (h : ∀ s k, c.lookup s k = d.lookup s k)
    (hd : d.scopes.entries = []) : c.scopes.entries = [] := by
  by_contra hc
  obtain ⟨s, k, hk⟩ := lookup_of_entries hw hc
  rw [h] at hk
  exact hk (by simp [Cst.lookup, GoMap.get, hd])

theorem SameCst.empty_iff {c d : Cst} (h : SameCst c d) : c.scopes.entries = [] ↔ d.scopes.entries = [] :=
  ⟨entries_of_lookup h.2.1 (fun s k => (h.2.2 s k).symm), entries_of_lookup h.1 h.2.2⟩

/-- The same suites, with the same vectors in the same order. -/
def SameCorpus (c d : Corpus) : Prop :=
  List.Forall₂ (fun a b => a.type = b.type ∧ List.Forall₂ SameVector a.vectors b.vectors) c d

/-- Outcomes of generation that cannot be told apart. -/
def SameGen : Out Corpus → Out Corpus → Prop
  | .ok c, .ok d => SameCorpus c d
  | .err e, .err e' => e = e'
  | .panic m, .panic m' => m = m'
  | .timeout, .timeout => True
  | _, _ => False

/-- C42: with the same files, selector and random stream, generation has the same outcome whatever order
Go iterates its maps in. -/
theorem C42_deterministic (E : Env) (o : IterOrder) (fuel : Nat) (seed : E.R.σ) (fs : List File) :
    SameGen (generateFiles E fuel seed fs) (generateFiles (E.withOrder o) fuel seed fs) := by
  have hR := C10_map_order_independent E.order o fs
  unfold generateFiles
  show SameGen (match newResolverFiles E.order fs with
      | .err m => .err (.other m) | .panic m => .panic m | .ok r => _)
    (match newResolverFiles o fs with | .err m => .err (.other m) | .panic m => .panic m | .ok r => _)
  cases h1 : newResolverFiles E.order fs with
  | err m =>
    cases h2 : newResolverFiles o fs with
    | err m' => rw [h1, h2] at hR; cases hR; rfl
    | ok r => rw [h1, h2] at hR; exact hR.elim
    | panic m' => rw [h1, h2] at hR; exact hR.elim
  | panic m => rw [h1] at hR; cases h2 : newResolverFiles o fs <;> (rw [h2] at hR; exact hR.elim)
  | ok r =>
    cases h2 : newResolverFiles o fs with
    | err m' => rw [h1, h2] at hR; exact hR.elim
    | panic m' => rw [h1, h2] at hR; exact hR.elim
    | ok r' =>
      rw [h1, h2] at hR
      have hS := suites_sim (E := E) (o := o) (r := r) (r' := r') hR fuel (fs.flatMap (·.structs))
        (St.init seed) (St.init seed) ⟨.nil, rfl, rfl, rfl, rfl⟩
      simp only
      cases h3 : suites (E := E) r fuel (fs.flatMap (·.structs)) (St.init seed) with
      | ok p =>
        cases h4 : suites (E := E.withOrder o) r' fuel (fs.flatMap (·.structs)) (St.init seed) with
        | ok q =>
          rw [h3, h4] at hS
          obtain ⟨ss, st⟩ := p
          obtain ⟨ss', st'⟩ := q
          obtain ⟨rfl, hs⟩ := hS
          show SameCorpus _ _
          simp only [SameCorpus, List.forall₂_map_left_iff, List.forall₂_map_right_iff]
          refine List.forall₂_same.2 (fun s _ => ⟨rfl, ?_⟩)
          refine List.forall₂_same.2 (fun v _ => ⟨?_, (hs.map v.cst).2.2, SameCst.empty_iff (hs.map v.cst)⟩)
          simp only [St.vector, St.read, hs.arrs]
        | _ => rw [h3, h4] at hS; exact hS.elim
      | err e =>
        cases h4 : suites (E := E.withOrder o) r' fuel (fs.flatMap (·.structs)) (St.init seed) with
        | err e' => rw [h3, h4] at hS; exact hS
        | _ => rw [h3, h4] at hS; exact hS.elim
      | panic e =>
        cases h4 : suites (E := E.withOrder o) r' fuel (fs.flatMap (·.structs)) (St.init seed) with
        | panic e' => rw [h3, h4] at hS; exact hS
        | _ => rw [h3, h4] at hS; exact hS.elim
      | timeout =>
        cases h4 : suites (E := E.withOrder o) r' fuel (fs.flatMap (·.structs)) (St.init seed) with
        | timeout => trivial
        | _ => rw [h3, h4] at hS; exact hS.elim

/-- A format with a length, a tag, an array and a context, so that stores have several scopes and keys. -/
def exOrderFile : File :=
  { constants := []
    contexts := [⟨"c", [⟨"n", .base (.int U8)⟩]⟩]
    structs := [⟨"t", ["c"], some [
      .leaf (.field ⟨"len", .base (.int U8)⟩),
      .leaf (.field ⟨"tag", .base (.int U8)⟩),
      .leaf (.field ⟨"a", .varArray (.int U8) (some (.idRef ⟨"c", "n"⟩))⟩),
      .leaf (.field ⟨"b", .varArray (.int U8) (some (.idRef ⟨"", "len"⟩))⟩),
      .union ⟨"u", ⟨"", "tag"⟩, none,
        [⟨some ⟨[⟨.literal 1, none⟩]⟩, [.field ⟨"x", .base (.int ⟨16, none⟩)⟩]⟩, ⟨none, []⟩]⟩]⟩]
    pragmas := [] }

/-- The bytes of each vector and the context value it constrains. -/
def summary : Out Corpus → List (List (List UInt8 × Option Int))
  | .ok c => c.map (fun s => s.vectors.map (fun v => (v.data, v.cst.lookup "c" "n")))
  | _ => []

example : summary (generateFiles exEnv 3 (0 : Nat) [exOrderFile]) =
    [[([6, 1, 33, 32, 31, 30, 29, 28, 27, 11, 10, 9, 8, 7, 6, 2, 3], some 7),
      ([13, 0, 49, 48, 47, 46, 45, 44, 43, 42, 41, 40, 39, 38, 37, 36, 35, 25, 24, 23, 22, 21, 20, 19, 18, 17,
        16, 15, 14, 13], some 15)]] := by decide +kernel

example (seed : exEnv.R.σ) : SameGen (generateFiles exEnv 3 seed [exOrderFile])
    (generateFiles (exEnv.withOrder revOrder) 3 seed [exOrderFile]) := by
  apply C42_deterministic

end Verif.Props
