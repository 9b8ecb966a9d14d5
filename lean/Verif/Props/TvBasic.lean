import Verif.ConstraintsLemmas
import Verif.Tv
import Verif.GoSem
import Verif.Props.Intervals
import Verif.Props.Inspect
/-!
# C37, C38, C39, C43, C47: the pieces of test vector generation
-/
namespace Verif.Props
open Verif Verif.Ast Verif.Inspect Verif.Tv

/-! ## C37: the constraint store is a conflict-checked map

The specification is a plain partial function from scope and name to value. -/

/-- Abstract stores. -/
abbrev SpecStore := String → String → Option Int

/-- Operations on a store. -/
inductive COp where
  | set (s k : String) (v : Int)
  | lookupOrCreate (s k : String) (v : Int)
  | lookup (s k : String)
  | clearLocal
  | clearScope (s : String)

/-- What an operation returns: nothing, an error, or a value. -/
inductive CRet where
  | done
  | conflict
  | value (v : Int)
  | absent
  | crash
deriving DecidableEq

/-- `f` with `s.k` mapped to `v`. -/
def SpecStore.put (f : SpecStore) (s k : String) (v : Int) : SpecStore :=
  fun s' k' => if s' = s ∧ k' = k then some v else f s' k'

/-- `f` without scope `s`. -/
def SpecStore.drop (f : SpecStore) (s : String) : SpecStore := fun s' k' => if s' = s then none else f s' k'

/-- What an operation should do. -/
def specStep (f : SpecStore) : COp → SpecStore × CRet
  | .set s k v => match f s k with
    | none => (f.put s k v, .done)
    | some u => if u = v then (f, .done) else (f, .conflict)
  | .lookupOrCreate s k v => match f s k with
    | none => (f.put s k v, .value v)
    | some u => (f, .value u)
  | .lookup s k => match f s k with
    | none => (f, .absent)
    | some u => (f, .value u)
  | .clearLocal => (f.drop "", .done)
  | .clearScope s => (f.drop s, .done)

/-- What the code does. -/
def cstStep (c : Cst) : COp → Cst × CRet
  | .set s k v => let (c, ok) := c.set s k v; (c, if ok then .done else .conflict)
  | .lookupOrCreate s k v => match c.lookupOrCreate s k v with
    | .ok (c, x) => (c, .value x)
    | _ => (c, .crash)
  | .lookup s k => match c.lookup s k with
    | none => (c, .absent)
    | some u => (c, .value u)
  | .clearLocal => (c.clearLocal, .done)
  | .clearScope s => (c.clearScope s, .done)

/-- Run a history, collecting what each operation returns. -/
def runOps {σ : Type} (step : σ → COp → σ × CRet) : σ → List COp → σ × List CRet
  | x, [] => (x, [])
  | x, op :: ops => let (x, r) := step x op; let (x, rs) := runOps step x ops; (x, r :: rs)

theorem cstStep_spec (c : Cst) (op : COp) :
    (cstStep c op).2 = (specStep c.lookup op).2 ∧ (cstStep c op).1.lookup = (specStep c.lookup op).1 := by
  cases op with
  | set s k v =>
    have hiff := Cst.set_ok_iff c s k v
    simp only [cstStep, specStep]
    cases hl : c.lookup s k with
    | none =>
      have hok : (c.set s k v).2 = true := hiff.2 (by rw [hl]; intro u hu; cases hu)
      refine ⟨by simp [hok], ?_⟩
      funext s' k'
      exact Cst.lookup_set hok s' k'
    | some u =>
      by_cases hu : u = v
      · subst hu
        have hok : (c.set s k u).2 = true := hiff.2 (by rw [hl]; intro u hu; cases hu; rfl)
        refine ⟨by simp [hok], ?_⟩
        funext s' k'
        simp only [if_true]
        rw [Cst.lookup_set hok s' k']
        split
        · rename_i h; rw [h.1, h.2, hl]
        · rfl
      · have hok : (c.set s k v).2 = false := by
          cases hb : (c.set s k v).2 with
          | false => rfl
          | true => exact absurd (hiff.1 hb u hl) hu
        simp only [hu, if_false, hok]
        exact ⟨rfl, by rw [Cst.set_fail hok]⟩
  | lookupOrCreate s k v =>
    simp only [cstStep, specStep]
    rcases Cst.lookupOrCreate_spec c s k v with ⟨u, hl, h⟩ | ⟨hl, h, hok⟩
    · rw [h, hl]; exact ⟨rfl, rfl⟩
    · rw [h, hl]
      refine ⟨rfl, ?_⟩
      funext s' k'
      exact Cst.lookup_set hok s' k'
  | lookup s k =>
    simp only [cstStep, specStep]
    cases c.lookup s k <;> exact ⟨rfl, rfl⟩
  | clearLocal =>
    refine ⟨rfl, ?_⟩
    funext s' k'
    exact Cst.lookup_clearScope c "" s' k'
  | clearScope s =>
    refine ⟨rfl, ?_⟩
    funext s' k'
    exact Cst.lookup_clearScope c s s' k'

/-- C37: over any history of operations on a store, every operation returns what it returns on a plain
partial function: `Set` fails exactly when a different value is recorded, and otherwise changes that key
only; lookups return what was last recorded; clearing removes exactly one scope. `LookupOrCreate` never
panics. -/
theorem C37_store (ops : List COp) (c : Cst) :
    (runOps cstStep c ops).2 = (runOps specStep c.lookup ops).2 ∧
    (runOps cstStep c ops).1.lookup = (runOps specStep c.lookup ops).1 := by
  induction ops generalizing c with
  | nil => exact ⟨rfl, rfl⟩
  | cons op ops ih =>
    obtain ⟨h1, h2⟩ := cstStep_spec c op
    obtain ⟨i1, i2⟩ := ih (cstStep c op).1
    rw [h2] at i1 i2
    simp only [runOps]
    exact ⟨by rw [h1, i1], i2⟩

/-- C37 for a new store. -/
theorem C37_store_new (ops : List COp) :
    (runOps cstStep Cst.empty ops).2 = (runOps specStep (fun _ _ => none) ops).2 :=
  (C37_store ops Cst.empty).1

example : (runOps cstStep Cst.empty [.set "" "n" 3, .set "" "n" 4, .set "c" "n" 4, .lookup "" "n",
    .lookupOrCreate "c" "n" 9, .clearLocal, .lookup "" "n", .lookup "c" "n"]).2 =
    [.done, .conflict, .done, .value 3, .value 4, .done, .absent, .value 4] := by decide

/-! ## C38: Clone and Merge -/

/-- Stores reachable by the operations of the package, starting from a new one. -/
inductive Reach : Cst → Prop
  | new : Reach .empty
  | op {c : Cst} (op : COp) : Reach c → Reach (cstStep c op).1
  | update {c d : Cst} (o : IterOrder) (t : Nat) : Reach c → Reach d → Reach (c.update o t d).1
  | clone {c m : Cst} (o : IterOrder) (t : Nat) : Reach c → c.clone o t = .ok m → Reach m
  | cloneGlobal {c m : Cst} (o : IterOrder) (t : Nat) : Reach c → c.cloneGlobal o t = .ok m → Reach m
  | merge {c d m : Cst} (o : IterOrder) (t t' : Nat) : Reach c → Reach d → c.merge o t t' d = .ok m → Reach m

theorem Reach.wf {c : Cst} (h : Reach c) : c.WF := by
  induction h with
  | new => exact Cst.wf_empty
  | op op _ ih =>
    cases op with
    | set s k v => exact Cst.wf_set ih s k v
    | lookupOrCreate s k v =>
      simp only [cstStep]
      split
      · rename_i h; exact Cst.wf_lookupOrCreate ih h
      · exact ih
    | lookup s k => simp only [cstStep]; split <;> exact ih
    | clearLocal => exact Cst.wf_clearScope ih _
    | clearScope s => exact Cst.wf_clearScope ih _
  | update o t _ _ ih _ => exact Cst.wf_update o t ih _
  | clone o t _ h ih =>
    obtain ⟨m', h', hw, _⟩ := Cst.clone_spec o t ih
    rw [h] at h'; cases h'; exact hw
  | cloneGlobal o t _ h ih =>
    obtain ⟨m', h', hw, _⟩ := Cst.cloneGlobal_spec o t ih
    rw [h] at h'; cases h'; exact hw
  | merge o t t' _ _ h ih1 ih2 =>
    rcases Cst.merge_spec o t t' ih1 ih2 with ⟨_, m', h', hw, _⟩ | ⟨_, h'⟩
    · rw [h] at h'; cases h'; exact hw
    · rw [h] at h'; cases h'

/-- C38: `Clone` never panics and yields an equal store, whatever the iteration order; `CloneGlobal`
yields the store without its local scope. -/
theorem C38_clone (o : IterOrder) (t : Nat) (c : Cst) (hc : Reach c) :
    (∃ m, c.clone o t = .ok m ∧ m.lookup = c.lookup) ∧
    (∃ m, c.cloneGlobal o t = .ok m ∧ m.lookup = SpecStore.drop c.lookup "") := by
  obtain ⟨m, h, _, hl⟩ := Cst.clone_spec o t hc.wf
  obtain ⟨m', h', _, hl'⟩ := Cst.cloneGlobal_spec o t hc.wf
  exact ⟨⟨m, h, by funext s k; exact hl s k⟩, ⟨m', h', by funext s k; exact hl' s k⟩⟩

/-- Two stores disagree on some key. -/
def Disagree (c d : SpecStore) : Prop := ∃ s k u v, c s k = some u ∧ d s k = some v ∧ u ≠ v

/-- C38: `Merge` fails exactly when the stores disagree on some key, and otherwise is their union; this
does not depend on the iteration order. -/
theorem C38_merge (o : IterOrder) (t t' : Nat) (c d : Cst) (hc : Reach c) (hd : Reach d) :
    ((∃ e, c.merge o t t' d = .err e) ↔ Disagree c.lookup d.lookup) ∧
    (¬ Disagree c.lookup d.lookup → ∃ m, c.merge o t t' d = .ok m ∧
      ∀ s k v, m.lookup s k = some v ↔ c.lookup s k = some v ∨ d.lookup s k = some v) := by
  rcases Cst.merge_spec o t t' hc.wf hd.wf with ⟨ha, m, h, _, hl⟩ | ⟨ha, h⟩
  · have hnd : ¬ Disagree c.lookup d.lookup := by
      rintro ⟨s, k, u, v, hu, hv, hne⟩
      exact hne (ha s k u v hu hv)
    refine ⟨⟨?_, fun hd => absurd hd hnd⟩, fun _ => ⟨m, h, fun s k v => ?_⟩⟩
    · rintro ⟨e, he⟩; rw [h] at he; cases he
    · rw [hl s k]
      cases hd' : d.lookup s k with
      | none => simp
      | some w =>
        simp only [Option.some_or, Option.some.injEq]
        constructor
        · exact fun h => .inr h
        · rintro (h | h)
          · exact (ha s k v w h hd').symm
          · exact h
  · have hdis : Disagree c.lookup d.lookup := by
      apply Classical.byContradiction
      intro hnd
      apply ha
      intro s k u v hu hv
      apply Classical.byContradiction
      exact fun hne => hnd ⟨s, k, u, v, hu, hv, hne⟩
    exact ⟨⟨fun _ => hdis, fun _ => ⟨_, h⟩⟩, fun hnd => absurd hdis hnd⟩

/-- C38: `Update` fails exactly on disagreement and otherwise overlays the other store's values. -/
theorem C38_update (o : IterOrder) (t : Nat) (c d : Cst) (hd : Reach d) :
    ((c.update o t d).2 = false ↔ Disagree c.lookup d.lookup) ∧
    ((c.update o t d).2 = true → ∀ s k v,
      (c.update o t d).1.lookup s k = some v ↔ c.lookup s k = some v ∨ d.lookup s k = some v) := by
  obtain ⟨h1, h2⟩ := Cst.update_spec o t c hd.wf
  refine ⟨?_, fun hok s k v => ?_⟩
  · rw [← Bool.not_eq_true, h1]
    constructor
    · intro h
      apply Classical.byContradiction
      intro hnd
      apply h
      intro s k u v hu hv
      apply Classical.byContradiction
      exact fun hne => hnd ⟨s, k, u, v, hu, hv, hne⟩
    · rintro ⟨s, k, u, v, hu, hv, hne⟩ h
      exact hne (h s k u v hu hv)
  · rw [h2 hok s k]
    have ha := h1.1 hok
    cases hd' : d.lookup s k with
    | none => simp
    | some w =>
      simp only [Option.some_or, Option.some.injEq]
      constructor
      · exact fun h => .inr h
      · rintro (h | h)
        · exact (ha s k v w h hd').symm
        · exact h

/-- C38: a clone is independent: in the generator's memory it is a new store, and changing either of the
two leaves the other as it is. -/
theorem C38_independent {E : Env} (st : St E) (r : Nat) (hr : r < st.maps.length) (hw : Reach (st.map r))
    (c : Cst) :
    ∃ m st', cloneRef r st = .ok (m, st') ∧ m ≠ r ∧ (st'.map m).lookup = (st.map r).lookup ∧
      (∀ r' < st.maps.length, st'.map r' = st.map r') ∧
      (∀ st'' , putMap m c st' = .ok ((), st'') → st''.map r = st.map r ∧ st''.map m = c) ∧
      (∀ st'' , putMap r c st' = .ok ((), st'') → st''.map m = st'.map m ∧ st''.map r = c) := by
  obtain ⟨m, h, _, hl⟩ := Cst.clone_spec E.order st.iter hw.wf
  refine ⟨st.maps.length, { st with
      maps := st.maps ++ [m], iter := st.iter + ((st.map r).scopes.entries.length + 1) }, ?_, ?_, ?_, ?_, ?_, ?_⟩
  · simp [cloneRef, getMap, ticks, TM.ofRes, newMap, Bind.bind, TM.bind, h]
  · omega
  · funext s k
    simp only [St.map, List.getD_eq_getElem?_getD, List.getElem?_concat_length, Option.getD_some] at hl ⊢
    exact hl s k
  · intro r' hr'
    simp [St.map, List.getD_eq_getElem?_getD, List.getElem?_append_left hr']
  · intro st'' h''
    cases h''
    simp only [St.map, List.getD_eq_getElem?_getD]
    rw [List.getElem?_set_ne (by omega), List.getElem?_append_left hr]
    simp
  · intro st'' h''
    cases h''
    simp only [St.map, List.getD_eq_getElem?_getD]
    rw [List.getElem?_set_ne (by omega)]
    have : r < st.maps.length + 1 := by omega
    simp [this]

def exCst : Cst := ((Cst.empty.set "" "n" 3).1.set "c" "k" 7).1
def exCst' : Cst := (Cst.empty.set "c" "k" 8).1

theorem exCst_reach : Reach exCst := .op (.set "c" "k" 7) (.op (.set "" "n" 3) .new)
theorem exCst'_reach : Reach exCst' := .op (.set "c" "k" 8) .new

example : Disagree exCst.lookup exCst'.lookup := ⟨"c", "k", 7, 8, by decide⟩

/-! A concrete environment for examples: a counter as random source, all vectors kept, and the growth of
byte slices in Go's runtime (double, then round up to a size class). -/

/-- Size classes of small allocations of Go's runtime. -/
def sizeClass (n : Nat) : Nat :=
  ([8, 16, 24, 32, 48, 64, 80, 96, 112, 128].find? (fun c => n ≤ c)).getD n

def goGrow (c n : Nat) : Nat := sizeClass (if 2 * c < n then n else 2 * c)

theorem sizeClass_ge (n : Nat) : n ≤ sizeClass n := by
  unfold sizeClass
  cases h : [8, 16, 24, 32, 48, 64, 80, 96, 112, 128].find? (fun c => n ≤ c) with
  | none => simp
  | some c => have := List.find?_some h; simpa using this

def exEnv : Env where
  R := counterSrc
  order := idOrder
  grow := goGrow
  grow_ge := fun c n => by
    have h1 := sizeClass_ge n
    have h2 := sizeClass_ge (2 * c)
    unfold goGrow
    split <;> omega
  sel := fun _ vs => exhaustive vs
  draws := 10

/-! ## C39: intbytes -/

theorem intbytesN_length (n : Nat) (x : Int) : (intbytesN n x).length = n := by
  induction n generalizing x with
  | zero => rfl
  | succ n ih => simp [intbytesN, ih]

theorem beNat_append (a : List UInt8) (b : UInt8) : Go.beNat (a ++ [b]) = Go.beNat a * 256 + b.toNat := by
  induction a with
  | nil => simp [Go.beNat]
  | cons x a ih =>
    simp only [List.cons_append, Go.beNat, ih, List.length_append, List.length_cons, List.length_nil,
      Nat.pow_succ, Nat.add_mul, Nat.mul_assoc, Nat.zero_add, Nat.add_assoc]

theorem intbytesN_value (n : Nat) (x : Int) : (Go.beNat (intbytesN n x) : Int) = x % 256 ^ n := by
  induction n generalizing x with
  | zero => simp [intbytesN, Go.beNat]
  | succ n ih =>
    simp only [intbytesN]
    rw [beNat_append]
    have hb : (UInt8.ofNat (x % 256).toNat).toNat = (x % 256).toNat := by
      simp only [UInt8.toNat_ofNat']
      have : (x % 256).toNat < 256 := by omega
      omega
    rw [hb]
    rw [Int.natCast_add, Int.natCast_mul, ih]
    have h1 : ((x % 256).toNat : Int) = x % 256 := by omega
    rw [h1]
    have h2 : (256 : Int) ^ (n + 1) = 256 * 256 ^ n := by rw [Int.pow_succ, Int.mul_comm]
    rw [h2]
    have h3 : x % (256 * 256 ^ n) = (x / 256) % 256 ^ n * 256 + x % 256 := by
      have hp : (0 : Int) < 256 ^ n := Int.pow_pos (by decide)
      generalize (256 : Int) ^ n = P at *
      have e1 := Int.mul_ediv_add_emod x 256
      have e2 := Int.mul_ediv_add_emod (x / 256) P
      have b1 := Int.emod_nonneg (x / 256) (by omega : P ≠ 0)
      have b2 := Int.emod_lt_of_pos (x / 256) hp
      have b3 := Int.emod_nonneg x (by omega : (256 : Int) ≠ 0)
      have b4 := Int.emod_lt_of_pos x (by omega : (0 : Int) < 256)
      have : x = (x / 256 % P * 256 + x % 256) + (256 * P) * (x / 256 / P) := by
        have : 256 * (P * (x / 256 / P) + x / 256 % P) + x % 256 = x := by rw [e2]; exact e1
        rw [Int.mul_add, ← Int.mul_assoc] at this
        omega
      conv => lhs; rw [this]
      rw [Int.add_mul_emod_self_left]
      apply Int.emod_eq_of_lt
      · omega
      · omega
    rw [h3]
    rfl

/-- C39: `intbytes(x, bits)` is `bits/8` bytes long and, read big-endian, is `x` modulo `2^bits`. -/
theorem C39_intbytes (x : Int) (bits : Nat) (h8 : 8 ∣ bits) :
    (intbytes x bits).length = bits / 8 ∧ (Go.beNat (intbytes x bits) : Int) = x % 2 ^ bits := by
  refine ⟨intbytesN_length _ _, ?_⟩
  rw [intbytes, intbytesN_value]
  obtain ⟨k, rfl⟩ := h8
  have h1 : 8 * k / 8 = k := by omega
  rw [h1]
  congr 1
  rw [Int.pow_mul]
  rfl

/-- C39: reading `bits/8` bytes big-endian and writing the number again gives the bytes back. -/
theorem C39_inverse (b : List UInt8) : intbytes (Go.beNat b) (8 * b.length) = b := by
  have key : ∀ n (b : List UInt8), b.length = n → intbytesN n (Go.beNat b) = b := by
    intro n
    induction n with
    | zero => intro b hb; rw [List.length_eq_zero_iff.1 hb]; rfl
    | succ n ih =>
      intro b hb
      have hne : b ≠ [] := by intro h; rw [h] at hb; simp at hb
      rw [← List.dropLast_concat_getLast hne]
      generalize b.getLast hne = z
      have hl : b.dropLast.length = n := by simp [hb]
      generalize b.dropLast = a at hl
      simp only [intbytesN, beNat_append]
      have hz := z.toNat_lt
      have h1 : ((Go.beNat a * 256 + z.toNat : Nat) : Int) / 256 = Go.beNat a := by omega
      have h2 : ((Go.beNat a * 256 + z.toNat : Nat) : Int) % 256 = z.toNat := by omega
      rw [h1, h2, ih a hl]
      simp
  rw [intbytes]
  have h1 : 8 * b.length / 8 = b.length := by omega
  rw [h1]
  exact key _ b rfl

example : intbytes 0x0102 16 = [1, 2] ∧ intbytes (-1) 32 = [255, 255, 255, 255] ∧ intbytes 300 8 = [44] := by
  decide

/-! ## C43: the random sample selector -/

theorem mapM_getElem {α : Type} (vs : List α) (is : List Nat) (h : ∀ i ∈ is, i < vs.length) :
    is.mapM (fun i => vs[i]?) = some (is.filterMap (fun i => vs[i]?)) := by
  induction is with
  | nil => rfl
  | cons i is ih =>
    have hi : i < vs.length := h i List.mem_cons_self
    simp [ih (fun j hj => h j (List.mem_cons_of_mem _ hj)), hi]

/-- C43: for any permutation the random source returns, the sampler does not panic; it returns the given
vectors unchanged when there are at most `n`, and otherwise `n` of them taken from distinct positions. -/
theorem C43_sample {α : Type} (n : Nat) (perm : Nat → List Nat)
    (hp : ∀ m, (perm m).Perm (List.range m)) (vs : List α) :
    ∃ out, randomSample n perm vs = some out ∧ out.length = min n vs.length ∧
      (vs.length ≤ n → out = vs) ∧
      ∃ is : List Nat, is.Nodup ∧ (∀ i ∈ is, i < vs.length) ∧ is.map (fun i => vs[i]?) = out.map some := by
  unfold randomSample
  by_cases hm : vs.length ≤ n
  · refine ⟨vs, by simp [hm], by omega, fun _ => rfl, List.range vs.length, List.nodup_range, ?_, ?_⟩
    · simp
    · apply List.ext_getElem <;> simp
  · have hl : (perm vs.length).length = vs.length := by rw [(hp _).length_eq, List.length_range]
    have hlt : ∀ i ∈ (perm vs.length).take n, i < vs.length := fun i hi =>
      List.mem_range.1 ((hp _).mem_iff.1 (List.mem_of_mem_take hi))
    have hcomp : (List.range n).mapM (fun i => do vs[← (perm vs.length)[i]?]?) =
        ((perm vs.length).take n).mapM (fun i => vs[i]?) := by
      have hmap : ∀ (f : Nat → Option α) (l : List Nat) k, k ≤ l.length →
          (List.range k).mapM (fun i => l[i]? >>= f) = (l.take k).mapM f := by
        intro f l
        induction l with
        | nil => intro k hk; simp at hk; subst hk; rfl
        | cons a l ih =>
          intro k hk
          cases k with
          | zero => rfl
          | succ k =>
            simp only [List.range_succ_eq_map, List.take_succ_cons, List.mapM_cons, List.mapM_map]
            simp only [List.getElem?_cons_zero, Option.bind_eq_bind, Option.bind_some]
            have := ih k (by simpa using hk)
            simp only [Option.bind_eq_bind] at this
            simp only [Function.comp_def, List.getElem?_cons_succ, this]
      exact hmap _ _ _ (by omega)
    simp only [hm, if_false, hcomp]
    rw [mapM_getElem _ _ hlt]
    have hmaps : ((perm vs.length).take n).map (fun i => vs[i]?) =
        (((perm vs.length).take n).filterMap (fun i => vs[i]?)).map some := by
      generalize (perm vs.length).take n = is at hlt
      induction is with
      | nil => rfl
      | cons i is ih =>
        have hi := hlt i List.mem_cons_self
        simp [ih (fun j hj => hlt j (List.mem_cons_of_mem _ hj)), hi]
    refine ⟨_, rfl, ?_, fun h => h.elim, _, ?_, hlt, hmaps⟩
    · have := congrArg List.length hmaps
      simp only [List.length_map, List.length_take] at this
      omega
    · exact ((hp _).nodup_iff.2 List.nodup_range).sublist (List.take_sublist _ _)

example : randomSample 2 (fun m => (List.range m).reverse) ["a", "b", "c"] = some ["c", "b"] := by decide

/-! ## C47: corpus lookup -/

/-- C47: `Vectors(n)` is the first suite of type `n` added, `nil` if there is none. -/
theorem C47_lookup (c : Corpus) (n : String) :
    (corpusVectors c n = none ↔ ∀ s ∈ c, s.type ≠ n) ∧
    (∀ vs, corpusVectors c n = some vs ↔
      ∃ pre s post, c = pre ++ s :: post ∧ (∀ t ∈ pre, t.type ≠ n) ∧ s.type = n ∧ s.vectors = vs) := by
  induction c with
  | nil => simp [corpusVectors]
  | cons s c ih =>
    by_cases h : s.type = n
    · refine ⟨by simp [corpusVectors, h], fun vs => ?_⟩
      simp only [corpusVectors, h, if_true, Option.some.injEq]
      constructor
      · intro hv; exact ⟨[], s, c, rfl, by simp, h, hv⟩
      · rintro ⟨pre, s', post, heq, hpre, hs', hv⟩
        cases pre with
        | nil => cases heq; exact hv
        | cons a pre => cases heq; exact absurd h (hpre s List.mem_cons_self)
    · refine ⟨by simp [corpusVectors, h, ih.1], fun vs => ?_⟩
      simp only [corpusVectors, h, if_false]
      rw [ih.2 vs]
      constructor
      · rintro ⟨pre, s', post, heq, hpre, hs', hv⟩
        exact ⟨s :: pre, s', post, by rw [heq]; rfl, by simpa [h] using hpre, hs', hv⟩
      · rintro ⟨pre, s', post, heq, hpre, hs', hv⟩
        cases pre with
        | nil => cases heq; exact absurd hs' h
        | cons a pre =>
          cases heq
          exact ⟨pre, s', post, rfl, fun t ht => hpre t (List.mem_cons_of_mem _ ht), hs', hv⟩

/-- C47: adding suites never changes a lookup that found one, and a new type is found at once. -/
theorem C47_add (c : Corpus) (adds : List (String × List Tv.Vector)) (n : String) :
    (∀ vs, corpusVectors c n = some vs →
      corpusVectors (adds.foldl (fun c a => addVectors c a.1 a.2) c) n = some vs) ∧
    (corpusVectors c n = none → ∀ vs, corpusVectors (addVectors c n vs) n = some vs) := by
  have happ : ∀ (c d : Corpus), corpusVectors (c ++ d) n = (corpusVectors c n).or (corpusVectors d n) := by
    intro c d
    induction c with
    | nil => simp [corpusVectors]
    | cons s c ih => by_cases h : s.type = n <;> simp [corpusVectors, h, ih]
  refine ⟨?_, ?_⟩
  · induction adds generalizing c with
    | nil => exact fun vs h => h
    | cons a adds ih =>
      intro vs h
      apply ih
      simp [addVectors, addSuite, happ, h]
  · intro h vs
    simp [addVectors, addSuite, happ, h, corpusVectors]

example : corpusVectors (addVectors (addVectors [] "a" [⟨[1], .empty⟩]) "a" []) "a" = some [⟨[1], .empty⟩] := by
  decide

end Verif.Props
