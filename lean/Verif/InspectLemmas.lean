import Verif.Inspect
import Verif.IntervalsLemmas
/-!
# Helper lemmas for the resolver model
-/
namespace Verif.Inspect
open Verif Verif.Ast Verif.Intervals

namespace GoMap
variable {α : Type}

theorem lookup_setList (k n : String) (v : α) (l : List (String × α)) :
    (setList k v l).lookup n = if n = k then some v else l.lookup n := by
  induction l with
  | nil =>
    by_cases h : n = k <;> simp [setList, List.lookup, h, beq_eq_false_iff_ne.2]
  | cons p l ih =>
    obtain ⟨k', v'⟩ := p
    unfold setList
    by_cases h : k = k'
    · subst h
      by_cases h2 : n = k <;> simp [List.lookup, h2, beq_eq_false_iff_ne.2]
    · simp only [h, if_false, List.lookup, ih]
      by_cases h2 : n = k
      · subst h2; simp [beq_eq_false_iff_ne.2 h]
      · simp [h2]

@[simp] theorem get_set (m : GoMap α) (k n : String) (v : α) :
    (m.set k v).get n = if n = k then some v else m.get n := lookup_setList k n v m.entries

@[simp] theorem get_empty (n : String) : (empty : GoMap α).get n = none := rfl

theorem setList_absent (k : String) (v : α) (l : List (String × α)) (h : l.lookup k = none) :
    setList k v l = l ++ [(k, v)] := by
  induction l with
  | nil => rfl
  | cons p l ih =>
    obtain ⟨k', v'⟩ := p
    unfold setList
    by_cases hk : k = k'
    · subst hk; simp [List.lookup] at h
    · simp only [hk, if_false, List.cons_append]
      simp only [List.lookup, beq_eq_false_iff_ne.2 hk] at h
      rw [ih h]

end GoMap

theorem lookup_isSome_iff {α : Type} (l : List (String × α)) (k : String) :
    l.lookup k = none ↔ k ∉ l.map (·.1) := by
  induction l with
  | nil => simp
  | cons p l ih =>
    obtain ⟨k', v'⟩ := p
    by_cases h : k = k'
    · subst h; simp [List.lookup]
    · simp [List.lookup, beq_eq_false_iff_ne.2 h, ih, h]

theorem lookup_eq_some_iff {α : Type} {l : List (String × α)} (hn : (l.map (·.1)).Nodup) (k : String)
    (v : α) : l.lookup k = some v ↔ (k, v) ∈ l := by
  induction l with
  | nil => simp
  | cons p l ih =>
    obtain ⟨k', v'⟩ := p
    simp only [List.map_cons, List.nodup_cons] at hn
    by_cases h : k = k'
    · subst h
      simp only [List.lookup, beq_self_eq_true, Option.some.injEq, List.mem_cons, Prod.mk.injEq, true_and]
      constructor
      · intro h; exact Or.inl h.symm
      · rintro (h | h)
        · exact h.symm
        · exact absurd (List.mem_map.2 ⟨_, h, rfl⟩) hn.1
    · simp [List.lookup, beq_eq_false_iff_ne.2 h, ih hn.2, h]

theorem lookup_perm {α : Type} {l l' : List (String × α)} (hp : l.Perm l') (hn : (l.map (·.1)).Nodup)
    (k : String) : l.lookup k = l'.lookup k := by
  have hn' : (l'.map (·.1)).Nodup := (hp.map _).nodup_iff.1 hn
  cases h : l'.lookup k with
  | none =>
    rw [lookup_isSome_iff] at h ⊢
    exact fun hk => h ((hp.map _).mem_iff.1 hk)
  | some v =>
    rw [lookup_eq_some_iff hn'] at h
    rw [lookup_eq_some_iff hn]
    exact hp.mem_iff.2 h

theorem loadMap_spec {α β : Type} (msg : String) (key : β → String) (val : β → α) (ds : List β) :
    ∀ m : GoMap α, (m.entries.map (·.1)).Nodup →
    loadMap msg key val m ds =
      if ((m.entries ++ ds.map (fun d => (key d, val d))).map (·.1)).Nodup
      then .ok ⟨m.entries ++ ds.map (fun d => (key d, val d))⟩ else .err msg := by
  induction ds with
  | nil => intro m hm; simp [loadMap, hm]
  | cons d ds ih =>
    intro m hm
    unfold loadMap
    cases hg : m.get (key d) with
    | some v =>
      simp only
      have : key d ∈ m.entries.map (·.1) := by
        apply Classical.byContradiction
        intro h
        have : m.get (key d) = none := (lookup_isSome_iff _ _).2 h
        rw [this] at hg; cases hg
      rw [if_neg]
      intro h
      simp only [List.map_append, List.map_cons, List.nodup_append] at h
      exact h.2.2 _ this _ List.mem_cons_self rfl
    | none =>
      simp only
      have he : (m.set (key d) (val d)).entries = m.entries ++ [(key d, val d)] :=
        GoMap.setList_absent _ _ _ hg
      rw [ih]
      · rw [he]; simp
      · rw [he]
        simp only [List.map_append, List.nodup_append, hm, List.map_cons, List.map_nil]
        refine ⟨trivial, by simp, ?_⟩
        intro a ha b hb hab
        rw [List.mem_singleton.1 hb] at hab
        subst hab
        exact (lookup_isSome_iff _ _).1 hg ha

theorem loadMap_empty {α β : Type} (msg : String) (key : β → String) (val : β → α) (ds : List β) :
    loadMap msg key val .empty ds =
      if (ds.map key).Nodup then .ok ⟨ds.map (fun d => (key d, val d))⟩ else .err msg := by
  rw [loadMap_spec _ _ _ _ _ (by simp [GoMap.empty])]
  simp [GoMap.empty, Function.comp_def]

/-! ## Adding entries -/

theorem addStructs_spec (es : List (String × Struct)) : ∀ (r : Resolver),
    (es.map (·.1)).Nodup → (∀ p ∈ es, p.1 = p.2.name) →
    ((∀ p ∈ es, ∀ e, r.struct p.1 = some e → e.extern = true) →
      ∃ r', r.addStructs es = .ok r' ∧ r'.contexts = r.contexts ∧ r'.constants = r.constants ∧
        ∀ n, r'.struct n = (es.lookup n).or (r.struct n)) ∧
    ((¬ ∀ p ∈ es, ∀ e, r.struct p.1 = some e → e.extern = true) →
      r.addStructs es = .err "cannot override non-extern struct") := by
  induction es with
  | nil =>
    intro r _ _
    refine ⟨fun _ => ⟨r, rfl, rfl, rfl, fun n => by simp⟩, fun h => absurd (by simp) h⟩
  | cons p es ih =>
    intro r hn hk
    obtain ⟨k, s⟩ := p
    have hks : k = s.name := hk (k, s) List.mem_cons_self
    subst hks
    simp only [List.map_cons, List.nodup_cons] at hn
    have hk' : ∀ p ∈ es, p.1 = p.2.name := fun p hp => hk p (List.mem_cons_of_mem _ hp)
    by_cases h0 : ∀ e, r.struct s.name = some e → e.extern = true
    · have hadd : r.addStruct s = .ok { r with structs := r.structs.set s.name s } := by
        unfold Resolver.addStruct
        cases hs : r.struct s.name with
        | none => rfl
        | some e => simp [h0 e hs]
      have hst : ∀ n, ({ r with structs := r.structs.set s.name s } : Resolver).struct n =
          if n = s.name then some s else r.struct n := fun n => by
        simp [Resolver.struct]
      obtain ⟨ih1, ih2⟩ := ih { r with structs := r.structs.set s.name s } hn.2 hk'
      have hiff : (∀ p ∈ es, ∀ e, ({ r with structs := r.structs.set s.name s } : Resolver).struct p.1
          = some e → e.extern = true) ↔ (∀ p ∈ es, ∀ e, r.struct p.1 = some e → e.extern = true) := by
        constructor <;> intro h p hp e he
        · apply h p hp e
          rw [hst, if_neg]; exact he
          intro hpe
          exact hn.1 (List.mem_map.2 ⟨p, hp, hpe⟩)
        · apply h p hp e
          rw [hst, if_neg] at he; exact he
          intro hpe
          exact hn.1 (List.mem_map.2 ⟨p, hp, hpe⟩)
      refine ⟨fun h => ?_, fun h => ?_⟩
      · obtain ⟨r', e1, e2, e3, e4⟩ := ih1 (hiff.2 fun p hp => h p (List.mem_cons_of_mem _ hp))
        refine ⟨r', ?_, e2, e3, fun n => ?_⟩
        · simp only [Resolver.addStructs, hadd, Res.ok_bind, e1]
        · rw [e4 n, hst n]
          by_cases hns : n = s.name
          · subst hns
            have : es.lookup s.name = none := (lookup_isSome_iff _ _).2 hn.1
            simp [this]
          · simp [List.lookup, beq_eq_false_iff_ne.2 hns, hns]
      · simp only [Resolver.addStructs, hadd, Res.ok_bind]
        apply ih2
        intro hc
        apply h
        intro p hp
        rcases List.mem_cons.1 hp with rfl | hp
        · exact h0
        · exact hiff.1 hc p hp
    · refine ⟨fun h => absurd (h _ List.mem_cons_self) h0, fun _ => ?_⟩
      have : r.addStruct s = .err "cannot override non-extern struct" := by
        unfold Resolver.addStruct
        cases hs : r.struct s.name with
        | none => exact absurd (by simp [hs]) h0
        | some e =>
          have : e.extern = false := by
            cases he : e.extern
            · rfl
            · exact absurd (by simp [hs, he]) h0
          simp [this]
      simp [Resolver.addStructs, this]

theorem addContexts_spec (es : List (String × Context)) : ∀ (r : Resolver),
    (es.map (·.1)).Nodup → (∀ p ∈ es, p.1 = p.2.name) →
    ((∀ p ∈ es, r.context p.1 = none) →
      ∃ r', r.addContexts es = .ok r' ∧ r'.structs = r.structs ∧ r'.constants = r.constants ∧
        ∀ n, r'.context n = (es.lookup n).or (r.context n)) ∧
    ((¬ ∀ p ∈ es, r.context p.1 = none) → r.addContexts es = .err "cannot override context") := by
  induction es with
  | nil =>
    intro r _ _
    refine ⟨fun _ => ⟨r, rfl, rfl, rfl, fun n => by simp⟩, fun h => absurd (by simp) h⟩
  | cons p es ih =>
    intro r hn hk
    obtain ⟨k, s⟩ := p
    have hks : k = s.name := hk (k, s) List.mem_cons_self
    subst hks
    simp only [List.map_cons, List.nodup_cons] at hn
    have hk' : ∀ p ∈ es, p.1 = p.2.name := fun p hp => hk p (List.mem_cons_of_mem _ hp)
    by_cases h0 : r.context s.name = none
    · have hadd : r.addContext s = .ok { r with contexts := r.contexts.set s.name s } := by
        unfold Resolver.addContext
        rw [h0]
      have hst : ∀ n, ({ r with contexts := r.contexts.set s.name s } : Resolver).context n =
          if n = s.name then some s else r.context n := fun n => by
        simp [Resolver.context]
      obtain ⟨ih1, ih2⟩ := ih { r with contexts := r.contexts.set s.name s } hn.2 hk'
      have hiff : (∀ p ∈ es, ({ r with contexts := r.contexts.set s.name s } : Resolver).context p.1
          = none) ↔ (∀ p ∈ es, r.context p.1 = none) := by
        constructor <;> intro h p hp
        · have := h p hp
          rw [hst, if_neg] at this
          · exact this
          · intro hpe
            exact hn.1 (List.mem_map.2 ⟨p, hp, hpe⟩)
        · rw [hst, if_neg]
          · exact h p hp
          · intro hpe
            exact hn.1 (List.mem_map.2 ⟨p, hp, hpe⟩)
      refine ⟨fun h => ?_, fun h => ?_⟩
      · obtain ⟨r', e1, e2, e3, e4⟩ := ih1 (hiff.2 fun p hp => h p (List.mem_cons_of_mem _ hp))
        refine ⟨r', ?_, e2, e3, fun n => ?_⟩
        · simp only [Resolver.addContexts, hadd, Res.ok_bind, e1]
        · rw [e4 n, hst n]
          by_cases hns : n = s.name
          · subst hns
            have : es.lookup s.name = none := (lookup_isSome_iff _ _).2 hn.1
            simp [this]
          · simp [List.lookup, beq_eq_false_iff_ne.2 hns, hns]
      · simp only [Resolver.addContexts, hadd, Res.ok_bind]
        apply ih2
        intro hc
        apply h
        intro p hp
        rcases List.mem_cons.1 hp with rfl | hp
        · exact h0
        · exact hiff.1 hc p hp
    · refine ⟨fun h => absurd (h _ List.mem_cons_self) h0, fun _ => ?_⟩
      have : r.addContext s = .err "cannot override context" := by
        unfold Resolver.addContext
        cases hs : r.context s.name with
        | none => exact absurd hs h0
        | some e => rfl
      simp [Resolver.addContexts, this]

theorem setConstants_spec (es : List (String × Int)) : ∀ (r : Resolver),
    (es.map (·.1)).Nodup →
    ((∀ p ∈ es, ∀ e, r.constant p.1 = some e → e = p.2) →
      ∃ r', r.setConstants es = .ok r' ∧ r'.structs = r.structs ∧ r'.contexts = r.contexts ∧
        ∀ n, r'.constant n = (es.lookup n).or (r.constant n)) ∧
    ((¬ ∀ p ∈ es, ∀ e, r.constant p.1 = some e → e = p.2) →
      r.setConstants es = .err "cannot override constant") := by
  induction es with
  | nil =>
    intro r _
    refine ⟨fun _ => ⟨r, rfl, rfl, rfl, fun n => by simp⟩, fun h => absurd (by simp) h⟩
  | cons p es ih =>
    intro r hn
    obtain ⟨k, v⟩ := p
    simp only [List.map_cons, List.nodup_cons] at hn
    by_cases h0 : ∀ e, r.constant k = some e → e = v
    · have hadd : r.setConstant k v = .ok { r with constants := r.constants.set k v } := by
        unfold Resolver.setConstant
        cases hs : r.constants.get k with
        | none => rfl
        | some e => simp [h0 e hs]
      have hst : ∀ n, ({ r with constants := r.constants.set k v } : Resolver).constant n =
          if n = k then some v else r.constant n := fun n => by
        simp [Resolver.constant]
      obtain ⟨ih1, ih2⟩ := ih { r with constants := r.constants.set k v } hn.2
      have hiff : (∀ p ∈ es, ∀ e, ({ r with constants := r.constants.set k v } : Resolver).constant p.1
          = some e → e = p.2) ↔ (∀ p ∈ es, ∀ e, r.constant p.1 = some e → e = p.2) := by
        constructor <;> intro h p hp e he
        · apply h p hp e
          rw [hst, if_neg]; exact he
          intro hpe
          exact hn.1 (List.mem_map.2 ⟨p, hp, hpe⟩)
        · apply h p hp e
          rw [hst, if_neg] at he; exact he
          intro hpe
          exact hn.1 (List.mem_map.2 ⟨p, hp, hpe⟩)
      refine ⟨fun h => ?_, fun h => ?_⟩
      · obtain ⟨r', e1, e2, e3, e4⟩ := ih1 (hiff.2 fun p hp => h p (List.mem_cons_of_mem _ hp))
        refine ⟨r', ?_, e2, e3, fun n => ?_⟩
        · simp only [Resolver.setConstants, hadd, Res.ok_bind, e1]
        · rw [e4 n, hst n]
          by_cases hns : n = k
          · subst hns
            have : es.lookup n = none := (lookup_isSome_iff _ _).2 hn.1
            simp [this]
          · simp [List.lookup, beq_eq_false_iff_ne.2 hns, hns]
      · simp only [Resolver.setConstants, hadd, Res.ok_bind]
        apply ih2
        intro hc
        apply h
        intro p hp
        rcases List.mem_cons.1 hp with rfl | hp
        · exact h0
        · exact hiff.1 hc p hp
    · refine ⟨fun h => absurd (h _ List.mem_cons_self) h0, fun _ => ?_⟩
      have : r.setConstant k v = .err "cannot override constant" := by
        unfold Resolver.setConstant
        cases hs : r.constants.get k with
        | none => exact absurd (by simp [Resolver.constant, hs]) h0
        | some e =>
          have : e ≠ v := fun he => h0 (by simp [Resolver.constant, hs, he])
          simp [this]
      simp [Resolver.setConstants, this]

/-! ## One file -/

/-- Names are unique within each kind of declaration of one file. -/
def FileUnique (f : File) : Prop :=
  (f.structs.map (·.name)).Nodup ∧ (f.contexts.map (·.name)).Nodup ∧ (f.constants.map (·.name)).Nodup

/-- A file may be added to a resolver. -/
def FileFits (r : Resolver) (f : File) : Prop :=
  FileUnique f ∧
  (∀ s ∈ f.structs, ∀ e, r.struct s.name = some e → e.extern = true) ∧
  (∀ c ∈ f.contexts, r.context c.name = none) ∧
  (∀ c ∈ f.constants, ∀ e, r.constant c.name = some e → e = c.value)

theorem lookup_map_find {α β : Type} (key : β → String) (val : β → α) (ds : List β) (n : String) :
    (ds.map (fun d => (key d, val d))).lookup n = (ds.find? (fun d => key d = n)).map val := by
  induction ds with
  | nil => rfl
  | cons d ds ih =>
    by_cases h : n = key d
    · subst h; simp [List.lookup]
    · simp [List.lookup, beq_eq_false_iff_ne.2 h, ih, Ne.symm h]

theorem addFile_spec (o : IterOrder) (k : Nat) (r : Resolver) (f : File) :
    (FileFits r f → ∃ r', r.addFile o k f = .ok r' ∧
      (∀ n, r'.struct n = (f.structs.find? (fun s => s.name = n)).or (r.struct n)) ∧
      (∀ n, r'.context n = (f.contexts.find? (fun s => s.name = n)).or (r.context n)) ∧
      (∀ n, r'.constant n = ((f.constants.find? (fun s => s.name = n)).map (·.value)).or
        (r.constant n))) ∧
    (¬ FileFits r f → ∃ m, r.addFile o k f = .err m ∧
      ∀ o' k' (r2 : Resolver), (∀ n, r2.struct n = r.struct n) → (∀ n, r2.context n = r.context n) →
        (∀ n, r2.constant n = r.constant n) → r2.addFile o' k' f = .err m) := by
  have hS : Inspect.structs f = if (f.structs.map (·.name)).Nodup
      then .ok ⟨f.structs.map (fun d => (d.name, d))⟩ else .err "duplicate struct name" := by
    have := loadMap_empty "duplicate struct name" (fun s : Struct => s.name) id f.structs
    simpa [Inspect.structs] using this
  have hC : Inspect.contexts f = if (f.contexts.map (·.name)).Nodup
      then .ok ⟨f.contexts.map (fun d => (d.name, d))⟩ else .err "duplicate context name" := by
    have := loadMap_empty "duplicate context name" (fun s : Context => s.name) id f.contexts
    simpa [Inspect.contexts] using this
  have hV : Inspect.constants f = if (f.constants.map (·.name)).Nodup
      then .ok ⟨f.constants.map (fun d => (d.name, d.value))⟩ else .err "duplicate constant name" :=
    loadMap_empty "duplicate constant name" (fun s : Constant => s.name) (·.value) f.constants
  -- a uniform description of every step, for any order and any equivalent resolver
  have main : ∀ (o : IterOrder) (k : Nat) (r2 : Resolver), (∀ n, r2.struct n = r.struct n) →
      (∀ n, r2.context n = r.context n) → (∀ n, r2.constant n = r.constant n) →
      (if ¬ (f.structs.map (·.name)).Nodup then r2.addFile o k f = .err "duplicate struct name"
       else if ¬ ∀ s ∈ f.structs, ∀ e, r.struct s.name = some e → e.extern = true then
         r2.addFile o k f = .err "cannot override non-extern struct"
       else if ¬ (f.contexts.map (·.name)).Nodup then r2.addFile o k f = .err "duplicate context name"
       else if ¬ ∀ c ∈ f.contexts, r.context c.name = none then
         r2.addFile o k f = .err "cannot override context"
       else if ¬ (f.constants.map (·.name)).Nodup then r2.addFile o k f = .err "duplicate constant name"
       else if ¬ ∀ c ∈ f.constants, ∀ e, r.constant c.name = some e → e = c.value then
         r2.addFile o k f = .err "cannot override constant"
       else ∃ r', r2.addFile o k f = .ok r' ∧
        (∀ n, r'.struct n = (f.structs.find? (fun s => s.name = n)).or (r.struct n)) ∧
        (∀ n, r'.context n = (f.contexts.find? (fun s => s.name = n)).or (r.context n)) ∧
        (∀ n, r'.constant n = ((f.constants.find? (fun s => s.name = n)).map (·.value)).or
          (r.constant n))) := by
    intro o k r2 q1 q2 q3
    unfold Resolver.addFile
    rw [hS]
    split
    · rename_i h; simp [h]
    rename_i hn1
    have hn1 := Classical.not_not.1 hn1
    rw [if_pos hn1]
    simp only [Res.ok_bind]
    have hp1 := o.perm (3 * k) (f.structs.map (fun d => (d.name, d)))
    have hnd1 : ((f.structs.map (fun d => (d.name, d))).map (·.1)).Nodup := by
      simpa [Function.comp_def] using hn1
    have hk1 : ∀ p ∈ o.ord (3 * k) (f.structs.map (fun d => (d.name, d))), p.1 = p.2.name := by
      intro p hp
      obtain ⟨d, _, rfl⟩ := List.mem_map.1 (hp1.mem_iff.1 hp)
      rfl
    obtain ⟨s1, s2⟩ := addStructs_spec _ r2 ((hp1.map _).nodup_iff.2 hnd1) hk1
    have e1 : (∀ p ∈ o.ord (3 * k) (f.structs.map (fun d => (d.name, d))), ∀ e, r2.struct p.1 = some e →
        e.extern = true) ↔ ∀ s ∈ f.structs, ∀ e, r.struct s.name = some e → e.extern = true := by
      constructor
      · intro h s hs e he
        exact h (s.name, s) (hp1.mem_iff.2 (List.mem_map.2 ⟨s, hs, rfl⟩)) e (by rw [q1]; exact he)
      · intro h p hp e he
        obtain ⟨d, hd, rfl⟩ := List.mem_map.1 (hp1.mem_iff.1 hp)
        exact h d hd e (by rw [← q1]; exact he)
    split
    · rename_i h
      rw [s2 (fun hc => h (e1.1 hc))]; rfl
    rename_i hf1
    obtain ⟨r3, a1, a2, a3, a4⟩ := s1 (e1.2 (Classical.not_not.1 hf1))
    rw [a1]
    simp only [Res.ok_bind]
    rw [hC]
    split
    · rename_i h; simp [h]
    rename_i hn2
    have hn2 := Classical.not_not.1 hn2
    rw [if_pos hn2]
    simp only [Res.ok_bind]
    have hp2 := o.perm (3 * k + 1) (f.contexts.map (fun d => (d.name, d)))
    have hnd2 : ((f.contexts.map (fun d => (d.name, d))).map (·.1)).Nodup := by
      simpa [Function.comp_def] using hn2
    have hk2 : ∀ p ∈ o.ord (3 * k + 1) (f.contexts.map (fun d => (d.name, d))), p.1 = p.2.name := by
      intro p hp
      obtain ⟨d, _, rfl⟩ := List.mem_map.1 (hp2.mem_iff.1 hp)
      rfl
    obtain ⟨c1, c2⟩ := addContexts_spec _ r3 ((hp2.map _).nodup_iff.2 hnd2) hk2
    have q2' : ∀ n, r3.context n = r.context n := fun n => by
      rw [← q2 n]; simp [Resolver.context, a2]
    have e2 : (∀ p ∈ o.ord (3 * k + 1) (f.contexts.map (fun d => (d.name, d))), r3.context p.1 = none) ↔
        ∀ s ∈ f.contexts, r.context s.name = none := by
      constructor
      · intro h s hs
        rw [← q2']
        exact h (s.name, s) (hp2.mem_iff.2 (List.mem_map.2 ⟨s, hs, rfl⟩))
      · intro h p hp
        obtain ⟨d, hd, rfl⟩ := List.mem_map.1 (hp2.mem_iff.1 hp)
        rw [q2']
        exact h d hd
    split
    · rename_i h
      rw [c2 (fun hc => h (e2.1 hc))]; rfl
    rename_i hf2
    obtain ⟨r4, b1, b2, b3, b4⟩ := c1 (e2.2 (Classical.not_not.1 hf2))
    rw [b1]
    simp only [Res.ok_bind]
    rw [hV]
    split
    · rename_i h; simp [h]
    rename_i hn3
    have hn3 := Classical.not_not.1 hn3
    rw [if_pos hn3]
    simp only [Res.ok_bind]
    have hp3 := o.perm (3 * k + 2) (f.constants.map (fun d => (d.name, d.value)))
    have hnd3 : ((f.constants.map (fun d => (d.name, d.value))).map (·.1)).Nodup := by
      simpa [Function.comp_def] using hn3
    obtain ⟨v1, v2⟩ := setConstants_spec _ r4 ((hp3.map _).nodup_iff.2 hnd3)
    have q3' : ∀ n, r4.constant n = r.constant n := fun n => by
      rw [← q3 n]; simp [Resolver.constant, b3, a3]
    have e3 : (∀ p ∈ o.ord (3 * k + 2) (f.constants.map (fun d => (d.name, d.value))),
        ∀ e, r4.constant p.1 = some e → e = p.2) ↔
        ∀ s ∈ f.constants, ∀ e, r.constant s.name = some e → e = s.value := by
      constructor
      · intro h s hs e he
        exact h (s.name, s.value) (hp3.mem_iff.2 (List.mem_map.2 ⟨s, hs, rfl⟩)) e (by rw [q3']; exact he)
      · intro h p hp e he
        obtain ⟨d, hd, rfl⟩ := List.mem_map.1 (hp3.mem_iff.1 hp)
        exact h d hd e (by rw [← q3']; exact he)
    split
    · rename_i h
      exact v2 (fun hc => h (e3.1 hc))
    rename_i hf3
    obtain ⟨r5, d1, d2, d3, d4⟩ := v1 (e3.2 (Classical.not_not.1 hf3))
    refine ⟨r5, d1, fun n => ?_, fun n => ?_, fun n => ?_⟩
    · have : r5.struct n = r3.struct n := by simp [Resolver.struct, d2, b2]
      rw [this, a4, lookup_perm hp1 ((hp1.map _).nodup_iff.2 hnd1), q1]
      have := lookup_map_find (fun s : Struct => s.name) id f.structs n
      simp only [id, Option.map_id_fun] at this
      rw [this]
    · have : r5.context n = r4.context n := by simp [Resolver.context, d3]
      rw [this, b4, lookup_perm hp2 ((hp2.map _).nodup_iff.2 hnd2), q2']
      have := lookup_map_find (fun s : Context => s.name) id f.contexts n
      simp only [id, Option.map_id_fun] at this
      rw [this]
    · rw [d4, lookup_perm hp3 ((hp3.map _).nodup_iff.2 hnd3), q3']
      rw [lookup_map_find (fun s : Constant => s.name) (·.value) f.constants n]
  constructor
  · rintro ⟨⟨h1, h2, h3⟩, h4, h5, h6⟩
    have := main o k r (fun _ => rfl) (fun _ => rfl) (fun _ => rfl)
    rwa [if_neg (Classical.not_not.2 h1), if_neg (Classical.not_not.2 h4),
      if_neg (Classical.not_not.2 h2), if_neg (Classical.not_not.2 h5),
      if_neg (Classical.not_not.2 h3), if_neg (Classical.not_not.2 h6)] at this
  · intro hnf
    have m1 := main o k r (fun _ => rfl) (fun _ => rfl) (fun _ => rfl)
    have m2 := fun o' k' r2 q1 q2 q3 => main o' k' r2 q1 q2 q3
    split at m1
    · rename_i h
      refine ⟨_, m1, fun o' k' r2 q1 q2 q3 => ?_⟩
      have := m2 o' k' r2 q1 q2 q3
      rwa [if_pos h] at this
    rename_i g1
    split at m1
    · rename_i h
      refine ⟨_, m1, fun o' k' r2 q1 q2 q3 => ?_⟩
      have := m2 o' k' r2 q1 q2 q3
      rwa [if_neg g1, if_pos h] at this
    rename_i g2
    split at m1
    · rename_i h
      refine ⟨_, m1, fun o' k' r2 q1 q2 q3 => ?_⟩
      have := m2 o' k' r2 q1 q2 q3
      rwa [if_neg g1, if_neg g2, if_pos h] at this
    rename_i g3
    split at m1
    · rename_i h
      refine ⟨_, m1, fun o' k' r2 q1 q2 q3 => ?_⟩
      have := m2 o' k' r2 q1 q2 q3
      rwa [if_neg g1, if_neg g2, if_neg g3, if_pos h] at this
    rename_i g4
    split at m1
    · rename_i h
      refine ⟨_, m1, fun o' k' r2 q1 q2 q3 => ?_⟩
      have := m2 o' k' r2 q1 q2 q3
      rwa [if_neg g1, if_neg g2, if_neg g3, if_neg g4, if_pos h] at this
    rename_i g5
    split at m1
    · rename_i h
      refine ⟨_, m1, fun o' k' r2 q1 q2 q3 => ?_⟩
      have := m2 o' k' r2 q1 q2 q3
      rwa [if_neg g1, if_neg g2, if_neg g3, if_neg g4, if_neg g5, if_pos h] at this
    rename_i g6
    exact absurd ⟨⟨Classical.not_not.1 g1, Classical.not_not.1 g3, Classical.not_not.1 g5⟩,
      Classical.not_not.1 g2, Classical.not_not.1 g4, Classical.not_not.1 g6⟩ hnf

end Verif.Inspect
