import Verif.Constraints
import Verif.InspectLemmas
/-!
# Lemmas about constraint stores
-/
namespace Verif.Tv
open Verif Verif.Ast Verif.Inspect

theorem mem_setList {α : Type} (k : String) (v : α) (l : List (String × α)) (e : String × α)
    (h : e ∈ GoMap.setList k v l) : e = (k, v) ∨ e ∈ l := by
  induction l with
  | nil => simpa [GoMap.setList] using h
  | cons p l ih =>
    obtain ⟨k', v'⟩ := p
    simp only [GoMap.setList] at h
    split at h
    · rcases List.mem_cons.1 h with h | h
      · exact .inl h
      · exact .inr (List.mem_cons_of_mem _ h)
    · rcases List.mem_cons.1 h with h | h
      · exact .inr (h ▸ List.mem_cons_self)
      · rcases ih h with h | h
        · exact .inl h
        · exact .inr (List.mem_cons_of_mem _ h)

theorem setList_ne_nil {α : Type} (k : String) (v : α) (l : List (String × α)) :
    GoMap.setList k v l ≠ [] := by
  cases l with
  | nil => simp [GoMap.setList]
  | cons p l => simp only [GoMap.setList]; split <;> simp

theorem setList_keys_nodup {α : Type} (k : String) (v : α) (l : List (String × α))
    (h : (l.map (·.1)).Nodup) : ((GoMap.setList k v l).map (·.1)).Nodup := by
  induction l with
  | nil => simp [GoMap.setList]
  | cons p l ih =>
    obtain ⟨k', v'⟩ := p
    simp only [List.map_cons, List.nodup_cons] at h
    simp only [GoMap.setList]
    split
    · rename_i hk; subst hk; simp only [List.map_cons, List.nodup_cons]; exact h
    · rename_i hk
      simp only [List.map_cons, List.nodup_cons]
      refine ⟨?_, ih h.2⟩
      intro hm
      obtain ⟨e, he, hek⟩ := List.mem_map.1 hm
      rcases mem_setList _ _ _ _ he with rfl | he
      · exact hk hek
      · exact h.1 (hek ▸ List.mem_map.2 ⟨e, he, rfl⟩)

theorem lookup_filter_ne {α : Type} (s k : String) (l : List (String × α)) :
    (l.filter (fun e => e.1 ≠ s)).lookup k = if k = s then none else l.lookup k := by
  induction l with
  | nil => simp
  | cons p l ih =>
    obtain ⟨a, b⟩ := p
    by_cases ha : a = s
    · subst ha
      simp only [ne_eq, not_true_eq_false, decide_false, List.filter_cons, Bool.false_eq_true, if_false] at ih ⊢
      rw [ih]
      by_cases hk : k = a
      · simp [hk]
      · have hb : (k == a) = false := by simpa using hk
        simp [hk, List.lookup, hb]
    · simp only [ne_eq, ha, not_false_eq_true, decide_true, List.filter_cons, if_true, List.lookup_cons] at ih ⊢
      rw [ih]
      by_cases hk : k = a
      · subst hk; simp [ha]
      · have hb : (k == a) = false := by simpa using hk
        simp [hb]

namespace Cst

/-- What Go maps guarantee (keys occur once), and that no scope is empty. -/
structure WF (c : Cst) : Prop where
  outer : (c.scopes.entries.map (·.1)).Nodup
  inner : ∀ e ∈ c.scopes.entries, (e.2.entries.map (·.1)).Nodup ∧ e.2.entries ≠ []

theorem wf_empty : WF empty := ⟨by simp [empty, GoMap.empty], by simp [empty, GoMap.empty]⟩

/-- Outcome of `set`, by cases. -/
theorem set_cases (c : Cst) (s k : String) (v : Int) :
    (∃ vals u, c.scopes.get s = some vals ∧ vals.get k = some u ∧ u ≠ v ∧ c.set s k v = (c, false)) ∨
    (c.set s k v = (⟨c.scopes.set s (((c.scopes.get s).getD .empty).set k v)⟩, true) ∧
      c.scopes.get s ≠ none ∧ (c.lookup s k = none ∨ c.lookup s k = some v)) ∨
    (c.set s k v = (⟨(c.scopes.set s .empty).set s (GoMap.empty.set k v)⟩, true) ∧ c.scopes.get s = none) := by
  unfold set lookup
  cases hs : c.scopes.get s with
  | none => simp [hs]
  | some vals =>
    simp only [hs, Option.getD_some]
    cases hk : vals.get k with
    | none => simp
    | some u =>
      by_cases hu : u = v
      · subst hu; simp
      · simp [hu, hk]

theorem setList_setList {α : Type} (k : String) (a b : α) (l : List (String × α)) :
    GoMap.setList k b (GoMap.setList k a l) = GoMap.setList k b l := by
  induction l with
  | nil => simp [GoMap.setList]
  | cons p l ih =>
    obtain ⟨x, y⟩ := p
    simp only [GoMap.setList]
    by_cases h : k = x
    · simp [h, GoMap.setList]
    · simp [h, GoMap.setList, ih]

theorem set_ok_eq {c : Cst} {s k : String} {v : Int} (h : (c.set s k v).2 = true) :
    (c.set s k v).1 = ⟨c.scopes.set s (((c.scopes.get s).getD .empty).set k v)⟩ := by
  rcases set_cases c s k v with ⟨_, _, _, _, _, h'⟩ | ⟨h', _⟩ | ⟨h', hs⟩
  · rw [h'] at h; cases h
  · rw [h']
  · rw [h', hs]
    simp only [GoMap.set, setList_setList, Option.getD_none]

theorem set_ok_iff (c : Cst) (s k : String) (v : Int) :
    (c.set s k v).2 = true ↔ ∀ u, c.lookup s k = some u → u = v := by
  rcases set_cases c s k v with ⟨vals, u, hs, hk, hu, h'⟩ | ⟨h', _, hl⟩ | ⟨h', hs⟩
  · rw [h']
    simp only [Bool.false_eq_true, false_iff, lookup, hs, hk, Option.some.injEq]
    exact fun h => hu (h u rfl)
  · rw [h']
    simp only [true_iff]
    rcases hl with hl | hl <;> rw [hl]
    · intro u h; cases h
    · intro u h; cases h; rfl
  · rw [h']
    simp [lookup, hs]

theorem set_fail {c : Cst} {s k : String} {v : Int} (h : (c.set s k v).2 = false) :
    (c.set s k v).1 = c := by
  rcases set_cases c s k v with ⟨vals, u, hs, hk, hu, h'⟩ | ⟨h', _, hl⟩ | ⟨h', hs⟩
  · rw [h']
  · rw [h'] at h; cases h
  · rw [h'] at h; cases h

theorem lookup_set {c : Cst} {s k : String} {v : Int} (h : (c.set s k v).2 = true) (s' k' : String) :
    (c.set s k v).1.lookup s' k' = if s' = s ∧ k' = k then some v else c.lookup s' k' := by
  rw [set_ok_eq h]
  simp only [lookup, GoMap.get_set]
  by_cases hs : s' = s
  · subst hs
    simp only [if_true, true_and, GoMap.get_set]
    by_cases hk : k' = k
    · simp [hk]
    · simp only [hk, if_false]
      cases c.scopes.get s' <;> simp
  · simp [hs]

theorem get_wf {c : Cst} (hc : WF c) {s : String} {vals : GoMap Int} (h : c.scopes.get s = some vals) :
    (vals.entries.map (·.1)).Nodup ∧ vals.entries ≠ [] :=
  hc.inner _ ((lookup_eq_some_iff hc.outer s vals).1 h)

theorem wf_set {c : Cst} (hc : WF c) (s k : String) (v : Int) : WF (c.set s k v).1 := by
  cases h : (c.set s k v).2 with
  | false => rw [set_fail h]; exact hc
  | true =>
    rw [set_ok_eq h]
    refine ⟨setList_keys_nodup _ _ _ hc.outer, ?_⟩
    intro e he
    rcases mem_setList _ _ _ _ he with rfl | he
    · refine ⟨setList_keys_nodup _ _ _ ?_, setList_ne_nil _ _ _⟩
      cases hs : c.scopes.get s with
      | none => simp [GoMap.empty]
      | some vals => exact (get_wf hc hs).1
    · exact hc.inner e he

theorem lookup_clearScope (c : Cst) (s s' k : String) :
    (c.clearScope s).lookup s' k = if s' = s then none else c.lookup s' k := by
  simp only [clearScope, lookup, GoMap.get, lookup_filter_ne]
  by_cases h : s' = s <;> simp [h]

theorem wf_clearScope {c : Cst} (hc : WF c) (s : String) : WF (c.clearScope s) :=
  ⟨(List.filter_sublist.map _).nodup hc.outer, fun e he => hc.inner e (List.mem_filter.1 he).1⟩

theorem updateScope_spec (s : String) (es : List (String × Int)) : ∀ c : Cst,
    (es.map (·.1)).Nodup →
    ((updateScope s c es).2 = true ↔ ∀ e ∈ es, ∀ u, c.lookup s e.1 = some u → u = e.2) ∧
    ((updateScope s c es).2 = true → ∀ s' k', (updateScope s c es).1.lookup s' k' =
      if s' = s then (es.lookup k').or (c.lookup s k') else c.lookup s' k') := by
  induction es with
  | nil =>
    intro c _
    simp only [updateScope]
    refine ⟨by simp, fun _ s' k' => ?_⟩
    by_cases h : s' = s <;> simp [h]
  | cons e es ih =>
    obtain ⟨k, v⟩ := e
    intro c hn
    simp only [List.map_cons, List.nodup_cons] at hn
    have hne : ∀ e ∈ es, e.1 ≠ k := fun e he h => hn.1 (h ▸ List.mem_map.2 ⟨e, he, rfl⟩)
    simp only [updateScope]
    cases hset : c.set s k v with
    | mk c' b =>
      cases b with
      | false =>
        have hf : (c.set s k v).2 = false := by rw [hset]
        simp only [Bool.false_eq_true, false_iff, List.mem_cons, forall_eq_or_imp, false_imp_iff, and_true]
        rintro ⟨h, -⟩
        rw [(set_ok_iff c s k v).2 h] at hf
        cases hf
      | true =>
        have ht : (c.set s k v).2 = true := by rw [hset]
        have hl : ∀ s' k', c'.lookup s' k' = if s' = s ∧ k' = k then some v else c.lookup s' k' := by
          intro s' k'
          have := lookup_set ht s' k'
          rwa [hset] at this
        simp only
        obtain ⟨h1, h2⟩ := ih c' hn.2
        refine ⟨?_, ?_⟩
        · rw [h1]
          simp only [List.mem_cons, forall_eq_or_imp]
          constructor
          · intro h
            refine ⟨(set_ok_iff c s k v).1 ht, ?_⟩
            intro e he u hu
            refine h e he u ?_
            rw [hl, if_neg]
            · exact hu
            · exact fun hh => hne e he hh.2
          · rintro ⟨-, h⟩ e he u hu
            rw [hl, if_neg (fun hh => hne e he hh.2)] at hu
            exact h e he u hu
        · intro hok s' k'
          rw [h2 hok s' k', hl, hl]
          by_cases hs : s' = s
          · subst hs
            simp only [if_true, true_and, List.lookup_cons]
            by_cases hk : k' = k
            · subst hk
              simp [(lookup_isSome_iff _ _).2 hn.1]
            · have hb : (k' == k) = false := by simpa using hk
              simp [hk, hb]
          · simp [hs]

theorem wf_updateScope (s : String) (es : List (String × Int)) : ∀ c : Cst, WF c →
    WF (updateScope s c es).1 := by
  induction es with
  | nil => exact fun c hc => hc
  | cons e es ih =>
    obtain ⟨k, v⟩ := e
    intro c hc
    have := wf_set hc s k v
    simp only [updateScope]
    cases hset : c.set s k v with
    | mk c' b =>
      rw [hset] at this
      cases b
      · exact this
      · exact ih c' this

theorem updateScopes_spec (o : IterOrder) (es : List (String × GoMap Int)) : ∀ (t : Nat) (c : Cst),
    (es.map (·.1)).Nodup → (∀ e ∈ es, (e.2.entries.map (·.1)).Nodup) →
    ((updateScopes o t c es).2 = true ↔
      ∀ e ∈ es, ∀ p ∈ e.2.entries, ∀ u, c.lookup e.1 p.1 = some u → u = p.2) ∧
    ((updateScopes o t c es).2 = true → ∀ s k, (updateScopes o t c es).1.lookup s k =
      ((es.lookup s).bind (·.get k)).or (c.lookup s k)) := by
  induction es with
  | nil => intro t c _ _; simp [updateScopes]
  | cons e es ih =>
    obtain ⟨s, vals⟩ := e
    intro t c hn hi
    simp only [List.map_cons, List.nodup_cons] at hn
    have hne : ∀ e ∈ es, e.1 ≠ s := fun e he h => hn.1 (h ▸ List.mem_map.2 ⟨e, he, rfl⟩)
    have hp := o.perm t vals.entries
    have hvn : (vals.entries.map (·.1)).Nodup := hi _ List.mem_cons_self
    have hon : ((o.ord t vals.entries).map (·.1)).Nodup := (hp.map _).nodup_iff.2 hvn
    obtain ⟨u1, u2⟩ := updateScope_spec s (o.ord t vals.entries) c hon
    have u1' : (updateScope s c (o.ord t vals.entries)).2 = true ↔
        ∀ p ∈ vals.entries, ∀ u, c.lookup s p.1 = some u → u = p.2 := by
      rw [u1]
      exact ⟨fun h e he => h e (hp.mem_iff.2 he), fun h e he => h e (hp.mem_iff.1 he)⟩
    simp only [updateScopes]
    cases hu : updateScope s c (o.ord t vals.entries) with
    | mk c' b =>
      rw [hu] at u1' u2
      cases b with
      | false =>
        simp only [Bool.false_eq_true, false_iff, List.mem_cons, forall_eq_or_imp, false_imp_iff, and_true]
        rintro ⟨h, -⟩
        have := u1'.2 h
        cases this
      | true =>
        simp only
        have hl : ∀ s' k', c'.lookup s' k' =
            if s' = s then (vals.get k').or (c.lookup s k') else c.lookup s' k' := by
          intro s' k'
          rw [u2 rfl s' k', lookup_perm hp hon]
          rfl
        obtain ⟨h1, h2⟩ := ih (t + 1) c' hn.2 (fun e he => hi e (List.mem_cons_of_mem _ he))
        refine ⟨?_, ?_⟩
        · rw [h1]
          simp only [List.mem_cons, forall_eq_or_imp]
          constructor
          · intro h
            refine ⟨u1'.1 rfl, fun e he p hp u hu => h e he p hp u ?_⟩
            rw [hl, if_neg (hne e he)]; exact hu
          · rintro ⟨-, h⟩ e he p hp u hu
            rw [hl, if_neg (hne e he)] at hu
            exact h e he p hp u hu
        · intro hok s' k'
          rw [h2 hok s' k', hl]
          simp only [List.lookup_cons]
          by_cases hs : s' = s
          · subst hs
            simp [(lookup_isSome_iff _ _).2 hn.1]
          · have hb : (s' == s) = false := by simpa using hs
            simp [hs, hb]

theorem wf_updateScopes (o : IterOrder) (es : List (String × GoMap Int)) : ∀ (t : Nat) (c : Cst), WF c →
    WF (updateScopes o t c es).1 := by
  induction es with
  | nil => exact fun t c hc => hc
  | cons e es ih =>
    obtain ⟨s, vals⟩ := e
    intro t c hc
    have := wf_updateScope s (o.ord t vals.entries) c hc
    simp only [updateScopes]
    cases hu : updateScope s c (o.ord t vals.entries) with
    | mk c' b =>
      rw [hu] at this
      cases b
      · exact this
      · exact ih _ c' this

theorem wf_update (o : IterOrder) (t : Nat) {c : Cst} (hc : WF c) (d : Cst) : WF (update o t c d).1 :=
  wf_updateScopes o _ _ _ hc

/-- `Update` fails exactly on a disagreement, and otherwise overlays. -/
theorem update_spec (o : IterOrder) (t : Nat) (c : Cst) {d : Cst} (hd : WF d) :
    ((update o t c d).2 = true ↔
      ∀ s k u v, c.lookup s k = some u → d.lookup s k = some v → u = v) ∧
    ((update o t c d).2 = true → ∀ s k, (update o t c d).1.lookup s k =
      (d.lookup s k).or (c.lookup s k)) := by
  have hp := o.perm t d.scopes.entries
  have hon : ((o.ord t d.scopes.entries).map (·.1)).Nodup := (hp.map _).nodup_iff.2 hd.outer
  obtain ⟨h1, h2⟩ := updateScopes_spec o (o.ord t d.scopes.entries) (t + 1) c hon
    (fun e he => (hd.inner e (hp.mem_iff.1 he)).1)
  refine ⟨?_, ?_⟩
  · rw [update, h1]
    constructor
    · intro h s k u v hu hv
      simp only [lookup] at hv
      cases hs : d.scopes.get s with
      | none => rw [hs] at hv; cases hv
      | some vals =>
        rw [hs] at hv
        have hm : (s, vals) ∈ d.scopes.entries := (lookup_eq_some_iff hd.outer s vals).1 hs
        have hm' : (k, v) ∈ vals.entries := (lookup_eq_some_iff (hd.inner _ hm).1 k v).1 hv
        exact h (s, vals) (hp.mem_iff.2 hm) (k, v) hm' u hu
    · intro h e he p hp' u hu
      have hm := hp.mem_iff.1 he
      refine h e.1 p.1 u p.2 hu ?_
      have hs : d.scopes.get e.1 = some e.2 := (lookup_eq_some_iff hd.outer _ _).2 hm
      simp only [lookup, hs]
      exact (lookup_eq_some_iff (hd.inner _ hm).1 _ _).2 hp'
  · intro hok s k
    rw [update] at hok ⊢
    rw [h2 hok s k, lookup_perm hp hon]
    simp only [lookup, GoMap.get]
    cases d.scopes.entries.lookup s <;> rfl

theorem lookup_empty (s k : String) : empty.lookup s k = none := rfl

theorem clone_spec (o : IterOrder) (t : Nat) {c : Cst} (hc : WF c) :
    ∃ m, c.clone o t = .ok m ∧ WF m ∧ ∀ s k, m.lookup s k = c.lookup s k := by
  obtain ⟨h1, h2⟩ := update_spec o t empty hc
  have hok : (update o t empty c).2 = true := h1.2 (fun s k u v hu _ => by cases hu)
  have hw := wf_update o t wf_empty c
  unfold clone
  cases hu : update o t empty c with
  | mk m b =>
    rw [hu] at hok h2 hw
    simp only at hok
    subst hok
    exact ⟨m, rfl, hw, fun s k => by rw [h2 rfl s k, lookup_empty]; simp⟩

theorem cloneGlobal_spec (o : IterOrder) (t : Nat) {c : Cst} (hc : WF c) :
    ∃ m, c.cloneGlobal o t = .ok m ∧ WF m ∧ ∀ s k, m.lookup s k = if s = "" then none else c.lookup s k := by
  obtain ⟨m, h, hw, hl⟩ := clone_spec o t hc
  refine ⟨m.clearLocal, by simp [cloneGlobal, h], wf_clearScope hw _, fun s k => ?_⟩
  rw [clearLocal, lookup_clearScope, hl]

theorem merge_spec (o : IterOrder) (t t' : Nat) {c d : Cst} (hc : WF c) (hd : WF d) :
    ((∀ s k u v, c.lookup s k = some u → d.lookup s k = some v → u = v) ∧
      ∃ m, c.merge o t t' d = .ok m ∧ WF m ∧ ∀ s k, m.lookup s k = (d.lookup s k).or (c.lookup s k)) ∨
    (¬ (∀ s k u v, c.lookup s k = some u → d.lookup s k = some v → u = v) ∧
      c.merge o t t' d = .err "conflicting constraint") := by
  obtain ⟨m, h, hw, hl⟩ := clone_spec o t hc
  obtain ⟨h1, h2⟩ := update_spec o t' m hd
  have hw' := wf_update o t' hw d
  simp only [hl] at h1 h2
  simp only [merge, h, Res.ok_bind]
  cases hu : update o t' m d with
  | mk m' b =>
    rw [hu] at h1 h2 hw'
    cases b with
    | false => exact .inr ⟨fun h => (by have := h1.2 h; cases this), rfl⟩
    | true => exact .inl ⟨h1.1 rfl, m', rfl, hw', h2 rfl⟩

theorem lookupOrCreate_spec (c : Cst) (s k : String) (v : Int) :
    (∃ u, c.lookup s k = some u ∧ c.lookupOrCreate s k v = .ok (c, u)) ∨
    (c.lookup s k = none ∧ c.lookupOrCreate s k v = .ok ((c.set s k v).1, v) ∧ (c.set s k v).2 = true) := by
  unfold lookupOrCreate
  cases h : c.lookup s k with
  | some u => exact .inl ⟨u, rfl, rfl⟩
  | none =>
    have hok : (c.set s k v).2 = true := (set_ok_iff c s k v).2 (by rw [h]; intro u hu; cases hu)
    refine .inr ⟨rfl, ?_, hok⟩
    cases hs : c.set s k v with
    | mk c' b =>
      rw [hs] at hok
      simp only at hok
      subst hok
      rfl

theorem wf_lookupOrCreate {c : Cst} (hc : WF c) {s k : String} {v : Int} {c' : Cst} {x : Int}
    (h : c.lookupOrCreate s k v = .ok (c', x)) : WF c' := by
  rcases lookupOrCreate_spec c s k v with ⟨u, _, h'⟩ | ⟨_, h', _⟩
  · rw [h'] at h; cases h; exact hc
  · rw [h'] at h; cases h; exact wf_set hc s k v

end Cst
end Verif.Tv
