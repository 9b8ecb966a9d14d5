import Verif.GoType
import Verif.Gen
/-!
# The emitted code uses the variables it declares
-/
namespace Verif.Refine
open Verif Verif.Ast Verif.Go Verif.Gen Verif.Inspect

variable {g : Cfg} {recv : String}

/-- Declares nothing in its own block. -/
abbrev Quiet (ss : List Stmt) : Prop := ∀ s ∈ ss, declares s = none

theorem usesL_append {x : String} : ∀ {a : List Stmt} (b : List Stmt), usesL x a = true → usesL x (a ++ b) = true
  | s :: a, b, h => by
    simp only [List.cons_append, usesL, Bool.or_eq_true, Bool.and_eq_true] at h ⊢
    exact h.imp id fun h => ⟨h.1, usesL_append b h.2⟩

theorem usesL_quiet {x : String} {b : List Stmt} (hb : usesL x b = true) : ∀ {a : List Stmt}, Quiet a → usesL x (a ++ b) = true
  | [], _ => hb
  | s :: a, h => by
    simp only [List.cons_append, usesL, Bool.or_eq_true, Bool.and_eq_true]
    refine .inr ⟨by rw [h s List.mem_cons_self]; rfl, usesL_quiet hb fun t ht => h t (List.mem_cons_of_mem _ ht)⟩

theorem usedL_append : ∀ {a b : List Stmt}, usedL a = true → usedL b = true → usedL (a ++ b) = true
  | [], _, _, hb => hb
  | s :: a, b, ha, hb => by
    simp only [List.cons_append, usedL, Bool.and_eq_true] at ha ⊢
    refine ⟨⟨?_, ha.1.2⟩, usedL_append ha.2 hb⟩
    cases hd : declares s with
    | none => rfl
    | some x =>
      have := ha.1.1
      rw [hd] at this
      exact usesL_append b this

theorem usedL_quiet {s : Stmt} {ss : List Stmt} (h : declares s = none) (h1 : used s = true) (h2 : usedL ss = true) :
    usedL (s :: ss) = true := by
  simp [usedL, h, h1, h2]

theorem lengthCheck_used (e : Expr) : used (lengthCheck e) = true := rfl

theorem intCheck_used {lhs : LV} {t : IntType} {ss : List Stmt} (h : intCheck g lhs t = .ok ss) : usedL ss = true ∧ Quiet ss := by
  unfold intCheck at h
  split at h
  · cases h; exact ⟨rfl, by simp [Quiet]⟩
  · obtain ⟨c, _, h⟩ := Res.bind_eq_ok.1 h
    cases h; exact ⟨rfl, by simp [Quiet, declares]⟩

theorem intRead_used (lhs : LV) (t : IntType) : used (intRead lhs t) = true ∧ declares (intRead lhs t) = none := by
  unfold intRead; split <;> exact ⟨rfl, rfl⟩

theorem parseIntType_used {lhs : LV} {t : IntType} {ss : List Stmt} (h : parseIntType g lhs t = .ok ss) :
    usedL ss = true ∧ Quiet ss := by
  obtain ⟨c, hc, h⟩ := Res.bind_eq_ok.1 h
  cases h
  obtain ⟨h1, h2⟩ := intCheck_used hc
  obtain ⟨h3, h4⟩ := intRead_used lhs t
  constructor
  · exact usedL_append (usedL_append (usedL_quiet rfl rfl (usedL_quiet h4 h3 rfl)) h1) rfl
  · intro s hs
    simp only [List.mem_append, List.mem_cons, List.not_mem_nil, or_false] at hs
    rcases hs with ((rfl | rfl) | hs) | rfl
    · rfl
    · exact h4
    · exact h2 s hs
    · rfl

theorem parseBase_used {lhs : LV} {b : Base} {ss : List Stmt} (h : parseBase g lhs b = .ok ss) :
    usedL ss = true ∧ ∀ s ∈ ss, declares s = none ∨ declares s = some "err" := by
  cases b with
  | int t => obtain ⟨h1, h2⟩ := parseIntType_used h; exact ⟨h1, fun s hs => .inl (h2 s hs)⟩
  | char => obtain ⟨h1, h2⟩ := parseIntType_used h; exact ⟨h1, fun s hs => .inl (h2 s hs)⟩
  | struct n =>
    simp only [parseBase] at h
    split at h
    · cases h
    · cases h
      refine ⟨?_, by simp [declares]⟩
      simp [usedL, declares, used, usesL, uses, exprUses]

theorem usesL_append_ne {x : String} {b : List Stmt} (hb : usesL x b = true) : ∀ {a : List Stmt}, (∀ s ∈ a, declares s ≠ some x) →
    usesL x (a ++ b) = true
  | [], _ => hb
  | s :: a, h => by
    simp only [List.cons_append, usesL, Bool.or_eq_true, Bool.and_eq_true]
    refine .inr ⟨by simpa using h s List.mem_cons_self, usesL_append_ne hb fun t ht => h t (List.mem_cons_of_mem _ ht)⟩

theorem constrained_used {c : LengthConstraint} {body : Res (List Stmt)} {ss : List Stmt} (h : constrained g recv c body = .ok ss)
    (hb : ∀ b, body = .ok b → usedL b = true ∧ Quiet b) : usedL ss = true := by
  obtain ⟨e, he, h⟩ := Res.bind_eq_ok.1 h
  obtain ⟨b, hb', h⟩ := Res.bind_eq_ok.1 h
  cases h
  obtain ⟨h1, h2⟩ := hb b hb'
  have h0 : declares e.1 = none ∧ used e.1 = true := by
    unfold extent at he
    split at he
    · obtain ⟨k, _, he⟩ := Res.bind_eq_ok.1 he; cases he; exact ⟨rfl, rfl⟩
    · cases he; exact ⟨rfl, rfl⟩
  show usedL (e.1 :: .define "restore" (.sliceFrom cur e.2) :: .assign (.var "cur") (.sliceTo cur e.2) ::
    ((b ++ [assertEnd, .assign (.var "cur") (.var "restore")]))) = true
  refine usedL_quiet h0.1 h0.2 ?_
  simp only [usedL, declares, used, Bool.and_eq_true, Bool.true_and, and_true]
  refine ⟨?_, usedL_append h1 rfl⟩
  exact usesL_quiet (x := "restore") (a := [.assign (.var "cur") (.sliceTo cur e.2)] ++ b)
    (b := [assertEnd, .assign (.var "cur") (.var "restore")]) (by decide +kernel) (by
      intro s hs
      rcases List.mem_append.1 hs with hs | hs
      · rw [List.mem_singleton.1 hs]; rfl
      · exact h2 s hs)

theorem parseFixed_used {lhs : LV} {b : Base} {n : Integer} {ss : List Stmt} (h : parseFixed g lhs b n = .ok ss) :
    usedL ss = true := by
  obtain ⟨k, _, h⟩ := Res.bind_eq_ok.1 h
  obtain ⟨body, hb, h⟩ := Res.bind_eq_ok.1 h
  cases h
  simp [usedL, declares, used, (parseBase_used hb).1]

theorem parseRem_used {lhs : LV} {b : Base} {ss : List Stmt} (h : parseRem g lhs b = .ok ss) : usedL ss = true ∧ Quiet ss := by
  obtain ⟨body, hb, h⟩ := Res.bind_eq_ok.1 h
  cases h
  obtain ⟨h1, h2⟩ := parseBase_used hb
  refine ⟨?_, by simp [Quiet, declares]⟩
  simp only [usedL, declares, used, List.cons_append, List.nil_append, Bool.and_eq_true, Bool.true_and, and_true]
  refine ⟨usesL_append_ne (by simp [usesL, uses, exprUses]) ?_, usedL_append h1 rfl⟩
  intro s hs
  rcases h2 s hs with h | h <;> rw [h] <;> decide

theorem parseVar_used {lhs : LV} {b : Base} {c : Option LengthConstraint} {ss : List Stmt} (h : parseVar g recv lhs b c = .ok ss) :
    usedL ss = true := by
  match c with
  | some (.idRef r) =>
    obtain ⟨body, hb, h⟩ := Res.bind_eq_ok.1 h
    cases h
    simp [usedL, declares, used, (parseBase_used hb).1]
  | some (.leftover k) => exact constrained_used h fun _ hb => parseRem_used hb
  | none => exact (parseRem_used h).1

theorem parseType_used {lhs : LV} {t : Ty} {ss : List Stmt} (h : parseType g recv lhs t = .ok ss) : usedL ss = true := by
  cases t with
  | nulterm => cases h; simp [usedL, declares, used, usesL, uses, exprUses]
  | base b => exact (parseBase_used h).1
  | ptr => cases h; rfl
  | fixedArray b n => exact parseFixed_used h
  | varArray b c => exact parseVar_used h

theorem parseLeaf_used {l : Leaf} {s : Stmt} (h : parseLeaf g recv l = .ok s) : used s = true ∧ declares s = none := by
  cases l with
  | field f =>
    obtain ⟨ss, hs, h⟩ := Res.bind_eq_ok.1 h
    cases h
    exact ⟨parseType_used hs, rfl⟩
  | eos => cases h; exact ⟨rfl, rfl⟩
  | ignore => cases h; exact ⟨rfl, rfl⟩
  | fail => cases h; exact ⟨rfl, rfl⟩

theorem parseLeaves_used : ∀ {ls : List Leaf} {ss : List Stmt}, parseLeaves g recv ls = .ok ss → usedL ss = true
  | [], _, h => by cases h; rfl
  | l :: ls, _, h => by
    obtain ⟨s, hs, h⟩ := Res.bind_eq_ok.1 h
    obtain ⟨ss, hss, h⟩ := Res.bind_eq_ok.1 h
    cases h
    exact usedL_quiet (parseLeaf_used hs).2 (parseLeaf_used hs).1 (parseLeaves_used hss)

theorem parseCases_used {tag : Expr} : ∀ {us : List UnionCase} {cs}, parseCases g recv tag us = .ok cs → usedClauses cs = true
  | [], _, h => by cases h; rfl
  | u :: us, _, h => by
    obtain ⟨hd, _, h⟩ := Res.bind_eq_ok.1 h
    obtain ⟨body, hb, h⟩ := Res.bind_eq_ok.1 h
    obtain ⟨rest, hr, h⟩ := Res.bind_eq_ok.1 h
    cases h
    simp [usedClauses, parseLeaves_used hb, parseCases_used hr]

theorem parseSwitch_used {u : UnionMember} {ss : List Stmt} (h : parseSwitch g recv u = .ok ss) : usedL ss = true ∧ Quiet ss := by
  obtain ⟨cs, hc, h⟩ := Res.bind_eq_ok.1 h
  cases h
  exact ⟨by simp [usedL, declares, used, parseCases_used hc], by simp [Quiet, declares]⟩

theorem parseMember_used {m : Member} {s : Stmt} (h : parseMember g recv m = .ok s) : used s = true ∧ declares s = none := by
  cases m with
  | leaf l => exact parseLeaf_used h
  | union u =>
    obtain ⟨ss, hs, h⟩ := Res.bind_eq_ok.1 h
    cases h
    refine ⟨?_, rfl⟩
    unfold parseUnion at hs
    split at hs
    · exact constrained_used hs fun _ hb => parseSwitch_used hb
    · exact (parseSwitch_used hs).1

theorem parseMembers_used : ∀ {ms : List Member} {ss : List Stmt}, parseMembers g recv ms = .ok ss → usedL ss = true ∧ Quiet ss
  | [], _, h => by cases h; exact ⟨rfl, by simp [Quiet]⟩
  | m :: ms, _, h => by
    obtain ⟨s, hs, h⟩ := Res.bind_eq_ok.1 h
    obtain ⟨ss, hss, h⟩ := Res.bind_eq_ok.1 h
    cases h
    obtain ⟨h1, h2⟩ := parseMembers_used hss
    refine ⟨usedL_quiet (parseMember_used hs).2 (parseMember_used hs).1 h1, ?_⟩
    intro t ht
    rcases List.mem_cons.1 ht with rfl | ht
    · exact (parseMember_used hs).2
    · exact h2 t ht

/-- `Parse` methods use their variables. -/
theorem parse_used {s : Struct} {m : Method} (h : parse g recv s = .ok m) : usedL m.body = true := by
  obtain ⟨body, hb, h⟩ := Res.bind_eq_ok.1 h
  cases h
  obtain ⟨h1, h2⟩ := parseMembers_used hb
  simp only [List.cons_append, List.nil_append, usedL, declares, used, Bool.and_eq_true, and_true]
  exact ⟨usesL_quiet (by decide +kernel) h2, usedL_append h1 rfl⟩

/-- Constructors use their variables. -/
theorem ctor_used (recv : String) (s : Struct) : usedL (parseConstructor g recv s).body = true := by
  simp [parseConstructor, usedL, declares, used, usesL, uses, exprUses, LV.expr]

end Verif.Refine
