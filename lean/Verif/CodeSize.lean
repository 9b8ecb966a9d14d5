import Verif.GoCost
import Verif.Gen
import Verif.Wire
/-!
# How many statements the generator prints

`codeSize` is a function of the source alone; statements are counted by `textSizes` (`Verif/GoCost`).
-/
namespace Verif.Cost
open Verif Verif.Ast Verif.Go Verif.Gen Verif.Inspect

/-! ## Specification -/

/-- Statements that read one element (gen/decl.go:183-191,204-218): two for the length check, the read, the advance and two for a constraint; five
for a struct. -/
def baseSize : Base → Nat
  | .int ⟨_, none⟩ => 4
  | .int ⟨_, some _⟩ => 6
  | .char => 4
  | .struct _ => 5

/-- Statements that read a field (gen/decl.go:167-202,220-250). -/
def tySize : Ty → Nat
  | .base b => baseSize b
  | .ptr => 1
  | .nulterm => 4
  | .fixedArray b _ => 1 + baseSize b
  | .varArray b (some (.idRef _)) => 2 + baseSize b
  | .varArray b (some (.leftover _)) => 11 + baseSize b
  | .varArray b none => 4 + baseSize b

/-- Statements for a member of a case (gen/decl.go:142-165), with the block around them. -/
def leafSize : Leaf → Nat
  | .field f => 1 + tySize f.type
  | .eos => 3
  | .ignore => 2
  | .fail => 2

/-- Statements for a case (gen/decl.go:266-275): its head and its members. -/
def caseSize (c : UnionCase) : Nat := 1 + (c.members.map leafSize).sum

/-- Statements for a member (gen/decl.go:142-165,252-300): a length takes seven more. -/
def memberSize : Member → Nat
  | .leaf l => leafSize l
  | .union u => 2 + (match u.length with | some _ => 7 | none => 0) + (u.cases.map caseSize).sum

/-- Statements of the method of a struct (gen/decl.go:130-140). -/
def codeSize (s : Struct) : Nat := 2 + (s.ms.map memberSize).sum

/-- Members of a struct, with unions, their cases and the members of these (ast/types.go:27-66,117-130). -/
def parts (s : Struct) : Nat :=
  (s.ms.map fun m => match m with
    | .leaf _ => 1
    | .union u => 1 + (u.cases.map fun c => 1 + c.members.length).sum).sum

/-! ## Proof -/

variable {g : Cfg} {recv : String}

theorem textSizes_append : ∀ (a b : List Stmt), textSizes (a ++ b) = textSizes a + textSizes b
  | [], b => by simp [textSizes]
  | s :: a, b => by simp [textSizes, textSizes_append a b]; omega

theorem parseIntType_size {lhs : LV} {t : IntType} {b : List Stmt} (h : parseIntType g lhs t = .ok b) : textSizes b = baseSize (.int t) := by
  obtain ⟨n, c⟩ := t
  obtain ⟨ck, hck, h⟩ := Res.bind_eq_ok.1 h
  cases h
  have hr : textSize (intRead lhs ⟨n, c⟩) = 1 := by unfold intRead; split <;> rfl
  cases c with
  | none => cases hck; simp [textSizes, textSize, lengthCheck, baseSize, hr]
  | some l =>
    obtain ⟨e, he, hck⟩ := Res.bind_eq_ok.1 hck
    cases hck
    simp [textSizes, textSize, lengthCheck, baseSize, hr]

theorem parseBase_size {lhs : LV} {t : Base} {b : List Stmt} (h : parseBase g lhs t = .ok b) : textSizes b = baseSize t := by
  cases t with
  | int t => exact parseIntType_size h
  | char => exact parseIntType_size h
  | struct n =>
    simp only [parseBase] at h
    split at h
    · cases h
    · cases h; rfl

theorem constrained_size {c : LengthConstraint} {r : Res (List Stmt)} {b : List Stmt} (h : constrained g recv c r = .ok b) :
    ∃ b', r = .ok b' ∧ textSizes b = 7 + textSizes b' := by
  obtain ⟨e, he, h⟩ := Res.bind_eq_ok.1 h
  obtain ⟨b', hb, h⟩ := Res.bind_eq_ok.1 h
  cases h
  have h1 : textSize e.1 = 2 := by
    cases c with
    | leftover k => obtain ⟨x, hx, he⟩ := Res.bind_eq_ok.1 he; cases he; rfl
    | idRef r => cases he; rfl
  refine ⟨b', hb, ?_⟩
  simp [textSizes, textSizes_append, textSize, h1, assertEnd]; omega

theorem parseRem_size {lhs : LV} {t : Base} {b : List Stmt} (h : parseRem g lhs t = .ok b) : textSizes b = 4 + baseSize t := by
  obtain ⟨b', hb, h⟩ := Res.bind_eq_ok.1 h
  cases h
  simp [textSizes, textSizes_append, textSize, parseBase_size hb]; omega

theorem parseType_size {lhs : LV} {t : Ty} {b : List Stmt} (h : parseType g recv lhs t = .ok b) : textSizes b = tySize t := by
  cases t with
  | base t => exact parseBase_size h
  | ptr => cases h; rfl
  | nulterm => cases h; rfl
  | fixedArray t n =>
    obtain ⟨k, hk, h⟩ := Res.bind_eq_ok.1 h
    obtain ⟨b', hb, h⟩ := Res.bind_eq_ok.1 h
    cases h
    simp [textSizes, textSize, parseBase_size hb, tySize]
  | varArray t c =>
    cases c with
    | none => exact parseRem_size h
    | some c =>
      cases c with
      | idRef r =>
        obtain ⟨b', hb, h⟩ := Res.bind_eq_ok.1 h
        cases h
        simp [textSizes, textSize, parseBase_size hb, tySize]; omega
      | leftover k =>
        obtain ⟨b', hb, h⟩ := constrained_size h
        rw [h, parseRem_size hb]
        simp [tySize]; omega

theorem parseLeaf_size {l : Leaf} {b : Stmt} (h : parseLeaf g recv l = .ok b) : textSize b = leafSize l := by
  cases l with
  | field f =>
    obtain ⟨b', hb, h⟩ := Res.bind_eq_ok.1 h
    cases h
    simp [textSize, parseType_size hb, leafSize]
  | eos => cases h; rfl
  | ignore => cases h; rfl
  | fail => cases h; rfl

theorem parseLeaves_size : ∀ {ls : List Leaf} {b : List Stmt}, parseLeaves g recv ls = .ok b → textSizes b = (ls.map leafSize).sum
  | [], _, h => by cases h; rfl
  | l :: ls, _, h => by
    obtain ⟨s, hs, h⟩ := Res.bind_eq_ok.1 h
    obtain ⟨b', hb, h⟩ := Res.bind_eq_ok.1 h
    cases h
    simp [textSizes, parseLeaf_size hs, parseLeaves_size hb]

theorem parseCases_size {tag : Expr} : ∀ {cs : List UnionCase} {b : List (Option Expr × List Stmt)}, parseCases g recv tag cs = .ok b →
    textClauses b = (cs.map caseSize).sum
  | [], _, h => by cases h; rfl
  | c :: cs, _, h => by
    obtain ⟨e, he, h⟩ := Res.bind_eq_ok.1 h
    obtain ⟨b', hb, h⟩ := Res.bind_eq_ok.1 h
    obtain ⟨b'', hb', h⟩ := Res.bind_eq_ok.1 h
    cases h
    simp [textClauses, parseLeaves_size hb, parseCases_size hb', caseSize]

theorem parseSwitch_size {u : UnionMember} {b : List Stmt} (h : parseSwitch g recv u = .ok b) : textSizes b = 1 + (u.cases.map caseSize).sum := by
  obtain ⟨b', hb, h⟩ := Res.bind_eq_ok.1 h
  cases h
  simp [textSizes, textSize, parseCases_size hb]

theorem parseMember_size {m : Member} {b : Stmt} (h : parseMember g recv m = .ok b) : textSize b = memberSize m := by
  cases m with
  | leaf l => exact parseLeaf_size h
  | union u =>
    obtain ⟨b', hb, h⟩ := Res.bind_eq_ok.1 h
    cases h
    simp only [textSize, memberSize]
    unfold parseUnion at hb
    split at hb
    · next c hc =>
      obtain ⟨b'', hb', hb⟩ := constrained_size hb
      simp only [hc]
      rw [hb, parseSwitch_size hb']; omega
    · next hc =>
      simp only [hc]
      rw [parseSwitch_size hb]; omega

theorem parseMembers_size : ∀ {ms : List Member} {b : List Stmt}, parseMembers g recv ms = .ok b → textSizes b = (ms.map memberSize).sum
  | [], _, h => by cases h; rfl
  | l :: ls, _, h => by
    obtain ⟨s, hs, h⟩ := Res.bind_eq_ok.1 h
    obtain ⟨b', hb, h⟩ := Res.bind_eq_ok.1 h
    cases h
    simp [textSizes, parseMember_size hs, parseMembers_size hb]

theorem parse_size {s : Struct} {m : Method} (h : parse g recv s = .ok m) : textSizes m.body = codeSize s := by
  obtain ⟨b, hb, h⟩ := Res.bind_eq_ok.1 h
  cases h
  simp [textSizes, textSizes_append, textSize, parseMembers_size hb, codeSize]; omega

theorem baseSize_le (b : Base) : baseSize b ≤ 6 := by
  rcases b with ⟨n, _ | c⟩ | _ | _ <;> simp [baseSize]

theorem leafSize_le (l : Leaf) : leafSize l ≤ 18 := by
  cases l with
  | field f =>
    have h : tySize f.type ≤ 17 := by
      rcases f.type with b | _ | _ | ⟨b, n⟩ | ⟨b, _ | _ | _⟩ <;> simp only [tySize] <;> (try have := baseSize_le b) <;> omega
    simp only [leafSize]; omega
  | eos | ignore | fail => simp [leafSize]

theorem leafSize_ge (l : Leaf) : 2 ≤ leafSize l := by
  cases l with
  | field f =>
    have h : 1 ≤ tySize f.type := by
      rcases f.type with ⟨⟨n, _ | c⟩ | _ | _⟩ | _ | _ | ⟨b, n⟩ | ⟨b, _ | _ | _⟩ <;> simp [tySize, baseSize] <;> omega
    simp only [leafSize]; omega
  | eos | ignore | fail => simp [leafSize]

theorem leaves_le : ∀ ls : List Leaf, (ls.map leafSize).sum ≤ 18 * ls.length
  | [] => by simp
  | l :: ls => by have := leafSize_le l; have := leaves_le ls; simp only [List.map_cons, List.sum_cons, List.length_cons]; omega

theorem leaves_ge : ∀ ls : List Leaf, 2 * ls.length ≤ (ls.map leafSize).sum
  | [] => by simp
  | l :: ls => by have := leafSize_ge l; have := leaves_ge ls; simp only [List.map_cons, List.sum_cons, List.length_cons]; omega

theorem cases_le : ∀ cs : List UnionCase, (cs.map caseSize).sum ≤ 18 * (cs.map fun c => 1 + c.members.length).sum
  | [] => by simp
  | c :: cs => by have := leaves_le c.members; have := cases_le cs; simp only [List.map_cons, List.sum_cons, caseSize]; omega

theorem cases_ge : ∀ cs : List UnionCase, (cs.map fun c => 1 + c.members.length).sum ≤ (cs.map caseSize).sum
  | [] => by simp
  | c :: cs => by have := leaves_ge c.members; have := cases_ge cs; simp only [List.map_cons, List.sum_cons, caseSize]; omega

theorem codeSize_parts (s : Struct) : parts s ≤ codeSize s ∧ codeSize s ≤ 18 * parts s + 2 := by
  have h : ∀ ms : List Member, (ms.map fun m => match m with
      | .leaf _ => 1
      | .union u => 1 + (u.cases.map fun c => 1 + c.members.length).sum).sum ≤ (ms.map memberSize).sum ∧
      (ms.map memberSize).sum ≤ 18 * (ms.map fun m => match m with
      | .leaf _ => 1
      | .union u => 1 + (u.cases.map fun c => 1 + c.members.length).sum).sum := by
    intro ms
    induction ms with
    | nil => simp
    | cons m ms ih =>
      cases m with
      | leaf l =>
        have := leafSize_le l
        have := leafSize_ge l
        simp only [List.map_cons, List.sum_cons, memberSize]; omega
      | union u =>
        have := cases_le u.cases
        have := cases_ge u.cases
        simp only [List.map_cons, List.sum_cons, memberSize]
        cases u.length <;> simp only <;> omega
  have := h s.ms
  simp only [parts, codeSize]; omega

end Verif.Cost
