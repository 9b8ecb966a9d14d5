import Verif.PegSound
import Mathlib.Data.List.Forall2
/-!
# What each rule matches
-/
namespace Verif.Peg
open Verif Verif.Ast Verif.Syntax

set_option linter.unusedSimpArgs false
set_option linter.unusedVariables false

/-! ## Layouts -/

theorem layout_append (a b : List Piece) : ∀ s s', Layout (a ++ b) s s' ↔ ∃ t, Layout a s t ∧ Layout b t s' := by
  induction a with
  | nil =>
    intro s s'
    exact ⟨fun h => ⟨s, rfl, h⟩, fun ⟨t, h1, h2⟩ => by cases h1; exact h2⟩
  | cons p a ih =>
    intro s s'
    simp only [List.cons_append, Layout, ih]
    constructor
    · rintro ⟨s1, h1, t, h2, h3⟩
      exact ⟨t, ⟨s1, h1, h2⟩, h3⟩
    · rintro ⟨t, ⟨s1, h1, h2⟩, h3⟩
      exact ⟨s1, h1, t, h2, h3⟩

theorem piece_le {p : Piece} {s s' : List Char} (h : p.At s s') : s'.length ≤ s.length := by
  cases p with
  | tok t => cases h; simp
  | id n => obtain ⟨_, rfl, _⟩ := h; simp
  | cid n => obtain ⟨_, rfl⟩ := h; simp
  | int v => obtain ⟨t, n, _, _, rfl⟩ := h; simp
  | gap => exact gap_le h
  | gap1 => exact gap_le h.1
  | need p => rw [h.2]; exact Nat.le_refl _

theorem layout_le (ps : List Piece) : ∀ {s s' : List Char}, Layout ps s s' → s'.length ≤ s.length := by
  induction ps with
  | nil => intro s s' h; cases h; exact Nat.le_refl _
  | cons p ps ih =>
    rintro s s' ⟨s1, h1, h2⟩
    have := piece_le h1
    have := ih h2
    omega

theorem gap_trans {a b c : List Char} (h : Gap a b) (h' : Gap b c) : Gap a c := by
  induction h with
  | done => exact h'
  | white c s s' hc _ ih => exact .white _ _ _ hc (ih h')
  | block body s s' hb _ ih => exact .block _ _ _ hb (ih h')
  | line body s s' hb hs _ ih => exact .line _ _ _ hb hs (ih h')

/-! ## Postconditions -/

/-- Lingering declarations for structs. -/
def lingers (l : List Struct) : List Val := l.map Val.struct

@[simp] theorem lingers_nil : lingers [] = [] := rfl
@[simp] theorem lingers_append (a b : List Struct) : lingers (a ++ b) = lingers a ++ lingers b := by simp [lingers]

/-- The value for a declaration. -/
def declVal {L : Nat} : Decl (Tree L) → Val
  | .const n v => .constant ⟨n, v⟩
  | .context n fs _ => .context ⟨n, fs.map (fun f => ⟨f.2, .base (.int ⟨f.1.bits, none⟩)⟩)⟩
  | .struct s _ => .struct (s.struct (Tree.mean L))
  | .extern n l => .struct ⟨n, l, none⟩
  | .pragma n l => .pragma ⟨n, l⟩

/-- The value for a member. -/
def memberVal : Member → Val
  | .leaf (.field f) => .field f
  | .leaf .eos => .eos
  | .leaf .ignore => .ignore
  | .leaf .fail => .fail
  | .union u => .union u

/-- The value for a length. -/
def lengthVal : LengthConstraint → Val
  | .leftover i => .leftover i
  | .idRef r => .idRef r

/-- The value for an element type. -/
def baseVal : Base → Val
  | .int t => .intType t
  | .char => .charType
  | .struct n => .structRef n

/-- A declaration followed by a gap. -/
def PostDecl (s : List Char) (l : List Val) (v : Val) (s' : List Char) (l' : List Val) : Prop :=
  ∀ L, s.length ≤ L + 1 → ∃ d : Decl (Tree L), v = declVal d ∧ l' = l ++ lingers d.hoist ∧ Layout (d.spell ++ [.gap]) s s'

/-- A field followed by a gap. -/
def PostField (s : List Char) (l : List Val) (v : Val) (s' : List Char) (l' : List Val) : Prop :=
  ∀ L, s.length ≤ L → ∃ f : SField (Tree L), v = .field (f.field (Tree.mean L)) ∧
    l' = l ++ lingers (f.hoist (Tree.mean L)) ∧ Layout (f.spell (Tree.spell L) ++ [.gap]) s s'

/-- What each rule matches and returns. -/
def Post : RuleName → List Char → List Val → Val → List Char → List Val → Prop
  | .gap => fun s l _ s' l' => l' = l ∧ Gap s s'
  | .gap1 => fun s l _ s' l' => l' = l ∧ Gap s s' ∧ s ≠ s'
  | .EOF => fun s l _ s' l' => l' = l ∧ s = [] ∧ s' = []
  | .Identifier => fun s l v s' l' => ∃ n, v = .str n ∧ l' = l ∧ (Piece.id n).At s s'
  | .ConstIdentifier => fun s l v s' l' => ∃ n, v = .str n ∧ l' = l ∧ (Piece.cid n).At s s'
  | .IntLiteral => fun s l v s' l' => ∃ k, v = .int k ∧ l' = l ∧ (Piece.int k).At s s'
  | .IntType => fun s l v s' l' => ∃ w : Width, v = .intType ⟨w.bits, none⟩ ∧ l' = l ∧ s = w.word.toList ++ s'
  | .CharType => fun s l v s' l' => v = .charType ∧ l' = l ∧ s = "char".toList ++ s'
  | .Integer | .IntegerConstRef | .IntegerLiteral => fun s l v s' l' =>
      ∃ i, v = .integer i ∧ l' = l ∧ Layout (integer i) s s'
  | .IntListMember => fun s l v s' l' => ∃ r, v = .range r ∧ l' = l ∧ Layout (range r) s s'
  | .IntList => fun s l v s' l' => ∃ k, v = .intList k ∧ l' = l ∧ Layout (intList k) s s'
  | .IntConstraint => fun s l v s' l' => ∃ k, v = .intList k ∧ l' = l ∧
      Layout ([.tok "IN", .gap1, .tok "[", .gap] ++ intList k ++ [.gap, .tok "]"]) s s'
  | .IDRef => fun s l v s' l' => ∃ r, v = .idRef r ∧ l' = l ∧ Layout (idRef r) s s'
  | .IdentifierList => fun s l v s' l' => ∃ ns, v = .strs ns ∧ l' = l ∧ Layout (idList ns) s s'
  | .ContextRefs => fun s l v s' l' => ∃ ns, v = .strs ns ∧ l' = l ∧
      Layout ([.tok "with", .gap1, .tok "context", .gap1] ++ idList ns) s s'
  | .Leftover => fun s l v s' l' => ∃ i, v = .leftover i ∧ l' = l ∧ Layout (.tok "..-" :: integer i) s s'
  | .LengthConstraint => fun s l v s' l' => ∃ k, v = lengthVal k ∧ l' = l ∧ Layout (length k) s s'
  | .UnionLength => fun s l v s' l' => ∃ k, v = lengthVal k ∧ l' = l ∧
      Layout ([.tok "with", .gap1, .tok "length", .gap1] ++ length k) s s'
  | .StructIdentifier => fun s l v s' l' => ∃ n, v = .str n ∧ l' = l ∧ Layout [.tok "struct", .gap1, .id n] s s'
  | .StructEOS => fun s l v s' l' => v = .eos ∧ l' = l ∧ s = "eos".toList ++ s'
  | .SMPosition => fun s l v s' l' => ∃ n, v = .field ⟨n, .ptr⟩ ∧ l' = l ∧ Layout [.tok "@ptr", .gap1, .id n] s s'
  | .ContextMember => fun s l v s' l' => ∃ (w : Width) (n : String), v = .field ⟨n, .base (.int ⟨w.bits, none⟩)⟩ ∧ l' = l ∧
      Layout [.gap, .tok w.word, .gap1, .id n, .gap, .tok ";", .gap] s s'
  | .StructRef => fun s l v s' l' => ∀ L, s.length ≤ L → ∃ r : Ref (Tree L), v = .structRef (r.target (Tree.mean L)) ∧
      l' = l ++ lingers (r.hoist (Tree.mean L)) ∧ Layout (r.spell (Tree.spell L)) s s'
  | .ArrayBase => fun s l v s' l' => ∀ L, s.length ≤ L → ∃ b : Elem (Tree L), v = baseVal (b.base (Tree.mean L)) ∧
      l' = l ++ lingers (b.hoist (Tree.mean L)) ∧ Layout (b.spell (Tree.spell L)) s s'
  | .SMRemainder => fun s l v s' l' => ∀ L, s.length ≤ L → ∃ (b : Elem (Tree L)) (n : String),
      v = .field ⟨n, .varArray (b.base (Tree.mean L)) none⟩ ∧
      l' = l ++ lingers (b.hoist (Tree.mean L)) ∧ Layout (remainder (Tree.spell L) b n) s s'
  | .SMVarArray => fun s l v s' l' => ∀ L, s.length ≤ L → ∃ (b : Elem (Tree L)) (n : String) (k : LengthConstraint),
      v = .field ⟨n, .varArray (b.base (Tree.mean L)) (some k)⟩ ∧
      l' = l ++ lingers (b.hoist (Tree.mean L)) ∧
      Layout (b.spell (Tree.spell L) ++ [.gap1, .id n, .gap, .tok "["] ++ length k ++ [.tok "]"]) s s' ∧
      (likeConst k → ∃ w s2 l2, Ran rules (.ref .SMFixedArray) s l w s2 l2)
  | .SMFixedArray | .SMArray | .SMInteger | .SMString | .SMStruct => PostField
  | .UnionField => fun s l v s' l' => ∀ L, s.length ≤ L → ∃ f : SField (Tree L), v = .field (f.field (Tree.mean L)) ∧
      l' = l ++ lingers (f.hoist (Tree.mean L)) ∧ Layout (.gap :: f.spell (Tree.spell L) ++ [.gap, .tok ";"]) s s'
  | .ExtentSpec => fun s l v s' l' => ∀ L, s.length ≤ L → ∃ e : Extent (Tree L),
      v = memberVal (.leaf (e.leaf (Tree.mean L))) ∧
      l' = l ++ lingers (e.hoist (Tree.mean L)) ∧ Layout (e.spell (Tree.spell L)) s s'
  | .UnionFields => fun s l v s' l' => ∀ L, s.length ≤ L → ∃ (fs : List (SField (Tree L))) (e : Option (Extent (Tree L))),
      v = .members ((Body.fields fs e).leaves (Tree.mean L)) ∧
      l' = l ++ lingers ((Body.fields fs e).hoist (Tree.mean L)) ∧
      ∀ s2, Gap s' s2 → Layout (.gap :: (Body.fields fs e).spell (Tree.spell L)) s s2
  | .UnionBody => fun s l v s' l' => ∀ L, s.length ≤ L → ∃ b : Body (Tree L),
      (v = .members (b.leaves (Tree.mean L)) ∨ (v = .nil ∧ b.leaves (Tree.mean L) = [])) ∧
      l' = l ++ lingers (b.hoist (Tree.mean L)) ∧
      ∀ s2, Gap s' s2 → Layout (.gap :: b.spell (Tree.spell L)) s s2
  | .UnionCase => fun s l v s' l' => ∃ c : Option IntegerList, v = (c.map Val.intList).getD .nil ∧ l' = l ∧
      Layout (match c with
        | none => [.tok "default"]
        | some l => intList l) s s'
  | .UnionMember => fun s l v s' l' => ∀ L, s.length ≤ L → ∃ c : SCase (Tree L),
      v = .case ⟨c.case, c.body.leaves (Tree.mean L)⟩ ∧
      l' = l ++ lingers (c.body.hoist (Tree.mean L)) ∧
      ∀ s2, Gap s' s2 → Layout (.gap :: c.spell (Tree.spell L)) s s2
  | .SMUnion => fun s l v s' l' => ∀ L, s.length ≤ L → ∃ m : SMember (Tree L), v = memberVal (m.member (Tree.mean L)) ∧
      l' = l ++ lingers (m.hoist (Tree.mean L)) ∧ Layout (m.spell (Tree.spell L)) s s'
  | .StructMember => fun s l v s' l' => ∀ L, s.length ≤ L → ∃ m : SMember (Tree L), v = memberVal (m.member (Tree.mean L)) ∧
      l' = l ++ lingers (m.hoist (Tree.mean L)) ∧ Layout (.gap :: m.spell (Tree.spell L) ++ [.gap, .tok ";"]) s s'
  | .StructEnding => fun s l v s' l' => ∀ L, s.length ≤ L → ∃ e : Ending (Tree L), v = memberVal (e.member (Tree.mean L)) ∧
      l' = l ++ lingers (e.hoist (Tree.mean L)) ∧
      ∀ s2, Gap s' s2 → Layout (.gap :: e.spell (Tree.spell L)) s s2
  | .StructDecl => fun s l v s' l' => ∀ L, s.length ≤ L + 1 → ∃ t : SStruct (Tree L), v = .struct (t.struct (Tree.mean L)) ∧
      l' = l ++ lingers (t.hoist (Tree.mean L)) ∧ Layout (t.spell (Tree.spell L)) s s'
  | .ConstDeclaration | .ContextDeclaration | .StructDeclaration | .ExternDeclaration | .PragmaDeclaration => PostDecl
  | .Declaration => fun s l v s' l' => ∀ L, s.length ≤ L + 1 → ∃ d : Decl (Tree L), v = declVal d ∧
      l' = l ++ lingers d.hoist ∧ Layout (.gap :: d.spell ++ [.gap]) s s'
  | .File => fun s l v s' _ => l = [] → ∃ ds : List (Decl (Tree s.length)), v = .file (denote ds) ∧ Writes ds s ∧ s' = []
  | _ => fun _ _ _ _ _ => True

/-! ## Lexical rules -/

theorem ran_eq {r : RuleName} {s : List Char} {l : List Val} {v v' : Val} {s' s2 : List Char} {l' l2 : List Val}
    {b : Bool} {env : Env}
    (h : Ran rules (.ref r) s l v s' l') (h2 : ev rules (.ref r) [] (C s l false) = .ok v' env (C s2 l2 b)) :
    v = v' ∧ s' = s2 ∧ l' = l2 ∧ b = false := by
  obtain ⟨env', h⟩ := h
  rw [h] at h2
  simp only [R.ok.injEq] at h2
  obtain ⟨rfl, _, h3⟩ := h2
  have := C_inj h3
  refine ⟨rfl, this.1, this.2, ?_⟩
  simp only [C, St.mk.injEq] at h3
  exact h3.2.2.symm

theorem ran_fail {r : RuleName} {s : List Char} {l : List Val} {v : Val} {s' : List Char} {l' : List Val}
    {st : St} (h : Ran rules (.ref r) s l v s' l') (h2 : ev rules (.ref r) [] (C s l false) = .fail st) : False := by
  obtain ⟨env', h⟩ := h
  rw [h] at h2
  cases h2

theorem post_gap {s l v s' l'} (h : Ran rules (.ref .gap) s l v s' l') : Post .gap s l v s' l' := by
  obtain ⟨w, hw⟩ := gap_ok [] s l false
  obtain ⟨-, rfl, rfl, -⟩ := ran_eq h hw
  exact ⟨rfl, gap_skip s⟩

theorem post_gap1 {s l v s' l'} (h : Ran rules (.ref .gap1) s l v s' l') : Post .gap1 s l v s' l' := by
  by_cases hs : skip s = s
  · exact (ran_fail h (gap1_fail hs [] l false)).elim
  · obtain ⟨w, hw⟩ := gap1_ok hs [] l false
    obtain ⟨-, rfl, rfl, -⟩ := ran_eq h hw
    exact ⟨rfl, gap_skip s, fun h => hs h.symm⟩

theorem post_Identifier {s l v s' l'} (h : Ran rules (.ref .Identifier) s l v s' l') : Post .Identifier s l v s' l' := by
  rcases ident_split s with hs | ⟨n, t, hn, rfl, ht⟩
  · exact (ran_fail h (ident_fail hs [] l false)).elim
  · obtain ⟨rfl, rfl, rfl, -⟩ := ran_eq h (ident_ok hn ht [] l false)
    exact ⟨n, rfl, rfl, hn, rfl, ht⟩

theorem post_ConstIdentifier {s l v s' l'} (h : Ran rules (.ref .ConstIdentifier) s l v s' l') :
    Post .ConstIdentifier s l v s' l' := by
  rcases const_split s with hs | ⟨n, t, hn, rfl, ht⟩
  · exact (ran_fail h (const_fail hs [] l false)).elim
  · obtain ⟨rfl, rfl, rfl, -⟩ := ran_eq h (const_ok hn ht [] l false)
    exact ⟨n, rfl, rfl, hn, rfl⟩

theorem post_IntLiteral {s l v s' l'} (h : Ran rules (.ref .IntLiteral) s l v s' l') : Post .IntLiteral s l v s' l' := by
  rcases intLit_split s [] l false with hs | ⟨t, s2, k, err, rfl, hk, hlit⟩
  · exact (ran_fail h (intLit_fail hs [] l false)).elim
  · obtain ⟨rfl, rfl, rfl, hb⟩ := ran_eq h hk
    obtain ⟨n, rfl, hn⟩ := hlit (by simpa using hb)
    exact ⟨n, rfl, rfl, t, n, hn, rfl, rfl⟩

theorem post_EOF (s : List Char) (l : List Val) :
    WpS rules Post rEOF [] s l (fun v _ s' l' => Post .EOF s l v s' l') := by
  simp only [rEOF, WpS]
  rintro ⟨st, h⟩
  cases s with
  | nil => exact ⟨rfl, rfl, rfl⟩
  | cons c s => rw [any_ok] at h; cases h

/-! ## Rules without structs -/

/-- Evaluate an action. -/
local macro "acts" h:ident : tactic =>
  `(tactic| simp [act, Env.get, List.lookup, Val.asStr, Val.asStrs, Val.asInt, Val.asList, Val.index, Val.asField,
      Val.asIntType, Val.asBase, Val.asStructRef, Val.asStruct, Val.asLeaf, Val.asMember, Val.asMembers, Val.asCase,
      Val.asInteger, Val.asIntList, Val.asRange, Val.asIDRef, Val.asLength, Val.asBytes, Val.opt] at $h:ident)

theorem post_CharType (s : List Char) (l : List Val) :
    WpS rules Post rCharType [] s l (fun v _ s' l' => Post .CharType s l v s' l') := by
  simp only [rCharType, WpS]
  rintro s' hs t v - hv
  simp only [onCharType1] at hv
  acts hv
  exact ⟨hv.symm, rfl, hs⟩

theorem post_StructEOS (s : List Char) (l : List Val) :
    WpS rules Post rStructEOS [] s l (fun v _ s' l' => Post .StructEOS s l v s' l') := by
  simp only [rStructEOS, WpS]
  rintro s' hs t v - hv
  simp only [onStructEOS1] at hv
  acts hv
  exact ⟨hv.symm, rfl, hs⟩

theorem post_IntType (s : List Char) (l : List Val) :
    WpS rules Post rIntType [] s l (fun v _ s' l' => Post .IntType s l v s' l') := by
  simp only [rIntType, WpS, WpSSeq, WpSAll]
  rintro s1 rfl
  refine ⟨?_, fun _ => ⟨?_, fun _ => ⟨?_, fun _ => ⟨?_, fun _ => trivial⟩⟩⟩⟩
  · rintro s2 rfl t v - hv
    exact ⟨.w8, by cases hv; rfl, rfl, rfl⟩
  · rintro s2 rfl t v - hv
    exact ⟨.w16, by cases hv; rfl, rfl, rfl⟩
  · rintro s2 rfl t v - hv
    exact ⟨.w32, by cases hv; rfl, rfl, rfl⟩
  · rintro s2 rfl t v - hv
    exact ⟨.w64, by cases hv; rfl, rfl, rfl⟩

theorem post_IntegerConstRef (s : List Char) (l : List Val) :
    WpS rules Post rIntegerConstRef [] s l (fun v _ s' l' => Post .IntegerConstRef s l v s' l') := by
  simp only [rIntegerConstRef, WpS]
  rintro v s' l' ⟨n, rfl, rfl, hn⟩ - t v - hv
  simp only [onIntegerConstRef1] at hv
  acts hv
  exact ⟨.constRef n, hv.symm, rfl, s', hn, rfl⟩

theorem post_IntegerLiteral (s : List Char) (l : List Val) :
    WpS rules Post rIntegerLiteral [] s l (fun v _ s' l' => Post .IntegerLiteral s l v s' l') := by
  simp only [rIntegerLiteral, WpS]
  rintro v s' l' ⟨n, rfl, rfl, hn⟩ - t v - hv
  simp only [onIntegerLiteral1] at hv
  acts hv
  exact ⟨.literal n, hv.symm, rfl, s', hn, rfl⟩

theorem post_Integer (s : List Char) (l : List Val) :
    WpS rules Post rInteger [] s l (fun v _ s' l' => Post .Integer s l v s' l') := by
  simp only [rInteger, WpS, WpSAll]
  refine ⟨?_, fun _ => ⟨?_, fun _ => trivial⟩⟩
  all_goals
    rintro v s' l' ⟨n, rfl, rfl, hn⟩ - t v - hv
    simp only [onInteger1] at hv
    acts hv
    exact ⟨n, hv.symm, rfl, hn⟩

theorem post_IntListMember (s : List Char) (l : List Val) :
    WpS rules Post rIntListMember [] s l (fun v _ s' l' => Post .IntListMember s l v s' l') := by
  simp only [rIntListMember, WpS, WpSSeq]
  rintro v s1 l1 ⟨i, rfl, rfl, hi⟩ -
  refine ⟨?_, ?_⟩
  · rintro t v - hv
    simp only [onIntListMember1] at hv
    acts hv
    exact ⟨⟨i, none⟩, hv.symm, rfl, by simpa [range] using hi⟩
  · rintro v2 s2 l2 ⟨rfl, h2⟩ - s3 rfl v4 s4 l4 ⟨rfl, h4⟩ - v5 s5 l5 ⟨j, rfl, rfl, hj⟩ - t v - hv
    simp only [onIntListMember1] at hv
    acts hv
    refine ⟨⟨i, some j⟩, hv.symm, rfl, ?_⟩
    simp only [range, layout_append]
    exact ⟨s1, hi, _, ⟨_, h2, _, rfl, _, h4, rfl⟩, hj⟩

/-- A list of items separated by commas. -/
theorem star_commas {α : Type} {M : List Char → List Val → Val → List Char → List Val → Prop} {f : α → List Piece}
    {out : α → Val}
    (hM : ∀ s l v s' l', M s l v s' l' → ∃ a, (∃ x y z, v = .list [x, y, z, out a]) ∧ l' = l ∧
      Layout ([.gap, .tok ",", .gap] ++ f a) s s')
    {s l vs s' l'} (h : Star M s l vs s' l') :
    ∃ as : List α, List.Forall₂ (fun v a => ∃ x y z, v = .list [x, y, z, out a]) vs as ∧ l' = l ∧ Layout (more f as) s s' := by
  induction h with
  | nil s l => exact ⟨[], .nil, rfl, rfl⟩
  | cons h1 _ ih =>
    obtain ⟨a, ha, rfl, hl⟩ := hM _ _ _ _ _ h1
    obtain ⟨as, has, rfl, hls⟩ := ih
    refine ⟨a :: as, .cons ha has, rfl, ?_⟩
    rw [more, layout_append]
    exact ⟨_, hl, hls⟩

theorem mapM_index {α β : Type} {out : α → Val} {get : Val → Option β} {g : α → β} (hg : ∀ a, get (out a) = some (g a))
    {vs : List Val} {as : List α} (h : List.Forall₂ (fun v a => ∃ x y z, v = Val.list [x, y, z, out a]) vs as) :
    vs.mapM (fun i => do get (← i.index 3)) = some (as.map g) := by
  induction h with
  | nil => rfl
  | cons h1 _ ih =>
    obtain ⟨x, y, z, rfl⟩ := h1
    rw [List.mapM_cons, ih]
    simp [Val.index, Val.asList, hg]

theorem post_IntList (s : List Char) (l : List Val) :
    WpS rules Post rIntList [] s l (fun v _ s' l' => Post .IntList s l v s' l') := by
  simp only [rIntList, WpS, WpSSeq]
  rintro v s1 l1 ⟨i, rfl, rfl, hi⟩ - vs s2 l2 hst t v - hv
  obtain ⟨as, has, rfl, hl⟩ := star_commas (f := range) (out := Val.range) (by
    intro s l v s' l' hQ
    refine hQ (fun v s' l' => ∃ a, (∃ x y z, v = .list [x, y, z, Val.range a]) ∧ l' = l ∧
      Layout ([.gap, .tok ",", .gap] ++ range a) s s') ?_
    rintro v1 s1 l1 ⟨rfl, h1⟩ - s2 rfl v3 s3 l3 ⟨rfl, h3⟩ - v4 s4 l4 ⟨r, rfl, rfl, hr⟩ -
    refine ⟨r, ⟨_, _, _, rfl⟩, rfl, ?_⟩
    rw [layout_append]
    exact ⟨_, ⟨_, h1, _, rfl, _, h3, rfl⟩, hr⟩) hst
  have hm := mapM_index (get := Val.asRange) (g := id) (fun _ => rfl) has
  simp only [onIntList1, act, Env.get, List.lookup] at hv
  simp [show (Val.range i).asRange = some i from rfl, show (Val.list vs).asList = some vs from rfl] at hv
  simp only [Option.bind_eq_bind] at hm
  rw [hm] at hv
  simp at hv
  refine ⟨⟨i :: as⟩, hv.symm, rfl, ?_⟩
  simp only [intList, commas, layout_append]
  exact ⟨_, hi, hl⟩

theorem post_IdentifierList (s : List Char) (l : List Val) :
    WpS rules Post rIdentifierList [] s l (fun v _ s' l' => Post .IdentifierList s l v s' l') := by
  simp only [rIdentifierList, WpS, WpSSeq]
  rintro v s1 l1 ⟨i, rfl, rfl, hi⟩ - vs s2 l2 hst t v - hv
  obtain ⟨as, has, rfl, hl⟩ := star_commas (f := fun n => [Piece.id n]) (out := Val.str) (by
    intro s l v s' l' hQ
    refine hQ (fun v s' l' => ∃ a, (∃ x y z, v = .list [x, y, z, Val.str a]) ∧ l' = l ∧
      Layout ([.gap, .tok ",", .gap] ++ [.id a]) s s') ?_
    rintro v1 s1 l1 ⟨rfl, h1⟩ - s2 rfl v3 s3 l3 ⟨rfl, h3⟩ - v4 s4 l4 ⟨r, rfl, rfl, hr⟩ -
    refine ⟨r, ⟨_, _, _, rfl⟩, rfl, ?_⟩
    rw [layout_append]
    exact ⟨_, ⟨_, h1, _, rfl, _, h3, rfl⟩, _, hr, rfl⟩) hst
  have hm := mapM_index (get := Val.asStr) (g := id) (fun _ => rfl) has
  simp only [onIdentifierList1, act, Env.get, List.lookup] at hv
  simp [show (Val.str i).asStr = some i from rfl, show (Val.list vs).asList = some vs from rfl] at hv
  simp only [Option.bind_eq_bind] at hm
  rw [hm] at hv
  simp at hv
  refine ⟨i :: as, hv.symm, rfl, ?_⟩
  simp only [idList, commas, layout_append]
  exact ⟨_, ⟨_, hi, rfl⟩, hl⟩

theorem post_IntConstraint (s : List Char) (l : List Val) :
    WpS rules Post rIntConstraint [] s l (fun v _ s' l' => Post .IntConstraint s l v s' l') := by
  simp only [rIntConstraint, WpS, WpSSeq]
  rintro s1 rfl v2 s2 l2 ⟨rfl, h2⟩ - s3 rfl v4 s4 l4 ⟨rfl, h4⟩ - v5 s5 l5 ⟨k, rfl, rfl, hk⟩ - v6 s6 l6 ⟨rfl, h6⟩ - s7 rfl t v - hv
  simp only [onIntConstraint1] at hv
  acts hv
  refine ⟨k, hv.symm, rfl, ?_⟩
  simp only [layout_append]
  exact ⟨_, ⟨_, ⟨_, rfl, _, h2, _, rfl, _, h4, rfl⟩, hk⟩, _, h6, _, rfl, rfl⟩

theorem post_IDRef (s : List Char) (l : List Val) :
    WpS rules Post rIDRef [] s l (fun v _ s' l' => Post .IDRef s l v s' l') := by
  simp only [rIDRef, WpS, WpSSeq]
  refine ⟨?_, ?_⟩
  · rintro v s1 l1 ⟨n, rfl, rfl, hn⟩ - t v - hv
    simp only [onIDRef1] at hv
    acts hv
    refine ⟨⟨"", n⟩, hv.symm, rfl, ?_⟩
    simp only [idRef]
    exact ⟨_, hn, rfl⟩
  · rintro v s1 l1 ⟨sc, rfl, rfl, hsc⟩ - s2 rfl v3 s3 l3 ⟨n, rfl, rfl, hn⟩ - t v - hv
    simp only [onIDRef1] at hv
    acts hv
    refine ⟨⟨sc, n⟩, hv.symm, rfl, ?_⟩
    have hne : sc ≠ "" := by
      rintro rfl
      obtain ⟨⟨c, cs, h, _⟩, _⟩ := hsc
      cases h
    simp only [idRef, if_neg hne]
    exact ⟨_, hsc, _, rfl, _, hn, rfl⟩

theorem post_ContextRefs (s : List Char) (l : List Val) :
    WpS rules Post rContextRefs [] s l (fun v _ s' l' => Post .ContextRefs s l v s' l') := by
  simp only [rContextRefs, WpS, WpSSeq]
  rintro s1 rfl v2 s2 l2 ⟨rfl, h2⟩ - s3 rfl v4 s4 l4 ⟨rfl, h4⟩ - v5 s5 l5 ⟨k, rfl, rfl, hk⟩ - t v - hv
  simp only [onContextRefs1] at hv
  acts hv
  refine ⟨k, hv.symm, rfl, ?_⟩
  simp only [layout_append]
  exact ⟨_, ⟨_, rfl, _, h2, _, rfl, _, h4, rfl⟩, hk⟩

theorem post_Leftover (s : List Char) (l : List Val) :
    WpS rules Post rLeftover [] s l (fun v _ s' l' => Post .Leftover s l v s' l') := by
  simp only [rLeftover, WpS, WpSSeq]
  rintro s1 rfl v5 s5 l5 ⟨k, rfl, rfl, hk⟩ - t v - hv
  simp only [onLeftover1] at hv
  acts hv
  exact ⟨k, hv.symm, rfl, _, rfl, hk⟩

theorem post_LengthConstraint (s : List Char) (l : List Val) :
    WpS rules Post rLengthConstraint [] s l (fun v _ s' l' => Post .LengthConstraint s l v s' l') := by
  simp only [rLengthConstraint, WpS, WpSAll]
  refine ⟨?_, fun _ => ⟨?_, fun _ => trivial⟩⟩
  · rintro v s' l' ⟨n, rfl, rfl, hn⟩ - t v - hv
    simp only [onLengthConstraint1] at hv
    acts hv
    exact ⟨.leftover n, hv.symm, rfl, hn⟩
  · rintro v s' l' ⟨n, rfl, rfl, hn⟩ - t v - hv
    simp only [onLengthConstraint1] at hv
    acts hv
    exact ⟨.idRef n, hv.symm, rfl, hn⟩

theorem post_UnionLength (s : List Char) (l : List Val) :
    WpS rules Post rUnionLength [] s l (fun v _ s' l' => Post .UnionLength s l v s' l') := by
  simp only [rUnionLength, WpS, WpSSeq]
  rintro s1 rfl v2 s2 l2 ⟨rfl, h2⟩ - s3 rfl v4 s4 l4 ⟨rfl, h4⟩ - v5 s5 l5 ⟨k, rfl, rfl, hk⟩ - t v - hv
  simp only [onUnionLength1] at hv
  acts hv
  refine ⟨k, hv.symm, rfl, ?_⟩
  simp only [layout_append]
  exact ⟨_, ⟨_, rfl, _, h2, _, rfl, _, h4, rfl⟩, hk⟩

theorem post_StructIdentifier (s : List Char) (l : List Val) :
    WpS rules Post rStructIdentifier [] s l (fun v _ s' l' => Post .StructIdentifier s l v s' l') := by
  simp only [rStructIdentifier, WpS, WpSSeq]
  rintro s1 rfl v2 s2 l2 ⟨rfl, h2⟩ - v5 s5 l5 ⟨k, rfl, rfl, hk⟩ - t v - hv
  simp only [onStructIdentifier1] at hv
  acts hv
  exact ⟨k, hv.symm, rfl, _, rfl, _, h2, _, hk, rfl⟩

theorem post_SMPosition (s : List Char) (l : List Val) :
    WpS rules Post rSMPosition [] s l (fun v _ s' l' => Post .SMPosition s l v s' l') := by
  simp only [rSMPosition, WpS, WpSSeq]
  rintro s1 rfl v2 s2 l2 ⟨rfl, h2⟩ - v5 s5 l5 ⟨k, rfl, rfl, hk⟩ - t v - hv
  simp only [onSMPosition1] at hv
  acts hv
  exact ⟨k, hv.symm, rfl, _, rfl, _, h2, _, hk, rfl⟩

theorem post_ContextMember (s : List Char) (l : List Val) :
    WpS rules Post rContextMember [] s l (fun v _ s' l' => Post .ContextMember s l v s' l') := by
  simp only [rContextMember, WpS, WpSSeq]
  rintro v1 s1 l1 ⟨rfl, h1⟩ - v2 s2 l2 ⟨w, rfl, rfl, rfl⟩ - v3 s3 l3 ⟨rfl, h3⟩ - v4 s4 l4 ⟨n, rfl, rfl, hn⟩ -
    v5 s5 l5 ⟨rfl, h5⟩ - s6 rfl v7 s7 l7 ⟨rfl, h7⟩ - t v - hv
  simp only [onContextMember1] at hv
  acts hv
  exact ⟨w, n, hv.symm, rfl, _, h1, _, rfl, _, h3, _, hn, _, h5, _, rfl, _, h7, rfl⟩

theorem post_UnionCase (s : List Char) (l : List Val) :
    WpS rules Post rUnionCase [] s l (fun v _ s' l' => Post .UnionCase s l v s' l') := by
  simp only [rUnionCase, WpS, WpSAll]
  refine ⟨?_, fun _ => ⟨?_, fun _ => trivial⟩⟩
  · rintro v s' l' ⟨n, rfl, rfl, hn⟩ - t v - hv
    simp only [onUnionCase2] at hv
    acts hv
    exact ⟨some n, hv.symm, rfl, hn⟩
  · rintro s' rfl t v - hv
    simp only [onUnionCase5] at hv
    acts hv
    exact ⟨none, hv.symm, rfl, _, rfl, rfl⟩

/-! ## Rules with structs -/

@[simp] theorem asBase_val (b : Base) : (baseVal b).asBase = some b := by cases b <;> rfl
@[simp] theorem asLength_val (k : LengthConstraint) : (lengthVal k).asLength = some k := by cases k <;> rfl
@[simp] theorem asMember_val (m : Member) : (memberVal m).asMember = some m := by
  rcases m with (_ | _ | _ | _) | _ <;> rfl
@[simp] theorem asLeaf_val (m : Leaf) : (memberVal (.leaf m)).asLeaf = some m := by
  rcases m with _ | _ | _ | _ <;> rfl
@[simp] theorem optLeaf_val (m : Leaf) : (memberVal (.leaf m)).opt Val.asLeaf = some (some m) := by
  rcases m with _ | _ | _ | _ <;> rfl
@[simp] theorem optMember_val (m : Member) : (memberVal m).opt Val.asMember = some (some m) := by
  rcases m with (_ | _ | _ | _) | _ <;> rfl
@[simp] theorem optLength_val (m : LengthConstraint) : (lengthVal m).opt Val.asLength = some (some m) := by
  rcases m with _ | _ <;> rfl
@[simp] theorem opt_nil {α : Type} (f : Val → Option α) : Val.opt f .nil = some none := rfl
@[simp] theorem asStr_val (n : String) : (Val.str n).asStr = some n := rfl
@[simp] theorem asStrs_val (n : List String) : (Val.strs n).asStrs = some n := rfl
@[simp] theorem asInteger_val (n : Integer) : (Val.integer n).asInteger = some n := rfl
@[simp] theorem asInt_val (n : Int) : (Val.int n).asInt = some n := rfl
@[simp] theorem asList_val (n : List Val) : (Val.list n).asList = some n := rfl
@[simp] theorem asField_val (n : Field) : (Val.field n).asField = some n := rfl
@[simp] theorem asIntType_val (n : IntType) : (Val.intType n).asIntType = some n := rfl
@[simp] theorem asStructRef_val (n : String) : (Val.structRef n).asStructRef = some n := rfl
@[simp] theorem asStruct_val (n : Struct) : (Val.struct n).asStruct = some n := rfl
@[simp] theorem asCase_val (n : UnionCase) : (Val.case n).asCase = some n := rfl
@[simp] theorem asIDRef_val (n : IDRef) : (Val.idRef n).asIDRef = some n := rfl
@[simp] theorem asMembers_val (n : List Leaf) : (Val.members n).asMembers = some n := rfl
@[simp] theorem asLeaf_field (f : Field) : (Val.field f).asLeaf = some (.field f) := rfl

/-- Evaluate an action by the equations above. -/
local macro "run" h:ident : tactic =>
  `(tactic| simp [act, Env.get, List.lookup, -List.mapM_map] at $h:ident)

theorem ran_env {r : RuleName} {s l v s' l'} (h : Ran rules (.ref r) s l v s' l') (env : Env) :
    ev rules (.ref r) env (C s l false) = .ok v env (C s' l' false) := by
  obtain ⟨env', h⟩ := h
  rw [ev_ref] at h ⊢
  cases hr : ev rules (rules r) [] (C s l false) with
  | ok v2 env2 st2 =>
    rw [hr] at h
    simp only [R.scope, R.ok.injEq] at h ⊢
    exact ⟨h.1, trivial, h.2.2⟩
  | _ => rw [hr] at h; cases h

theorem label_ok {g : RuleName → Expr} {n : String} {e : Expr} {env env' : Env} {st st' : St} {v : Val}
    (h : ev g e [] st = .ok v env' st') : ev g (.label n e) env st = .ok v ((n, v) :: env) st' := by
  rw [ev_label, h]; rfl

theorem label_fail {g : RuleName → Expr} {n : String} {e : Expr} {env : Env} {st st' : St}
    (h : ev g e [] st = .fail st') : ev g (.label n e) env st = .fail st' := by
  rw [ev_label, h]; rfl

theorem layout_gap {ps : List Piece} {s s1 s2 : List Char} (h : Layout (ps ++ [.gap]) s s1) (hg : Gap s1 s2) :
    Layout (ps ++ [.gap]) s s2 := by
  rw [layout_append] at h ⊢
  obtain ⟨t, h1, _, h2, rfl⟩ := h
  exact ⟨t, h1, _, gap_trans h2 hg, rfl⟩

/-- A sequence of items each of which starts with a gap and may be followed by one. -/
theorem star_items {α : Type} {M : List Char → List Val → Val → List Char → List Val → Prop} {L : Nat}
    {out : α → Val} {hoist : α → List Struct} {item : α → List Piece}
    (hM : ∀ s l v s' l', M s l v s' l' → s.length ≤ L → ∃ a, v = out a ∧ l' = l ++ lingers (hoist a) ∧
      ∀ s2, Gap s' s2 → Layout (.gap :: item a) s s2)
    {s l vs s' l'} (h : Star M s l vs s' l') (hL : s.length ≤ L) :
    ∃ as : List α, vs = as.map out ∧ l' = l ++ lingers (as.flatMap hoist) ∧
      ∀ s2, Gap s' s2 → Layout (.gap :: as.flatMap item) s s2 := by
  induction h with
  | nil s l => exact ⟨[], rfl, by simp, fun s2 h => ⟨s2, h, rfl⟩⟩
  | cons h1 _ ih =>
    obtain ⟨a, rfl, rfl, ha⟩ := hM _ _ _ _ _ h1 hL
    have hle := layout_le _ (ha _ (.done _))
    obtain ⟨as, rfl, rfl, has⟩ := ih (by omega)
    refine ⟨a :: as, rfl, by simp, fun s2 h2 => ?_⟩
    obtain ⟨s3, h3, h4⟩ := has s2 h2
    obtain ⟨s5, h5, h6⟩ := ha s3 h3
    refine ⟨s5, h5, ?_⟩
    rw [List.flatMap_cons, layout_append]
    exact ⟨s3, h6, h4⟩

theorem mapM_out {α β : Type} {out : α → Val} {get : Val → Option β} {g : α → β} (hg : ∀ a, get (out a) = some (g a))
    (as : List α) : (as.map out).mapM get = some (as.map g) := by
  induction as with
  | nil => rfl
  | cons a as ih => rw [List.map_cons, List.mapM_cons, ih]; simp [hg]

theorem post_StructRef (s : List Char) (l : List Val) :
    WpS rules Post rStructRef [] s l (fun v _ s' l' => Post .StructRef s l v s' l') := by
  simp only [rStructRef, WpS, WpSAll, WpSSeq]
  refine ⟨?_, fun _ => ⟨?_, fun _ => trivial⟩⟩
  · rintro v s1 l1 h1 - t v2 - hv L hL
    have hpos : 0 < s.length := by
      obtain ⟨d, -, -, hd⟩ := h1 s.length (by omega)
      simp only [SStruct.spell, List.cons_append] at hd
      obtain ⟨s2, h2, -⟩ := hd
      simp only [Piece.At] at h2
      rw [h2]
      simp
    obtain ⟨K, rfl⟩ : ∃ K, L = K + 1 := ⟨L - 1, by omega⟩
    obtain ⟨d, rfl, rfl, hd⟩ := h1 K hL
    simp only [onStructRef2] at hv
    run hv
    refine ⟨.decl d, hv.symm, ?_, hd⟩
    simp [onStructRef6, Env.get, List.lookup, Ref.hoist, Tree.mean, lingers]
  · rintro v s1 l1 ⟨n, rfl, rfl, hn⟩ - t v2 - hv L hL
    simp only [onStructRef7] at hv
    run hv
    exact ⟨.name n, hv.symm, by simp [Ref.hoist], hn⟩

theorem post_ArrayBase (s : List Char) (l : List Val) :
    WpS rules Post rArrayBase [] s l (fun v _ s' l' => Post .ArrayBase s l v s' l') := by
  simp only [rArrayBase, WpS, WpSAll]
  refine ⟨?_, fun _ => ⟨?_, fun _ => ⟨?_, fun _ => trivial⟩⟩⟩
  · rintro v s1 l1 ⟨w, rfl, rfl, hw⟩ - t v2 - hv L hL
    simp only [onArrayBase1] at hv
    run hv
    exact ⟨.int w, hv.symm, by simp [Elem.hoist], _, hw, rfl⟩
  · rintro v s1 l1 ⟨rfl, rfl, hw⟩ - t v2 - hv L hL
    simp only [onArrayBase1] at hv
    run hv
    exact ⟨.char, hv.symm, by simp [Elem.hoist], _, hw, rfl⟩
  · rintro v s1 l1 h1 - t v2 - hv L hL
    obtain ⟨r, rfl, rfl, hr⟩ := h1 L hL
    simp only [onArrayBase1] at hv
    run hv
    exact ⟨.ref r, hv.symm, rfl, hr⟩

theorem post_SMFixedArray (s : List Char) (l : List Val) :
    WpS rules Post rSMFixedArray [] s l (fun v _ s' l' => Post .SMFixedArray s l v s' l') := by
  simp only [rSMFixedArray, WpS, WpSSeq]
  rintro vb s1 l1 hb - v2 s2 l2 ⟨rfl, h2⟩ - v3 s3 l3 ⟨n, rfl, rfl, hn⟩ - v4 s4 l4 ⟨rfl, h4⟩ - s5 rfl
    v6 s6 l6 ⟨k, rfl, rfl, hk⟩ - s7 rfl t v - hv L hL
  obtain ⟨b, rfl, rfl, hb'⟩ := hb L hL
  simp only [onSMFixedArray1] at hv
  run hv
  refine ⟨.fixed b n k, hv.symm, rfl, ?_⟩
  simp only [SField.spell, layout_append]
  exact ⟨_, ⟨_, ⟨_, ⟨_, hb', _, h2, _, hn, _, h4, _, rfl, rfl⟩, hk⟩, _, rfl, rfl⟩, _, Gap.done _, rfl⟩

theorem post_SMRemainder (s : List Char) (l : List Val) :
    WpS rules Post rSMRemainder [] s l (fun v _ s' l' => Post .SMRemainder s l v s' l') := by
  simp only [rSMRemainder, WpS, WpSSeq]
  rintro vb s1 l1 hb - v2 s2 l2 ⟨rfl, h2⟩ - v3 s3 l3 ⟨n, rfl, rfl, hn⟩ - v4 s4 l4 ⟨rfl, h4⟩ - s5 rfl
    v6 s6 l6 ⟨rfl, h6⟩ - s7 rfl t v - hv L hL
  obtain ⟨b, rfl, rfl, hb'⟩ := hb L hL
  simp only [onSMRemainder1] at hv
  run hv
  refine ⟨b, n, hv.symm, rfl, ?_⟩
  simp only [remainder, layout_append]
  exact ⟨_, hb', _, h2, _, hn, _, h4, _, rfl, _, h6, _, rfl, rfl⟩

theorem integer_const {n : String} {s : List Char} (hn : IsConst n) (hs : Stops isIdChar s) (env : Env) (l : List Val)
    (b : Bool) : ev rules (.ref .Integer) env (C (n.toList ++ s) l b) = .ok (.integer (.constRef n)) env (C s l b) := by
  have hs' : Stops isConstChar s := hs.mono (fun c hc => by rw [constChar_iff] at hc; rw [idChar_iff]; omega)
  have h1 : ev rules (.ref .IntegerConstRef) [] (C (n.toList ++ s) l b) = .ok (.integer (.constRef n)) [] (C s l b) := by
    refine ev_ref_ok (env' := [("n", .str n)]) ?_
    rw [show rules .IntegerConstRef = rIntegerConstRef from rfl, rIntegerConstRef, ev_action,
      label_ok (const_ok hn hs' [] l b)]
    simp [actRes, onIntegerConstRef1, act, Env.get, List.lookup, C]
  refine ev_ref_ok (env' := [("i", .integer (.constRef n))]) ?_
  rw [show rules .Integer = rInteger from rfl, rInteger, ev_action, label_ok (env' := []) (by rw [ev_choice, choice_ok h1])]
  simp [actRes, onInteger1, Env.get, List.lookup, C]

theorem post_SMVarArray (s : List Char) (l : List Val) :
    WpS rules Post rSMVarArray [] s l (fun v _ s' l' => Post .SMVarArray s l v s' l') := by
  simp only [rSMVarArray, WpS, WpSSeq]
  rintro vb s1 l1 hb rb v2 s2 l2 ⟨rfl, h2⟩ r2 v3 s3 l3 ⟨n, rfl, rfl, hn⟩ r3 v4 s4 l4 ⟨rfl, h4⟩ r4 s5 rfl
    v6 s6 l6 ⟨k, rfl, rfl, hk⟩ - s7 rfl t v - hv L hL
  obtain ⟨b, rfl, rfl, hb'⟩ := hb L hL
  simp only [onSMVarArray1] at hv
  run hv
  refine ⟨b, n, k, hv.symm, rfl, ?_, ?_⟩
  · simp only [layout_append]
    exact ⟨_, ⟨_, ⟨_, hb', _, h2, _, hn, _, h4, _, rfl, rfl⟩, hk⟩, _, rfl, rfl⟩
  · intro hc
    cases k with
    | leftover => exact hc.elim
    | idRef r =>
      obtain ⟨h0, hcst⟩ := hc
      simp only [length, idRef, if_pos h0] at hk
      obtain ⟨_, ⟨hid, rfl, hstop⟩, rfl⟩ := hk
      refine ⟨.field ⟨n, .fixedArray (b.base (Tree.mean L)) (.constRef r.name)⟩, s7,
        l ++ lingers (b.hoist (Tree.mean L)), [], ev_ref_ok (env' := [("s", .integer (.constRef r.name)), ("n", .str n),
        ("b", baseVal (b.base (Tree.mean L)))]) ?_⟩
      rw [show rules .SMFixedArray = rSMFixedArray from rfl, rSMFixedArray, ev_action, ev_seq, seq_ok (label_ok (ran_env rb [])),
        seq_ok (ran_env r2 _), seq_ok (label_ok (ran_env r3 [])), seq_ok (ran_env r4 _), seq_ok (lit_ok "[" _ _ _ _),
        seq_ok (label_ok (integer_const hcst hstop [] _ _)), seq_ok (lit_ok "]" _ _ _ _)]
      simp [seqLoop, actRes, onSMFixedArray1, act, Env.get, List.lookup, C]

theorem post_SMArray (s : List Char) (l : List Val) :
    WpS rules Post rSMArray [] s l (fun v _ s' l' => Post .SMArray s l v s' l') := by
  simp only [rSMArray, WpS, WpSAll]
  refine ⟨?_, fun hf => ⟨?_, fun _ => trivial⟩⟩
  · rintro v s1 l1 h1 - t v2 - hv
    simp only [onSMArray1] at hv
    run hv
    subst hv
    exact h1
  · rintro v s1 l1 h1 - t v2 - hv L hL
    obtain ⟨b, n, k, rfl, rfl, hl, hc⟩ := h1 L hL
    simp only [onSMArray1] at hv
    run hv
    refine ⟨.var b n k, hv.symm, rfl, ?_⟩
    simp only [SField.spell, List.cons_append]
    refine ⟨s, ⟨?_, rfl⟩, (layout_append _ _ _ _).2 ⟨_, hl, _, Gap.done _, rfl⟩⟩
    intro hk
    obtain ⟨w, s2, l2, env, hr⟩ := hc hk
    obtain ⟨st, hf⟩ := hf
    rw [hf] at hr
    cases hr

theorem post_SMInteger (s : List Char) (l : List Val) :
    WpS rules Post rSMInteger [] s l (fun v _ s' l' => Post .SMInteger s l v s' l') := by
  simp only [rSMInteger, WpS, WpSSeq]
  rintro vb s1 l1 ⟨w, rfl, rfl, rfl⟩ - v2 s2 l2 ⟨rfl, h2⟩ - v3 s3 l3 ⟨n, rfl, rfl, hn⟩ - v4 s4 l4 ⟨rfl, h4⟩ -
  refine ⟨?_, ?_⟩
  · rintro t v - hv L hL
    simp only [onSMInteger1] at hv
    run hv
    refine ⟨.int w n none, hv.symm, by simp [SField.hoist], ?_⟩
    exact ⟨_, rfl, _, h2, _, hn, _, h4, rfl⟩
  · rintro v5 s5 l5 ⟨k, rfl, rfl, hk⟩ - t v - hv L hL
    simp only [onSMInteger1] at hv
    simp [act, Env.get, List.lookup, Val.opt, Val.asIntList] at hv
    refine ⟨.int w n (some k), hv.symm, by simp [SField.hoist], ?_⟩
    simp only [SField.spell, layout_append] at hk ⊢
    obtain ⟨t1, ⟨t2, ⟨t3, h6, t4, h7, t5, h8, t6, h9, rfl⟩, h11⟩, h12⟩ := hk
    refine ⟨_, ⟨_, ⟨_, ⟨_, rfl, _, h2, _, hn, _, ⟨h4, ?_⟩, _, h6, _, h7, _, h8, _, h9, rfl⟩, h11⟩, h12⟩, _, Gap.done _, rfl⟩
    rintro rfl
    have := hn.2.2 'I' ('N' :: t3) h6
    cases this

theorem post_SMString (s : List Char) (l : List Val) :
    WpS rules Post rSMString [] s l (fun v _ s' l' => Post .SMString s l v s' l') := by
  simp only [rSMString, WpS, WpSSeq]
  rintro s1 rfl v2 s2 l2 ⟨rfl, h2⟩ - v5 s5 l5 ⟨k, rfl, rfl, hk⟩ - t v - hv L hL
  simp only [onSMString1] at hv
  run hv
  exact ⟨.str k, hv.symm, by simp [SField.hoist], _, rfl, _, h2, _, hk, _, Gap.done _, rfl⟩

theorem post_SMStruct (s : List Char) (l : List Val) :
    WpS rules Post rSMStruct [] s l (fun v _ s' l' => Post .SMStruct s l v s' l') := by
  simp only [rSMStruct, WpS, WpSSeq]
  rintro v1 s1 l1 h1 - v2 s2 l2 ⟨rfl, h2⟩ - v5 s5 l5 ⟨k, rfl, rfl, hk⟩ - t v - hv L hL
  obtain ⟨r, rfl, rfl, hr⟩ := h1 L hL
  simp only [onSMStruct1] at hv
  run hv
  refine ⟨.struct r k, hv.symm, rfl, ?_⟩
  simp only [SField.spell, layout_append]
  exact ⟨_, ⟨_, hr, _, h2, _, hk, rfl⟩, _, Gap.done _, rfl⟩

theorem post_UnionField (s : List Char) (l : List Val) :
    WpS rules Post rUnionField [] s l (fun v _ s' l' => Post .UnionField s l v s' l') := by
  simp only [rUnionField, WpS, WpSSeq, WpSAll]
  rintro v1 s1 l1 ⟨rfl, h1⟩ -
  have key : ∀ v2 s2 l2, PostField s1 l1 v2 s2 l2 → ∀ v3 s3 l3, Post .gap s2 l2 v3 s3 l3 → Ran rules (.ref .gap) s2 l2 v3 s3 l3 →
      ∀ s4, s3 = ";".toList ++ s4 → ∀ t v, s = t ++ s4 → onUnionField1 [("m", v2)] (List.map Rune.ok t) l3 = some (v, false) →
      Post .UnionField s l1 v s4 l3 := by
    rintro v2 s2 l2 h2 v3 s3 l3 ⟨rfl, h3⟩ - s4 rfl t v - hv L hL
    obtain ⟨f, rfl, rfl, hf⟩ := h2 L (by have := gap_le h1; omega)
    simp only [onUnionField1] at hv
    run hv
    refine ⟨f, hv.symm, rfl, _, h1, ?_⟩
    have h4 := layout_gap hf h3
    rw [layout_append] at h4
    obtain ⟨t1, h5, _, h6, rfl⟩ := h4
    exact (layout_append _ _ _ _).2 ⟨t1, h5, _, h6, _, rfl, rfl⟩
  exact ⟨fun v s l h _ => key v s l h, fun _ => ⟨fun v s l h _ => key v s l h, fun _ => ⟨fun v s l h _ => key v s l h,
    fun _ => ⟨fun v s l h _ => key v s l h, fun _ => trivial⟩⟩⟩⟩

theorem post_ExtentSpec (s : List Char) (l : List Val) :
    WpS rules Post rExtentSpec [] s l (fun v _ s' l' => Post .ExtentSpec s l v s' l') := by
  simp only [rExtentSpec, WpS, WpSSeq, WpSAll]
  refine ⟨?_, fun hf => ⟨?_, fun _ => trivial⟩⟩
  · rintro s1 rfl v2 s2 l2 ⟨rfl, h2⟩ - s3 rfl t v - hv L hL
    simp only [onExtentSpec2] at hv
    run hv
    exact ⟨.dots, hv.symm, by simp [Extent.hoist], _, rfl, _, h2, _, rfl, rfl⟩
  · rintro v1 s1 l1 h1 - v2 s2 l2 ⟨rfl, h2⟩ - s3 rfl t v - hv L hL
    obtain ⟨b, n, rfl, rfl, hb⟩ := h1 L hL
    simp only [onExtentSpec7] at hv
    run hv
    refine ⟨.rest b n, hv.symm, rfl, ?_⟩
    simp only [Extent.spell, layout_append]
    exact ⟨_, hb, _, h2, _, rfl, rfl⟩

theorem fieldsSpell_eq {ι : Type} (inner : ι → List Piece) (fs : List (SField ι)) :
    fieldsSpell inner fs = fs.flatMap (fun f => f.spell inner ++ [.gap, .tok ";", .gap]) := by
  induction fs with
  | nil => rfl
  | cons f fs ih => rw [fieldsSpell, ih]; rfl

theorem membersSpell_eq {ι : Type} (inner : ι → List Piece) (fs : List (SMember ι)) :
    membersSpell inner fs = fs.flatMap (fun f => f.spell inner ++ [.gap, .tok ";", .gap]) := by
  induction fs with
  | nil => rfl
  | cons f fs ih => rw [membersSpell, ih]; rfl

theorem casesSpell_eq {ι : Type} (inner : ι → List Piece) (fs : List (SCase ι)) :
    casesSpell inner fs = fs.flatMap (fun f => f.spell inner) := by
  induction fs with
  | nil => rfl
  | cons f fs ih => rw [casesSpell, ih]; rfl

theorem contextSpell_eq (fs : List (Width × String)) :
    contextSpell fs = fs.flatMap (fun f => [.tok f.1.word, .gap1, .id f.2, .gap, .tok ";", .gap]) := by
  induction fs with
  | nil => rfl
  | cons f fs ih => rw [contextSpell, ih]; rfl

theorem declsSpell_eq {k : Nat} (fs : List (Decl (Tree k))) :
    declsSpell fs = fs.flatMap (fun f => f.spell ++ [.gap]) := by
  induction fs with
  | nil => rfl
  | cons f fs ih => rw [declsSpell, ih]; rfl

theorem layout_semi {ps : List Piece} {s s1 : List Char} (h : Layout (.gap :: ps ++ [.gap, .tok ";"]) s s1) (s2 : List Char)
    (hg : Gap s1 s2) : Layout (.gap :: (ps ++ [.gap, .tok ";", .gap])) s s2 := by
  obtain ⟨t, h1, h2⟩ := h
  refine ⟨t, h1, ?_⟩
  have h2 : Layout (ps ++ [.gap, .tok ";"]) t s1 := h2
  rw [layout_append] at h2 ⊢
  obtain ⟨t2, h3, t3, h4, t4, h5, rfl⟩ := h2
  exact ⟨t2, h3, t3, h4, t4, h5, _, hg, rfl⟩

theorem post_UnionFields (s : List Char) (l : List Val) :
    WpS rules Post rUnionFields [] s l (fun v _ s' l' => Post .UnionFields s l v s' l') := by
  simp only [rUnionFields, WpS, WpSSeq]
  rintro vs s1 l1 hst v2 s2 l2 ⟨rfl, h2⟩ -
  have items : ∀ L, s.length ≤ L → ∃ fs : List (SField (Tree L)), vs = fs.map (fun f => .field (f.field (Tree.mean L))) ∧
      l2 = l ++ lingers (fs.flatMap (SField.hoist (Tree.mean L))) ∧
      ∀ s3, Gap s1 s3 → Layout (.gap :: fs.flatMap (fun f => f.spell (Tree.spell L) ++ [.gap, .tok ";", .gap])) s s3 := by
    intro L hL
    refine star_items (L := L) ?_ hst hL
    intro s l v s' l' hQ hL
    obtain ⟨f, h1, h2, h3⟩ := hQ (fun v s' l' => Post .UnionField s l v s' l') (fun v s' l' h _ => h) L hL
    exact ⟨f, h1, h2, layout_semi h3⟩
  refine ⟨?_, ?_⟩
  · rintro t v - hv L hL
    obtain ⟨fs, rfl, rfl, hfs⟩ := items L hL
    simp only [onUnionFields1] at hv
    run hv
    rw [mapM_out (g := fun f : SField (Tree L) => Leaf.field (f.field (Tree.mean L))) (fun a => asLeaf_field _)] at hv
    simp at hv
    refine ⟨fs, none, by rw [← hv]; simp [Body.leaves], by simp [Body.hoist], fun s3 h3 => ?_⟩
    simp only [Body.spell, fieldsSpell_eq, List.append_nil]
    exact hfs s3 (gap_trans h2 h3)
  · rintro v3 s3 l3 h3 - t v - hv L hL
    obtain ⟨fs, rfl, rfl, hfs⟩ := items L hL
    have hle := layout_le _ (hfs s2 h2)
    obtain ⟨e, rfl, rfl, he⟩ := h3 L (by omega)
    simp only [onUnionFields1] at hv
    run hv
    rw [mapM_out (g := fun f : SField (Tree L) => Leaf.field (f.field (Tree.mean L))) (fun a => asLeaf_field _)] at hv
    simp at hv
    refine ⟨fs, some e, by rw [← hv]; simp [Body.leaves], by simp [Body.hoist], fun s4 h4 => ?_⟩
    simp only [Body.spell, fieldsSpell_eq]
    have := hfs s2 h2
    obtain ⟨t1, h5, h6⟩ := this
    refine ⟨t1, h5, ?_⟩
    simp only [layout_append]
    exact ⟨_, h6, _, he, _, h4, rfl⟩

theorem post_UnionBody (s : List Char) (l : List Val) :
    WpS rules Post rUnionBody [] s l (fun v _ s' l' => Post .UnionBody s l v s' l') := by
  simp only [rUnionBody, WpS, WpSSeq, WpSAll]
  refine ⟨?_, fun hf => ⟨?_, fun _ => ⟨?_, fun _ => ⟨?_, fun _ => trivial⟩⟩⟩⟩
  · rintro v2 s2 l2 ⟨rfl, h2⟩ - s3 rfl t v - hv L hL
    simp only [onUnionBody2] at hv
    run hv
    exact ⟨.empty, Or.inr ⟨hv.symm, rfl⟩, by simp [Body.hoist], fun s4 h4 => ⟨_, h2, _, rfl, _, h4, rfl⟩⟩
  · rintro s1 rfl v2 s2 l2 ⟨rfl, h2⟩ - s3 rfl t v - hv L hL
    simp only [onUnionBody6] at hv
    run hv
    exact ⟨.fail, Or.inl hv.symm, by simp [Body.hoist], fun s4 h4 => ⟨_, Gap.done _, _, rfl, _, h2, _, rfl, _, h4, rfl⟩⟩
  · rintro s1 rfl v2 s2 l2 ⟨rfl, h2⟩ - s3 rfl t v - hv L hL
    simp only [onUnionBody11] at hv
    run hv
    exact ⟨.ignore, Or.inl hv.symm, by simp [Body.hoist], fun s4 h4 => ⟨_, Gap.done _, _, rfl, _, h2, _, rfl, _, h4, rfl⟩⟩
  · rintro v1 s1 l1 h1 - t v - hv L hL
    obtain ⟨fs, e, rfl, rfl, h2⟩ := h1 L hL
    simp only [onUnionBody16] at hv
    run hv
    exact ⟨.fields fs e, Or.inl hv.symm, rfl, h2⟩

theorem post_UnionMember (s : List Char) (l : List Val) :
    WpS rules Post rUnionMember [] s l (fun v _ s' l' => Post .UnionMember s l v s' l') := by
  simp only [rUnionMember, WpS, WpSSeq]
  rintro v1 s1 l1 ⟨rfl, h1⟩ - v2 s2 l2 ⟨c, rfl, rfl, hc⟩ - v3 s3 l3 ⟨rfl, h3⟩ - s4 rfl v5 s5 l5 ⟨rfl, h5⟩ -
    v6 s6 l6 h6 - v7 s7 l7 ⟨rfl, h7⟩ - t v - hv L hL
  have hle := layout_le _ hc
  have hle1 := gap_le h1
  have hle3 := gap_le h3
  have hle5 := gap_le h5
  simp only [List.length_append] at hle3
  obtain ⟨b, hb, rfl, hl⟩ := h6 L (by omega)
  refine ⟨⟨c, b⟩, ?_, rfl, fun s8 h8 => ?_⟩
  · simp only [onUnionMember1] at hv
    rcases hb with rfl | ⟨rfl, hb⟩
    · cases c <;> simp [act, Env.get, List.lookup, Val.opt, Val.asMembers, Val.asIntList] at hv <;> exact hv.symm
    · simp only [hb]
      cases c <;> simp [act, Env.get, List.lookup, Val.opt, Val.asMembers, Val.asIntList] at hv <;> exact hv.symm
  · obtain ⟨t1, h9, h10⟩ := hl s8 (gap_trans h7 h8)
    refine ⟨_, h1, ?_⟩
    simp only [SCase.spell, layout_append]
    exact ⟨_, ⟨_, hc, _, h3, _, rfl, _, gap_trans h5 h9, rfl⟩, h10⟩

/-- The optional length of a union. -/
def lenSpell : Option LengthConstraint → List Piece
  | none => []
  | some l => [.tok "with", .gap1, .tok "length", .gap1] ++ length l ++ [.gap]

theorem union_spell {ι : Type} (inner : ι → List Piece) (n : String) (t : IDRef) (l : Option LengthConstraint)
    (cs : List (SCase ι)) : (SMember.union n t l cs).spell inner =
      [.tok "union", .gap1, .id n, .gap, .tok "["] ++ idRef t ++ [.tok "]", .gap] ++ lenSpell l ++
        [.tok "{", .gap] ++ cs.flatMap (fun f => f.spell inner) ++ [.tok "}"] := by
  rw [← casesSpell_eq]
  cases l <;> rfl

theorem post_SMUnion (s : List Char) (l : List Val) :
    WpS rules Post rSMUnion [] s l (fun v _ s' l' => Post .SMUnion s l v s' l') := by
  simp only [rSMUnion, WpS, WpSSeq]
  rintro s1 rfl v2 s2 l2 ⟨rfl, h2⟩ - v3 s3 l3 ⟨n, rfl, rfl, hn⟩ - v4 s4 l4 ⟨rfl, h4⟩ - s5 rfl v6 s6 l6 ⟨tag, rfl, rfl, ht⟩ -
    s7 rfl v8 s8 l8 ⟨rfl, h8⟩ -
  have key : ∀ (v9 : Val) (s9 : List Char) (len : Option LengthConstraint), v9 = (len.map lengthVal).getD .nil →
      (∀ s10, Gap s9 s10 → Layout (lenSpell len) s8 s10 ∨ (len = none ∧ s9 = s8)) →
      ∀ v s' l', Post .gap s9 l8 v s' l' → Ran rules (.ref .gap) s9 l8 v s' l' → ∀ s'_1, s' = "{".toList ++ s'_1 →
      ∀ v s' l'_1, Post .gap s'_1 l' v s' l'_1 → Ran rules (.ref .gap) s'_1 l' v s' l'_1 →
      ∀ vs s'_2 l'_2, Star (fun s l v s' l' => ∀ Q : Val → List Char → List Val → Prop,
          (∀ v s' l', Post .UnionMember s l v s' l' → Ran rules (.ref .UnionMember) s l v s' l' → Q v s' l') → Q v s' l')
          s' l'_1 vs s'_2 l'_2 →
      ∀ v s' l', Post .gap s'_2 l'_2 v s' l' → Ran rules (.ref .gap) s'_2 l'_2 v s' l' → ∀ s'_3, s' = "}".toList ++ s'_3 →
      ∀ t v, "union".toList ++ s1 = t ++ s'_3 →
        onSMUnion1 [("cs", .list vs), ("l", v9), ("t", .idRef tag), ("n", .str n)] (List.map Rune.ok t) l' = some (v, false) →
        Post .SMUnion ("union".toList ++ s1) l8 v s'_3 l' := by
    rintro v9 s9 len rfl hlen v10 s10 l10 ⟨rfl, h10⟩ - s11 rfl v12 s12 l12 ⟨rfl, h12⟩ - vs s13 l13 hst v14 s14 l14 ⟨rfl, h14⟩ -
      s15 rfl t v - hv L hL
    have hs8 : ∃ s8', Gap s8 s8' ∧ Layout (lenSpell len) s8' ("{".toList ++ s11) := by
      rcases hlen _ h10 with h | ⟨rfl, rfl⟩
      · exact ⟨s8, .done _, h⟩
      · exact ⟨_, h10, rfl⟩
    obtain ⟨s8', hg8, hlay⟩ := hs8
    have b1 := layout_le _ hlay
    have b2 := gap_le hg8
    have b3 := gap_le h8
    have b4 := layout_le _ ht
    have b5 := gap_le h4
    have b6 := piece_le hn
    have b7 := gap_le h2.1
    have b8 := gap_le h12
    simp only [List.length_append] at b1 b2 b3 b4 b5 b6 b7 b8 hL
    obtain ⟨cs, rfl, rfl, hcs⟩ := star_items (L := L) (out := fun c : SCase (Tree L) => Val.case ⟨c.case, c.body.leaves (Tree.mean L)⟩)
      (hoist := fun c => c.body.hoist (Tree.mean L)) (item := fun c => c.spell (Tree.spell L)) (by
        intro s l v s' l' hQ hL
        exact hQ (fun v s' l' => Post .UnionMember s l v s' l') (fun v s' l' h _ => h) L hL) hst (by omega)
    refine ⟨.union n tag len cs, ?_, rfl, ?_⟩
    · simp only [onSMUnion1] at hv
      run hv
      rw [mapM_out (g := fun c : SCase (Tree L) => (⟨c.case, c.body.leaves (Tree.mean L)⟩ : UnionCase)) (fun a => asCase_val _)] at hv
      cases len with
      | none => simp at hv; exact hv.symm
      | some len => simp at hv; exact hv.symm
    · simp only [union_spell, layout_append]
      obtain ⟨t1, h15, h16⟩ := hcs _ h14
      exact ⟨_, ⟨_, ⟨_, ⟨_, ⟨_, ⟨_, ⟨_, rfl, _, h2, _, hn, _, h4, _, rfl, rfl⟩, ht⟩, _, rfl, _, gap_trans h8 hg8, rfl⟩, hlay⟩,
        _, rfl, _, gap_trans h12 h15, rfl⟩, h16⟩, _, rfl, rfl⟩
  refine ⟨?_, ?_⟩
  · exact key .nil s8 none rfl (fun s10 _ => Or.inr ⟨rfl, rfl⟩)
  · rintro v9 s9 l9 ⟨k, rfl, rfl, hk⟩ -
    refine key (lengthVal k) s9 (some k) rfl (fun s10 h10 => Or.inl ?_)
    simp only [lenSpell, layout_append] at hk ⊢
    obtain ⟨t, h, h'⟩ := hk
    exact ⟨_, ⟨t, h, h'⟩, _, h10, rfl⟩

theorem post_StructMember (s : List Char) (l : List Val) :
    WpS rules Post rStructMember [] s l (fun v _ s' l' => Post .StructMember s l v s' l') := by
  simp only [rStructMember, WpS, WpSSeq, WpSAll]
  rintro v1 s1 l1 ⟨rfl, h1⟩ -
  have key : ∀ v2 s2 l2, (∀ L, s1.length ≤ L → ∃ m : SMember (Tree L), v2 = memberVal (m.member (Tree.mean L)) ∧
      l2 = l1 ++ lingers (m.hoist (Tree.mean L)) ∧ Layout (m.spell (Tree.spell L) ++ [.gap]) s1 s2) →
      ∀ v3 s3 l3, Post .gap s2 l2 v3 s3 l3 → Ran rules (.ref .gap) s2 l2 v3 s3 l3 →
      ∀ s4, s3 = ";".toList ++ s4 → ∀ t v, s = t ++ s4 → onStructMember1 [("m", v2)] (List.map Rune.ok t) l3 = some (v, false) →
      Post .StructMember s l1 v s4 l3 := by
    rintro v2 s2 l2 h2 v3 s3 l3 ⟨rfl, h3⟩ - s4 rfl t v - hv L hL
    obtain ⟨f, rfl, rfl, hf⟩ := h2 L (by have := gap_le h1; omega)
    simp only [onStructMember1] at hv
    run hv
    refine ⟨f, hv.symm, rfl, _, h1, ?_⟩
    have h4 := layout_gap hf h3
    rw [layout_append] at h4
    obtain ⟨t1, h5, _, h6, rfl⟩ := h4
    exact (layout_append _ _ _ _).2 ⟨t1, h5, _, h6, _, rfl, rfl⟩
  have fld : ∀ v2 s2 l2, PostField s1 l1 v2 s2 l2 → ∀ L, s1.length ≤ L → ∃ m : SMember (Tree L), v2 = memberVal (m.member (Tree.mean L)) ∧
      l2 = l1 ++ lingers (m.hoist (Tree.mean L)) ∧ Layout (m.spell (Tree.spell L) ++ [.gap]) s1 s2 := by
    intro v2 s2 l2 h2 L hL
    obtain ⟨f, rfl, rfl, hf⟩ := h2 L hL
    exact ⟨.field f, rfl, rfl, hf⟩
  refine ⟨fun v s l h _ => key v s l (fld v s l h), fun _ => ⟨fun v s l h _ => key v s l (fld v s l h), fun _ => ⟨?_, fun _ =>
    ⟨fun v s l h _ => key v s l (fld v s l h), fun _ => ⟨fun v s l h _ => key v s l (fld v s l h), fun _ => ⟨?_, fun _ => trivial⟩⟩⟩⟩⟩⟩
  · rintro v s2 l2 ⟨n, rfl, rfl, hn⟩ -
    refine key _ _ _ (fun L hL => ⟨.ptr n, rfl, by simp [SMember.hoist], ?_⟩)
    rw [layout_append]
    exact ⟨_, hn, _, Gap.done _, rfl⟩
  · rintro v s2 l2 h2 -
    refine key _ _ _ (fun L hL => ?_)
    obtain ⟨m, h3, h4, h5⟩ := h2 L hL
    refine ⟨m, h3, h4, ?_⟩
    rw [layout_append]
    exact ⟨_, h5, _, Gap.done _, rfl⟩

theorem post_StructEnding (s : List Char) (l : List Val) :
    WpS rules Post rStructEnding [] s l (fun v _ s' l' => Post .StructEnding s l v s' l') := by
  simp only [rStructEnding, WpS, WpSSeq, WpSAll]
  rintro v1 s1 l1 ⟨rfl, h1⟩ -
  refine ⟨?_, fun hf => ⟨?_, fun _ => trivial⟩⟩
  · rintro v2 s2 l2 h2 - v3 s3 l3 ⟨rfl, h3⟩ - s4 rfl t v - hv L hL
    obtain ⟨b, n, rfl, rfl, hb⟩ := h2 L (by have := gap_le h1; omega)
    simp only [onStructEnding1] at hv
    run hv
    refine ⟨.rest b n, hv.symm, rfl, fun s5 h5 => ⟨_, h1, ?_⟩⟩
    simp only [Ending.spell, layout_append]
    exact ⟨_, hb, _, h3, _, rfl, _, h5, rfl⟩
  · rintro v2 s2 l2 ⟨rfl, rfl, rfl⟩ - v3 s3 l3 ⟨rfl, h3⟩ - s4 rfl t v - hv L hL
    simp only [onStructEnding1] at hv
    run hv
    exact ⟨.eos, hv.symm, by simp [Ending.hoist], fun s5 h5 => ⟨_, h1, _, rfl, _, h3, _, rfl, _, h5, rfl⟩⟩

theorem post_StructDecl (s : List Char) (l : List Val) :
    WpS rules Post rStructDecl [] s l (fun v _ s' l' => Post .StructDecl s l v s' l') := by
  simp only [rStructDecl, WpS, WpSSeq]
  rintro v1 s1 l1 ⟨n, rfl, rfl, hn⟩ -
  have key : ∀ (v2 : Val) (s2 : List Char) (ctx : List String), contextsOf v2 = some ctx → Layout (withContext ctx) s1 s2 →
      ∀ v s' l', Post .gap s2 l1 v s' l' → Ran rules (.ref .gap) s2 l1 v s' l' → ∀ s'_1, s' = "{".toList ++ s'_1 →
      ∀ vs s'_2 l'_2, Star (fun s l v s' l' => ∀ Q : Val → List Char → List Val → Prop,
          (∀ v s' l', Post .StructMember s l v s' l' → Ran rules (.ref .StructMember) s l v s' l' → Q v s' l') → Q v s' l')
          s'_1 l' vs s'_2 l'_2 →
      ∀ v s' l', Post .gap s'_2 l'_2 v s' l' → Ran rules (.ref .gap) s'_2 l'_2 v s' l' →
      (∀ v s'_3 l'_3, Post .gap s' l' v s'_3 l'_3 → Ran rules (.ref .gap) s' l' v s'_3 l'_3 → ∀ s'_4, s'_3 = "}".toList ++ s'_4 →
        ∀ t v, s = t ++ s'_4 → onStructDecl1 [("e", .nil), ("ms", .list vs), ("ctx", v2), ("n", .str n)] (List.map Rune.ok t) l'_3 =
          some (v, false) → Post .StructDecl s l1 v s'_4 l'_3) ∧
      ∀ v s'_3 l'_3, Post .StructEnding s' l' v s'_3 l'_3 → Ran rules (.ref .StructEnding) s' l' v s'_3 l'_3 →
        ∀ v_1 s'_4 l'_4, Post .gap s'_3 l'_3 v_1 s'_4 l'_4 → Ran rules (.ref .gap) s'_3 l'_3 v_1 s'_4 l'_4 →
        ∀ s'_5, s'_4 = "}".toList ++ s'_5 → ∀ t v_2, s = t ++ s'_5 →
        onStructDecl1 [("e", v), ("ms", .list vs), ("ctx", v2), ("n", .str n)] (List.map Rune.ok t) l'_4 = some (v_2, false) →
        Post .StructDecl s l1 v_2 s'_5 l'_4 := by
    rintro v2 s2 ctx hctx hlay v3 s3 l3 ⟨rfl, h3⟩ - s4 rfl vs s5 l5 hst v6 s6 l6 ⟨rfl, h6⟩ -
    have b1 : s.length ≥ 6 + s1.length := by
      obtain ⟨t1, h7, t2, h8, t3, h9, rfl⟩ := hn
      have := gap_le h8.1
      have := piece_le h9
      simp only [Piece.At] at h7
      rw [h7]
      simp only [List.length_append, String.length_toList]
      have : "struct".length = 6 := rfl
      omega
    have b2 := layout_le _ hlay
    have b3 := gap_le h3
    have b5 := gap_le h6
    simp only [List.length_append] at b3
    have items : ∀ L, s.length ≤ L + 1 → ∃ fs : List (SMember (Tree L)), vs = fs.map (fun f => memberVal (f.member (Tree.mean L))) ∧
        l6 = l3 ++ lingers (fs.flatMap (SMember.hoist (Tree.mean L))) ∧
        ∀ s3, Gap s5 s3 → Layout (.gap :: fs.flatMap (fun f => f.spell (Tree.spell L) ++ [.gap, .tok ";", .gap])) s4 s3 := by
      intro L hL
      refine star_items (L := L) ?_ hst (by omega)
      intro s l v s' l' hQ hL
      obtain ⟨f, h1, h2, h3⟩ := hQ (fun v s' l' => Post .StructMember s l v s' l') (fun v s' l' h _ => h) L hL
      exact ⟨f, h1, h2, layout_semi h3⟩
    refine ⟨?_, ?_⟩
    · rintro v7 s7 l7 ⟨rfl, h7⟩ - s8 rfl t v - hv L hL
      obtain ⟨ms, rfl, rfl, hms⟩ := items L hL
      simp only [onStructDecl1] at hv
      run hv
      rw [mapM_out (g := fun m => SMember.member (Tree.mean L) m) (fun a => asMember_val _), hctx] at hv
      simp at hv
      refine ⟨⟨n, ctx, ms, none⟩, by rw [← hv]; simp [SStruct.struct], by simp [SStruct.hoist], ?_⟩
      obtain ⟨t1, h8, h9⟩ := hms _ (gap_trans h6 h7)
      simp only [SStruct.spell, layout_append, membersSpell_eq]
      exact ⟨_, ⟨_, ⟨_, ⟨_, ⟨_, hn, hlay⟩, _, h3, _, rfl, _, h8, rfl⟩, h9⟩, rfl⟩, _, rfl, rfl⟩
    · rintro ve s7 l7 he - v8 s8 l8 ⟨rfl, h8⟩ - s9 rfl t v - hv L hL
      obtain ⟨ms, rfl, rfl, hms⟩ := items L hL
      have b4 := layout_le _ (hms s6 h6)
      obtain ⟨e, rfl, rfl, he'⟩ := he L (by omega)
      simp only [onStructDecl1] at hv
      run hv
      rw [mapM_out (g := fun m => SMember.member (Tree.mean L) m) (fun a => asMember_val _), hctx] at hv
      simp at hv
      refine ⟨⟨n, ctx, ms, some e⟩, by rw [← hv]; simp [SStruct.struct], by simp [SStruct.hoist], ?_⟩
      obtain ⟨t2, h11, h12⟩ := he' _ h8
      obtain ⟨t1, h9, h10⟩ := hms _ (gap_trans h6 h11)
      simp only [SStruct.spell, layout_append, membersSpell_eq]
      exact ⟨_, ⟨_, ⟨_, ⟨_, ⟨_, hn, hlay⟩, _, h3, _, rfl, _, h9, rfl⟩, h10⟩, h12⟩, _, rfl, rfl⟩
  refine ⟨?_, ?_⟩
  · exact key .nil s1 [] rfl rfl
  · rintro v2 s2 l2 ⟨rfl, h2⟩ - v3 s3 l3 ⟨k, rfl, rfl, hk⟩ -
    refine key _ s3 k rfl ?_
    cases k with
    | nil =>
      simp only [layout_append, idList, commas] at hk
      obtain ⟨_, _, _, ⟨h, _⟩, _⟩ := hk
      exact h.elim
    | cons a as => exact ⟨_, h2, hk⟩

theorem post_ConstDeclaration (s : List Char) (l : List Val) :
    WpS rules Post rConstDeclaration [] s l (fun v _ s' l' => Post .ConstDeclaration s l v s' l') := by
  simp only [rConstDeclaration, WpS, WpSSeq]
  rintro s1 rfl v2 s2 l2 ⟨rfl, h2⟩ - v3 s3 l3 ⟨n, rfl, rfl, hn⟩ - v4 s4 l4 ⟨rfl, h4⟩ - s5 rfl v6 s6 l6 ⟨rfl, h6⟩ -
    v7 s7 l7 ⟨k, rfl, rfl, hk⟩ - v8 s8 l8 ⟨rfl, h8⟩ - s9 rfl t v - hv L hL
  simp only [onConstDeclaration1] at hv
  run hv
  exact ⟨.const n k, hv.symm, by simp [Decl.hoist], _, rfl, _, h2, _, hn, _, h4, _, rfl, _, h6, _, hk, _, h8, _, rfl, _, Gap.done _, rfl⟩

theorem post_ContextDeclaration (s : List Char) (l : List Val) :
    WpS rules Post rContextDeclaration [] s l (fun v _ s' l' => Post .ContextDeclaration s l v s' l') := by
  simp only [rContextDeclaration, WpS, WpSSeq]
  rintro s1 rfl v2 s2 l2 ⟨rfl, h2⟩ - v3 s3 l3 ⟨n, rfl, rfl, hn⟩ - v4 s4 l4 ⟨rfl, h4⟩ - s5 rfl v6 s6 l6 ⟨rfl, h6⟩ -
    vs s7 l7 hst v8 s8 l8 ⟨rfl, h8⟩ - s9 rfl v10 s10 l10 ⟨rfl, h10⟩ -
  obtain ⟨fs, rfl, hl, hfs⟩ := star_items (L := s6.length)
    (out := fun f : Width × String => Val.field ⟨f.2, .base (.int ⟨f.1.bits, none⟩)⟩)
    (hoist := fun _ => []) (item := fun f => [.tok f.1.word, .gap1, .id f.2, .gap, .tok ";", .gap]) (by
      intro s l v s' l' hQ hL
      obtain ⟨w, n, rfl, rfl, h⟩ := hQ (fun v s' l' => Post .ContextMember s l v s' l') (fun v s' l' h _ => h)
      exact ⟨(w, n), rfl, by simp, fun s2 h2 => layout_gap (ps := [.gap, .tok w.word, .gap1, .id n, .gap, .tok ";"]) h h2⟩)
    hst (Nat.le_refl _)
  have hnil : ∀ fs : List (Width × String), fs.flatMap (fun _ => ([] : List Struct)) = [] := by
    intro fs; induction fs <;> simp_all
  have hl : l10 = l6 := by simpa [hnil] using hl
  subst hl
  obtain ⟨t1, h11, h12⟩ := hfs _ h8
  have hm : (fs.map (fun f : Width × String => Val.field ⟨f.2, .base (.int ⟨f.1.bits, none⟩)⟩)).mapM Val.asField =
      some (fs.map (fun f => ⟨f.2, .base (.int ⟨f.1.bits, none⟩)⟩)) := mapM_out (fun a => asField_val _) fs
  refine ⟨?_, ?_⟩
  · rintro t v - hv L hL
    simp only [onContextDeclaration1] at hv
    run hv
    rw [hm] at hv
    simp at hv
    refine ⟨.context n fs false, hv.symm, by simp [Decl.hoist], ?_⟩
    simp only [Decl.spell, layout_append, contextSpell_eq, semicolon]
    exact ⟨_, ⟨_, ⟨_, ⟨_, ⟨_, rfl, _, h2, _, hn, _, h4, _, rfl, _, gap_trans h6 h11, rfl⟩, h12⟩, _, rfl, rfl⟩, rfl⟩, _, h10, rfl⟩
  · rintro s11 rfl t v - hv L hL
    simp only [onContextDeclaration1] at hv
    run hv
    rw [hm] at hv
    simp at hv
    refine ⟨.context n fs true, hv.symm, by simp [Decl.hoist], ?_⟩
    simp only [Decl.spell, layout_append, contextSpell_eq, semicolon]
    exact ⟨_, ⟨_, ⟨_, ⟨_, ⟨_, rfl, _, h2, _, hn, _, h4, _, rfl, _, gap_trans h6 h11, rfl⟩, h12⟩, _, rfl, rfl⟩, _, h10, _, rfl, rfl⟩,
      _, Gap.done _, rfl⟩

theorem post_StructDeclaration (s : List Char) (l : List Val) :
    WpS rules Post rStructDeclaration [] s l (fun v _ s' l' => Post .StructDeclaration s l v s' l') := by
  simp only [rStructDeclaration, WpS, WpSSeq]
  rintro v1 s1 l1 h1 - v2 s2 l2 ⟨rfl, h2⟩ -
  refine ⟨?_, ?_⟩
  · rintro t v - hv L hL
    obtain ⟨d, rfl, rfl, hd⟩ := h1 L hL
    simp only [onStructDeclaration1] at hv
    run hv
    refine ⟨.struct d false, hv.symm, rfl, ?_⟩
    simp only [Decl.spell, layout_append, semicolon]
    exact ⟨_, ⟨_, hd, rfl⟩, _, h2, rfl⟩
  · rintro s3 rfl t v - hv L hL
    obtain ⟨d, rfl, rfl, hd⟩ := h1 L hL
    simp only [onStructDeclaration1] at hv
    run hv
    refine ⟨.struct d true, hv.symm, rfl, ?_⟩
    simp only [Decl.spell, layout_append, semicolon]
    exact ⟨_, ⟨_, hd, _, h2, _, rfl, rfl⟩, _, Gap.done _, rfl⟩

theorem post_ExternDeclaration (s : List Char) (l : List Val) :
    WpS rules Post rExternDeclaration [] s l (fun v _ s' l' => Post .ExternDeclaration s l v s' l') := by
  simp only [rExternDeclaration, WpS, WpSSeq]
  rintro s1 rfl v2 s2 l2 ⟨rfl, h2⟩ - v3 s3 l3 ⟨n, rfl, rfl, hn⟩ -
  obtain ⟨t1, h7, t2, h8, t3, h9, rfl⟩ := hn
  refine ⟨?_, ?_⟩
  · rintro v4 s4 l4 ⟨rfl, h4⟩ - s5 rfl t v - hv L hL
    simp only [onExternDeclaration1] at hv
    simp [act, Env.get, List.lookup, contextsOf] at hv
    refine ⟨.extern n [], hv.symm, by simp [Decl.hoist], ?_⟩
    exact ⟨_, rfl, _, h2, _, h7, _, h8, _, h9, _, h4, _, rfl, _, Gap.done _, rfl⟩
  · rintro v4 s4 l4 ⟨rfl, h4⟩ - v5 s5 l5 ⟨k, rfl, rfl, hk⟩ - v6 s6 l6 ⟨rfl, h6⟩ - s7 rfl t v - hv L hL
    simp only [onExternDeclaration1] at hv
    simp [act, Env.get, List.lookup, contextsOf, Val.opt, Val.index] at hv
    refine ⟨.extern n k, hv.symm, by simp [Decl.hoist], ?_⟩
    simp only [Decl.spell, layout_append]
    refine ⟨_, ⟨_, ⟨_, ⟨_, rfl, _, h2, _, h7, _, h8, _, h9, rfl⟩, ?_⟩, _, h6, _, rfl, rfl⟩, _, Gap.done _, rfl⟩
    cases k with
    | nil =>
      simp only [layout_append, idList, commas] at hk
      obtain ⟨_, _, _, ⟨h, _⟩, _⟩ := hk
      exact h.elim
    | cons a as => exact ⟨_, h4, hk⟩

theorem post_PragmaDeclaration (s : List Char) (l : List Val) :
    WpS rules Post rPragmaDeclaration [] s l (fun v _ s' l' => Post .PragmaDeclaration s l v s' l') := by
  simp only [rPragmaDeclaration, WpS, WpSSeq]
  rintro s1 rfl v2 s2 l2 ⟨rfl, h2⟩ - v3 s3 l3 ⟨n, rfl, rfl, hn⟩ - v4 s4 l4 ⟨rfl, h4⟩ - v5 s5 l5 ⟨k, rfl, rfl, hk⟩ -
    v6 s6 l6 ⟨rfl, h6⟩ - s7 rfl t v - hv L hL
  simp only [onPragmaDeclaration1] at hv
  run hv
  refine ⟨.pragma n k, hv.symm, by simp [Decl.hoist], ?_⟩
  simp only [Decl.spell, layout_append]
  exact ⟨_, ⟨_, ⟨_, ⟨_, rfl, _, h2, _, hn, _, h4, rfl⟩, hk⟩, _, h6, _, rfl, rfl⟩, _, Gap.done _, rfl⟩

theorem post_Declaration (s : List Char) (l : List Val) :
    WpS rules Post rDeclaration [] s l (fun v _ s' l' => Post .Declaration s l v s' l') := by
  simp only [rDeclaration, WpS, WpSSeq, WpSAll]
  rintro v1 s1 l1 ⟨rfl, h1⟩ -
  have key : ∀ v2 s2 l2, PostDecl s1 l1 v2 s2 l2 →
      ∀ v3 s3 l3, Post .gap s2 l2 v3 s3 l3 → Ran rules (.ref .gap) s2 l2 v3 s3 l3 →
      ∀ t v, s = t ++ s3 → onDeclaration1 [("d", v2)] (List.map Rune.ok t) l3 = some (v, false) →
      Post .Declaration s l1 v s3 l3 := by
    rintro v2 s2 l2 h2 v3 s3 l3 ⟨rfl, h3⟩ - t v - hv L hL
    obtain ⟨d, rfl, rfl, hd⟩ := h2 L (by have := gap_le h1; omega)
    simp only [onDeclaration1] at hv
    run hv
    exact ⟨d, hv.symm, rfl, _, h1, layout_gap hd h3⟩
  exact ⟨fun v s l h _ => key v s l h, fun _ => ⟨fun v s l h _ => key v s l h, fun _ => ⟨fun v s l h _ => key v s l h,
    fun _ => ⟨fun v s l h _ => key v s l h, fun _ => ⟨fun v s l h _ => key v s l h, fun _ => trivial⟩⟩⟩⟩⟩

theorem distribute_structs (hs : List Struct) : ∀ f : File,
    distribute (lingers hs) f = some { f with structs := f.structs ++ hs } := by
  induction hs with
  | nil => intro f; simp [distribute]
  | cons h hs ih => intro f; simp only [lingers, List.map_cons, distribute] at ih ⊢; rw [ih]; simp

theorem distribute_decls {k : Nat} (ds : List (Decl (Tree k))) (hs : List Struct) : ∀ f : File,
    distribute (ds.map declVal ++ lingers hs) f = some ⟨f.constants ++ ds.flatMap Decl.constant,
      f.contexts ++ ds.flatMap Decl.ctx, f.structs ++ ds.flatMap Decl.structs ++ hs, f.pragmas ++ ds.flatMap Decl.prag⟩ := by
  induction ds with
  | nil => intro f; simp [distribute_structs]
  | cons d ds ih =>
    intro f
    cases d <;>
      simp [declVal, distribute, ih, Decl.constant, Decl.ctx, Decl.structs, Decl.prag]

theorem post_File (s : List Char) (l : List Val) :
    WpS rules Post rFile [] s l (fun v _ s' l' => Post .File s l v s' l') := by
  simp only [rFile, WpS, WpSSeq]
  rintro v1 s1 l1 ⟨rfl, h1⟩ - vs s2 l2 hst v3 s3 l3 ⟨rfl, h3⟩ - v4 s4 l4 ⟨rfl, rfl, rfl⟩ - t v - hv rfl
  have b1 := gap_le h1
  obtain ⟨ds, rfl, rfl, hds⟩ := star_items (L := s.length) (out := fun d : Decl (Tree s.length) => declVal d)
    (hoist := Decl.hoist) (item := fun d => d.spell ++ [.gap]) (by
      intro s' l v s2 l' hQ hL
      obtain ⟨d, rfl, rfl, h⟩ := hQ (fun v s2 l' => Post .Declaration s' l v s2 l') (fun v s' l' h _ => h) s.length (by omega)
      exact ⟨d, rfl, rfl, fun s3 h3 => layout_gap (ps := .gap :: d.spell) h h3⟩) hst b1
  simp only [onFile1] at hv
  simp [Env.get, List.lookup] at hv
  rw [distribute_decls] at hv
  simp at hv
  refine ⟨ds, hv.symm, ?_, rfl⟩
  obtain ⟨t1, h4, h5⟩ := hds _ h3
  rw [Writes, fileSpell, declsSpell_eq]
  exact ⟨_, gap_trans h1 h4, h5⟩

/-- Every rule matches and returns what it should. -/
theorem rules_post (r : RuleName) : (∀ s l, WpS rules Post (rules r) [] s l (fun v _ s' l' => Post r s l v s' l')) ∨
    ∀ s l v s' l', Ran rules (.ref r) s l v s' l' → Post r s l v s' l' := by
  cases r
  case gap => exact Or.inr (fun s l v s' l' => post_gap)
  case gap1 => exact Or.inr (fun s l v s' l' => post_gap1)
  case Identifier => exact Or.inr (fun s l v s' l' => post_Identifier)
  case ConstIdentifier => exact Or.inr (fun s l v s' l' => post_ConstIdentifier)
  case IntLiteral => exact Or.inr (fun s l v s' l' => post_IntLiteral)
  case DecimalLiteral => exact Or.inr (fun s l v s' l' _ => trivial)
  case HexLiteral => exact Or.inr (fun s l v s' l' _ => trivial)
  case OctalLiteral => exact Or.inr (fun s l v s' l' _ => trivial)
  case SourceChar => exact Or.inr (fun s l v s' l' _ => trivial)
  case Comment => exact Or.inr (fun s l v s' l' _ => trivial)
  case MultiLineComment => exact Or.inr (fun s l v s' l' _ => trivial)
  case SingleLineComment => exact Or.inr (fun s l v s' l' _ => trivial)
  case Skip => exact Or.inr (fun s l v s' l' _ => trivial)
  case Whitespace => exact Or.inr (fun s l v s' l' _ => trivial)
  case EOL => exact Or.inr (fun s l v s' l' _ => trivial)
  case EOF => exact Or.inl post_EOF
  case File => exact Or.inl post_File
  case Declaration => exact Or.inl post_Declaration
  case ConstDeclaration => exact Or.inl post_ConstDeclaration
  case ContextDeclaration => exact Or.inl post_ContextDeclaration
  case ContextMember => exact Or.inl post_ContextMember
  case StructDeclaration => exact Or.inl post_StructDeclaration
  case StructDecl => exact Or.inl post_StructDecl
  case StructIdentifier => exact Or.inl post_StructIdentifier
  case ExternDeclaration => exact Or.inl post_ExternDeclaration
  case PragmaDeclaration => exact Or.inl post_PragmaDeclaration
  case ContextRefs => exact Or.inl post_ContextRefs
  case StructMember => exact Or.inl post_StructMember
  case StructEnding => exact Or.inl post_StructEnding
  case StructEOS => exact Or.inl post_StructEOS
  case SMArray => exact Or.inl post_SMArray
  case SMFixedArray => exact Or.inl post_SMFixedArray
  case SMVarArray => exact Or.inl post_SMVarArray
  case LengthConstraint => exact Or.inl post_LengthConstraint
  case Leftover => exact Or.inl post_Leftover
  case SMRemainder => exact Or.inl post_SMRemainder
  case ArrayBase => exact Or.inl post_ArrayBase
  case SMInteger => exact Or.inl post_SMInteger
  case SMPosition => exact Or.inl post_SMPosition
  case SMString => exact Or.inl post_SMString
  case SMStruct => exact Or.inl post_SMStruct
  case SMUnion => exact Or.inl post_SMUnion
  case UnionLength => exact Or.inl post_UnionLength
  case UnionMember => exact Or.inl post_UnionMember
  case UnionCase => exact Or.inl post_UnionCase
  case UnionBody => exact Or.inl post_UnionBody
  case UnionFields => exact Or.inl post_UnionFields
  case UnionField => exact Or.inl post_UnionField
  case ExtentSpec => exact Or.inl post_ExtentSpec
  case StructRef => exact Or.inl post_StructRef
  case CharType => exact Or.inl post_CharType
  case IntType => exact Or.inl post_IntType
  case IntConstraint => exact Or.inl post_IntConstraint
  case IntList => exact Or.inl post_IntList
  case IntListMember => exact Or.inl post_IntListMember
  case Integer => exact Or.inl post_Integer
  case IntegerConstRef => exact Or.inl post_IntegerConstRef
  case IntegerLiteral => exact Or.inl post_IntegerLiteral
  case IDRef => exact Or.inl post_IDRef
  case IdentifierList => exact Or.inl post_IdentifierList

theorem seq_last {f : Expr → Env → St → R} {start : St} {e : Expr} (es : List Expr) : ∀ {vals env st v env' st'},
    seqLoop f start (es ++ [e]) vals env st = .ok v env' st' → ∃ v1 env1 st1, f e env1 st1 = .ok v1 env' st' := by
  induction es with
  | nil =>
    intro vals env st v env' st' h
    simp only [List.nil_append, seqLoop] at h
    cases hr : f e env st with
    | ok v1 env1 st1 =>
      rw [hr] at h
      simp only [R.ok.injEq] at h
      obtain ⟨-, rfl, rfl⟩ := h
      exact ⟨_, _, _, hr⟩
    | _ => rw [hr] at h; cases h
  | cons e1 es ih =>
    intro vals env st v env' st' h
    simp only [List.cons_append, seqLoop] at h
    cases hr : f e1 env st with
    | ok v1 env1 st1 => rw [hr] at h; exact ih h
    | _ => rw [hr] at h; cases h

/-- Only at the end of the text. -/
theorem file_end {st st' : St} {env env' : Env} {v : Val} (h : ev rules (.ref .File) env st = .ok v env' st') :
    st'.rest = [] := by
  rw [ev_ref, show rules .File = rFile from rfl, rFile, ev_action, ev_seq] at h
  revert h
  cases hr : seqLoop (ev rules) st [.ref .gap, .label "ds" (.star (.ref .Declaration)), .ref .gap, .ref .EOF] [] [] st with
  | ok v1 env1 st1 =>
    obtain ⟨v2, env2, st2, h2⟩ := seq_last [.ref .gap, .label "ds" (.star (.ref .Declaration)), .ref .gap] hr
    have h3 : st1.rest = [] := by
      rw [ev_ref, show rules .EOF = rEOF from rfl, rEOF, ev_not, ev_any] at h2
      cases hrest : st2.rest with
      | nil =>
        simp only [hrest, R.negate, R.scope, R.ok.injEq] at h2
        obtain ⟨-, -, rfl⟩ := h2
        simp [St.back, hrest]
      | cons r t => simp [hrest, R.negate, R.scope] at h2
    simp only [actRes]
    split
    · intro h
      simp only [R.scope, R.ok.injEq] at h
      obtain ⟨-, -, rfl⟩ := h
      exact h3
    · intro h; cases h
  | _ => intro h; cases h

/-- A text that parses is valid UTF-8 and a way to write the declarations that make up the file. -/
theorem outcome_sound {rs : List Rune} {f : File} (h : outcome rs = .ok f) :
    ∃ s : List Char, rs = s.map Rune.ok ∧ ∃ (k : Nat) (ds : List (Decl (Tree k))), Writes ds s ∧ f = denote ds := by
  unfold outcome at h
  cases hr : ev rules (.ref .File) [] ⟨rs, [], headBad rs⟩ with
  | ok v env st =>
    rw [hr] at h
    simp only at h
    cases he : st.errs with
    | true => rw [he] at h; cases h
    | false =>
      rw [he] at h
      simp only [Bool.false_eq_true, if_false] at h
      have hc := ev_clean rules (.ref .File) [] ⟨rs, [], headBad rs⟩
      rw [hr] at hc
      obtain ⟨t, ht, hv⟩ := hc.valid (fun h => h) he
      have hend : st.rest = [] := file_end hr
      rw [hend, List.append_nil] at ht
      simp only at ht
      subst ht
      obtain ⟨s, rfl⟩ := all_ok hv
      have hr' : ev rules (.ref .File) [] (C s [] false) = .ok v env st := by rw [← hr]; simp [C]
      obtain ⟨s', l', rfl, hp⟩ := ev_meets rules_post hr' he
      obtain ⟨ds, rfl, hw, rfl⟩ := hp rfl
      cases h
      exact ⟨s, rfl, _, ds, hw, rfl⟩
  | _ => rw [hr] at h; cases h

end Verif.Peg
