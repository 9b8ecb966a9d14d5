import Verif.Print
import Verif.PegComplete
/-!
# What can be written is well formed
-/
namespace Verif.Peg
open Verif Verif.Ast Verif.Syntax

theorem literal_lt {t : List Char} {n : Nat} (h : IsLiteral t n) : n < 2 ^ 63 := by
  cases h <;> first | assumption | decide

theorem good_int {v : Int} {s s' : List Char} (h : (Piece.int v).At s s') : 0 ≤ v ∧ v < 2 ^ 63 := by
  obtain ⟨t, n, h1, rfl, _⟩ := h
  have := literal_lt h1
  omega

theorem good_integer {i : Integer} {s s' : List Char} (h : Layout (integer i) s s') : GoodInteger i := by
  cases i with
  | constRef n => obtain ⟨_, h, _⟩ := h; exact h.1
  | literal v => obtain ⟨_, h, _⟩ := h; exact good_int h

theorem good_range {r : IntegerRange} {s s' : List Char} (h : Layout (range r) s s') : GoodRange r := by
  obtain ⟨lo, hi⟩ := r
  simp only [range, layout_append] at h
  obtain ⟨t, h1, h2⟩ := h
  refine ⟨good_integer h1, ?_⟩
  rintro hi rfl
  obtain ⟨_, _, _, _, _, _, h2⟩ := h2
  exact good_integer h2

theorem good_more {α : Type} {f : α → List Piece} {P : α → Prop} (hf : ∀ a s s', Layout (f a) s s' → P a) :
    ∀ (l : List α) {s s' : List Char}, Layout (more f l) s s' → ∀ a ∈ l, P a
  | [], _, _, _ => by simp
  | a :: l, s, s', h => by
    simp only [more, layout_append] at h
    obtain ⟨_, ⟨_, _, h1⟩, h2⟩ := h
    intro b hb
    rcases List.mem_cons.1 hb with rfl | hb
    · exact hf _ _ _ h1
    · exact good_more hf l h2 b hb

theorem good_commas {α : Type} {f : α → List Piece} {P : α → Prop} (hf : ∀ a s s', Layout (f a) s s' → P a)
    {l : List α} {s s' : List Char} (h : Layout (commas f l) s s') : l ≠ [] ∧ ∀ a ∈ l, P a := by
  cases l with
  | nil => obtain ⟨_, h, _⟩ := h; exact absurd h.1 id
  | cons a l =>
    simp only [commas, layout_append] at h
    obtain ⟨_, h1, h2⟩ := h
    refine ⟨by simp, ?_⟩
    intro b hb
    rcases List.mem_cons.1 hb with rfl | hb
    · exact hf _ _ _ h1
    · exact good_more hf l h2 b hb

theorem good_list {l : IntegerList} {s s' : List Char} (h : Layout (intList l) s s') : GoodList l :=
  good_commas (P := GoodRange) (fun _ _ _ => good_range) h

theorem good_id {n : String} {s s' : List Char} (h : (Piece.id n).At s s') : IsIdent n := h.1

theorem good_ids {l : List String} {s s' : List Char} (h : Layout (idList l) s s') : l ≠ [] ∧ ∀ n ∈ l, IsIdent n :=
  good_commas (P := IsIdent) (fun _ _ _ h => by obtain ⟨_, h, _⟩ := h; exact h.1) h

theorem good_ref {r : IDRef} {s s' : List Char} (h : Layout (idRef r) s s') : GoodRef r := by
  unfold idRef at h
  split at h
  · rename_i hs
    obtain ⟨_, h, _⟩ := h
    exact ⟨.inl hs, h.1⟩
  · obtain ⟨_, h, _, _, _, h', _⟩ := h
    exact ⟨.inr h.1, h'.1⟩

theorem good_length {l : LengthConstraint} {s s' : List Char} (h : Layout (length l) s s') : GoodLength l := by
  cases l with
  | leftover i => obtain ⟨_, _, h⟩ := h; exact good_integer h
  | idRef r => exact good_ref h

theorem good_with {l : List String} {s s' : List Char} (h : Layout (withContext l) s s') : ∀ n ∈ l, IsIdent n := by
  cases l with
  | nil => simp
  | cons a l =>
    simp only [withContext, layout_append] at h
    obtain ⟨_, _, h⟩ := h
    exact (good_ids h).2

theorem good_width (w : Width) : GoodSize w.bits := by cases w <;> simp [GoodSize, Width.bits]

/-- What is declared in place is well formed. -/
def GoodInner {ι : Type} (sp : ι → List Piece) (mn : ι → Struct × List Struct) : Prop :=
  ∀ d s s', Layout (sp d) s s' → GoodStruct (mn d).1 ∧ ∀ x ∈ (mn d).2, GoodStruct x

section
variable {ι : Type} {sp : ι → List Piece} {mn : ι → Struct × List Struct} (H : GoodInner sp mn)
include H

theorem good_structRef {r : Ref ι} {s s' : List Char} (h : Layout (r.spell sp) s s') :
    IsIdent (r.target mn) ∧ ∀ x ∈ r.hoist mn, GoodStruct x := by
  cases r with
  | name n => obtain ⟨_, _, _, _, _, h, _⟩ := h; exact ⟨h.1, by simp [Ref.hoist]⟩
  | decl d =>
    obtain ⟨h1, h2⟩ := H d s s' h
    refine ⟨h1.1, fun x hx => ?_⟩
    simp only [Ref.hoist, List.mem_append, List.mem_singleton] at hx
    rcases hx with hx | rfl
    · exact h2 x hx
    · exact h1

theorem good_elem {e : Elem ι} {s s' : List Char} (h : Layout (e.spell sp) s s') :
    GoodElem (e.base mn) ∧ ∀ x ∈ e.hoist mn, GoodStruct x := by
  cases e with
  | int w => exact ⟨⟨good_width w, rfl⟩, by simp [Elem.hoist]⟩
  | char => exact ⟨trivial, by simp [Elem.hoist]⟩
  | ref r => exact good_structRef H h

theorem good_remainder {e : Elem ι} {n : String} {s s' : List Char} (h : Layout (remainder sp e n) s s') :
    IsRest (.field ⟨n, .varArray (e.base mn) none⟩) ∧ ∀ x ∈ e.hoist mn, GoodStruct x := by
  simp only [remainder, layout_append] at h
  obtain ⟨_, h, _, _, _, hn, _⟩ := h
  obtain ⟨h1, h2⟩ := good_elem H h
  exact ⟨⟨_, _, rfl, hn.1, h1⟩, h2⟩

theorem good_field {f : SField ι} {s s' : List Char} (h : Layout (f.spell sp) s s') :
    PlainField (f.field mn) ∧ ∀ x ∈ f.hoist mn, GoodStruct x := by
  cases f with
  | fixed b n k =>
    simp only [SField.spell, layout_append] at h
    obtain ⟨_, ⟨_, ⟨_, h, _, _, _, hn, _⟩, hk⟩, _⟩ := h
    obtain ⟨h1, h2⟩ := good_elem H h
    exact ⟨⟨hn.1, h1, good_integer hk⟩, h2⟩
  | var b n l =>
    simp only [SField.spell, layout_append, List.cons_append] at h
    obtain ⟨_, hl, h⟩ := h
    simp only [layout_append] at h
    obtain ⟨_, ⟨_, ⟨_, h, _, _, _, hn, _⟩, hk⟩, _⟩ := h
    obtain ⟨h1, h2⟩ := good_elem H h
    exact ⟨⟨hn.1, h1, good_length hk, hl.1⟩, h2⟩
  | int w n c =>
    cases c with
    | none =>
      obtain ⟨_, _, _, _, _, hn, _⟩ := h
      exact ⟨⟨hn.1, good_width w, by rintro l ⟨⟩⟩, by simp [SField.hoist]⟩
    | some l =>
      simp only [SField.spell, layout_append] at h
      obtain ⟨_, ⟨_, ⟨_, _, _, _, _, hn, _⟩, hl⟩, _⟩ := h
      exact ⟨⟨hn.1, good_width w, by rintro l ⟨⟩; exact good_list hl⟩, by simp [SField.hoist]⟩
  | str n =>
    obtain ⟨_, _, _, _, _, hn, _⟩ := h
    exact ⟨⟨hn.1, trivial⟩, by simp [SField.hoist]⟩
  | struct r n =>
    simp only [SField.spell, layout_append] at h
    obtain ⟨_, h, _, _, _, hn, _⟩ := h
    obtain ⟨h1, h2⟩ := good_structRef H h
    exact ⟨⟨hn.1, h1⟩, h2⟩

theorem good_fields : ∀ {fs : List (SField ι)} {s s' : List Char}, Layout (fieldsSpell sp fs) s s' →
    (∀ l ∈ fs.map (fun f => Leaf.field (f.field mn)), Plain l) ∧ ∀ x ∈ fs.flatMap (SField.hoist mn), GoodStruct x
  | [], _, _, _ => by simp
  | f :: fs, s, s', h => by
    simp only [fieldsSpell, layout_append] at h
    obtain ⟨_, ⟨_, h, _⟩, hr⟩ := h
    obtain ⟨h1, h2⟩ := good_field H h
    obtain ⟨h3, h4⟩ := good_fields hr
    constructor
    · intro l hl
      simp only [List.map_cons, List.mem_cons] at hl
      rcases hl with rfl | hl
      · exact ⟨_, rfl, h1⟩
      · exact h3 l hl
    · intro x hx
      simp only [List.flatMap_cons, List.mem_append] at hx
      rcases hx with hx | hx
      · exact h2 x hx
      · exact h4 x hx

theorem good_body {b : Body ι} {s s' : List Char} (h : Layout (b.spell sp) s s') :
    GoodCase (b.leaves mn) ∧ ∀ x ∈ b.hoist mn, GoodStruct x := by
  cases b with
  | empty => exact ⟨.inr ⟨[], [], rfl, by simp, .inl rfl⟩, by simp [Body.hoist]⟩
  | fail => exact ⟨.inl rfl, by simp [Body.hoist]⟩
  | ignore => exact ⟨.inr ⟨[], [.ignore], rfl, by simp, .inr (.inl rfl)⟩, by simp [Body.hoist]⟩
  | fields fs e =>
    simp only [Body.spell, layout_append] at h
    obtain ⟨_, h, hr⟩ := h
    obtain ⟨h1, h2⟩ := good_fields H h
    cases e with
    | none =>
      exact ⟨.inr ⟨_, [], by simp [Body.leaves], h1, .inl rfl⟩, by simpa [Body.hoist] using h2⟩
    | some e =>
      cases e with
      | dots =>
        exact ⟨.inr ⟨_, [.ignore], by simp [Body.leaves, Extent.leaf], h1, .inr (.inl rfl)⟩, by simpa [Body.hoist, Extent.hoist] using h2⟩
      | rest e n =>
        simp only [Extent.spell, layout_append] at hr
        obtain ⟨_, ⟨_, hr, _⟩, _⟩ := hr
        obtain ⟨h3, h4⟩ := good_remainder H hr
        refine ⟨.inr ⟨_, [_], by simp [Body.leaves, Extent.leaf], h1, .inr (.inr ⟨_, rfl, h3⟩)⟩, ?_⟩
        intro x hx
        simp only [Body.hoist, Extent.hoist, Option.map_some, Option.getD_some, List.mem_append] at hx
        rcases hx with hx | hx
        · exact h2 x hx
        · exact h4 x hx

theorem good_cases : ∀ {cs : List (SCase ι)} {s s' : List Char}, Layout (casesSpell sp cs) s s' →
    (∀ c ∈ cs.map (fun c => (⟨c.case, c.body.leaves mn⟩ : UnionCase)), (∀ l, c.case = some l → GoodList l) ∧ GoodCase c.members) ∧
      ∀ x ∈ cs.flatMap (fun c => c.body.hoist mn), GoodStruct x
  | [], _, _, _ => by simp
  | c :: cs, s, s', h => by
    obtain ⟨cc, b⟩ := c
    simp only [casesSpell, SCase.spell, layout_append] at h
    obtain ⟨_, ⟨_, ⟨_, hc, _⟩, h⟩, hr⟩ := h
    obtain ⟨h1, h2⟩ := good_body H h
    obtain ⟨h3, h4⟩ := good_cases hr
    constructor
    · intro l hl
      simp only [List.map_cons, List.mem_cons] at hl
      rcases hl with rfl | hl
      · refine ⟨?_, h1⟩
        rintro l rfl
        exact good_list hc
      · exact h3 l hl
    · intro x hx
      simp only [List.flatMap_cons, List.mem_append] at hx
      rcases hx with hx | hx
      · exact h2 x hx
      · exact h4 x hx

theorem good_member {m : SMember ι} {s s' : List Char} (h : Layout (m.spell sp) s s') :
    GoodMember (m.member mn) ∧ ∀ x ∈ m.hoist mn, GoodStruct x := by
  cases m with
  | field f =>
    obtain ⟨h1, h2⟩ := good_field H h
    exact ⟨.inl ⟨_, rfl, h1⟩, h2⟩
  | ptr n =>
    obtain ⟨_, _, _, _, _, hn, _⟩ := h
    exact ⟨.inr ⟨n, rfl, hn.1⟩, by simp [SMember.hoist]⟩
  | union n t l cs =>
    simp only [SMember.spell, layout_append] at h
    obtain ⟨_, ⟨_, ⟨_, ⟨_, ⟨_, ⟨_, ⟨_, _, _, _, _, hn, _⟩, ht⟩, _⟩, hl⟩, _⟩, hc⟩, _⟩ := h
    obtain ⟨h1, h2⟩ := good_cases H hc
    refine ⟨⟨hn.1, good_ref ht, ?_, h1⟩, h2⟩
    rintro l rfl
    simp only [layout_append] at hl
    obtain ⟨_, ⟨_, _, hl⟩, _⟩ := hl
    exact good_length hl

theorem good_members : ∀ {ms : List (SMember ι)} {s s' : List Char}, Layout (membersSpell sp ms) s s' →
    (∀ m ∈ ms.map (SMember.member mn), GoodMember m) ∧ ∀ x ∈ ms.flatMap (SMember.hoist mn), GoodStruct x
  | [], _, _, _ => by simp
  | m :: ms, s, s', h => by
    simp only [membersSpell, layout_append] at h
    obtain ⟨_, ⟨_, h, _⟩, hr⟩ := h
    obtain ⟨h1, h2⟩ := good_member H h
    obtain ⟨h3, h4⟩ := good_members hr
    constructor
    · intro l hl
      simp only [List.map_cons, List.mem_cons] at hl
      rcases hl with rfl | hl
      · exact h1
      · exact h3 l hl
    · intro x hx
      simp only [List.flatMap_cons, List.mem_append] at hx
      rcases hx with hx | hx
      · exact h2 x hx
      · exact h4 x hx

theorem good_struct {d : SStruct ι} {s s' : List Char} (h : Layout (d.spell sp) s s') :
    GoodStruct (d.struct mn) ∧ ∀ x ∈ d.hoist mn, GoodStruct x := by
  obtain ⟨n, cs, ms, e⟩ := d
  simp only [SStruct.spell, layout_append] at h
  obtain ⟨_, ⟨_, ⟨_, ⟨_, ⟨_, ⟨_, _, _, _, _, hn, _⟩, hc⟩, _⟩, hm⟩, he⟩, _⟩ := h
  obtain ⟨h1, h2⟩ := good_members H hm
  cases e with
  | none =>
    refine ⟨⟨hn.1, good_with hc, ?_⟩, by simpa [SStruct.hoist] using h2⟩
    rintro ms' ⟨⟩
    exact ⟨_, [], by simp, h1, .inl rfl⟩
  | some e =>
    cases e with
    | eos =>
      refine ⟨⟨hn.1, good_with hc, ?_⟩, by simpa [SStruct.hoist, Ending.hoist] using h2⟩
      rintro ms' ⟨⟩
      exact ⟨_, [_], by simp [Ending.member], h1, .inr (.inl rfl)⟩
    | rest e n =>
      simp only [Ending.spell, layout_append] at he
      obtain ⟨_, he, _⟩ := he
      obtain ⟨h3, h4⟩ := good_remainder H he
      refine ⟨⟨hn.1, good_with hc, ?_⟩, ?_⟩
      · rintro ms' ⟨⟩
        exact ⟨_, [_], by simp [Ending.member], h1, .inr (.inr ⟨_, rfl, h3⟩)⟩
      · intro x hx
        simp only [SStruct.hoist, Ending.hoist, Option.map_some, Option.getD_some, List.mem_append] at hx
        rcases hx with hx | hx
        · exact h2 x hx
        · exact h4 x hx

end

theorem good_tree : ∀ k, GoodInner (Tree.spell k) (Tree.mean k)
  | 0 => fun d => nomatch d
  | k + 1 => fun _ _ _ h => good_struct (good_tree k) h

theorem good_context : ∀ {fs : List (Width × String)} {s s' : List Char}, Layout (contextSpell fs) s s' →
    ∀ f ∈ fs.map (fun f => (⟨f.2, .base (.int ⟨f.1.bits, none⟩)⟩ : Field)), IsIdent f.name ∧ ∃ n, GoodSize n ∧ f.type = .base (.int ⟨n, none⟩)
  | [], _, _, _ => by simp
  | (w, n) :: fs, s, s', h => by
    simp only [contextSpell, layout_append] at h
    obtain ⟨_, ⟨_, _, _, _, _, hn, _⟩, hr⟩ := h
    intro f hf
    simp only [List.map_cons, List.mem_cons] at hf
    rcases hf with rfl | hf
    · exact ⟨hn.1, _, good_width w, rfl⟩
    · exact good_context hr f hf

theorem good_decl {k : Nat} {d : Decl (Tree k)} {s s' : List Char} (h : Layout d.spell s s') :
    (∀ c ∈ d.constant, GoodConstant c) ∧ (∀ c ∈ d.ctx, GoodContext c) ∧ (∀ x ∈ d.structs, GoodStruct x) ∧
      (∀ p ∈ d.prag, GoodPragma p) ∧ ∀ x ∈ d.hoist, GoodStruct x := by
  cases d with
  | const n v =>
    obtain ⟨_, _, _, _, _, hn, _, _, _, _, _, _, _, hv, _⟩ := h
    refine ⟨?_, by simp [Decl.ctx], by simp [Decl.structs], by simp [Decl.prag], by simp [Decl.hoist]⟩
    simp only [Decl.constant, List.mem_singleton]
    rintro c rfl
    exact ⟨hn.1, good_int hv⟩
  | context n fs semi =>
    simp only [Decl.spell, layout_append] at h
    obtain ⟨_, ⟨_, ⟨_, ⟨_, _, _, _, _, hn, _⟩, hf⟩, _⟩, _⟩ := h
    refine ⟨by simp [Decl.constant], ?_, by simp [Decl.structs], by simp [Decl.prag], by simp [Decl.hoist]⟩
    simp only [Decl.ctx, List.mem_singleton]
    rintro c rfl
    exact ⟨hn.1, good_context hf⟩
  | struct st semi =>
    simp only [Decl.spell, layout_append] at h
    obtain ⟨_, h, _⟩ := h
    obtain ⟨h1, h2⟩ := good_struct (good_tree k) h
    refine ⟨by simp [Decl.constant], by simp [Decl.ctx], ?_, by simp [Decl.prag], h2⟩
    simp only [Decl.structs, List.mem_singleton]
    rintro c rfl
    exact h1
  | extern n l =>
    simp only [Decl.spell, layout_append] at h
    obtain ⟨_, ⟨_, ⟨_, _, _, _, _, _, _, _, _, hn, _⟩, hl⟩, _⟩ := h
    refine ⟨by simp [Decl.constant], by simp [Decl.ctx], ?_, by simp [Decl.prag], by simp [Decl.hoist]⟩
    simp only [Decl.structs, List.mem_singleton]
    rintro c rfl
    exact ⟨hn.1, good_with hl, by rintro ms ⟨⟩⟩
  | pragma n l =>
    simp only [Decl.spell, layout_append] at h
    obtain ⟨_, ⟨_, ⟨_, _, _, _, _, hn, _⟩, hl⟩, _⟩ := h
    refine ⟨by simp [Decl.constant], by simp [Decl.ctx], by simp [Decl.structs], ?_, by simp [Decl.hoist]⟩
    simp only [Decl.prag, List.mem_singleton]
    rintro c rfl
    exact ⟨hn.1, good_ids hl⟩

/-- What can be written is well formed. -/
theorem good_denote {k : Nat} {ds : List (Decl (Tree k))} {s : List Char} (h : Writes ds s) : GoodFile (denote ds) := by
  obtain ⟨s, _, h⟩ := h
  have : ∀ d ∈ ds, ∃ s s', Layout d.spell s s' := by
    generalize ([] : List Char) = s' at h
    clear * - h
    induction ds generalizing s with
    | nil => simp
    | cons d ds ih =>
      simp only [declsSpell, layout_append] at h
      obtain ⟨_, ⟨_, h, _⟩, hr⟩ := h
      intro x hx
      rcases List.mem_cons.1 hx with rfl | hx
      · exact ⟨_, _, h⟩
      · exact ih _ hr x hx
  refine ⟨?_, ?_, ?_, ?_⟩
  · intro c hc
    obtain ⟨d, hd, hc⟩ := List.mem_flatMap.1 hc
    obtain ⟨_, _, hl⟩ := this d hd
    exact (good_decl hl).1 c hc
  · intro c hc
    obtain ⟨d, hd, hc⟩ := List.mem_flatMap.1 hc
    obtain ⟨_, _, hl⟩ := this d hd
    exact (good_decl hl).2.1 c hc
  · intro c hc
    rcases List.mem_append.1 hc with hc | hc
    · obtain ⟨d, hd, hc⟩ := List.mem_flatMap.1 hc
      obtain ⟨_, _, hl⟩ := this d hd
      exact (good_decl hl).2.2.1 c hc
    · obtain ⟨d, hd, hc⟩ := List.mem_flatMap.1 hc
      obtain ⟨_, _, hl⟩ := this d hd
      exact (good_decl hl).2.2.2.2 c hc
  · intro c hc
    obtain ⟨d, hd, hc⟩ := List.mem_flatMap.1 hc
    obtain ⟨_, _, hl⟩ := this d hd
    exact (good_decl hl).2.2.2.1 c hc

end Verif.Peg
