import Verif.Print
import Verif.PegComplete
/-!
# What the printer writes
-/
set_option linter.unusedSimpArgs false

namespace Verif.Peg
open Verif Verif.Ast Verif.Syntax

theorem lay_tok {t : String} {ps : List Piece} {s s1 s' : List Char} (h : s = t.toList ++ s1) (h1 : Layout ps s1 s') :
    Layout (.tok t :: ps) s s' := ⟨s1, h, h1⟩

theorem lay_id {n : String} {ps : List Piece} {s s' : List Char} (h : IsIdent n) (hs : Stops isIdChar s) (h1 : Layout ps s s') :
    Layout (.id n :: ps) (n.toList ++ s) s' := ⟨s, ⟨h, rfl, hs⟩, h1⟩

theorem lay_cid {n : String} {ps : List Piece} {s s' : List Char} (h : IsConst n) (h1 : Layout ps s s') :
    Layout (.cid n :: ps) (n.toList ++ s) s' := ⟨s, ⟨h, rfl⟩, h1⟩

theorem lay_gap {ps : List Piece} {s s' : List Char} (h1 : Layout ps s s') : Layout (.gap :: ps) s s' := ⟨s, .done s, h1⟩

theorem lay_white {ps : List Piece} {c : Char} {s s' : List Char} (hc : c ∈ [' ', '\t', '\r', '\n']) (h1 : Layout ps s s') :
    Layout (.gap :: ps) (c :: s) s' := ⟨s, .white c s s hc (.done s), h1⟩

theorem lay_space {ps : List Piece} {c : Char} {s s' : List Char} (hc : c ∈ [' ', '\t', '\r', '\n']) (h1 : Layout ps s s') :
    Layout (.gap1 :: ps) (c :: s) s' := ⟨s, ⟨.white c s s hc (.done s), by simp⟩, h1⟩

theorem lay_append {a b : List Piece} {s t s' : List Char} (h : Layout a s t) (h1 : Layout b t s') : Layout (a ++ b) s s' :=
  (layout_append a b s s').2 ⟨t, h, h1⟩

theorem lay_nil (s : List Char) : Layout [] s s := rfl

/-! ### Numbers -/

theorem number_digits (l : List Char) (h : ∀ c ∈ l, c.isDigit = true) (a : Nat) :
    l.foldl (fun n c => n * 10 + digitValue c) a = Nat.ofDigitChars 10 l a := by
  induction l generalizing a with
  | nil => rfl
  | cons c l ih =>
    rw [List.foldl_cons, Nat.ofDigitChars_cons, ih (fun x hx => h x (List.mem_cons_of_mem _ hx))]
    have : digitValue c = c.toNat - '0'.toNat := by
      unfold digitValue
      rw [if_pos (h c (List.mem_cons_self))]
      rfl
    rw [this, Nat.mul_comm]

theorem toDigits_head {n : Nat} (hn : 0 < n) : ∃ c cs, Nat.toDigits 10 n = c :: cs ∧ c ≠ '0' := by
  induction n using Nat.strongRecOn with
  | ind n ih =>
    by_cases h : n < 10
    · refine ⟨n.digitChar, [], Nat.toDigits_of_lt_base h, ?_⟩
      have : n = 1 ∨ n = 2 ∨ n = 3 ∨ n = 4 ∨ n = 5 ∨ n = 6 ∨ n = 7 ∨ n = 8 ∨ n = 9 := by omega
      rcases this with rfl | rfl | rfl | rfl | rfl | rfl | rfl | rfl | rfl <;> decide
    · obtain ⟨c, cs, he, hc⟩ := ih (n / 10) (by omega) (by omega)
      refine ⟨c, cs ++ [(n % 10).digitChar], ?_, hc⟩
      rw [Nat.toDigits_of_base_le (by omega) (by omega), he]
      rfl

theorem isLiteral_repr {n : Nat} (h : n < 2 ^ 63) : IsLiteral n.repr.toList n := by
  rw [Nat.toList_repr]
  rcases Nat.eq_zero_or_pos n with rfl | hn
  · rw [Nat.toDigits_zero]; exact .zero
  · obtain ⟨c, cs, he, hc⟩ := toDigits_head hn
    have hd : ∀ x ∈ c :: cs, x.isDigit = true := by
      intro x hx
      rw [← he] at hx
      exact Nat.isDigit_of_mem_toDigits (by omega) (by omega) hx
    have hv : number 10 (c :: cs) = n := by
      unfold number
      rw [number_digits _ hd, ← he, Nat.ofDigitChars_ten_toDigits]
    rw [he]
    have := IsLiteral.dec c cs (hd c List.mem_cons_self) hc (fun x hx => hd x (List.mem_cons_of_mem _ hx)) (by rw [hv]; exact h)
    rwa [hv] at this

theorem lay_int {v : Int} {ps : List Piece} {s s' : List Char} (h : 0 ≤ v ∧ v < 2 ^ 63) (h1 : Layout ps s s') :
    Layout (.int v :: ps) (v.toNat.repr.toList ++ s) s' :=
  ⟨s, ⟨_, v.toNat, isLiteral_repr (by omega), by omega, rfl⟩, h1⟩

/-! ### Pieces of types -/

theorem print_integer {i : Integer} (h : GoodInteger i) (s : List Char) :
    Layout (integer i) ((printInteger i).toList ++ s) s := by
  cases i with
  | constRef n => exact lay_cid h (lay_nil s)
  | literal v => exact lay_int h (lay_nil s)

theorem print_range {r : IntegerRange} (h : GoodRange r) (s : List Char) :
    Layout (range r) ((printRange r).toList ++ s) s := by
  obtain ⟨lo, hi⟩ := r
  cases hi with
  | none =>
    simp only [range, printRange, String.append_empty]
    exact lay_append (print_integer h.1 s) (lay_nil s)
  | some hi =>
    simp only [range, printRange, String.toList_append, List.append_assoc, List.cons_append, List.nil_append]
    refine lay_append (print_integer h.1 _) ?_
    exact lay_gap (lay_tok rfl (lay_gap (print_integer (h.2 hi rfl) s)))

theorem print_more {α : Type} {f : α → List Piece} {p : α → String} {P : List Char → Prop}
    (hcomma : ∀ s, P (',' :: s)) :
    ∀ (l : List α), (∀ a ∈ l, ∀ s, P s → Layout (f a) ((p a).toList ++ s) s) → ∀ s, P s →
      Layout (more f l) ((commaTail (l.map p)).toList ++ s) s
  | [], _, s, _ => lay_nil s
  | a :: l, h, s, hs => by
    simp only [more, List.map_cons, commaTail, String.toList_append, List.append_assoc, List.cons_append, List.nil_append]
    refine lay_gap (lay_tok (s1 := ' ' :: ((p a).toList ++ ((commaTail (l.map p)).toList ++ s))) rfl (lay_white (by simp) ?_))
    refine lay_append (h a List.mem_cons_self _ ?_) (print_more hcomma l (fun b hb => h b (List.mem_cons_of_mem _ hb)) s hs)
    cases l with
    | nil => exact hs
    | cons b l => simp only [List.map_cons, commaTail, String.toList_append, List.append_assoc, List.cons_append, List.nil_append]; exact hcomma _

theorem print_commas {α : Type} {f : α → List Piece} {p : α → String} {P : List Char → Prop} (hcomma : ∀ s, P (',' :: s))
    {l : List α} (hl : l ≠ []) (h : ∀ a ∈ l, ∀ s, P s → Layout (f a) ((p a).toList ++ s) s) {s : List Char} (hs : P s) :
    Layout (commas f l) ((commaJoin (l.map p)).toList ++ s) s := by
  cases l with
  | nil => exact absurd rfl hl
  | cons a l =>
    simp only [commas, List.map_cons, commaJoin, String.toList_append, List.append_assoc, List.cons_append, List.nil_append]
    refine lay_append (h a List.mem_cons_self _ ?_) (print_more hcomma l (fun b hb => h b (List.mem_cons_of_mem _ hb)) s hs)
    cases l with
    | nil => exact hs
    | cons b l => simp only [List.map_cons, commaTail, String.toList_append, List.append_assoc, List.cons_append, List.nil_append]; exact hcomma _

theorem print_list {l : IntegerList} (h : GoodList l) (s : List Char) :
    Layout (intList l) ((printList l).toList ++ s) s :=
  print_commas (P := fun _ => True) (fun _ => trivial) h.1 (fun r hr s _ => print_range (h.2 r hr) s) trivial

theorem print_ids {l : List String} (hl : l ≠ []) (h : ∀ n ∈ l, IsIdent n) {s : List Char} (hs : Stops isIdChar s) :
    Layout (idList l) ((commaJoin l).toList ++ s) s := by
  have := print_commas (f := fun n => [Piece.id n]) (p := fun n => n) (P := Stops isIdChar) (fun s => stops_cons (by decide)) hl
    (fun n hn s hs => lay_id (h n hn) hs (lay_nil s)) hs
  simpa [idList] using this

theorem print_ref {r : IDRef} (h : GoodRef r) {s : List Char} (hs : Stops isIdChar s) :
    Layout (idRef r) ((printRef r).toList ++ s) s := by
  unfold idRef printRef
  split
  · exact lay_id h.2 hs (lay_nil s)
  · rename_i hn
    simp only [String.toList_append, List.append_assoc, List.cons_append, List.nil_append]
    exact lay_id (h.1.resolve_left hn) (stops_cons (by decide)) (lay_tok rfl (lay_id h.2 hs (lay_nil s)))

theorem print_length {l : LengthConstraint} (h : GoodLength l) {s : List Char} (hs : Stops isIdChar s) :
    Layout (length l) ((printLength l).toList ++ s) s := by
  cases l with
  | leftover i =>
    simp only [length, printLength, String.toList_append, List.append_assoc, List.cons_append, List.nil_append]
    exact lay_tok rfl (print_integer h s)
  | idRef r => exact print_ref h hs

theorem print_with {l : List String} (h : ∀ n ∈ l, IsIdent n) {s : List Char} (hs : Stops isIdChar s) :
    Layout (withContext l) ((printWith l).toList ++ s) s := by
  cases l with
  | nil => exact lay_nil s
  | cons a l =>
    simp only [withContext, printWith, String.toList_append, List.append_assoc, List.cons_append, List.nil_append]
    exact lay_space (c := ' ') (s := "with context ".toList ++ ((commaJoin (a :: l)).toList ++ s)) (by simp)
      (lay_tok (s1 := ' ' :: ("context ".toList ++ ((commaJoin (a :: l)).toList ++ s))) rfl
        (lay_space (by simp) (lay_tok (s1 := ' ' :: ((commaJoin (a :: l)).toList ++ s)) rfl (lay_space (by simp) (print_ids (by simp) h hs)))))

/-- A size has its keyword. -/
theorem size_width {n : Nat} (h : GoodSize n) : ∃ w : Width, w.bits = n ∧ w.word.toList = 'u' :: n.repr.toList := by
  rcases h with rfl | rfl | rfl | rfl
  · exact ⟨.w8, rfl, by decide⟩
  · exact ⟨.w16, rfl, by decide⟩
  · exact ⟨.w32, rfl, by decide⟩
  · exact ⟨.w64, rfl, by decide⟩

section
variable {ι : Type} (sp : ι → List Piece) (mn : ι → Struct × List Struct)

theorem print_elem {b : Base} (h : GoodElem b) : ∃ e : Elem ι, e.base mn = b ∧ e.hoist mn = [] ∧
    ∀ s, Stops isIdChar s → Layout (e.spell sp) ((printElem b).toList ++ s) s := by
  cases b with
  | int t =>
    obtain ⟨n, c⟩ := t
    obtain ⟨w, hb, hw⟩ := size_width h.1
    obtain rfl : c = none := h.2
    refine ⟨.int w, by simp only [Elem.base]; rw [hb], rfl, fun s hs => ?_⟩
    refine lay_tok ?_ (lay_nil s)
    rw [hw]
    simp [printElem]
  | char => exact ⟨.char, rfl, rfl, fun s hs => lay_tok rfl (lay_nil s)⟩
  | struct n =>
    refine ⟨.ref (.name n), rfl, rfl, fun s hs => ?_⟩
    simp only [printElem, String.toList_append, List.append_assoc, List.cons_append, List.nil_append]
    exact lay_tok (s1 := ' ' :: (n.toList ++ s)) rfl (lay_space (by simp) (lay_id h hs (lay_nil s)))

theorem print_rest {l : Leaf} (h : IsRest l) : ∃ (e : Elem ι) (n : String), l = .field ⟨n, .varArray (e.base mn) none⟩ ∧ e.hoist mn = [] ∧
    ∀ s, Layout (remainder sp e n ++ [.gap, .tok ";", .gap]) ((printLeaf l).toList ++ s) s := by
  obtain ⟨n, b, rfl, hn, hb⟩ := h
  obtain ⟨e, he, hh, hl⟩ := print_elem sp mn hb
  refine ⟨e, n, by rw [he], hh, fun s => ?_⟩
  simp only [remainder, printLeaf, printField, String.toList_append, List.append_assoc, List.cons_append, List.nil_append]
  refine lay_append (hl _ (stops_cons (by decide))) ?_
  refine lay_space (c := ' ') (by simp) ?_
  exact lay_id hn (stops_cons (by decide)) (lay_gap (lay_tok (s1 := ']' :: ';' :: '\n' :: s) rfl (lay_gap (lay_tok rfl (lay_gap
    (lay_tok rfl (lay_white (by simp) (lay_nil s))))))))

theorem print_field {f : Field} (h : PlainField f) : ∃ t : SField ι, t.field mn = f ∧ t.hoist mn = [] ∧
    ∀ s, Stops isIdChar s → Layout (t.spell sp) ((printField f).toList ++ s) s := by
  obtain ⟨n, ty⟩ := f
  obtain ⟨hn, ht⟩ := h
  cases ty with
  | base b =>
    cases b with
    | int t =>
      obtain ⟨k, c⟩ := t
      obtain ⟨w, hb, hw⟩ := size_width ht.1
      refine ⟨.int w n c, by simp only [SField.field]; rw [hb], rfl, fun s hs => ?_⟩
      simp only [printField, String.toList_append, List.append_assoc, List.cons_append, List.nil_append]
      cases c with
      | none =>
        refine lay_tok (s1 := ' ' :: (n.toList ++ s)) ?_ (lay_white (by simp) (lay_id hn hs (lay_nil s)))
        rw [hw]; rfl
      | some l =>
        simp only [SField.spell, String.toList_append, List.append_assoc, List.cons_append, List.nil_append]
        refine lay_tok (s1 := ' ' :: (n.toList ++ (" IN [".toList ++ ((printList l).toList ++ ("]".toList ++ s))))) ?_
          (lay_white (by simp) (lay_id hn (stops_cons (by decide)) ?_))
        · rw [hw]; rfl
        · exact lay_space (c := ' ') (by simp) (lay_tok (s1 := ' ' :: '[' :: ((printList l).toList ++ ("]".toList ++ s))) rfl
            (lay_space (by simp) (lay_tok rfl (lay_gap (lay_append (print_list (ht.2 l rfl) _) (lay_gap (lay_tok rfl (lay_nil s))))))))
    | char => exact absurd ht id
    | struct m =>
      refine ⟨.struct (.name m) n, rfl, rfl, fun s hs => ?_⟩
      simp only [printField, String.toList_append, List.append_assoc, List.cons_append, List.nil_append]
      exact lay_tok (s1 := ' ' :: (m.toList ++ (" ".toList ++ (n.toList ++ s)))) rfl (lay_space (by simp)
        (lay_id ht (stops_cons (by decide)) (lay_space (c := ' ') (by simp) (lay_id hn hs (lay_nil s)))))
  | ptr => exact absurd ht id
  | nulterm =>
    refine ⟨.str n, rfl, rfl, fun s hs => ?_⟩
    simp only [printField, String.toList_append, List.append_assoc, List.cons_append, List.nil_append]
    exact lay_tok (s1 := ' ' :: (n.toList ++ s)) rfl (lay_space (by simp) (lay_id hn hs (lay_nil s)))
  | fixedArray b k =>
    obtain ⟨e, he, hh, hl⟩ := print_elem sp mn ht.1
    refine ⟨.fixed e n k, by simp only [SField.field]; rw [he], hh, fun s hs => ?_⟩
    simp only [printField, SField.spell, String.toList_append, List.append_assoc, List.cons_append, List.nil_append]
    refine lay_append (hl _ (stops_cons (by decide))) ?_
    exact lay_space (c := ' ') (by simp) (lay_id hn (stops_cons (by decide)) (lay_gap (lay_tok rfl
      (lay_append (print_integer ht.2 _) (lay_tok rfl (lay_nil s))))))
  | varArray b l =>
    cases l with
    | none => exact absurd ht id
    | some l =>
      obtain ⟨e, he, hh, hl⟩ := print_elem sp mn ht.1
      refine ⟨.var e n l, by simp only [SField.field]; rw [he], hh, fun s hs => ?_⟩
      simp only [printField, SField.spell, String.toList_append, List.append_assoc, List.cons_append, List.nil_append]
      refine ⟨_, ⟨ht.2.2, rfl⟩, ?_⟩
      refine lay_append (hl _ (stops_cons (by decide))) ?_
      exact lay_space (c := ' ') (by simp) (lay_id hn (stops_cons (by decide)) (lay_gap (lay_tok rfl
        (lay_append (print_length ht.2.1 (stops_cons (by decide))) (lay_tok rfl (lay_nil s))))))

theorem print_fields {fs : List Leaf} (h : ∀ l ∈ fs, Plain l) : ∃ ts : List (SField ι),
    ts.map (fun f => Leaf.field (f.field mn)) = fs ∧ ts.flatMap (SField.hoist mn) = [] ∧
    ∀ s, Layout (fieldsSpell sp ts) ((concat (fs.map printLeaf)).toList ++ s) s := by
  induction fs with
  | nil => exact ⟨[], rfl, rfl, lay_nil⟩
  | cons l fs ih =>
    obtain ⟨ts, h1, h2, h3⟩ := ih (fun l hl => h l (List.mem_cons_of_mem _ hl))
    obtain ⟨f, rfl, hf⟩ := h l List.mem_cons_self
    obtain ⟨t, k1, k2, k3⟩ := print_field sp mn hf
    refine ⟨t :: ts, by simp [h1, k1], by simp [h2, k2], fun s => ?_⟩
    simp only [fieldsSpell, List.map_cons, concat, printLeaf, String.toList_append, List.append_assoc, List.cons_append, List.nil_append]
    refine lay_append (k3 _ (stops_cons (by decide))) ?_
    exact lay_gap (lay_tok (s1 := '\n' :: ((concat (fs.map printLeaf)).toList ++ s)) rfl (lay_white (by simp) (h3 s)))

theorem concat_append (a b : List String) : concat (a ++ b) = concat a ++ concat b := by
  induction a with
  | nil => simp [concat]
  | cons x a ih => simp [concat, ih, String.append_assoc]

theorem print_body {ms : List Leaf} (h : GoodCase ms) : ∃ t : Body ι, t.leaves mn = ms ∧ t.hoist mn = [] ∧
    ∀ s, Layout (t.spell sp) ((if ms = [] then ";\n" else concat (ms.map printLeaf)).toList ++ s) s := by
  rcases h with rfl | ⟨fs, last, rfl, hfs, hl⟩
  · refine ⟨.fail, rfl, rfl, fun s => ?_⟩
    simp only [reduceCtorEq, if_false]
    exact lay_tok (s1 := ';' :: '\n' :: s) rfl (lay_gap (lay_tok rfl (lay_white (by simp) (lay_nil s))))
  · by_cases hnil : fs ++ last = []
    · refine ⟨.empty, by rw [hnil]; rfl, rfl, fun s => ?_⟩
      rw [if_pos hnil]
      exact lay_tok (s1 := '\n' :: s) rfl (lay_white (by simp) (lay_nil s))
    · simp only [if_neg hnil, List.map_append, concat_append, String.toList_append, List.append_assoc, List.cons_append, List.nil_append]
      obtain ⟨ts, h1, h2, h3⟩ := print_fields sp mn hfs
      rcases hl with rfl | rfl | ⟨r, rfl, hr⟩
      · refine ⟨.fields ts none, by simp [Body.leaves, h1], by simp [Body.hoist, h2], fun s => ?_⟩
        exact lay_append (h3 s) (lay_nil s)
      · refine ⟨.fields ts (some .dots), by simp [Body.leaves, h1, Extent.leaf], by simp [Body.hoist, h2, Extent.hoist], fun s => ?_⟩
        exact lay_append (h3 _) (lay_tok (s1 := ';' :: '\n' :: s) rfl (lay_gap (lay_tok rfl (lay_white (by simp) (lay_nil s)))))
      · obtain ⟨e, n, rfl, k2, k3⟩ := print_rest sp mn hr
        refine ⟨.fields ts (some (.rest e n)), by simp [Body.leaves, h1, Extent.leaf], by simp [Body.hoist, h2, k2, Extent.hoist],
          fun s => ?_⟩
        have := lay_append (h3 _) (k3 s)
        simpa [Body.spell, Extent.spell, concat, List.append_assoc] using this

theorem print_cases {cs : List UnionCase} (h : ∀ c ∈ cs, (∀ l, c.case = some l → GoodList l) ∧ GoodCase c.members) :
    ∃ ts : List (SCase ι), ts.map (fun c => (⟨c.case, c.body.leaves mn⟩ : UnionCase)) = cs ∧
      ts.flatMap (fun c => c.body.hoist mn) = [] ∧
      ∀ s, Layout (casesSpell sp ts) ((concat (cs.map printCase)).toList ++ s) s := by
  induction cs with
  | nil => exact ⟨[], rfl, rfl, lay_nil⟩
  | cons c cs ih =>
    obtain ⟨ts, h1, h2, h3⟩ := ih (fun l hl => h l (List.mem_cons_of_mem _ hl))
    obtain ⟨hc, hm⟩ := h c List.mem_cons_self
    obtain ⟨b, k1, k2, k3⟩ := print_body sp mn hm
    refine ⟨⟨c.case, b⟩ :: ts, by simp [h1, k1], by simp [h2, k2], fun s => ?_⟩
    simp only [casesSpell, SCase.spell, List.map_cons, concat, printCase, String.toList_append, List.append_assoc, List.cons_append, List.nil_append]
    obtain ⟨cc, cm⟩ := c
    cases cc with
    | none =>
      exact lay_tok rfl (lay_gap (lay_tok (s1 := '\n' :: ((if cm = [] then ";\n" else concat (cm.map printLeaf)).toList ++ ((concat (cs.map printCase)).toList ++ s)))
        rfl (lay_white (by simp) (lay_append (k3 _) (h3 s)))))
    | some l =>
      refine lay_append (print_list (hc l rfl) _) ?_
      exact (lay_gap (lay_tok (s1 := '\n' :: ((if cm = [] then ";\n" else concat (cm.map printLeaf)).toList ++ ((concat (cs.map printCase)).toList ++ s)))
        rfl (lay_white (by simp) (lay_append (k3 _) (h3 s)))))

theorem print_member {m : Member} (h : GoodMember m) : ∃ t : SMember ι, t.member mn = m ∧ t.hoist mn = [] ∧
    ∀ s, Layout (t.spell sp ++ [.gap, .tok ";", .gap]) ((printMember m).toList ++ s) s := by
  cases m with
  | leaf l =>
    rcases h with ⟨f, rfl, hf⟩ | ⟨n, rfl, hn⟩
    · obtain ⟨t, k1, k2, k3⟩ := print_field sp mn hf
      refine ⟨.field t, by simp [SMember.member, k1], by simp [SMember.hoist, k2], fun s => ?_⟩
      simp only [SMember.spell, printMember, printLeaf, String.toList_append, List.append_assoc, List.cons_append, List.nil_append]
      refine lay_append (k3 _ (stops_cons (by decide))) ?_
      exact lay_gap (lay_tok (s1 := '\n' :: s) rfl (lay_white (by simp) (lay_nil s)))
    · refine ⟨.ptr n, rfl, rfl, fun s => ?_⟩
      simp only [printMember, printLeaf, printField, String.toList_append, List.append_assoc, List.cons_append, List.nil_append]
      exact lay_tok (s1 := ' ' :: (n.toList ++ (";\n".toList ++ s))) rfl (lay_space (by simp) (lay_id hn (stops_cons (by decide))
        (lay_gap (lay_tok (s1 := '\n' :: s) rfl (lay_white (by simp) (lay_nil s))))))
  | union u =>
    obtain ⟨n, tag, len, cs⟩ := u
    obtain ⟨hn, ht, hl, hc⟩ := h
    obtain ⟨ts, h1, h2, h3⟩ := print_cases sp mn hc
    refine ⟨.union n tag len ts, by simp only [SMember.member]; rw [h1], h2, fun s => ?_⟩
    have hend : ∀ s1, s1 = "{\n".toList ++ ((concat (cs.map printCase)).toList ++ ("};\n".toList ++ s)) →
        Layout (([.tok "{", .gap] ++ casesSpell sp ts ++ [.tok "}"]) ++ [.gap, .tok ";", .gap]) s1 s := by
      rintro s1 rfl
      simp only [List.append_assoc, List.cons_append, List.nil_append]
      exact lay_tok (s1 := '\n' :: ((concat (cs.map printCase)).toList ++ ("};\n".toList ++ s))) rfl (lay_white (by simp)
        (lay_append (h3 _) (lay_tok (s1 := ';' :: '\n' :: s) rfl (lay_gap (lay_tok rfl (lay_white (by simp) (lay_nil s)))))))
    simp only [SMember.spell, printMember, String.toList_append, List.append_assoc, List.cons_append, List.nil_append] at hend ⊢
    refine lay_tok (s1 := ' ' :: (n.toList ++ _)) rfl (lay_space (by simp) (lay_id hn (stops_cons (by decide))
      (lay_gap (lay_tok rfl (lay_append (print_ref ht (stops_cons (by decide))) ?_)))))
    cases len with
    | none =>
      refine lay_tok (s1 := ' ' :: _) rfl (lay_white (by simp) ?_)
      exact hend _ rfl
    | some l =>
      simp only [String.toList_append, List.append_assoc, List.cons_append, List.nil_append]
      refine lay_tok (s1 := ' ' :: _) rfl (lay_white (by simp) ?_)
      refine lay_tok (s1 := ' ' :: _) rfl (lay_space (by simp) (lay_tok (s1 := ' ' :: _) rfl (lay_space (by simp) ?_)))
      refine lay_append (print_length (hl l rfl) (stops_cons (by decide))) ?_
      exact lay_white (c := ' ') (by simp) (hend _ rfl)

theorem print_members {ms : List Member} (h : ∀ m ∈ ms, GoodMember m) : ∃ ts : List (SMember ι),
    ts.map (SMember.member mn) = ms ∧ ts.flatMap (SMember.hoist mn) = [] ∧
    ∀ s, Layout (membersSpell sp ts) ((concat (ms.map printMember)).toList ++ s) s := by
  induction ms with
  | nil => exact ⟨[], rfl, rfl, lay_nil⟩
  | cons m ms ih =>
    obtain ⟨ts, h1, h2, h3⟩ := ih (fun l hl => h l (List.mem_cons_of_mem _ hl))
    obtain ⟨t, k1, k2, k3⟩ := print_member sp mn (h m List.mem_cons_self)
    refine ⟨t :: ts, by simp [h1, k1], by simp [h2, k2], fun s => ?_⟩
    simp only [membersSpell, List.map_cons, concat, String.toList_append, List.append_assoc, List.cons_append, List.nil_append]
    have := lay_append (k3 _) (h3 s)
    simpa [List.append_assoc] using this

end

theorem print_struct {d : Struct} (h : GoodStruct d) : ∃ t : Decl (Tree 0), t.constant = [] ∧ t.ctx = [] ∧ t.structs = [d] ∧ t.prag = [] ∧
    t.hoist = [] ∧ ∀ s, Layout (t.spell ++ [.gap]) ((printStruct d).toList ++ s) s := by
  obtain ⟨n, cs, ms⟩ := d
  obtain ⟨hn, hc, hm⟩ := h
  have hstop : ∀ s, Stops isIdChar ((printWith cs).toList ++ (" {\n".toList ++ s)) ∧ Stops isIdChar ((printWith cs).toList ++ (";\n".toList ++ s)) := by
    intro s
    cases cs with
    | nil => exact ⟨stops_cons (by decide), stops_cons (by decide)⟩
    | cons c cs =>
      simp only [printWith, String.toList_append, List.append_assoc, List.cons_append, List.nil_append]
      exact ⟨stops_cons (by decide), stops_cons (by decide)⟩
  cases ms with
  | none =>
    refine ⟨.extern n cs, rfl, rfl, rfl, rfl, rfl, fun s => ?_⟩
    simp only [Decl.spell, printStruct, String.toList_append, List.append_assoc, List.cons_append, List.nil_append]
    refine lay_tok (s1 := ' ' :: _) rfl (lay_space (by simp) (lay_tok (s1 := ' ' :: _) rfl (lay_space (by simp)
      (lay_id hn (hstop s).2 ?_))))
    exact lay_append (print_with hc (stops_cons (by decide))) (lay_gap (lay_tok (s1 := '\n' :: s) rfl (lay_white (by simp) (lay_nil s))))
  | some ms =>
    obtain ⟨init, last, rfl, hi, hl⟩ := hm ms rfl
    obtain ⟨ts, h1, h2, h3⟩ := print_members (Tree.spell 0) (Tree.mean 0) hi
    have : ∃ e : Option (Ending (Tree 0)), (e.map (Ending.member (Tree.mean 0))).toList = last ∧ (e.map (Ending.hoist (Tree.mean 0))).getD [] = [] ∧
        ∀ s, Layout ((match e with | none => [] | some e => e.spell (Tree.spell 0)) ++ [.tok "}", .gap]) ((concat (last.map printMember)).toList ++ ("}\n".toList ++ s)) s := by
      rcases hl with rfl | rfl | ⟨r, rfl, hr⟩
      · exact ⟨none, rfl, rfl, fun s => lay_tok (s1 := '\n' :: s) rfl (lay_white (by simp) (lay_nil s))⟩
      · refine ⟨some .eos, rfl, rfl, fun s => ?_⟩
        refine lay_append (t := "}\n".toList ++ s) ?_ (lay_tok (s1 := '\n' :: s) rfl (lay_white (by simp) (lay_nil s)))
        exact lay_tok (s1 := ';' :: '\n' :: ("}\n".toList ++ s)) rfl (lay_gap (lay_tok rfl (lay_white (by simp) (lay_nil _))))
      · obtain ⟨e, n, rfl, k2, k3⟩ := print_rest (Tree.spell 0) (Tree.mean 0) hr
        refine ⟨some (.rest e n), rfl, by simp [Ending.hoist, k2], fun s => ?_⟩
        refine lay_append (t := "}\n".toList ++ s) ?_ (lay_tok (s1 := '\n' :: s) rfl (lay_white (by simp) (lay_nil s)))
        simpa [Ending.spell, concat, printMember] using k3 ("}\n".toList ++ s)
    obtain ⟨e, e1, e2, e3⟩ := this
    refine ⟨.struct ⟨n, cs, ts, e⟩ false, rfl, rfl, ?_, rfl, ?_, fun s => ?_⟩
    · simp only [Decl.structs, SStruct.struct]; rw [h1, e1]
    · simp only [Decl.hoist, SStruct.hoist]; rw [h2, e2]; rfl
    · simp only [Decl.spell, SStruct.spell, printStruct, String.toList_append, List.append_assoc, List.cons_append, List.nil_append, List.map_append, concat_append, semicolon,
        Bool.false_eq_true, if_false, List.nil_append]
      refine lay_tok (s1 := ' ' :: _) rfl (lay_space (by simp) (lay_id hn (hstop _).1 ?_))
      refine lay_append (print_with hc (stops_cons (by decide))) ?_
      refine lay_white (c := ' ') (by simp) (lay_tok (s1 := '\n' :: _) rfl (lay_white (by simp) ?_))
      refine lay_append (h3 _) ?_
      cases e <;> exact e3 s

theorem print_contextMembers {fs : List Field} (h : ∀ f ∈ fs, IsIdent f.name ∧ ∃ n, GoodSize n ∧ f.type = .base (.int ⟨n, none⟩)) :
    ∃ ts : List (Width × String), ts.map (fun f => (⟨f.2, .base (.int ⟨f.1.bits, none⟩)⟩ : Field)) = fs ∧
      ∀ s, Layout (contextSpell ts) ((concat (fs.map (fun f => printField f ++ ";\n"))).toList ++ s) s := by
  induction fs with
  | nil => exact ⟨[], rfl, lay_nil⟩
  | cons f fs ih =>
    obtain ⟨ts, h1, h3⟩ := ih (fun l hl => h l (List.mem_cons_of_mem _ hl))
    obtain ⟨n, ty⟩ := f
    obtain ⟨hn, k, hk, he⟩ := h _ List.mem_cons_self
    obtain rfl : ty = _ := he
    obtain ⟨w, hb, hw⟩ := size_width hk
    refine ⟨(w, n) :: ts, by simp [h1, hb], fun s => ?_⟩
    simp only [contextSpell, List.map_cons, concat, printField, String.toList_append, List.append_assoc, List.cons_append, List.nil_append]
    refine lay_tok (s1 := ' ' :: _) (by rw [hw]; rfl) (lay_space (by simp) (lay_id hn (stops_cons (by decide)) (lay_gap
      (lay_tok (s1 := '\n' :: _) rfl (lay_white (by simp) (h3 s))))))

theorem print_context {c : Context} (h : GoodContext c) : ∃ t : Decl (Tree 0), t.constant = [] ∧ t.ctx = [c] ∧ t.structs = [] ∧ t.prag = [] ∧
    t.hoist = [] ∧ ∀ s, Layout (t.spell ++ [.gap]) ((printContext c).toList ++ s) s := by
  obtain ⟨n, fs⟩ := c
  obtain ⟨hn, hf⟩ := h
  obtain ⟨ts, h1, h3⟩ := print_contextMembers hf
  refine ⟨.context n ts false, rfl, by simp only [Decl.ctx]; rw [h1], rfl, rfl, rfl, fun s => ?_⟩
  simp only [Decl.spell, printContext, String.toList_append, List.append_assoc, List.cons_append, List.nil_append, semicolon, Bool.false_eq_true, if_false, List.nil_append]
  refine lay_tok (s1 := ' ' :: _) rfl (lay_space (by simp) (lay_id hn (stops_cons (by decide)) (lay_space (c := ' ') (by simp)
    (lay_tok (s1 := '\n' :: _) rfl (lay_white (by simp) ?_)))))
  exact lay_append (h3 _) (lay_tok (s1 := '\n' :: s) rfl (lay_white (by simp) (lay_nil s)))

theorem print_constant {c : Constant} (h : GoodConstant c) : ∃ t : Decl (Tree 0), t.constant = [c] ∧ t.ctx = [] ∧ t.structs = [] ∧ t.prag = [] ∧
    t.hoist = [] ∧ ∀ s, Layout (t.spell ++ [.gap]) ((printConstant c).toList ++ s) s := by
  obtain ⟨n, v⟩ := c
  refine ⟨.const n v, rfl, rfl, rfl, rfl, rfl, fun s => ?_⟩
  simp only [Decl.spell, printConstant, String.toList_append, List.append_assoc, List.cons_append, List.nil_append]
  exact lay_tok (s1 := ' ' :: _) rfl (lay_space (by simp) (lay_cid h.1 (lay_white (c := ' ') (by simp) (lay_tok (s1 := ' ' :: _) rfl
    (lay_white (by simp) (lay_int h.2 (lay_gap (lay_tok (s1 := '\n' :: s) rfl (lay_white (by simp) (lay_nil s))))))))))

theorem print_pragma {p : Pragma} (h : GoodPragma p) : ∃ t : Decl (Tree 0), t.constant = [] ∧ t.ctx = [] ∧ t.structs = [] ∧ t.prag = [p] ∧
    t.hoist = [] ∧ ∀ s, Layout (t.spell ++ [.gap]) ((printPragma p).toList ++ s) s := by
  obtain ⟨n, l⟩ := p
  refine ⟨.pragma n l, rfl, rfl, rfl, rfl, rfl, fun s => ?_⟩
  simp only [Decl.spell, printPragma, String.toList_append, List.append_assoc, List.cons_append, List.nil_append]
  exact lay_tok (s1 := ' ' :: _) rfl (lay_space (by simp) (lay_id h.1 (stops_cons (by decide)) (lay_space (c := ' ') (by simp)
    (lay_append (print_ids h.2.1 h.2.2 (stops_cons (by decide))) (lay_gap (lay_tok (s1 := '\n' :: s) rfl (lay_white (by simp) (lay_nil s))))))))

theorem lay_decls {k : Nat} {a b : List (Decl (Tree k))} {s t s' : List Char} (h : Layout (declsSpell a) s t) (h1 : Layout (declsSpell b) t s') :
    Layout (declsSpell (a ++ b)) s s' := by
  have : declsSpell (a ++ b) = declsSpell a ++ declsSpell b := by
    induction a generalizing s with
    | nil => rfl
    | cons d a ih =>
      simp only [List.cons_append, declsSpell, List.append_assoc]
      simp only [declsSpell, layout_append] at h
      obtain ⟨_, ⟨_, _, _⟩, h⟩ := h
      rw [ih h]
  rw [this]
  exact lay_append h h1

/-- One declaration for each item. -/
theorem print_decls {α : Type} {p : α → String} {l : List α} {c : α → List Constant} {x : α → List Context} {st : α → List Struct} {pr : α → List Pragma}
    (h : ∀ a ∈ l, ∃ t : Decl (Tree 0), t.constant = c a ∧ t.ctx = x a ∧ t.structs = st a ∧ t.prag = pr a ∧
      t.hoist = [] ∧ ∀ s, Layout (t.spell ++ [.gap]) ((p a).toList ++ s) s) :
    ∃ ts : List (Decl (Tree 0)), ts.flatMap Decl.constant = l.flatMap c ∧ ts.flatMap Decl.ctx = l.flatMap x ∧
      ts.flatMap Decl.structs = l.flatMap st ∧ ts.flatMap Decl.prag = l.flatMap pr ∧ ts.flatMap Decl.hoist = [] ∧
      ∀ s, Layout (declsSpell ts) ((concat (l.map p)).toList ++ s) s := by
  induction l with
  | nil => exact ⟨[], rfl, rfl, rfl, rfl, rfl, lay_nil⟩
  | cons a l ih =>
    obtain ⟨ts, h1, h2, h3, h4, h5, h6⟩ := ih (fun b hb => h b (List.mem_cons_of_mem _ hb))
    obtain ⟨t, k1, k2, k3, k4, k5, k6⟩ := h a List.mem_cons_self
    refine ⟨t :: ts, by simp [h1, k1], by simp [h2, k2], by simp [h3, k3], by simp [h4, k4], by simp [h5, k5], fun s => ?_⟩
    simp only [declsSpell, List.map_cons, concat, String.toList_append, List.append_assoc, List.cons_append, List.nil_append]
    have := lay_append (k6 _) (h6 s)
    simpa [List.append_assoc] using this

theorem flatMap_self {α : Type} (l : List α) : l.flatMap (fun a => [a]) = l := by induction l <;> simp_all
theorem flatMap_none {α β : Type} (l : List α) : l.flatMap (fun _ => ([] : List β)) = [] := by induction l <;> simp_all

/-- What the printer writes for a well-formed file is a way to write declarations denoting the file. -/
theorem print_file {f : File} (h : GoodFile f) : ∃ ds : List (Decl (Tree 0)), denote ds = f ∧ Writes ds (printFile f).toList := by
  obtain ⟨cs, xs, ss, ps⟩ := f
  obtain ⟨hc, hx, hs, hp⟩ := h
  obtain ⟨d1, a1, b1, c1, e1, f1, g1⟩ := print_decls (c := fun a => [a]) (x := fun _ => []) (st := fun _ => []) (pr := fun _ => []) (fun c hc' => print_constant (hc c hc'))
  obtain ⟨d2, a2, b2, c2, e2, f2, g2⟩ := print_decls (c := fun _ => []) (x := fun a => [a]) (st := fun _ => []) (pr := fun _ => []) (fun c hc' => print_context (hx c hc'))
  obtain ⟨d3, a3, b3, c3, e3, f3, g3⟩ := print_decls (c := fun _ => []) (x := fun _ => []) (st := fun a => [a]) (pr := fun _ => []) (fun c hc' => print_struct (hs c hc'))
  obtain ⟨d4, a4, b4, c4, e4, f4, g4⟩ := print_decls (c := fun _ => []) (x := fun _ => []) (st := fun _ => []) (pr := fun a => [a]) (fun c hc' => print_pragma (hp c hc'))
  refine ⟨d1 ++ (d2 ++ (d3 ++ d4)), ?_, ?_⟩
  · simp only [denote, List.flatMap_append, a1, a2, a3, a4, b1, b2, b3, b4, c1, c2, c3, c4, e1, e2, e3, e4, f1, f2, f3, f4, flatMap_self, flatMap_none]
    simp
  · simp only [Writes, fileSpell, printFile, String.toList_append]
    refine lay_gap (lay_decls (g1 _) (lay_decls (g2 _) (lay_decls (g3 _) ?_)))
    simpa using g4 []

end Verif.Peg
