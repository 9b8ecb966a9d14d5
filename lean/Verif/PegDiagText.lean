import Verif.PegDiagErrs
import Verif.Utf8
/-!
# The text of the reports of the source parser
-/
namespace Verif.Peg
open Verif Verif.Ast

set_option linter.unusedSimpArgs false
set_option linter.unusedVariables false

/-! ## Bytes and runes -/

/-- The bytes a rune stands for. -/
def Rune.raw : Rune → List UInt8
  | .ok c => String.utf8EncodeChar c
  | .bad b => [b]

/-- Runes are read one after the other, and nothing is left out. -/
theorem raw_decode (b : List UInt8) : (decode b).flatMap Rune.raw = b := by
  induction b using decode.induct with
  | case1 => rfl
  | case2 b0 t0 hb ih =>
    rw [decode.eq_def]
    simp only [if_pos hb, List.flatMap_cons, ih, Rune.raw]
    rw [UInt8.lt_iff_toNat_lt] at hb
    simp only [UInt8.reduceToNat] at hb
    have hv : (Char.ofNat b0.toNat).val.toNat = b0.toNat := ofNat_valid (by omega)
    unfold String.utf8EncodeChar
    simp only [hv]
    rw [if_pos (by omega), byte_eq rfl]
    rfl
  | case3 b0 hb => simp [decode, hb, Rune.raw]
  | case4 b0 hb b1 t1 h1 ih =>
    rw [decode.eq_def]
    simp only [if_neg hb, if_pos h1, List.flatMap_cons, ih, Rune.raw]
    rw [Bool.and_eq_true, inRange_iff, inRange_iff] at h1
    simp only [UInt8.reduceToNat] at h1
    have hv : (Char.ofNat ((b0.toNat - 192) * 64 + (b1.toNat - 128))).val.toNat = (b0.toNat - 192) * 64 + (b1.toNat - 128) := ofNat_valid (by omega)
    unfold String.utf8EncodeChar
    simp only [hv]
    rw [if_neg (by omega), if_pos (by omega), byte_eq (b := b0) (by omega), byte_eq (b := b1) (by omega)]
    rfl
  | case5 b0 hb b1 h1 ih =>
    rw [decode.eq_def]
    simp only [if_neg hb, if_neg h1, List.flatMap_cons, ih, Rune.raw]
    rfl
  | case6 b0 hb b1 h1 b2 t2 h2 ih =>
    rw [decode.eq_def]
    simp only [if_neg hb, if_neg h1, if_pos h2, List.flatMap_cons, ih, Rune.raw]
    rw [Bool.and_eq_true, Bool.and_eq_true, inRange_iff, inRange_iff, inRange_iff] at h2
    simp only [← UInt8.toNat_inj, apply_ite UInt8.toNat, UInt8.reduceToNat] at h2
    have hv : (Char.ofNat ((b0.toNat - 224) * 4096 + (b1.toNat - 128) * 64 + (b2.toNat - 128))).val.toNat =
      (b0.toNat - 224) * 4096 + (b1.toNat - 128) * 64 + (b2.toNat - 128) := ofNat_valid (by split at h2 <;> split at h2 <;> omega)
    unfold String.utf8EncodeChar
    simp only [hv]
    rw [if_neg (by split at h2 <;> split at h2 <;> omega), if_neg (by split at h2 <;> split at h2 <;> omega),
      if_pos (by split at h2 <;> split at h2 <;> omega), byte_eq (b := b0) (by split at h2 <;> split at h2 <;> omega),
      byte_eq (b := b1) (by split at h2 <;> split at h2 <;> omega), byte_eq (b := b2) (by split at h2 <;> split at h2 <;> omega)]
    rfl
  | case7 b0 hb b1 h1 b2 h2 ih =>
    rw [decode.eq_def]
    simp only [if_neg hb, if_neg h1, if_neg h2, List.flatMap_cons, ih, Rune.raw]
    rfl
  | case8 b0 hb b1 h1 b2 h2 b3 t3 h3 ih =>
    rw [decode.eq_def]
    simp only [if_neg hb, if_neg h1, if_neg h2, if_pos h3, List.flatMap_cons, ih, Rune.raw]
    rw [Bool.and_eq_true, Bool.and_eq_true, Bool.and_eq_true, inRange_iff, inRange_iff, inRange_iff, inRange_iff] at h3
    simp only [← UInt8.toNat_inj, apply_ite UInt8.toNat, UInt8.reduceToNat] at h3
    have hv : (Char.ofNat ((b0.toNat - 240) * 262144 + (b1.toNat - 128) * 4096 + (b2.toNat - 128) * 64 + (b3.toNat - 128))).val.toNat =
      (b0.toNat - 240) * 262144 + (b1.toNat - 128) * 4096 + (b2.toNat - 128) * 64 + (b3.toNat - 128) :=
        ofNat_valid (by split at h3 <;> split at h3 <;> omega)
    unfold String.utf8EncodeChar
    simp only [hv]
    rw [if_neg (by split at h3 <;> split at h3 <;> omega), if_neg (by split at h3 <;> split at h3 <;> omega),
      if_neg (by split at h3 <;> split at h3 <;> omega), byte_eq (b := b0) (by split at h3 <;> split at h3 <;> omega),
      byte_eq (b := b1) (by split at h3 <;> split at h3 <;> omega), byte_eq (b := b2) (by split at h3 <;> split at h3 <;> omega),
      byte_eq (b := b3) (by split at h3 <;> split at h3 <;> omega)]
    rfl
  | case9 b0 hb b1 h1 b2 h2 b3 t3 h3 ih =>
    rw [decode.eq_def]
    simp only [if_neg hb, if_neg h1, if_neg h2, if_neg h3, List.flatMap_cons, ih, Rune.raw]
    rfl

theorem raw_length (r : Rune) : r.raw.length = r.width := by
  cases r with
  | ok c => simp [Rune.raw, Rune.width]
  | bad b => rfl

theorem byteLength_raw (t : List Rune) : byteLength t = (t.flatMap Rune.raw).length := by
  induction t with
  | nil => rfl
  | cons r t ih =>
    rw [List.flatMap_cons, List.length_append, raw_length, ← ih]; rfl

/-! ## Lists of texts -/

theorem dedupe_mem {α : Type} [DecidableEq α] (l : List α) : ∀ seen x, x ∈ dedupe seen l ↔ x ∈ l ∧ x ∉ seen := by
  induction l with
  | nil => intro seen x; simp [dedupe]
  | cons a l ih =>
    intro seen x
    simp only [dedupe]
    split
    · next h =>
      rw [ih, List.mem_cons]
      constructor
      · rintro ⟨h1, h2⟩; exact ⟨.inr h1, h2⟩
      · rintro ⟨rfl | h1, h2⟩
        · exact absurd h h2
        · exact ⟨h1, h2⟩
    · next h =>
      rw [List.mem_cons, ih, List.mem_cons, List.mem_cons]
      constructor
      · rintro (rfl | ⟨h1, h2⟩)
        · exact ⟨.inl rfl, h⟩
        · exact ⟨.inr h1, fun hx => h2 (.inr hx)⟩
      · rintro ⟨rfl | h1, h2⟩
        · exact .inl rfl
        · by_cases hx : x = a
          · exact .inl hx
          · exact .inr ⟨h1, by rintro (h3 | h3); exacts [hx h3, h2 h3]⟩

theorem dedupe_nodup {α : Type} [DecidableEq α] (l : List α) : ∀ seen, (dedupe seen l).Nodup := by
  induction l with
  | nil => intro seen; exact List.nodup_nil
  | cons a l ih =>
    intro seen
    simp only [dedupe]
    split
    · exact ih _
    · refine List.nodup_cons.2 ⟨?_, ih _⟩
      rw [dedupe_mem]
      rintro ⟨_, h⟩
      exact h List.mem_cons_self

theorem join_eq (sep : List Char) (l : List (List Char)) : join sep l = List.intercalate sep l := by
  induction l with
  | nil => rfl
  | cons x l ih =>
    cases l with
    | nil => simp [join, List.intercalate]
    | cons y l =>
      rw [join, ih]
      simp [List.intercalate, List.intersperse]

/-! ## Sorting -/

theorem leText_trans : ∀ {a b c : List Char}, leText a b = true → leText b c = true → leText a c = true := by
  intro a
  induction a with
  | nil => intros; rfl
  | cons x a ih =>
    intro b c h1 h2
    cases b with
    | nil => cases h1
    | cons y b =>
      cases c with
      | nil => cases h2
      | cons z c =>
        simp only [leText] at h1 h2 ⊢
        by_cases hxy : x = y
        · subst hxy
          rw [if_pos rfl] at h1
          by_cases hxz : x = z
          · subst hxz
            rw [if_pos rfl] at h2 ⊢
            exact ih h1 h2
          · rw [if_neg hxz] at h2 ⊢
            exact h2
        · rw [if_neg hxy] at h1
          by_cases hyz : y = z
          · subst hyz
            rw [if_neg hxy]
            exact h1
          · rw [if_neg hyz] at h2
            simp only [decide_eq_true_eq] at h1 h2
            have hxz : x ≠ z := by rintro rfl; omega
            rw [if_neg hxz]
            simp only [decide_eq_true_eq]
            omega

theorem leText_total : ∀ {a b : List Char}, leText a b = false → leText b a = true := by
  intro a
  induction a with
  | nil => intro b h; cases h
  | cons x a ih =>
    intro b h
    cases b with
    | nil => rfl
    | cons y b =>
      simp only [leText] at h ⊢
      by_cases hxy : x = y
      · subst hxy
        rw [if_pos rfl] at h ⊢
        exact ih h
      · rw [if_neg hxy] at h
        rw [if_neg (Ne.symm hxy)]
        simp only [decide_eq_false_iff_not, decide_eq_true_eq] at h ⊢
        have : x.toNat ≠ y.toNat := fun he => hxy (Char.ext (UInt32.toNat_inj.1 he))
        omega

/-- The order is the usual one of words. -/
theorem leText_lt : ∀ {a b : List Char}, leText a b = true → a ≠ b → a < b := by
  intro a
  induction a with
  | nil =>
    intro b _ hn
    cases b with
    | nil => exact absurd rfl hn
    | cons y b => exact List.nil_lt_cons _ _
  | cons x a ih =>
    intro b h hn
    cases b with
    | nil => cases h
    | cons y b =>
      simp only [leText] at h
      rw [List.cons_lt_cons_iff]
      by_cases hxy : x = y
      · subst hxy
        rw [if_pos rfl] at h
        exact .inr ⟨rfl, ih h (fun he => hn (by rw [he]))⟩
      · rw [if_neg hxy] at h
        simp only [decide_eq_true_eq] at h
        exact .inl h

theorem insertText_mem (x : List Char) (l : List (List Char)) (y : List Char) : y ∈ insertText x l ↔ y = x ∨ y ∈ l := by
  induction l with
  | nil => simp [insertText]
  | cons z l ih =>
    simp only [insertText]
    split
    · simp
    · rw [List.mem_cons, ih, List.mem_cons]
      constructor
      · rintro (h | h | h)
        exacts [.inr (.inl h), .inl h, .inr (.inr h)]
      · rintro (h | h | h)
        exacts [.inr (.inl h), .inl h, .inr (.inr h)]

theorem sortTexts_mem (l : List (List Char)) (y : List Char) : y ∈ sortTexts l ↔ y ∈ l := by
  induction l with
  | nil => rfl
  | cons z l ih => rw [sortTexts, insertText_mem, ih, List.mem_cons]

theorem insertText_sorted {x : List Char} {l : List (List Char)} (hx : x ∉ l)
    (h : l.Pairwise (fun a b => leText a b = true ∧ a ≠ b)) : (insertText x l).Pairwise (fun a b => leText a b = true ∧ a ≠ b) := by
  induction l with
  | nil => simp [insertText]
  | cons z l ih =>
    obtain ⟨h1, h2⟩ := List.pairwise_cons.1 h
    rw [List.mem_cons, not_or] at hx
    simp only [insertText]
    cases hle : leText x z with
    | true =>
      rw [if_pos rfl]
      refine List.pairwise_cons.2 ⟨?_, h⟩
      intro y hy
      rcases List.mem_cons.1 hy with rfl | hy
      · exact ⟨hle, hx.1⟩
      · exact ⟨leText_trans hle (h1 y hy).1, by rintro rfl; exact hx.2 hy⟩
    | false =>
      rw [if_neg (by simp)]
      refine List.pairwise_cons.2 ⟨?_, ih hx.2 h2⟩
      intro y hy
      rcases (insertText_mem _ _ _).1 hy with rfl | hy
      · exact ⟨leText_total hle, Ne.symm hx.1⟩
      · exact h1 y hy

theorem sortTexts_sorted {l : List (List Char)} (h : l.Nodup) : (sortTexts l).Pairwise (· < ·) := by
  have key : (sortTexts l).Pairwise (fun a b => leText a b = true ∧ a ≠ b) := by
    induction l with
    | nil => exact List.Pairwise.nil
    | cons x l ih =>
      obtain ⟨h1, h2⟩ := List.nodup_cons.1 h
      exact insertText_sorted (by rw [sortTexts_mem]; exact h1) (ih h2)
  exact key.imp (fun h => leText_lt h.1 h.2)

/-! ## Enumerations -/

/-- An enumeration in English: `a`, `a or b`, `a, b or c`. -/
def series : List (List Char) → List Char
  | [] => []
  | [x] => x
  | [x, y] => x ++ " or ".toList ++ y
  | x :: y :: z :: xs => x ++ ", ".toList ++ series (y :: z :: xs)

theorem listJoin_series : ∀ l : List (List Char), listJoin ", ".toList "or".toList l = series l := by
  intro l
  induction l with
  | nil => rfl
  | cons x l ih =>
    cases l with
    | nil => rfl
    | cons y l =>
      cases l with
      | nil => simp [listJoin, series, join]
      | cons z l =>
        rw [series, ← ih]
        simp [listJoin, join, List.dropLast]

end Verif.Peg
