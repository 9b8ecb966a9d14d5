import Verif.Peg
/-!
# Decoding the bytes of a text
-/
namespace Verif.Peg
open Verif

/-- The bytes of a text: UTF-8 as given by the Lean library. -/
def utf8 (s : List Char) : List UInt8 := s.flatMap String.utf8EncodeChar

theorem inRange_iff (b lo hi : UInt8) : inRange b lo hi = true ↔ lo.toNat ≤ b.toNat ∧ b.toNat ≤ hi.toNat := by
  simp only [inRange, Bool.and_eq_true, decide_eq_true_eq, UInt8.le_iff_toNat_le]

theorem ofNat_toNat' {n : Nat} (h : n < 256) : (UInt8.ofNat n).toNat = n := by
  rw [UInt8.toNat_ofNat']
  omega

theorem char_valid (c : Char) : c.toNat < 0xD800 ∨ (0xDFFF < c.toNat ∧ c.toNat < 0x110000) := by
  exact c.valid

theorem char_ofNat (c : Char) {n : Nat} (h : n = c.toNat) : Char.ofNat n = c := by
  subst h; exact Char.ofNat_toNat c

theorem ofNat_valid {n : Nat} (h : n < 0xD800 ∨ (0xDFFF < n ∧ n < 0x110000)) : (Char.ofNat n).toNat = n := by
  have : n.isValidChar := h
  rw [Char.ofNat, dif_pos this]
  rfl

/-- A character, decoded. -/
theorem decode_char (c : Char) (rest : List UInt8) : decode (String.utf8EncodeChar c ++ rest) = .ok c :: decode rest := by
  have hv := char_valid c
  have hn : c.val.toNat = c.toNat := rfl
  unfold String.utf8EncodeChar
  simp only [hn]
  split
  · rename_i h
    simp only [List.cons_append, List.nil_append]
    rw [decode.eq_def]
    simp only
    rw [if_pos (by rw [UInt8.lt_iff_toNat_lt, ofNat_toNat' (by omega)]; show _ < 128; omega),
      char_ofNat c (ofNat_toNat' (by omega))]
  · split
    · simp only [List.cons_append, List.nil_append]
      rw [decode.eq_def]
      simp only
      rw [if_neg (by rw [UInt8.lt_iff_toNat_lt, ofNat_toNat' (by omega)]; show ¬ _ < 128; omega),
        if_pos (by
          rw [Bool.and_eq_true, inRange_iff, inRange_iff, ofNat_toNat' (by omega), ofNat_toNat' (by omega)]
          simp only [UInt8.reduceToNat]
          omega)]
      rw [char_ofNat c (by rw [ofNat_toNat' (by omega), ofNat_toNat' (by omega)]; omega)]
    · split
      · simp only [List.cons_append, List.nil_append]
        rw [decode.eq_def]
        simp only
        rw [if_neg (by rw [UInt8.lt_iff_toNat_lt, ofNat_toNat' (by omega)]; show ¬ _ < 128; omega),
          if_neg (by
            rw [Bool.and_eq_true, inRange_iff, inRange_iff, ofNat_toNat' (by omega), ofNat_toNat' (by omega)]
            simp only [UInt8.reduceToNat]
            omega),
          if_pos (by
            rw [Bool.and_eq_true, Bool.and_eq_true, inRange_iff, inRange_iff, inRange_iff, ofNat_toNat' (by omega), ofNat_toNat' (by omega),
              ofNat_toNat' (by omega)]
            simp only [← UInt8.toNat_inj, apply_ite UInt8.toNat, UInt8.reduceToNat, ofNat_toNat' (show c.toNat / 4096 % 16 + 224 < 256 by omega)]
            split <;> split <;> omega)]
        rw [char_ofNat c (by rw [ofNat_toNat' (by omega), ofNat_toNat' (by omega), ofNat_toNat' (by omega)]; omega)]
      · simp only [List.cons_append, List.nil_append]
        rw [decode.eq_def]
        simp only
        rw [if_neg (by rw [UInt8.lt_iff_toNat_lt, ofNat_toNat' (by omega)]; show ¬ _ < 128; omega),
          if_neg (by
            rw [Bool.and_eq_true, inRange_iff, inRange_iff, ofNat_toNat' (by omega), ofNat_toNat' (by omega)]
            simp only [UInt8.reduceToNat]
            omega),
          if_neg (by
            rw [Bool.and_eq_true, Bool.and_eq_true, inRange_iff, ofNat_toNat' (by omega)]
            simp only [UInt8.reduceToNat]
            omega),
          if_pos (by
            rw [Bool.and_eq_true, Bool.and_eq_true, Bool.and_eq_true, inRange_iff, inRange_iff, inRange_iff, inRange_iff, ofNat_toNat' (by omega), ofNat_toNat' (by omega),
              ofNat_toNat' (by omega), ofNat_toNat' (by omega)]
            simp only [← UInt8.toNat_inj, apply_ite UInt8.toNat, UInt8.reduceToNat, ofNat_toNat' (show c.toNat / 262144 % 8 + 240 < 256 by omega)]
            split <;> split <;> omega)]
        rw [char_ofNat c (by rw [ofNat_toNat' (by omega), ofNat_toNat' (by omega), ofNat_toNat' (by omega), ofNat_toNat' (by omega)]; omega)]

theorem decode_utf8 (s : List Char) : decode (utf8 s) = s.map Rune.ok := by
  induction s with
  | nil => rfl
  | cons c s ih => rw [utf8, List.flatMap_cons, decode_char]; simp only [List.map_cons]; rw [← ih]; rfl

theorem byte_eq {b : UInt8} {n : Nat} (h : n = b.toNat) : UInt8.ofNat n = b := by subst h; simp

/-- Only the bytes of a text decode to characters. -/
theorem decode_ok {b : List UInt8} : ∀ {s : List Char}, decode b = s.map Rune.ok → b = utf8 s := by
  induction b using decode.induct with
  | case1 => intro s h; cases s <;> simp_all [decode, utf8]
  | case2 b0 t0 hb ih =>
    intro s h
    rw [decode.eq_def] at h
    simp only [if_pos hb] at h
    cases s with
    | nil => cases h
    | cons c s =>
      simp only [List.map_cons, List.cons.injEq, Rune.ok.injEq] at h
      obtain ⟨rfl, h⟩ := h
      rw [ih h, utf8, utf8, List.flatMap_cons]
      rw [UInt8.lt_iff_toNat_lt] at hb
      simp only [UInt8.reduceToNat] at hb
      have hv : (Char.ofNat b0.toNat).val.toNat = b0.toNat := ofNat_valid (by omega)
      unfold String.utf8EncodeChar
      simp only [hv]
      rw [if_pos (by omega), byte_eq rfl]
      rfl
  | case3 b0 hb => intro s h; simp [decode, hb] at h; cases s <;> simp at h
  | case4 b0 hb b1 t1 h1 ih =>
    intro s h
    rw [decode.eq_def] at h
    simp only [if_neg hb, if_pos h1] at h
    cases s with
    | nil => cases h
    | cons c s =>
      simp only [List.map_cons, List.cons.injEq, Rune.ok.injEq] at h
      obtain ⟨rfl, h⟩ := h
      rw [ih h, utf8, utf8, List.flatMap_cons]
      rw [Bool.and_eq_true, inRange_iff, inRange_iff] at h1
      simp only [UInt8.reduceToNat] at h1
      have hv : (Char.ofNat ((b0.toNat - 192) * 64 + (b1.toNat - 128))).val.toNat = (b0.toNat - 192) * 64 + (b1.toNat - 128) := ofNat_valid (by omega)
      unfold String.utf8EncodeChar
      simp only [hv]
      rw [if_neg (by omega), if_pos (by omega), byte_eq (b := b0) (by omega), byte_eq (b := b1) (by omega)]
      rfl
  | case5 b0 hb b1 h1 ih =>
    intro s h
    rw [decode.eq_def] at h
    simp only [if_neg hb, h1, Bool.false_eq_true, if_false] at h
    cases s <;> simp at h
  | case6 b0 hb b1 h1 b2 t2 h2 ih =>
    intro s h
    rw [decode.eq_def] at h
    simp only [if_neg hb, if_neg h1, if_pos h2] at h
    cases s with
    | nil => cases h
    | cons c s =>
      simp only [List.map_cons, List.cons.injEq, Rune.ok.injEq] at h
      obtain ⟨rfl, h⟩ := h
      rw [ih h, utf8, utf8, List.flatMap_cons]
      rw [Bool.and_eq_true, Bool.and_eq_true, inRange_iff, inRange_iff, inRange_iff] at h2
      simp only [← UInt8.toNat_inj, apply_ite UInt8.toNat, UInt8.reduceToNat] at h2
      have hv : (Char.ofNat ((b0.toNat - 224) * 4096 + (b1.toNat - 128) * 64 + (b2.toNat - 128))).val.toNat =
        (b0.toNat - 224) * 4096 + (b1.toNat - 128) * 64 + (b2.toNat - 128) := ofNat_valid (by split at h2 <;> split at h2 <;> omega)
      unfold String.utf8EncodeChar
      simp only [hv]
      rw [if_neg (by split at h2 <;> split at h2 <;> omega), if_neg (by split at h2 <;> split at h2 <;> omega),
        if_pos (by split at h2 <;> split at h2 <;> omega), byte_eq (b := b0) (by split at h2 <;> split at h2 <;> omega),
        byte_eq (b := b1) (by split at h2 <;> split at h2 <;> omega), byte_eq (b := b2) (by split at h2 <;> split at h2 <;> omega)]
      rfl
  | case7 b0 hb b1 h1 b2 h2 ih =>
    intro s h
    rw [decode.eq_def] at h
    simp only [if_neg hb, if_neg h1, if_neg h2] at h
    cases s <;> simp at h
  | case8 b0 hb b1 h1 b2 h2 b3 t3 h3 ih =>
    intro s h
    rw [decode.eq_def] at h
    simp only [if_neg hb, if_neg h1, if_neg h2, if_pos h3] at h
    cases s with
    | nil => cases h
    | cons c s =>
      simp only [List.map_cons, List.cons.injEq, Rune.ok.injEq] at h
      obtain ⟨rfl, h⟩ := h
      rw [ih h, utf8, utf8, List.flatMap_cons]
      rw [Bool.and_eq_true, Bool.and_eq_true, Bool.and_eq_true, inRange_iff, inRange_iff, inRange_iff, inRange_iff] at h3
      simp only [← UInt8.toNat_inj, apply_ite UInt8.toNat, UInt8.reduceToNat] at h3
      have hv : (Char.ofNat ((b0.toNat - 240) * 262144 + (b1.toNat - 128) * 4096 + (b2.toNat - 128) * 64 + (b3.toNat - 128))).val.toNat =
        (b0.toNat - 240) * 262144 + (b1.toNat - 128) * 4096 + (b2.toNat - 128) * 64 + (b3.toNat - 128) :=
          ofNat_valid (by split at h3 <;> split at h3 <;> omega)
      unfold String.utf8EncodeChar
      simp only [hv]
      rw [if_neg (by split at h3 <;> split at h3 <;> omega), if_neg (by split at h3 <;> split at h3 <;> omega),
        if_neg (by split at h3 <;> split at h3 <;> omega), byte_eq (b := b0) (by split at h3 <;> split at h3 <;> omega),
        byte_eq (b := b1) (by split at h3 <;> split at h3 <;> omega), byte_eq (b := b2) (by split at h3 <;> split at h3 <;> omega),
        byte_eq (b := b3) (by split at h3 <;> split at h3 <;> omega)]
      rfl
  | case9 b0 hb b1 h1 b2 h2 b3 t3 h3 ih =>
    intro s h
    rw [decode.eq_def] at h
    simp only [if_neg hb, if_neg h1, if_neg h2, if_neg h3] at h
    cases s <;> simp at h

theorem decode_iff {b : List UInt8} {s : List Char} : decode b = s.map Rune.ok ↔ b = utf8 s :=
  ⟨decode_ok, fun h => h ▸ decode_utf8 s⟩

end Verif.Peg
