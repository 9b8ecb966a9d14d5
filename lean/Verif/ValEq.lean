import Verif.Decode
/-!
# Equality of Go values is decidable

Used to evaluate concrete runs.
-/
namespace Verif.Go

mutual
/-- Deciding equality of values. -/
def Val.decEq : (a b : Val) → Decidable (a = b)
  | .nil, b => match b with
    | .nil => .isTrue rfl
    | .num _ | .bool _ | .str _ | .bytes _ _ | .slice _ | .array _ | .obj _ _ | .struct _ | .error _ =>
      .isFalse (by intro h; cases h)
  | .num n, b => match b with
    | .num m => decidable_of_iff (n = m) (by simp)
    | .nil | .bool _ | .str _ | .bytes _ _ | .slice _ | .array _ | .obj _ _ | .struct _ | .error _ =>
      .isFalse (by intro h; cases h)
  | .bool n, b => match b with
    | .bool m => decidable_of_iff (n = m) (by simp)
    | .nil | .num _ | .str _ | .bytes _ _ | .slice _ | .array _ | .obj _ _ | .struct _ | .error _ =>
      .isFalse (by intro h; cases h)
  | .str n, b => match b with
    | .str m => decidable_of_iff (n = m) (by simp)
    | .nil | .num _ | .bool _ | .bytes _ _ | .slice _ | .array _ | .obj _ _ | .struct _ | .error _ =>
      .isFalse (by intro h; cases h)
  | .bytes n n', b => match b with
    | .bytes m m' => decidable_of_iff (n = m ∧ n' = m') (by simp)
    | .nil | .num _ | .bool _ | .str _ | .slice _ | .array _ | .obj _ _ | .struct _ | .error _ =>
      .isFalse (by intro h; cases h)
  | .slice n, b => match b with
    | .slice m => have := Val.decEqL n m; decidable_of_iff (n = m) (by simp)
    | .nil | .num _ | .bool _ | .str _ | .bytes _ _ | .array _ | .obj _ _ | .struct _ | .error _ =>
      .isFalse (by intro h; cases h)
  | .array n, b => match b with
    | .array m => have := Val.decEqL n m; decidable_of_iff (n = m) (by simp)
    | .nil | .num _ | .bool _ | .str _ | .bytes _ _ | .slice _ | .obj _ _ | .struct _ | .error _ =>
      .isFalse (by intro h; cases h)
  | .obj T n, b => match b with
    | .obj T' m => have := Val.decEqF n m; decidable_of_iff (T = T' ∧ n = m) (by simp)
    | .nil | .num _ | .bool _ | .str _ | .bytes _ _ | .slice _ | .array _ | .struct _ | .error _ =>
      .isFalse (by intro h; cases h)
  | .struct n, b => match b with
    | .struct m => have := Val.decEqF n m; decidable_of_iff (n = m) (by simp)
    | .nil | .num _ | .bool _ | .str _ | .bytes _ _ | .slice _ | .array _ | .obj _ _ | .error _ =>
      .isFalse (by intro h; cases h)
  | .error n, b => match b with
    | .error m => decidable_of_iff (n = m) (by simp)
    | .nil | .num _ | .bool _ | .str _ | .bytes _ _ | .slice _ | .array _ | .obj _ _ | .struct _ =>
      .isFalse (by intro h; cases h)
/-- Deciding equality of lists of values. -/
def Val.decEqL : (a b : List Val) → Decidable (a = b)
  | [], [] => .isTrue rfl
  | [], _ :: _ => .isFalse (by intro h; cases h)
  | _ :: _, [] => .isFalse (by intro h; cases h)
  | a :: as, b :: bs =>
    have := Val.decEq a b
    have := Val.decEqL as bs
    decidable_of_iff (a = b ∧ as = bs) (by simp)
/-- Deciding equality of field lists. -/
def Val.decEqF : (a b : List (String × Val)) → Decidable (a = b)
  | [], [] => .isTrue rfl
  | [], _ :: _ => .isFalse (by intro h; cases h)
  | _ :: _, [] => .isFalse (by intro h; cases h)
  | (k, a) :: as, (k', b) :: bs =>
    have := Val.decEq a b
    have := Val.decEqF as bs
    decidable_of_iff (k = k' ∧ a = b ∧ as = bs) (by simp [and_assoc])
end

instance : DecidableEq Val := Val.decEq
deriving instance DecidableEq for CallOut

end Verif.Go

deriving instance DecidableEq for Verif.Wire.DOut
