import Verif.Model.Schema
/-
Decidable equality of values, used in examples.
-/
namespace Zserio
mutual
/-- decidable equality of values, for examples -/
def Val.decEq : (a b : Val) → Decidable (a = b)
  | .none, b => match b with
    | .none => isTrue rfl
    | .unset | .int _ | .bool _ | .float _ | .str _ | .bytes _ | .bitBuffer _ | .arr _ | .obj .. => isFalse (by simp)
  | .unset, b => match b with
    | .unset => isTrue rfl
    | .none | .int _ | .bool _ | .float _ | .str _ | .bytes _ | .bitBuffer _ | .arr _ | .obj .. => isFalse (by simp)
  | .int x, b => match b with
    | .int y => decidable_of_iff (x = y) (by simp)
    | .none | .unset | .bool _ | .float _ | .str _ | .bytes _ | .bitBuffer _ | .arr _ | .obj .. => isFalse (by simp)
  | .bool x, b => match b with
    | .bool y => decidable_of_iff (x = y) (by simp)
    | .none | .unset | .int _ | .float _ | .str _ | .bytes _ | .bitBuffer _ | .arr _ | .obj .. => isFalse (by simp)
  | .float x, b => match b with
    | .float y => decidable_of_iff (x = y) (by simp)
    | .none | .unset | .int _ | .bool _ | .str _ | .bytes _ | .bitBuffer _ | .arr _ | .obj .. => isFalse (by simp)
  | .str x, b => match b with
    | .str y => decidable_of_iff (x = y) (by simp)
    | .none | .unset | .int _ | .bool _ | .float _ | .bytes _ | .bitBuffer _ | .arr _ | .obj .. => isFalse (by simp)
  | .bytes x, b => match b with
    | .bytes y => decidable_of_iff (x = y) (by simp)
    | .none | .unset | .int _ | .bool _ | .float _ | .str _ | .bitBuffer _ | .arr _ | .obj .. => isFalse (by simp)
  | .bitBuffer x, b => match b with
    | .bitBuffer y => decidable_of_iff (x = y) (by simp)
    | .none | .unset | .int _ | .bool _ | .float _ | .str _ | .bytes _ | .arr _ | .obj .. => isFalse (by simp)
  | .arr x, b => match b with
    | .arr y => match Val.decEqList x y with
      | isTrue h => isTrue (by rw [h])
      | isFalse h => isFalse (by simpa using h)
    | .none | .unset | .int _ | .bool _ | .float _ | .str _ | .bytes _ | .bitBuffer _ | .obj .. => isFalse (by simp)
  | .obj p k t x, b => match b with
    | .obj q l u y => match Val.decEqList x y with
      | isTrue h => decidable_of_iff (p = q ∧ k = l ∧ t = u) (by simp [h])
      | isFalse h => isFalse (by simp [h])
    | .none | .unset | .int _ | .bool _ | .float _ | .str _ | .bytes _ | .bitBuffer _ | .arr _ => isFalse (by simp)
def Val.decEqList : (a b : List Val) → Decidable (a = b)
  | [], [] => isTrue rfl
  | [], _ :: _ => isFalse (by simp)
  | _ :: _, [] => isFalse (by simp)
  | x :: xs, y :: ys => match Val.decEq x y, Val.decEqList xs ys with
    | isTrue h, isTrue h' => isTrue (by rw [h, h'])
    | isFalse h, _ => isFalse (by simp [h])
    | _, isFalse h => isFalse (by simp [h])
end
instance : DecidableEq Val := Val.decEq
end Zserio
