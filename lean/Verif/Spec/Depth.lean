import Verif.Model.Schema
/-
How deep objects are nested.
-/
namespace Zserio

mutual
/-- how many objects are inside each other, the object itself included -/
def Val.depth : Val → Nat
  | .obj _ _ _ vs => Val.depthList vs + 1
  | .arr xs => Val.depthList xs
  | _ => 0
/-- the deepest of a list -/
def Val.depthList : List Val → Nat
  | [] => 0
  | v :: vs => max v.depth (Val.depthList vs)
end

end Zserio
