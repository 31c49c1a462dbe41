import Verif.Model.GridFunctions
/-
Vocabulary for the properties of grid functions.
-/
namespace Verif.GridFunctions.Spec

variable {K X T : Type} [Field K]

/-- The grid functions an expression is made of, with the number of their components. -/
def leaves : Expr K → List (Nat × Nat)
  | .leaf id d => [(id, d)]
  | .const _ => []
  | .product a b => leaves a ++ leaves b
  | .minus a b => leaves a ++ leaves b
  | .division a b => leaves a ++ leaves b
  | .inverse a => leaves a
  | .sqr a => leaves a
  | .sqrt a => leaves a
  | .scaled _ a => leaves a
  | .select _ a => leaves a

/-- The components of the value an expression stands for, where `u id c` are the components of the functions it is made of. The product is a
multiple of a vector if exactly one factor is scalar, and the scalar product otherwise. -/
def component (u : Nat → Nat → K) (root : K → K) : Expr K → Nat → K
  | .leaf id _, c => u id c
  | .const val, c => val.getD c 0
  | .product a b, c =>
    if a.dimRange = b.dimRange then ((List.range (a.dimRange.getD 0)).map fun k => component u root a k * component u root b k).sum
    else if a.dimRange = some 1 then component u root a 0 * component u root b c
    else component u root a c * component u root b 0
  | .minus a b, c => component u root a c - component u root b c
  | .division a b, c => component u root a c / component u root b 0
  | .inverse a, _ => 1 / component u root a 0
  | .sqr a, _ => ((List.range (a.dimRange.getD 0)).map fun k => component u root a k * component u root a k).sum
  | .sqrt a, _ => root (component u root a 0)
  | .scaled factor a, c => component u root a c * factor
  | .select remap a, c => component u root a (remap.getD c 0)

/-- No divisor vanishes. -/
def Regular (u : Nat → Nat → K) (root : K → K) : Expr K → Prop
  | .leaf _ _ => True
  | .const _ => True
  | .product a b => Regular u root a ∧ Regular u root b
  | .minus a b => Regular u root a ∧ Regular u root b
  | .division a b => Regular u root a ∧ Regular u root b ∧ component u root b 0 ≠ 0
  | .inverse a => Regular u root a ∧ component u root a 0 ≠ 0
  | .sqr a => Regular u root a
  | .sqrt a => Regular u root a
  | .scaled _ a => Regular u root a
  | .select _ a => Regular u root a

/-- The quadrature of a function on an element. -/
def quadrature {L V : Type} [AddCommGroup V] [SMul K V] (evaluate : Cell L K → L → V) (c : Cell L K) : V :=
  (c.rule.map fun q => (q.2 * c.integrationElement q.1) • evaluate c q.1).sum

/-- The process has found an interior element. -/
def HasInterior {E : Type} (found : List (Found E)) (r : Nat) (e : E) : Prop := found[r]? = some (some (e, true))

end Verif.GridFunctions.Spec
