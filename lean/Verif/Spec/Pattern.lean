import Verif.Model.Pattern
/-!
Specification of sparsity patterns: a pattern is the set of the links that were requested. The
theorems speak about the list `h` of requested links directly; the definitions below only say
what a request to a nested pattern means.
-/
namespace Verif.Pattern

/-- The pair of multi-indices (last entry first) addresses an entry of a pattern of this shape:
one block pair per level and, in the innermost level, a row of the leaf block and a column that is
representable (different from the marker value). -/
def Shape.Valid : Shape → List Nat → List Nat → Prop
  | .leaf rows _, [i], [j] => i < rows ∧ j < empty
  | .node rows cols sub, i :: ri, j :: ci => i < rows ∧ j < cols ∧ (sub i j).Valid ri ci
  | _, _, _ => False

/-- `path` leads to a leaf block with the given number of rows and estimate. -/
def Shape.At : Shape → List (Nat × Nat) → Nat → Nat → Prop
  | .leaf rows epr, [], r, e => r = rows ∧ e = epr
  | .node rows cols sub, (i, j) :: path, r, e => i < rows ∧ j < cols ∧ (sub i j).At path r e
  | _, _, _, _ => False

/-- The entry of the leaf block at `path` that the pair of multi-indices addresses, if it addresses
that block at all. -/
def leafLink : List (Nat × Nat) → List Nat → List Nat → Option (Nat × Nat)
  | [], [i], [j] => some (i, j)
  | (a, b) :: path, i :: ri, j :: ci => if i = a ∧ j = b then leafLink path ri ci else none
  | _, _, _ => none

end Verif.Pattern
