import Verif.Model.SimpleMatrix
import Mathlib.Algebra.BigOperators.Group.Finset.Basic
/-!
Specification of matrices: a matrix is a function of two indices.
-/
namespace Verif.SimpleMatrix

/-- The mathematical effect of one call on a matrix. -/
def specStep {α : Type} [Add α] [Mul α] [Zero α] (M : Nat → Nat → α) : Op α → Nat → Nat → α
  | .write r c v => fun i j => if i = r ∧ j = c then v else M i j
  | .add r c v => fun i j => if i = r ∧ j = c then M i j + v else M i j
  | .scale e => fun i j => e * M i j
  | .zero => fun _ _ => 0
  | .clearRow r d => fun i j => if i = r then (if j = r then d else 0) else M i j

/-- The entries a call refers to lie in the given set of positions. -/
def Op.Within {α : Type} (S : Nat → Nat → Prop) : Op α → Prop
  | .write r c _ => S r c
  | .add r c _ => S r c
  | .clearRow r _ => S r r
  | .scale _ => True
  | .zero => True

/-- Matrix-vector product. -/
def specMv {α : Type} [AddCommMonoid α] [Mul α] (cols : Nat) (M : Nat → Nat → α) (x : Nat → α)
    (r : Nat) : α := ∑ c ∈ Finset.range cols, M r c * x c

end Verif.SimpleMatrix

namespace Verif.SimpleMatrix

/-- `(r,c)` belongs to the pattern given by the column sets of the rows. -/
def InPattern (P : List (List Nat)) (r c : Nat) : Prop := ∃ row, P[r]? = some row ∧ c ∈ row

end Verif.SimpleMatrix
