import Verif.Spec.VectorOperators
import Verif.Model.VectorOperators
/-
Vocabulary for the mixed formulation of the diffusion equation (C168, C240).
-/
namespace Verif
open LocalOp LocalOp.Spec Matrix

variable {K P : Type} [Field K] {d : Nat}

/-- The divergence on an affine cell with Jacobian `F` of the Piola transform of a field that has the derivative `D` on the
reference element. The derivative on the cell is |det|⁻¹ F D F⁻¹. -/
def piolaDivergence (F Finv : Matrix (Fin d) (Fin d) K) (det : K) (D : Matrix (Fin d) (Fin d) K) : K :=
  (det⁻¹ • (F * D * Finv)).trace

/-- An affine cell with Jacobian `F`. -/
structure AffineCell (geo : CellGeo K P d) (F : Matrix (Fin d) (Fin d) K) (det : K) : Prop where
  inverse : ∀ p, geo.jacobianInverseTransposed p * Fᵀ = 1
  element : ∀ p, geo.integrationElement p = det
  regular : det ≠ 0

end Verif
