import Mathlib.Algebra.BigOperators.Group.Finset.Basic
import Mathlib.Algebra.Field.Defs
import Mathlib.Algebra.Ring.Pi
import Mathlib.Algebra.Module.Pi
/-
What it means that a matrix assembled by a local operator is the derivative of the residual assembled by it. Independent of
the model of the operators.
-/
namespace Verif.LocalOp.Spec

/-- The value that a container filled with zeros holds at `i` after a sequence of calls `accumulate(i,value)`: the sum of the
values accumulated to `i`. -/
def total {ι K : Type} [DecidableEq ι] [AddMonoid K] (calls : List (ι × K)) (i : ι) : K :=
  ((calls.filter fun c => c.1 = i).map fun c => c.2).sum

variable {ι ν K : Type} [Fintype ν] [Field K]

/-- The residual tested with the function with coefficients `y`: what was accumulated for each unknown, times its coefficient. -/
def tested {ι K : Type} [Fintype ι] [DecidableEq ι] [Field K] (calls : List (ι × K)) (y : ι → K) : K :=
  ∑ i, y i * total calls i

/-- Applying the matrix with entries `J i j` to `z`. -/
def applyMatrix (J : ι × ν → K) (z : ν → K) (i : ι) : K := ∑ j, J (i, j) * z j

/-- `J` is the exact derivative of the affine map `res`: the difference of two values of `res` is `J` applied to the
difference of the arguments. -/
def IsAffineWith (res : (ν → K) → ι → K) (J : ι × ν → K) : Prop :=
  ∀ x z i, res (x + z) i = res x i + applyMatrix J z i

/-- `J x` is the derivative of `res` at `x`, for every `x`: along every line the difference of `res` and its linearisation
is of second order. -/
def IsDerivative (res : (ν → K) → ι → K) (J : (ν → K) → ι × ν → K) : Prop :=
  ∀ x z i, ∃ q : K, ∀ t : K, res (x + t • z) i = res x i + t * applyMatrix (J x) z i + t ^ 2 * q

/-- The matrix is symmetric. -/
def Symmetric (J : ν × ν → K) : Prop := ∀ i j, J (i, j) = J (j, i)

/-- The quadratic form of the matrix. -/
def quadForm (J : ν × ν → K) (x : ν → K) : K := ∑ i, x i * applyMatrix J x i

end Verif.LocalOp.Spec
