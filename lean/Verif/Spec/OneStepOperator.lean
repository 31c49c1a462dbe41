import Verif.Model.OneStepOperator
import Mathlib.Algebra.BigOperators.Group.Finset.Basic
/-
The residual form of an operator, and the formula of the one-step scheme.
-/
namespace Verif.OneStep
open Finset

variable {K X V : Type} [Field K] [LinearOrder K] [AddCommGroup V] [Module K V]

/-- The residual (or Jacobian) of an operator at a time and a solution: the sum of all its contributions. -/
def form (R : Op K X V) (trace : List (Kind × Nat)) (t : K) (x : X) : V :=
  (trace.map fun c => R c.1 c.2 t x).sum

/-- The factors of the spatial and the temporal form in the chosen mode. -/
def factors (mode : DTMode) (dt : K) : K × K :=
  match mode with
  | .divideOperator1ByDT => (1, 1 / dt)
  | .multiplyOperator0ByDT => (dt, 1)
  | .doNotAssembleDT => (1, 1)

/-- `∑_{s ≤ r} (a_rs f1 R1(x_s, t + d_s dt) + b_rs f0 R0(x_s, t + d_s dt))`. -/
def schemeResidual (P : Setting K) (R0 R1 : Op K X V) (trace : List (Kind × Nat)) (x : Nat → X) : V :=
  ∑ s ∈ range (P.stage + 1),
    ((P.scheme.a P.stage s * (factors P.mode P.dt).2) • form R1 trace (P.time + P.scheme.d s * P.dt) (x s) +
     (P.scheme.b P.stage s * (factors P.mode P.dt).1) • form R0 trace (P.time + P.scheme.d s * P.dt) (x s))

/-- No nonzero coefficient of the stage is smaller than the threshold in absolute value. -/
def NoTinyCoefficients (S : Scheme K) (r : Nat) : Prop :=
  ∀ s, s ≤ r → (S.a r s = 0 ∨ |S.a r s| > 1 / 1000000) ∧ (S.b r s = 0 ∨ |S.b r s| > 1 / 1000000)

/-- The operator has no volume terms after the skeleton. -/
def NoPostSkeleton (R : Op K X V) : Prop := ∀ k e t x, k = .uvPost ∨ k = .vPost → R k e t x = 0

end Verif.OneStep
