import Verif.Spec.OneStepOperator
import Verif.Spec.OneStepParams
import Mathlib.Analysis.Complex.Basic
import Mathlib.LinearAlgebra.BilinearMap
/-
What it means for a time stepping scheme to be stable.
-/
namespace Verif.OneStep

/-- A-stability: whatever the step size, the solutions of `u' = lam u` for a complex number `lam` with nonpositive real part do not grow in a
step. -/
def Scheme.AStable (S : Scheme ℝ) : Prop :=
  ∀ lam : ℂ, lam.re ≤ 0 → ∀ t dt : ℝ, 0 ≤ dt → ∀ u : Nat → ℂ, S.Solves (fun _ x => lam * x) t dt u → ‖u S.s‖ ≤ ‖u 0‖

/-- Damping of stiff components (L-stability): for `z = lam dt` the solution after a step is at most of size `C / |z|`. -/
def Scheme.Damping (S : Scheme ℝ) : Prop :=
  ∃ C : ℝ, ∀ lam : ℂ, lam.re ≤ 0 → ∀ t dt : ℝ, 0 ≤ dt → ∀ u : Nat → ℂ, S.Solves (fun _ x => lam * x) t dt u →
    ‖lam * dt‖ * ‖u S.s‖ ≤ C * ‖u 0‖

section
variable {K X V : Type} [Field K] [LinearOrder K] [AddCommGroup X] [Module K X] [AddCommGroup V] [Module K V]

/-- The energy of a state for the mass form `m`, with the pairing of residuals and states. -/
def energy (pair : V →ₗ[K] X →ₗ[K] K) (m : X →ₗ[K] V) (x : X) : K := pair (m x) x

/-- The temporal form is given by a linear map `m`, symmetric and positive semidefinite. -/
def MassForm (pair : V →ₗ[K] X →ₗ[K] K) (R1 : Op K X V) (trace : List (Kind × Nat)) (m : X →ₗ[K] V) : Prop :=
  (∀ t x, form R1 trace t x = m x) ∧ (∀ x y, pair (m x) y = pair (m y) x) ∧ ∀ x, 0 ≤ energy pair m x

end

/-- A set is convex. -/
def ConvexSet {K X : Type} [Field K] [LinearOrder K] [AddCommGroup X] [Module K X] (C : X → Prop) : Prop :=
  ∀ x y, C x → C y → ∀ a b : K, 0 ≤ a → 0 ≤ b → a + b = 1 → C (a • x + b • y)

/-- A step of explicit Euler of size `dt` from a state in `C` is possible and leads to a state in `C`. -/
def EulerPreserves {K X V : Type} [Field K] [AddCommGroup V] [Module K V] (m : X → V) (r : K → X → V) (dt : K) (C : X → Prop) : Prop :=
  ∀ t x, C x → ∃ y, C y ∧ m y = m x - dt • r t x

end Verif.OneStep
