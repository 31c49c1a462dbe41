import Verif.Spec.ConstrainedSolve
import Mathlib.Algebra.Field.Defs
import Mathlib.Order.Defs.LinearOrder
/-
Specification for Newton's method applied to a grid operator.
-/
namespace Verif.NewtonSolve
open Constraints Assembly ConstrainedSolve

variable {I F : Type} [DecidableEq I] [Field F] [LinearOrder F] [Fintype I]

/-- A norm: not negative, and zero only for the zero vector. -/
def Definite (norm : (I → F) → F) : Prop := ∀ r, 0 ≤ norm r ∧ (norm r = 0 ↔ ∀ k, r k = 0)

/-- The Euclidean norm of residuals and corrections, i.e. of vectors that vanish at the Dirichlet degrees of freedom. -/
def TwoNorm (t : Trafo I F) (norm : (I → F) → F) : Prop :=
  ∀ r, (∀ k, t.Dirichlet k → r k = 0) → 0 ≤ norm r ∧ norm r ^ 2 = ∑ k, r k ^ 2

/-- The problem is strongly monotone: testing the difference of the forms of two functions that satisfy the constraints, with the same Dirichlet
values, with their difference is at least `alpha` times the square of the norm of the difference. -/
def StronglyMonotone (t : Trafo I F) (parts : List (Part I F)) (alpha : F) : Prop :=
  ∀ x y : I → F, Conforming t x → Conforming t y → (∀ k, t.Dirichlet k → x k = y k) →
    alpha * ∑ k, (x k - y k) ^ 2 ≤ form parts x (fun k => x k - y k) - form parts y (fun k => x k - y k)

/-- The linear solver, exact or not: where the matrix has a row of the identity and the right hand side is zero, the correction is zero. -/
def KeepsTrivialRows (solve : Matrix I F → (I → F) → Option F → Bool × (I → F) × Nat) : Prop :=
  ∀ m r reduction k, (∀ c, m.val k c = if c = k then 1 else 0) → r k = 0 → (solve m r reduction).1 = true → (solve m r reduction).2.1 k = 0

/-- The linear solver solves every system that has a solution, and says so. -/
def Solves (solve : Matrix I F → (I → F) → Option F → Bool × (I → F) × Nat) : Prop :=
  ∀ m r reduction, (∃ z : I → F, ∀ i, ∑ c, m.val i c * z c = r i) →
    (solve m r reduction).1 = true ∧ ∀ i, ∑ c, m.val i c * (solve m r reduction).2.1 c = r i

end Verif.NewtonSolve
