import Mathlib.Algebra.Order.Group.Unbundled.Abs
import Mathlib.Algebra.BigOperators.Group.Finset.Basic
import Verif.Spec.NewtonSolve
import Verif.Spec.Newton
/-
Specification for Newton's method with norms other than the Euclidean one.
-/
namespace Verif.NewtonMesh
open Constraints

variable {I K : Type} [Field K] [LinearOrder K]

/-- `norm` measures residuals and `dual` test functions, so that their product is at most the product of the norms. -/
def DualNorms [Fintype I] (norm dual : (I → K) → K) : Prop := ∀ r w : I → K, |∑ k, w k * r k| ≤ norm r * dual w

/-- What the Newton solver is used with: a linear solver that keeps trivial rows, a damping factor below one, no forced iterations, a positive absolute limit and a
reassembly in the first iteration. -/
structure Setup [Fintype I] [DecidableEq I] (solve : Assembly.Matrix I K → (I → K) → Option K → Bool × (I → K) × Nat) (q : Newton.Params K) : Prop where
  keeps : NewtonSolve.KeepsTrivialRows solve
  damped : Newton.Spec.Damped q
  noForce : q.forceIteration = false
  positive : 0 < q.absoluteLimit
  reassembles : q.reassembleThreshold < 1

/-- What the Newton solver is used with for linear problems: an exact linear solver, a line search with at least one trial, and an iteration is allowed. -/
structure ExactSetup [Fintype I] [DecidableEq I] (solve : Assembly.Matrix I K → (I → K) → Option K → Bool × (I → K) × Nat) (q : Newton.Params K) : Prop where
  solves : NewtonSolve.Solves solve
  noForce : q.forceIteration = false
  positive : 0 < q.absoluteLimit
  reassembles : q.reassembleThreshold < 1
  trials : ∀ n e b, q.lineSearch = .hackbuschReusken n e b → 0 < n
  allowed : 1 ≤ q.maxIterations

end Verif.NewtonMesh
