import Verif.Spec.NewtonSolve
import Verif.Spec.TransientSolve
import Verif.Model.NewtonStep
import Verif.Spec.Newton
/-
Specification for implicit time steps of nonlinear problems.
-/
namespace Verif.NewtonStep
open Constraints ConstrainedSolve
open OneStep (Kind Setting Scheme DTMode)

variable {I K : Type} [DecidableEq I] [Field K] [LinearOrder K]

/-- The operator is monotone: testing the difference of the forms of two functions that satisfy the constraints, with the same Dirichlet values, with their
difference gives nothing negative. -/
def Monotone (t : Trafo I K) (parts : List (Part I K)) : Prop :=
  ∀ x y : I → K, Conforming t x → Conforming t y → (∀ k, t.Dirichlet k → x k = y k) →
    0 ≤ form parts x (fun k => x k - y k) - form parts y (fun k => x k - y k)

/-- A nonlinear parabolic problem: at all times the temporal operator is strongly monotone with constant `mu` and the spatial one monotone; the pattern
contains the couplings, and the temporal operator has no volume terms after the skeleton. -/
structure Evolution [Fintype I] (t : Trafo I K) (pattern : List (Assembly.PatternPart I)) (L0 L1 : LocalParts I K) (trace : List (Kind × Nat)) (mu : K) : Prop where
  noPost : NoPost L1
  fits0 : ∀ τ, PatternFits t pattern (partsAt L0 trace τ)
  fits1 : ∀ τ, PatternFits t pattern (partsAt L1 trace τ)
  mass : ∀ τ, NewtonSolve.StronglyMonotone t (partsAt L1 trace τ) mu
  monotone : ∀ τ, Monotone t (partsAt L0 trace τ)

/-- The Newton solver: Euclidean norm, a linear solver that keeps trivial rows, a damping factor below one, no forced iterations, a positive absolute limit
and a reassembly in the first iteration. -/
structure SolverSetup [Fintype I] (t : Trafo I K) (norm : (I → K) → K) (solve : Assembly.Matrix I K → (I → K) → Option K → Bool × (I → K) × Nat)
    (q : Newton.Params K) : Prop where
  norm : NewtonSolve.TwoNorm t norm
  keeps : NewtonSolve.KeepsTrivialRows solve
  damped : Newton.Spec.Damped q
  noForce : q.forceIteration = false
  positive : 0 < q.absoluteLimit
  reassembles : q.reassembleThreshold < 1

/-- The defect at which the Newton solver is content, given the first one. -/
def tolerance (q : Newton.Params K) (first : K) : K := max q.absoluteLimit (first * q.reduction)

/-- The guess of a stage: the Dirichlet values of the time of the stage, and elsewhere the values of the previous stage, in the first stage the values found in
the new vector. -/
def IsGuess (t : Trafo I K) (g : I → K) (before : I → K) (guess : I → K) : Prop :=
  ∀ k, (t.Constrained k → guess k = g k) ∧ (¬ t.Constrained k → guess k = before k)

/-- A mass operator: a symmetric bilinear form, not negative on the diagonal; `N` is its norm, which dominates the Euclidean norm of test functions. -/
structure Mass (t : Trafo I K) (m : (I → K) → (I → K) → K) (norm N : (I → K) → K) (sigma : K) : Prop where
  sub : ∀ a b w, m (fun k => a k - b k) w = m a w - m b w
  smul : ∀ (c : K) a w, m (fun k => c * a k) w = c * m a w
  symm : ∀ a w, m a w = m w a
  norm_nonneg : ∀ w, 0 ≤ N w
  norm_sq : ∀ w, N w ^ 2 = m w w
  dominates : ∀ w, (∀ k, t.Dirichlet k → w k = 0) → sigma * norm w ≤ N w

/-- The vectors of two consecutive times as the stages of a method with one stage. -/
def two (old new : I → K) : Nat → I → K := fun s => if s = 0 then old else new

end Verif.NewtonStep
