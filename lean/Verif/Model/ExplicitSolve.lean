import Verif.Model.TransientSolve
import Mathlib.Algebra.BigOperators.Group.List.Basic
/-
The explicit one-step method (dune/pdelab/instationary/explicitonestep.hh) with the contributions of a spatial and a temporal operator. There are no constraints.
-/
namespace Verif.ConstrainedSolve
open OneStep (Kind Op Setting St Scheme)

variable {I K : Type} [DecidableEq I] [Field K] [LinearOrder K]

/-- What one call adds to the matrix, jacobianengine.hh:158-172,242-297. The matrix is a function of row and column here: that the entries are there is the
subject of the patterns (C232). -/
def matrixContribution (L : LocalParts I K) : Op K (I → K) (I → I → K) := fun k e τ x =>
  match L k e τ with
  | none => fun _ _ => 0
  | some p => fun a b => ((List.range p.nv).map fun i => ((List.range p.nu).map fun j =>
      if p.v i = a ∧ p.u j = b then p.jacobian (p.read x) i j else 0).sum).sum

/-- `ExplicitOneStepMethod::apply`, explicitonestep.hh:307-478, with the instationary grid operator, gridoperator/onestep.hh:180-196: the vectors of the stages
and the step size that was used. -/
def explicitStep (L0 L1 : LocalParts I K) (trace : List (Kind × Nat)) (S : Scheme K) (time dt suggested : K) (ls : (I → I → K) → (I → K) → (I → K) → I → K)
    (st : St K (I → K) (I → K)) (x : Nat → I → K) : (Nat → I → K) × K :=
  OneStep.explicitApply S time dt suggested (contribution L0) (contribution L1) (matrixContribution L1) ls trace st x

end Verif.ConstrainedSolve
