import Verif.Model.Newton
import Verif.Model.ConstrainedSolve
/-
Model of Newton's method applied to a grid operator: the residual and the Jacobian that the solver asks for are those that the grid
operator assembles from the local operator (`Verif.Model.ConstrainedSolve`), the loop is the one of `Verif.Model.Newton`.

The modifications for hanging nodes are off, as they are by default (solver/newton.hh:669).
-/
namespace Verif.NewtonSolve
open Constraints Assembly ConstrainedSolve

variable {I F : Type} [DecidableEq I] [Field F] [LinearOrder F]

/-- What `NewtonMethod` calls: solver/newton.hh:342-368 `updateDefect` assembles the residual and measures it with the norm of the linear
solver, newton.hh:98-120 `prepareStep` assembles the Jacobian, and newton.hh:139-175 `linearSolve` hands the matrix and the residual to the
linear solver, with the requested reduction; it returns whether it converged, the correction and the number of iterations. What
the linear solver does with a matrix that was allocated but never assembled is arbitrary: `unassembled`. -/
def problem (t : Trafo I F) (symmetric : Bool) (ci0 : Nat → I) (pattern : List (PatternPart I)) (parts : List (Part I F))
    (norm : (I → F) → F) (solve : Matrix I F → (I → F) → Option F → Bool × (I → F) × Nat)
    (unassembled : (I → F) → Option F → Bool × (I → F) × Nat) : Newton.Problem F (I → F) where
  defect x := some (norm (residual t parts x))
  jacobianOk x := (jacobian t symmetric ci0 pattern parts x).isSome
  solve z x reduction :=
    match z.bind (jacobian t symmetric ci0 pattern parts) with
    | some m => solve m (residual t parts x) reduction
    | none => unassembled (residual t parts x) reduction

end Verif.NewtonSolve
