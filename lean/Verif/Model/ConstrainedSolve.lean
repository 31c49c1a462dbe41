import Verif.Model.AssemblerUtilities
import Mathlib.Algebra.BigOperators.Group.List.Basic
/-
Model of the solution of a stationary problem with constraints: the residual and the Jacobian of the grid operator as assembled from
the local operator, and the two stationary solvers that modify the solution at constrained degrees of freedom: the solver for linear
problems (dune/pdelab/stationary/linearproblem.hh) and Newton's method (dune/pdelab/solver/newton.hh).

Trial and test space and their constraints are the same. Matrices are kept between calls in `Verif.Model.LinearProblem`; here a solve
assembles its matrix. Sums of numbers do not round.
-/
namespace Verif.ConstrainedSolve
open Constraints Assembly

variable {I F : Type} [DecidableEq I] [DecidableEq F] [CommRing F]

/-- What one local assembly (a cell, a face) contributes: the container indices of the test and trial functions, and the local residual
and the local Jacobian as functions of the local coefficients of the solution. Source: the methods of the local operator called in
gridoperator/default/residualengine.hh:264-350 and jacobianengine.hh:216-330. -/
structure Part (I F : Type) where
  nv : Nat
  nu : Nat
  v : Nat → I
  u : Nat → I
  residual : (Nat → F) → Nat → F
  jacobian : (Nat → F) → Nat → Nat → F

/-- The local coefficients: `global_s_s_view.read(x)`, residualengine.hh:206-212. -/
def Part.read (p : Part I F) (x : I → F) : Nat → F := fun j => x (p.u j)

/-- Adding a local residual to the residual: `global_rl_view.add(rl)`, residualengine.hh:183-187, entry by entry. -/
def addLocal (x : I → F) (r : I → F) (p : Part I F) : I → F :=
  (List.range p.nv).foldl (fun r i => upd r (p.v i) (r (p.v i) + p.residual (p.read x) i)) r

/-- `GridOperator::residual(x,r)` with a zero `r`: all local residuals are added, then `postAssembly`, residualengine.hh:228-233. -/
def residual (t : Trafo I F) (parts : List (Part I F)) (x : I → F) : I → F :=
  constrainResidual t (parts.foldl (addLocal x) fun _ => 0)

/-- What is scattered into the Jacobian at `x`: jacobianengine.hh:158-172. -/
def Part.matrix (p : Part I F) (x : I → F) : JacobianPart I F := ⟨p.nv, p.nu, p.v, p.u, p.jacobian (p.read x)⟩

/-- `GridOperator::jacobian(x,a)` with a zero matrix, jacobianengine.hh:197-210. -/
def jacobian (t : Trafo I F) (symmetric : Bool) (ci0 : Nat → I) (pattern : List (PatternPart I)) (parts : List (Part I F))
    (x : I → F) : Option (Matrix I F) :=
  assembleJacobian t t symmetric ci0 pattern (parts.map fun p => p.matrix x)

/-- linearproblem.hh:188-302  `apply(false)`: `hanging` is `_hanging_node_modifications`, `solve` the linear solver (with an exact
arithmetic, so that the requested reduction does not matter), `none` an assembly that fails. -/
def applyLinear (t : Trafo I F) (symmetric : Bool) (ci0 : Nat → I) (pattern : List (PatternPart I)) (parts : List (Part I F))
    (solve : Matrix I F → (I → F) → I → F) (hanging : Bool) (x : I → F) : Option (I → F) := do
  let x := if hanging then backTransform t false (setShifted t 0 x) else x
  let m ← jacobian t symmetric ci0 pattern parts x
  let r := residual t parts x
  let z := solve m r
  let x := if hanging then setShifted t 0 x else x
  let x := fun i => x i - z i
  return if hanging then backTransform t false x else x

/-- solver/newton.hh:102-112 and 344-354  the modifications for hanging nodes in `prepareStep` and in `updateDefect`; the same in
newton/newton.hh:198-209 and 563-573. -/
def interpolate (t : Trafo I F) (x : I → F) : I → F :=
  let dirichletValues := setShifted t 0 x
  let x := setConstrained t 0 x
  let x := copyConstrained t dirichletValues x
  backTransform t false x

/-- solver/newton.hh:180-300 with `_hanging_node_modifications`: the solution during a run of Newton's method whose line searches add
the corrections of the list, each with its damping factor: `updateDefect` before the loop, and in every line search after the solution
was updated (linesearch.hh:70, 121); `prepareStep` may repeat it (`true`). -/
def iterate (t : Trafo I F) (steps : List (Bool × F × (I → F))) (x : I → F) : I → F :=
  steps.foldl (fun x s =>
    let x := if s.1 then interpolate t x else x
    interpolate t fun i => x i - s.2.1 * s.2.2 i) (interpolate t x)

end Verif.ConstrainedSolve
