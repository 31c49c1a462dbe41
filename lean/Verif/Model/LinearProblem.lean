import Mathlib.Algebra.Field.Defs
import Mathlib.Order.Defs.LinearOrder
import Mathlib.Algebra.Module.Defs
/-
Model of the solver for linear stationary problems (dune/pdelab/stationary/linearproblem.hh).

Matrices are linear maps given as functions; the zero function is a matrix that was allocated but never assembled. Timings, output and
the treatment of hanging nodes are not modelled; the defect is assumed to be nonzero where it is divided by.
-/
namespace Verif.LinearProblem

variable {K X : Type} [Field K] [LinearOrder K] [AddCommGroup X]

/-- stationary/linearproblem.hh:26-44 and backend/solver.hh:30-51  the statistics that are modelled. -/
structure Result (K : Type) where
  converged : Bool
  iterations : Nat
  reduction : K
  firstDefect : K
  defect : K

/-- What the solver calls: the residual, the Jacobian at a point, the norm used by the linear solver and the linear solver itself, which
returns whether it converged, the correction, the reduction it achieved and the number of iterations. Used for `apply`, linearproblem.hh:188-302. -/
structure Problem (K X : Type) where
  residual : X → X
  jacobian : X → X → X
  norm : X → K
  solve : (X → X) → X → K → Bool × X × K × Nat

/-- The members: solution, `*_jacobian`, `_keep_matrix`, `_reduction`, `_min_defect`, `_res`. Used for `apply`, linearproblem.hh:188-302. -/
structure State (K X : Type) where
  x : X
  matrix : Option (X → X)
  keepMatrix : Bool
  reduction : K
  minDefect : K
  result : Option (Result K)

/-- linearproblem.hh:188-302  `apply(reuse_matrix)`. -/
def apply (P : Problem K X) (reuse : Bool) (s : State K X) : State K X :=
  let allocated := s.matrix.getD fun _ => 0
  let matrix := if reuse then allocated else P.jacobian s.x
  let r := P.residual s.x
  let defect := P.norm r
  let out := P.solve matrix r (max s.reduction (s.minDefect / defect))
  { s with
    x := s.x - out.2.1
    matrix := if s.keepMatrix then some matrix else none
    result := some ⟨out.1, out.2.2.2, out.2.2.1, defect, defect * out.2.2.1⟩ }

/-- linearproblem.hh:304-309  `discardMatrix`. -/
def discardMatrix (s : State K X) : State K X := { s with matrix := none }

/-- The public operations: `apply(x, reuse)` with a new initial guess (linearproblem.hh:182-185), `apply(reuse)`, `discardMatrix`,
`setKeepMatrix` (164-167). -/
inductive Op (X : Type) where
  | apply (x : X) (reuse : Bool)
  | applyAgain (reuse : Bool)
  | discardMatrix
  | setKeepMatrix (b : Bool)

/-- One operation. Source: the methods of linearproblem.hh:152-323. -/
def step (P : Problem K X) (s : State K X) : Op X → State K X
  | .apply x reuse => apply P reuse { s with x := x }
  | .applyAgain reuse => apply P reuse s
  | .discardMatrix => discardMatrix s
  | .setKeepMatrix b => { s with keepMatrix := b }

/-- A history of operations. Source: the methods of linearproblem.hh:152-323. -/
def run (P : Problem K X) (s : State K X) (ops : List (Op X)) : State K X := ops.foldl (step P) s

end Verif.LinearProblem
