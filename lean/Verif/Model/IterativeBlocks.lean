import Verif.Model.BlockPrecond
/-
Model of the application of the block Jacobi preconditioner that inverts its blocks by an iterative solver,
dune/pdelab/backend/istl/matrixfree/iterativeblockjacobipreconditioner.hh.

The iterative solver of dune-istl is a parameter. Local vectors are functions of the local degrees of freedom, except in the point Jacobi
preconditioner, which works on the entries in the order in which they are stored.
-/
namespace Verif.BlockPrec

open GridAssembler LocalOp BlockOp

variable {K : Type} [Field K]

/-- iterativeblockjacobipreconditioner.hh:180-183  `WeightedPointDiagonalAccumulationView::accumulate`: what is added to the entries. `localIndex` is
that of the local space (gridfunctionspace/localfunctionspace.hh:245-248). -/
def diagonalView (localIndex : LDof → Nat) (weight : K) (calls : Calls LDof K) : Calls Nat K :=
  calls.map fun q => (localIndex q.1, weight * q.2)

/-- iterativeblockjacobipreconditioner.hh:337-353  `alpha_volume` with the weight of the result vector. -/
def iterativeAlpha (allPartitions : Bool) (point : AlphaLop K) (c : Cell) (size : Nat) (localIndex : LDof → Nat) (weight : K) (x : LDof → K)
    (cache : List K) : List K :=
  iterativeSetup cache size (diagonalView localIndex weight (assembleLocalPointDiagonal allPartitions point c x))

/-- Accumulation into a local vector of zeros by a view with a weight. Source: gridfunctionspace/localvector.hh:77-83, used in iterativeblockjacobipreconditioner.hh:116-117. -/
def weighted (weight : K) (calls : Calls LDof K) : LDof → K :=
  calls.foldl (fun y q => upd y q.1 (y q.1 + weight * q.2)) fun _ => 0

/-- iterativeblockjacobipreconditioner.hh:114-122  `BlockDiagonalOperator::apply`. `u` is the linearisation point, `none` the null pointer. -/
def blockApply (allPartitions : Bool) (block : Lop K) (c : Cell) (weight : K) (u : Option (LDof → K)) (z : LDof → K) : Option (LDof → K) :=
  match block.isLinear, u with
  | true, _ => (applyLocalDiagonalBlock allPartitions block c z z).map (weighted weight)
  | false, some u => (applyLocalDiagonalBlock allPartitions block c u z).map (weighted weight)
  | false, none => none

/-- iterativeblockjacobipreconditioner.hh:124-128  `BlockDiagonalOperator::applyscaleadd`. -/
def blockApplyScaleAdd (allPartitions : Bool) (block : Lop K) (c : Cell) (weight : K) (u : Option (LDof → K)) (alpha : K) (z y : LDof → K) :
    Option (LDof → K) :=
  (blockApply allPartitions block c weight u z).map fun t a => y a + alpha * t a

/-- The options that matter here. Source: `BlockSolverOptions`, iterativeblockjacobipreconditioner.hh:206-236. -/
structure BlockOptions (K : Type) where
  precondition : Bool
  weight : K

/-- What the solver is given: the operator, by its two methods, and the preconditioner. Source: iterativeblockjacobipreconditioner.hh:366-377. -/
structure LocalSystem (K : Type) where
  apply : (LDof → K) → Option (LDof → K)
  applyScaleAdd : K → (LDof → K) → (LDof → K) → Option (LDof → K)
  precondition : List K → List K

/-- An iterative solver: from the system, the initial value and the right hand side to the result and the number of iterations, unless it throws.
Source: `IterativeSolver`, iterativeblockjacobipreconditioner.hh:373-388. -/
abbrev LocalSolver (K : Type) := LocalSystem K → (LDof → K) → (LDof → K) → Option ((LDof → K) × Nat)

/-- iterativeblockjacobipreconditioner.hh:356-395 and 403-443  `jacobian_apply_volume`: the result vector and the statistics after it. `x` is the
linearisation point of the overload for nonlinear problems, `none` means the other one. `none` as result: the assertion fails, or the solver throws. -/
def iterativeApply (allPartitions : Bool) (block : Lop K) (c : Cell) (solver : LocalSolver K) (options : BlockOptions K) (requireSetup : Bool)
    (invDiagonal : List K) (weight : K) (x : Option (LDof → K)) (z y : LDof → K) (statistics : List Nat) : Option ((LDof → K) × List Nat) :=
  if requireSetup then none
  else
    (solver ⟨blockApply allPartitions block c weight x, blockApplyScaleAdd allPartitions block c weight x,
      pointJacobi options.precondition options.weight invDiagonal⟩ (fun _ => 0) z).map fun r => (fun a => y a + r.1 a, statistics ++ [r.2])

end Verif.BlockPrec
