import Verif.Model.IterativeBlocks
import Verif.Spec.BlockPrecond
/-
Vocabulary for the block Jacobi preconditioner with iteratively inverted blocks.
-/
namespace Verif.BlockPrec.Spec

open GridAssembler LocalOp LocalOp.Spec BlockOp BlockOp.Spec

variable {K : Type} [Field K]

/-- The degrees of freedom of a cell in the order in which they are stored. -/
def StoredAs (dofs : List LDof) (localIndex : LDof → Nat) : Prop := dofs.map localIndex = List.range dofs.length

/-- The solver returns solutions of the system it is given. -/
def SolvesExactly (solver : LocalSolver K) (dofs : List LDof) : Prop :=
  ∀ system y₀ z y n, solver system y₀ z = some (y, n) → ∃ r, system.apply y = some r ∧ ∀ a ∈ dofs, r a = z a

/-- The linearisation point that is handed over: none in the linear case. -/
def handed (lop : Lop K) (x : LDof → K) : Option (LDof → K) := if lop.isLinear then none else some x

end Verif.BlockPrec.Spec
