import Verif.Model.BlockPrecond
import Verif.Spec.BlockOperators
import Mathlib.Algebra.BigOperators.Group.Finset.Basic
/-
Vocabulary for the properties of the block preconditioners.
-/
namespace Verif.BlockPrec.Spec

open GridAssembler LocalOp LocalOp.Spec BlockOp BlockOp.Spec

variable {K : Type} [Field K]

/-- The lower factor stored in `a`: ones on the diagonal. -/
def lower (a : Nat → Nat → K) (i k : Nat) : K := if k < i then a i k else if k = i then 1 else 0

/-- The upper factor stored in `a`. -/
def upper (a : Nat → Nat → K) (k j : Nat) : K := if k ≤ j then a k j else 0

/-- `a` and `inv` are an LU decomposition of `A` with row permutation: the row `i` of `A` is the row `inv i` of the product of
the factors, and the upper factor has a diagonal without zeros. -/
structure IsLU (n : Nat) (A a : Nat → Nat → K) (inv : Nat → Nat) : Prop where
  lt : ∀ i < n, inv i < n
  injective : ∀ i < n, ∀ j < n, inv i = inv j → i = j
  product : ∀ i < n, ∀ j < n, A i j = ∑ k ∈ Finset.range n, lower a (inv i) k * upper a k j
  pivot : ∀ i < n, a i i ≠ 0

/-- A local operator for a scalar problem: all degrees of freedom belong to the leaf space 0. -/
structure ScalarSpace (lop : Lop K) : Prop where
  volume : ∀ c x, ∀ q ∈ lop.jacobianVolume c x, q.1.1.1 = 0 ∧ q.1.2.1 = 0
  skeleton : ∀ ig c xs o xn, ∀ q ∈ lop.jacobianSkeleton ig c xs o xn, q.1.2.1.1 = 0 ∧ q.1.2.2.1 = 0
  boundary : ∀ ig c x, ∀ q ∈ lop.jacobianBoundary ig c x, q.1.1.1 = 0 ∧ q.1.2.1 = 0

/-- `solve` inverts the diagonal blocks of the matrix `M`. -/
def InvertsBlocks (cells : List Cell) (dofs : Nat → List LDof) (M : GDof → GDof → K)
    (solve : Nat → (LDof → K) → LDof → K) : Prop :=
  ∀ c ∈ cells, ∀ r, ∀ a ∈ dofs c.id, dot (dofs c.id) (fun b => M (c.id, a) (c.id, b)) (solve c.id r) = r a

/-- The vector that a block SOR sweep from `v₀` to `v` uses at a cell before which the cells `pre` have been treated. -/
def mixed (pre : List Cell) (v₀ v : GDof → K) (g : GDof) : K := if g.1 ∈ ids pre then v g else v₀ g

/-- The degrees of freedom of a scalar problem. -/
def scalarDofs (size : Nat → Nat) (c : Nat) : List LDof := (List.range (size c)).map fun i => (0, i)

/-- The history of a preconditioner: the calls of a user, from the construction on. `none`: one of them threw. -/
def run {U : Type} (ops : List (PrecOp U)) : Option (PrecState U) := ops.foldlM precStep PrecState.initial

/-- The linearisation point that was set last. -/
def lastPoint {U : Type} : List (PrecOp U) → Option U
  | [] => none
  | .setLinearizationPoint u :: ops => (lastPoint ops).orElse fun _ => some u
  | _ :: ops => lastPoint ops

end Verif.BlockPrec.Spec
