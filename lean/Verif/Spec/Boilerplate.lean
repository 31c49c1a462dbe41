import Verif.Model.Boilerplate
import Verif.Spec.ParallelSolvers
import Verif.Spec.Constraints
/-
Specification of the convenience classes (C199, C200).
-/
namespace Verif.Boilerplate.Spec

open Verif.ParallelHelper Verif.ParallelHelper.Spec Verif.ParallelSolvers Verif.Constraints

/-- DOF number `k` of entity `e` is constrained on the process that owns it, the lowest rank on which the entity is interior or border. -/
def OwnerConstrained {K : Type} (L : Layout) (cc : Boilerplate.Constraints K) (e k : Nat) : Prop :=
  ∃ (o : Nat) (c : Copy) (i : Nat), Lowest L e o ∧ c ∈ L.copies o ∧ c.ent = e ∧ c.dofs[k]? = some i ∧ (cc o).Constrained i

/-- All processes that have a DOF agree whether it is constrained. -/
def Agree {K : Type} (L : Layout) (cc : Boilerplate.Constraints K) : Prop :=
  ∀ p q, p < L.procs → q < L.procs → ∀ c ∈ L.copies p, ∀ c' ∈ L.copies q, c.ent = c'.ent → ∀ k i j : Nat, c.dofs[k]? = some i →
    c'.dofs[k]? = some j → ((cc p).Constrained i ↔ (cc q).Constrained j)

end Verif.Boilerplate.Spec
