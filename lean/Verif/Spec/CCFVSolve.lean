import Verif.Model.CCFVSolve
import Verif.Spec.MaximumPrinciple
import Verif.Spec.TransientSolve
/-
The equations of the cell-centred finite volume method.
-/
namespace Verif.LocalOp.Spec
open Matrix GridAssembler CCFV OneStep

variable {K P Q I : Type} [Field K] [LinearOrder K] {d : Nat}

/-- Container indices are in one-to-one correspondence with the cells. -/
structure Numbering (cells : List Cell) (dof : Nat → I) : Prop where
  injective : ∀ k ∈ ids cells, ∀ l ∈ ids cells, dof k = dof l → k = l
  surjective : ∀ i, ∃ k ∈ ids cells, dof k = i

/-- The values in the cells. -/
def inCells (dof : Nat → I) (x : I → K) : Nat → K := fun k => x (dof k)

/-- What a cell loses: reaction minus sources, and the fluxes through its faces. -/
def cellLoss (allPartitions : Bool) (pb : Problem K P Q d) (u : Nat → K) (c : Cell) : K :=
  production pb u c.id + cellInteriorFlux allPartitions pb u c + cellBoundaryFlux pb u c

/-- In every cell reaction and sources balance the fluxes. -/
def Balanced (allPartitions : Bool) (pb : Problem K P Q d) (u : Nat → K) : Prop := ∀ c ∈ pb.cells, cellLoss allPartitions pb u c = 0

/-- The content of a cell. -/
def content (pb : Problem K P Q d) (u : Nat → K) (c : Cell) : K := pb.capacity c.id (pb.cellGeo c.id).center * u c.id * (pb.cellGeo c.id).volume

/-- A well-posed problem on a grid. -/
structure WellPosed (allPartitions : Bool) (pb : Problem K P Q d) : Prop where
  grid : ProperGrid allPartitions pb.cells
  shared : SharedFaces allPartitions pb.cells
  consistent : ConsistentFaces allPartitions pb
  stable : StableData pb
  accumulation : NoAccumulation allPartitions pb

/-- The equations of all stages of a step: `∑_{s ≤ r} (a_rs f1 content(u_s) + b_rs f0 loss(u_s)) = 0` in every cell. -/
def StageBalances (allPartitions : Bool) (pb : Transient K P Q d) (S : Scheme K) (time dt : K) (mode : DTMode) (u : Nat → Nat → K) : Prop :=
  ∀ r, 1 ≤ r → r ≤ S.s → ∀ c ∈ pb.base.cells, ∑ s ∈ Finset.range (r + 1),
    (S.a r s * (factors mode dt).2 * content pb.base (u s) c + S.b r s * (factors mode dt).1 * cellLoss allPartitions (pb.at (time + S.d s * dt)) (u s) c) = 0

end Verif.LocalOp.Spec
