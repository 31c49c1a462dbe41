import Verif.Spec.CCFV
import Verif.Model.OneStepParams
import Mathlib.Algebra.BigOperators.Group.Finset.Basic
/-
The step size restriction of explicit finite volume schemes.
-/
namespace Verif.LocalOp.Spec

open Matrix GridAssembler CCFV Finset

variable {K P Q : Type} [Field K] [LinearOrder K] {d : Nat}

/-- How much flows out of a cell in unit time if its value is one: by reaction, through inner faces and through the boundary. -/
def outflowRate (allPartitions : Bool) (pb : Problem K P Q d) (c : Cell) : K :=
  (pb.cellPar c.id).c (pb.cellGeo c.id).center * (pb.cellGeo c.id).volume +
  ((c.isects.filter (IsInterior allPartitions)).map fun i =>
    (max (normalVelocity pb c.id i.face) 0 +
      meanDiffusion pb c.id i.face i.outside / pb.twoNorm (cellCentre pb c.id - cellCentre pb i.outside)) * area (pb.faceGeo c.id i.face)).sum +
  ((c.isects.filter IsBoundary).map fun i =>
    match (pb.facePar c.id i.face).bctype (pb.faceGeo c.id i.face).center with
    | .dirichlet =>
      normalDiffusion pb c.id i.face c.id /
        pb.twoNorm (cellCentre pb c.id - (pb.faceGeo c.id i.face).global (pb.faceGeo c.id i.face).center) * area (pb.faceGeo c.id i.face)
    | .outflow => normalVelocity pb c.id i.face * area (pb.faceGeo c.id i.face)
    | _ => 0).sum

/-- The restriction of the step size: in a step no more leaves a cell than it contains. -/
def StepSizeBound (allPartitions : Bool) (pb : Problem K P Q d) (dt : K) : Prop :=
  ∀ c ∈ pb.cells, dt * outflowRate allPartitions pb c ≤ pb.capacity c.id (pb.cellGeo c.id).center * (pb.cellGeo c.id).volume

/-- `u 0, …, u s` are the stages of a step of the scheme, where `M` is assembled with the temporal operator and `R` with the spatial one. -/
def SchemeStages (S : OneStep.Scheme K) (M R : (Nat → K) → Nat → K) (cells : List Cell) (dt : K) (u : Nat → Nat → K) : Prop :=
  ∀ r, 1 ≤ r → r ≤ S.s → ∀ c ∈ cells, (∑ i ∈ range (r + 1), (S.a r i * M (u i) c.id + S.b r i * dt * R (u i) c.id)) = 0

end Verif.LocalOp.Spec
