import Verif.Spec.CCFV
/-
The maximum principle for the cell-centred finite volume scheme.
-/
namespace Verif.LocalOp.Spec

open Matrix GridAssembler CCFV

variable {K P Q : Type} [Field K] [LinearOrder K] {d : Nat}

/-- The flow out of a cell through a boundary face where the scheme uses the velocity. -/
def boundaryOutflow (pb : Problem K P Q d) (c face : Nat) : K :=
  match (pb.facePar c face).bctype (pb.faceGeo c face).center with
  | .dirichlet => normalVelocity pb c face * area (pb.faceGeo c face)
  | .outflow => normalVelocity pb c face * area (pb.faceGeo c face)
  | _ => 0

/-- The flow out of a cell: the sum of the normal velocities of its faces times their areas. It vanishes for incompressible flows (with
impermeable Neumann boundary). -/
def netOutflow (allPartitions : Bool) (pb : Problem K P Q d) (c : Cell) : K :=
  ((c.isects.filter (IsInterior allPartitions)).map fun i => normalVelocity pb c.id i.face * area (pb.faceGeo c.id i.face)).sum +
  ((c.isects.filter IsBoundary).map fun i => boundaryOutflow pb c.id i.face).sum

/-- How strongly the value of a cell depends on the one behind an inner face: by diffusion or inflow. -/
def coupling (pb : Problem K P Q d) (c face outside : Nat) : K :=
  (meanDiffusion pb c face outside / pb.twoNorm (cellCentre pb c - cellCentre pb outside) - min (normalVelocity pb c face) 0) *
    area (pb.faceGeo c face)

/-- How strongly the value of a cell depends on the boundary value at a Dirichlet face. -/
def boundaryCoupling (pb : Problem K P Q d) (c face : Nat) : K :=
  (normalDiffusion pb c face c / pb.twoNorm (cellCentre pb c - (pb.faceGeo c face).global (pb.faceGeo c face).center) -
    normalVelocity pb c face) * area (pb.faceGeo c face)

/-- There is a path of faces with positive coupling from the cell to the Dirichlet boundary. -/
inductive Reaches (allPartitions : Bool) (pb : Problem K P Q d) : Cell → Prop
  | boundary (c : Cell) (i : Isect) : i ∈ c.isects → IsBoundary i →
      (pb.facePar c.id i.face).bctype (pb.faceGeo c.id i.face).center = .dirichlet → 0 < boundaryCoupling pb c.id i.face →
      Reaches allPartitions pb c
  | inner (c c' : Cell) (i : Isect) : i ∈ c.isects → IsInterior allPartitions i → 0 < coupling pb c.id i.face i.outside → c' ∈ pb.cells →
      c'.id = i.outside → Reaches allPartitions pb c' → Reaches allPartitions pb c

/-- What the outflow and the reaction take out of a cell with value one. It must not be negative. -/
def NoAccumulation (allPartitions : Bool) (pb : Problem K P Q d) : Prop :=
  ∀ c ∈ pb.cells, 0 ≤ (pb.cellPar c.id).c (pb.cellGeo c.id).center * (pb.cellGeo c.id).volume + netOutflow allPartitions pb c

/-- The data are bounded by `M`: so are the Dirichlet values, nothing flows in through the other boundaries, and the sources do not
exceed what a constant `M` would lose. For incompressible flows without reaction the latter means that there are no sources. -/
structure BoundedAbove (allPartitions : Bool) (pb : Problem K P Q d) (M : K) : Prop where
  source : ∀ c ∈ pb.cells, (pb.cellPar c.id).f (pb.cellGeo c.id).center * (pb.cellGeo c.id).volume ≤
    ((pb.cellPar c.id).c (pb.cellGeo c.id).center * (pb.cellGeo c.id).volume + netOutflow allPartitions pb c) * M
  dirichlet : ∀ c ∈ pb.cells, ∀ i ∈ c.isects, IsBoundary i →
    (pb.facePar c.id i.face).bctype (pb.faceGeo c.id i.face).center = .dirichlet →
    (pb.cellPar c.id).g ((pb.faceGeo c.id i.face).inInside (pb.faceGeo c.id i.face).center) ≤ M
  neumann : ∀ c ∈ pb.cells, ∀ i ∈ c.isects, IsBoundary i →
    (pb.facePar c.id i.face).bctype (pb.faceGeo c.id i.face).center = .neumann →
    0 ≤ (pb.facePar c.id i.face).j (pb.faceGeo c.id i.face).center
  outflow : ∀ c ∈ pb.cells, ∀ i ∈ c.isects, IsBoundary i →
    (pb.facePar c.id i.face).bctype (pb.faceGeo c.id i.face).center = .outflow →
    0 ≤ (pb.facePar c.id i.face).o (pb.faceGeo c.id i.face).center

/-- The data are bounded by `m` from below. -/
structure BoundedBelow (allPartitions : Bool) (pb : Problem K P Q d) (m : K) : Prop where
  source : ∀ c ∈ pb.cells, ((pb.cellPar c.id).c (pb.cellGeo c.id).center * (pb.cellGeo c.id).volume + netOutflow allPartitions pb c) * m ≤
    (pb.cellPar c.id).f (pb.cellGeo c.id).center * (pb.cellGeo c.id).volume
  dirichlet : ∀ c ∈ pb.cells, ∀ i ∈ c.isects, IsBoundary i →
    (pb.facePar c.id i.face).bctype (pb.faceGeo c.id i.face).center = .dirichlet →
    m ≤ (pb.cellPar c.id).g ((pb.faceGeo c.id i.face).inInside (pb.faceGeo c.id i.face).center)
  neumann : ∀ c ∈ pb.cells, ∀ i ∈ c.isects, IsBoundary i →
    (pb.facePar c.id i.face).bctype (pb.faceGeo c.id i.face).center = .neumann →
    (pb.facePar c.id i.face).j (pb.faceGeo c.id i.face).center ≤ 0
  outflow : ∀ c ∈ pb.cells, ∀ i ∈ c.isects, IsBoundary i →
    (pb.facePar c.id i.face).bctype (pb.faceGeo c.id i.face).center = .outflow →
    (pb.facePar c.id i.face).o (pb.faceGeo c.id i.face).center ≤ 0

/-- `u` solves the stationary problem with the residual `R`. -/
def Stationary (R : (Nat → K) → Nat → K) (cells : List Cell) (u : Nat → K) : Prop := ∀ c ∈ cells, R u c.id = 0

end Verif.LocalOp.Spec
