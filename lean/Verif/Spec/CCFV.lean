import Verif.Model.CCFVAssembly
/-
Vocabulary for the properties of the cell-centred finite volume scheme on a whole grid.
-/
namespace Verif.LocalOp.Spec

open Matrix GridAssembler CCFV

variable {K P Q : Type} [Field K] [LinearOrder K] {d : Nat}

/-- The intersection connects two cells of the grid view. -/
def IsInterior (allPartitions : Bool) (i : Isect) : Prop :=
  i.neighbor = true ∧ (allPartitions = true ∨ i.outsideContained = true)

instance (allPartitions : Bool) (i : Isect) : Decidable (IsInterior allPartitions i) := by
  unfold IsInterior; infer_instance

/-- The intersection is on the boundary of the domain. -/
def IsBoundary (i : Isect) : Prop := i.neighbor = false ∧ i.boundary = true

instance (i : Isect) : Decidable (IsBoundary i) := by unfold IsBoundary; infer_instance

/-- The indices of the cells. -/
def ids (cells : List Cell) : List Nat := cells.map Cell.id

/-- Cells have different indices, and the cell outside of an intersection is a cell of the grid. -/
structure ProperGrid (allPartitions : Bool) (cells : List Cell) : Prop where
  nodup : (ids cells).Nodup
  outside_mem : ∀ c ∈ cells, ∀ i ∈ c.isects, IsInterior allPartitions i → i.outside ∈ ids cells
  not_self : ∀ c ∈ cells, ∀ i ∈ c.isects, IsInterior allPartitions i → i.outside ≠ c.id

/-- The area of the face. -/
def area (geo : FaceGeo K P Q d) : K := geo.integrationElement geo.center * geo.refVolume

/-- Normal component of the velocity at the centre of a face of cell `c`, and of the diffusion tensor in the cell. -/
def normalVelocity (pb : Problem K P Q d) (c face : Nat) : K :=
  (pb.cellPar c).b ((pb.faceGeo c face).inInside (pb.faceGeo c face).center) ⬝ᵥ (pb.faceGeo c face).centerUnitOuterNormal

def normalDiffusion (pb : Problem K P Q d) (c face inCell : Nat) : K :=
  (pb.faceGeo c face).centerUnitOuterNormal ⬝ᵥ
    ((pb.cellPar inCell).A (pb.cellGeo inCell).center *ᵥ (pb.faceGeo c face).centerUnitOuterNormal)

def cellCentre (pb : Problem K P Q d) (c : Nat) : Fin d → K := (pb.cellGeo c).global (pb.cellGeo c).center

/-- The harmonic mean of the diffusion coefficients (with the regularisation of the code). -/
def meanDiffusion (pb : Problem K P Q d) (c face outside : Nat) : K :=
  2 / (1 / (normalDiffusion pb c face c + 1 / 10 ^ 30) + 1 / (normalDiffusion pb c face outside + 1 / 10 ^ 30))

/-- The flux out of cell `c` through a face it shares with the cell `outside`: upwinded convection and two-point diffusion. -/
def interiorFlux (pb : Problem K P Q d) (u : Nat → K) (c face outside : Nat) : K :=
  ((if normalVelocity pb c face ≥ 0 then u c else u outside) * normalVelocity pb c face +
    meanDiffusion pb c face outside * (u c - u outside) / pb.twoNorm (cellCentre pb c - cellCentre pb outside)) *
  area (pb.faceGeo c face)

/-- The flux out of cell `c` through a face on the boundary of the domain, as prescribed by the boundary conditions. -/
def boundaryFlux (pb : Problem K P Q d) (u : Nat → K) (c face : Nat) : K :=
  match (pb.facePar c face).bctype (pb.faceGeo c face).center with
  | .dirichlet =>
    let g := (pb.cellPar c).g ((pb.faceGeo c face).inInside (pb.faceGeo c face).center)
    (normalVelocity pb c face * g + normalDiffusion pb c face c * (u c - g) /
        pb.twoNorm (cellCentre pb c - (pb.faceGeo c face).global (pb.faceGeo c face).center)) * area (pb.faceGeo c face)
  | .neumann => (pb.facePar c face).j (pb.faceGeo c face).center * area (pb.faceGeo c face)
  | .outflow =>
    (normalVelocity pb c face * u c + (pb.facePar c face).o (pb.faceGeo c face).center) * area (pb.faceGeo c face)
  | .none => 0

/-- Reaction minus source, integrated over the cell. -/
def production (pb : Problem K P Q d) (u : Nat → K) (c : Nat) : K :=
  ((pb.cellPar c).c (pb.cellGeo c).center * u c - (pb.cellPar c).f (pb.cellGeo c).center) * (pb.cellGeo c).volume

/-- The boundary fluxes of a cell. -/
def cellBoundaryFlux (pb : Problem K P Q d) (u : Nat → K) (c : Cell) : K :=
  ((c.isects.filter IsBoundary).map fun i => boundaryFlux pb u c.id i.face).sum

/-- The fluxes of a cell into other cells. -/
def cellInteriorFlux (allPartitions : Bool) (pb : Problem K P Q d) (u : Nat → K) (c : Cell) : K :=
  ((c.isects.filter (IsInterior allPartitions)).map fun i => interiorFlux pb u c.id i.face i.outside).sum

/-- Every face between two cells is an intersection of both (with the same multiplicity): the intersections that lead to
`c` from elsewhere are those that lead from `c` to elsewhere. -/
def SharedFaces (allPartitions : Bool) (cells : List Cell) : Prop :=
  ∀ c ∈ cells,
    List.Perm
      (cells.flatMap fun c' => (c'.isects.filter fun i => IsInterior allPartitions i ∧ i.outside = c.id).map fun i =>
        (c'.id, i.face))
      ((c.isects.filter (IsInterior allPartitions)).map fun i => (i.outside, i.face))

/-- What the two cells of a face see of it fits together. -/
structure ConsistentFaces (allPartitions : Bool) (pb : Problem K P Q d) : Prop where
  norm_neg : ∀ x, pb.twoNorm (-x) = pb.twoNorm x
  area_eq : ∀ c ∈ pb.cells, ∀ i ∈ c.isects, IsInterior allPartitions i →
    area (pb.faceGeo i.outside i.face) = area (pb.faceGeo c.id i.face)
  normal_eq : ∀ c ∈ pb.cells, ∀ i ∈ c.isects, IsInterior allPartitions i →
    (pb.faceGeo i.outside i.face).centerUnitOuterNormal = -(pb.faceGeo c.id i.face).centerUnitOuterNormal
  velocity_eq : ∀ c ∈ pb.cells, ∀ i ∈ c.isects, IsInterior allPartitions i →
    (pb.cellPar i.outside).b ((pb.faceGeo i.outside i.face).inInside (pb.faceGeo i.outside i.face).center) =
      (pb.cellPar c.id).b ((pb.faceGeo c.id i.face).inInside (pb.faceGeo c.id i.face).center)

/-- The assumptions on geometry and coefficients under which the scheme is stable: volumes, areas and distances are not
negative, neither are capacity, reaction and diffusion, Dirichlet conditions are on the inflow boundary and outflow
conditions on the outflow boundary. -/
structure StableData (pb : Problem K P Q d) : Prop where
  volume_pos : ∀ c ∈ pb.cells, 0 < (pb.cellGeo c.id).volume
  capacity_pos : ∀ c ∈ pb.cells, 0 < pb.capacity c.id (pb.cellGeo c.id).center
  reaction_nonneg : ∀ c ∈ pb.cells, 0 ≤ (pb.cellPar c.id).c (pb.cellGeo c.id).center
  area_nonneg : ∀ c ∈ pb.cells, ∀ i ∈ c.isects, 0 ≤ area (pb.faceGeo c.id i.face)
  diffusion_nonneg : ∀ c ∈ pb.cells, ∀ i ∈ c.isects, 0 ≤ normalDiffusion pb c.id i.face c.id ∧
    0 ≤ normalDiffusion pb c.id i.face i.outside
  norm_nonneg : ∀ x, 0 ≤ pb.twoNorm x
  dirichlet : ∀ c ∈ pb.cells, ∀ i ∈ c.isects, IsBoundary i →
    (pb.facePar c.id i.face).bctype (pb.faceGeo c.id i.face).center = .dirichlet → normalVelocity pb c.id i.face ≤ 0
  outflow : ∀ c ∈ pb.cells, ∀ i ∈ c.isects, IsBoundary i →
    (pb.facePar c.id i.face).bctype (pb.faceGeo c.id i.face).center = .outflow → 0 ≤ normalVelocity pb c.id i.face

/-- There are no sinks, and nothing negative flows in. -/
structure NonnegativeSources (pb : Problem K P Q d) : Prop where
  source : ∀ c ∈ pb.cells, 0 ≤ (pb.cellPar c.id).f (pb.cellGeo c.id).center
  dirichlet : ∀ c ∈ pb.cells, ∀ i ∈ c.isects, IsBoundary i →
    (pb.facePar c.id i.face).bctype (pb.faceGeo c.id i.face).center = .dirichlet →
    0 ≤ (pb.cellPar c.id).g ((pb.faceGeo c.id i.face).inInside (pb.faceGeo c.id i.face).center)
  neumann : ∀ c ∈ pb.cells, ∀ i ∈ c.isects, IsBoundary i →
    (pb.facePar c.id i.face).bctype (pb.faceGeo c.id i.face).center = .neumann →
    (pb.facePar c.id i.face).j (pb.faceGeo c.id i.face).center ≤ 0
  outflow : ∀ c ∈ pb.cells, ∀ i ∈ c.isects, IsBoundary i →
    (pb.facePar c.id i.face).bctype (pb.faceGeo c.id i.face).center = .outflow →
    (pb.facePar c.id i.face).o (pb.faceGeo c.id i.face).center ≤ 0

/-- `u` is the result of an implicit Euler step of size `dt` from `uold`: `M u - M uold + dt R(u) = 0`, where `M` is assembled
with the temporal operator and `R` with the spatial one. -/
def ImplicitEulerStep (M R : (Nat → K) → Nat → K) (cells : List Cell) (dt : K) (uold u : Nat → K) : Prop :=
  ∀ c ∈ cells, M u c.id - M uold c.id + dt * R u c.id = 0

end Verif.LocalOp.Spec
