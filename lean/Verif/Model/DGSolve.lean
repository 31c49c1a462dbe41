import Verif.Model.TransientSolve
import Mathlib.Logic.Equiv.Fin.Basic
/-
The discontinuous Galerkin method for the (instationary) convection-diffusion equation as what the grid operator sees of it: the contributions of the local
operator of dune/pdelab/localoperator/convectiondiffusiondg.hh on cells, inner faces and boundary faces, and the pattern. There are no constraints.
-/
namespace Verif.LocalOp.DG
open ConstrainedSolve

variable {K P Q : Type} [Field K] [LinearOrder K] {d N : Nat} {n : Fin N → Nat} [Inhabited ((c : Fin N) × Fin (n c))]

/-- `alpha_volume` of a cell. Source: gridoperator/default/residualengine.hh:264-270, jacobianengine.hh:242-248 with convectiondiffusiondg.hh:104-266. -/
def volumePart (op : Op K) (mesh : Mesh K P Q d n) (c : Fin N) : Part ((c : Fin N) × Fin (n c)) K :=
  Part.ofCalls (Equiv.refl _) (fun i => ⟨c, i⟩) (alphaVolume op (mesh.geo c) (mesh.par c) (mesh.lfs c) (mesh.lfs c))
    fun _ => jacobianVolume op (mesh.geo c) (mesh.par c) (mesh.lfs c) (mesh.lfs c)

/-- `lambda_volume` of a cell, which has no Jacobian. Source: gridoperator/default/residualengine.hh:272-277 with convectiondiffusiondg.hh:1046-1075. -/
def loadPart (op : Op K) (mesh : Mesh K P Q d n) (c : Fin N) : Part ((c : Fin N) × Fin (n c)) K :=
  Part.ofCalls (Equiv.refl _) (fun i => ⟨c, i⟩) (fun _ => lambdaVolume op (mesh.geo c) (mesh.par c) (mesh.lfs c)) fun _ => []

/-- `alpha_skeleton` of an inner face: the local vectors of the two cells, and four local matrices, are one here. Source:
gridoperator/default/residualengine.hh:279-290, jacobianengine.hh:250-261 with convectiondiffusiondg.hh:268-669. -/
def skeletonPart (op : Op K) (mesh : Mesh K P Q d n) (F : Face K P Q d N) : Part ((c : Fin N) × Fin (n c)) K :=
  Part.ofCalls finSumFinEquiv (Sum.elim (fun i => ⟨F.inside, i⟩) fun i => ⟨F.outside, i⟩)
    (alphaSkeleton op F.geo (mesh.geo F.inside) (mesh.geo F.outside) (mesh.par F.inside) (mesh.par F.outside)
      (mesh.lfs F.inside) (mesh.lfs F.outside) (mesh.lfs F.inside) (mesh.lfs F.outside))
    fun _ => jacobianSkeleton op F.geo (mesh.geo F.inside) (mesh.geo F.outside) (mesh.par F.inside) (mesh.par F.outside)
      (mesh.lfs F.inside) (mesh.lfs F.outside) (mesh.lfs F.inside) (mesh.lfs F.outside)

/-- `alpha_boundary` of a boundary face. Source: gridoperator/default/residualengine.hh:302-308, jacobianengine.hh:263-269 with
convectiondiffusiondg.hh:671-1044. If a method throws there is no result: see `throws`. -/
def boundaryPart (op : Op K) (mesh : Mesh K P Q d n) (F : BoundaryFace K P Q d N) : Part ((c : Fin N) × Fin (n c)) K :=
  Part.ofCalls (Equiv.refl _) (fun i => ⟨F.inside, i⟩)
    (fun x => (alphaBoundary op F.geo (mesh.geo F.inside) (mesh.par F.inside) F.par (mesh.lfs F.inside) (mesh.lfs F.inside) x).getD [])
    fun _ => (jacobianBoundary op F.geo (mesh.geo F.inside) (mesh.par F.inside) F.par (mesh.lfs F.inside) (mesh.lfs F.inside)).getD []

/-- Whether the assembly of residual or Jacobian at `x` ends with an exception, convectiondiffusiondg.hh:802-806, 1000-1004. -/
def throws (op : Op K) (mesh : Mesh K P Q d n) (x : (c : Fin N) × Fin (n c) → K) : Bool :=
  mesh.boundary.any fun F =>
    (alphaBoundary op F.geo (mesh.geo F.inside) (mesh.par F.inside) F.par (mesh.lfs F.inside) (mesh.lfs F.inside) fun i => x ⟨F.inside, i⟩).isNone ||
    (jacobianBoundary op F.geo (mesh.geo F.inside) (mesh.par F.inside) F.par (mesh.lfs F.inside) (mesh.lfs F.inside)).isNone

/-- All contributions (gridoperator/default/assembler.hh:84-279; their order does not matter). -/
def meshParts (op : Op K) (mesh : Mesh K P Q d n) : List (Part ((c : Fin N) × Fin (n c)) K) :=
  (List.finRange N).map (volumePart op mesh) ++ (List.finRange N).map (loadPart op mesh) ++ mesh.inner.map (skeletonPart op mesh) ++
    mesh.boundary.map (boundaryPart op mesh)

/-- The pattern of an inner face: all pairs of a degree of freedom of one cell and one of the other. Source: localoperator/pattern.hh:28-55. -/
def skeletonPattern (s t : Fin N) : Assembly.PatternPart ((c : Fin N) × Fin (n c)) where
  nv := n s + n t
  nu := n s + n t
  v i := if h : i < n s + n t then Sum.elim (fun i => ⟨s, i⟩) (fun i => ⟨t, i⟩) (finSumFinEquiv.symm ⟨i, h⟩) else default
  u i := if h : i < n s + n t then Sum.elim (fun i => ⟨s, i⟩) (fun i => ⟨t, i⟩) (finSumFinEquiv.symm ⟨i, h⟩) else default
  links := ((List.range (n s)).flatMap fun i => (List.range (n t)).map fun j => (i, n s + j)) ++
    (List.range (n t)).flatMap fun i => (List.range (n s)).map fun j => (n s + i, j)

/-- The pattern (gridoperator/default/patternengine.hh:211-234 with `FullVolumePattern` and `FullSkeletonPattern`, localoperator/pattern.hh:18-55). -/
def meshPattern (mesh : Mesh K P Q d n) : List (Assembly.PatternPart ((c : Fin N) × Fin (n c))) :=
  (List.finRange N).map (fun c => fullVolumePattern (Equiv.refl _) fun i => ⟨c, i⟩) ++ mesh.inner.map fun F => skeletonPattern F.inside F.outside

/-- Coefficients and boundary conditions that depend on time (`setTime` of the parameter class, convectiondiffusiondg.hh:1077-1082), on a mesh. -/
structure Transient (K P Q : Type) (d : Nat) {N : Nat} (n : Fin N → Nat) where
  geo : Fin N → CellGeo K P d
  lfs : (c : Fin N) → Basis K P d (n c)
  par : K → Fin N → CellParam K P d
  inner : List (Face K P Q d N)
  boundary : List (K → BoundaryFace K P Q d N)

/-- The problem at a time, convectiondiffusiondg.hh:1077-1082. -/
def Transient.at (pb : Transient K P Q d n) (τ : K) : Mesh K P Q d n where
  geo := pb.geo
  par := pb.par τ
  lfs := pb.lfs
  inner := pb.inner
  boundary := pb.boundary.map fun F => F τ

/-- The spatial operator, convectiondiffusiondg.hh:104-1075. -/
def Transient.spatial (op : Op K) (pb : Transient K P Q d n) : LocalParts ((c : Fin N) × Fin (n c)) K := fun k e τ =>
  match k with
  | .uvVolume => if h : e < N then some (volumePart op (pb.at τ) ⟨e, h⟩) else none
  | .vVolume => if h : e < N then some (loadPart op (pb.at τ) ⟨e, h⟩) else none
  | .uvSkeleton => pb.inner[e]?.map (skeletonPart op (pb.at τ))
  | .uvBoundary => pb.boundary[e]?.map fun F => boundaryPart op (pb.at τ) (F τ)
  | _ => none

/-- The mass operator of a cell: `L2` for a space that is not a tree, l2.hh:45-127. -/
def massPart (intorderadd : Int) (scaling : K) (pb : Transient K P Q d n) (c : Fin N) : Part ((c : Fin N) × Fin (n c)) K :=
  Part.ofCalls (Equiv.refl _) (fun i => ⟨c, i⟩) (L2.scalarAlphaVolume intorderadd scaling (pb.geo c) (pb.lfs c))
    fun _ => L2.scalarJacobianVolume intorderadd scaling (pb.geo c) (pb.lfs c)

/-- The temporal operator, l2.hh:45-127. -/
def Transient.temporal (intorderadd : Int) (scaling : K) (pb : Transient K P Q d n) : LocalParts ((c : Fin N) × Fin (n c)) K := fun k e _ =>
  match k with
  | .uvVolume => if h : e < N then some (massPart intorderadd scaling pb ⟨e, h⟩) else none
  | _ => none

/-- The calls of the grid assembler, gridoperator/default/assembler.hh:84-279: all cells, inner and boundary faces (cell by cell; their order does not matter). -/
def Transient.trace (pb : Transient K P Q d n) : List (OneStep.Kind × Nat) :=
  (List.range N).map (fun c => (.uvVolume, c)) ++ (List.range N).map (fun c => (.vVolume, c)) ++
    (List.range pb.inner.length).map (fun F => (.uvSkeleton, F)) ++ (List.range pb.boundary.length).map fun F => (.uvBoundary, F)

/-- The pattern: of the spatial operator, which contains that of the temporal one, localoperator/pattern.hh:18-55. -/
def Transient.pattern (pb : Transient K P Q d n) : List (Assembly.PatternPart ((c : Fin N) × Fin (n c))) := meshPattern (pb.at 0)

end Verif.LocalOp.DG
