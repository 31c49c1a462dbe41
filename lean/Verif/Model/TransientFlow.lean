import Verif.Model.VectorMesh
import Verif.Model.TransientSolve
/-
The instationary (Navier-)Stokes equations: taylorhoodnavierstokes.hh as the spatial and navierstokesmass.hh as the temporal operator of an instationary grid
operator.
-/
namespace Verif.LocalOp.TaylorHood
open ConstrainedSolve

/-- A flow with parameters and boundary conditions that depend on time (`setTime` of the parameter class, taylorhoodnavierstokes.hh:84-88), on a mesh. `rho` is the
density in the temporal operator, navierstokesmass.hh:108; it has no `setTime`, here it does not depend on time. -/
structure Transient (K P Q I : Type) (d : Nat) {N : Nat} (n m : Fin N → Nat) where
  isSimplex : Fin N → Bool
  geo : Fin N → CellGeo K P d
  v : (c : Fin N) → Basis K P d (n c)
  p : (c : Fin N) → Basis K P d (m c)
  dof : (c : Fin N) → Dof d (n c) (m c) → I
  par : K → Fin N → Param K P Q d
  rho : Fin N → P → K
  boundary : List (K → Face K P Q d N)

variable {K P Q I : Type} [Field K] [LinearOrder K] [Inhabited I] {d N : Nat} {n m : Fin N → Nat}

/-- The problem at a time, taylorhoodnavierstokes.hh:84-88. -/
def Transient.at (pb : Transient K P Q I d n m) (τ : K) : Mesh K P Q I d n m where
  isSimplex := pb.isSimplex
  geo := pb.geo
  par := pb.par τ
  v := pb.v
  p := pb.p
  dof := pb.dof
  boundary := pb.boundary.map fun F => F τ

/-- `alpha_volume` and `jacobian_volume` of a cell, taylorhoodnavierstokes.hh:92-220, 369-501. -/
def alphaPart (s : Int) (mesh : Mesh K P Q I d n m) (c : Fin N) : Part I K :=
  Part.ofCalls (numbering d (n c) (m c)) (mesh.dof c)
    (fun x => alphaVolume (mesh.isSimplex c) s (mesh.par c) (mesh.geo c) (mesh.v c) (mesh.p c) x)
    fun x => jacobianVolume (mesh.isSimplex c) s (mesh.par c) (mesh.geo c) (mesh.v c) (mesh.p c) x

/-- `lambda_volume` of a cell, taylorhoodnavierstokes.hh:225-295. -/
def lambdaPart (s : Int) (mesh : Mesh K P Q I d n m) (c : Fin N) : Part I K :=
  Part.ofCalls (numbering d (n c) (m c)) (mesh.dof c)
    (fun _ => lambdaVolume (mesh.isSimplex c) s (mesh.par c) (mesh.geo c) (mesh.v c) (mesh.p c)) fun _ => []

/-- The spatial operator: the flags of taylorhoodnavierstokes.hh:67-73 with the calls of gridoperator/default/residualengine.hh:264-316. -/
def Transient.spatial (s : Int) (pb : Transient K P Q I d n m) : LocalParts I K := fun k e τ =>
  match k with
  | .uvVolume => if h : e < N then some (alphaPart s (pb.at τ) ⟨e, h⟩) else none
  | .vVolume => if h : e < N then some (lambdaPart s (pb.at τ) ⟨e, h⟩) else none
  | .vBoundary => pb.boundary[e]?.map fun F => facePart s (pb.at τ) (F τ)
  | _ => none

/-- `NavierStokesMass` on a cell, navierstokesmass.hh:48-164. -/
def massPart (s : Int) (pb : Transient K P Q I d n m) (c : Fin N) : Part I K :=
  Part.ofCalls (numbering d (n c) (m c)) (pb.dof c)
    (fun x => VelocityMass.alphaVolume (pb.isSimplex c) s (pb.rho c) (pb.geo c) (pb.v c) x)
    fun _ => VelocityMass.jacobianVolume (pb.isSimplex c) s (pb.rho c) (pb.geo c) (pb.v c)

/-- The temporal operator, navierstokesmass.hh:28-164. -/
def Transient.temporal (s : Int) (pb : Transient K P Q I d n m) : LocalParts I K := fun k e _ =>
  match k with
  | .uvVolume => if h : e < N then some (massPart s pb ⟨e, h⟩) else none
  | _ => none

/-- The calls of the grid assembler, gridoperator/default/assembler.hh:84-279: all cells and boundary faces (cell by cell; their order does not matter). -/
def Transient.trace (pb : Transient K P Q I d n m) : List (OneStep.Kind × Nat) :=
  (List.range N).map (fun c => (.uvVolume, c)) ++ (List.range N).map (fun c => (.vVolume, c)) ++
    (List.range pb.boundary.length).map fun F => (.vBoundary, F)

/-- The pattern (both operators have the full pattern of a cell), localoperator/pattern.hh:18-26. -/
def Transient.pattern (pb : Transient K P Q I d n m) : List (Assembly.PatternPart I) :=
  (List.finRange N).map fun c => fullVolumePattern (numbering d (n c) (m c)) (pb.dof c)

end Verif.LocalOp.TaylorHood
