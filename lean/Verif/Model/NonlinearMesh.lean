import Verif.Model.NonlinearFEM
import Verif.Model.NumericalJacobian
import Verif.Model.TransientSolve
/-
The nonlinear convection-diffusion equation with conforming finite elements on a mesh: the contributions of the local operator of
dune/pdelab/localoperator/nonlinearconvectiondiffusionfem.hh, whose Jacobians are numerical ones, as what the grid operator sees of them.
-/
namespace Verif.LocalOp.NonlinearFEM
open ConstrainedSolve

/-- A boundary face: the cell inside and the parameters as seen from the face, nonlinearconvectiondiffusionfem.hh:333-392. -/
structure Face (K P Q : Type) (d N : Nat) where
  geo : FaceGeo K P Q d
  inside : Fin N
  par : Param K P Q d

/-- Geometry, coefficients, finite elements and container indices on the cells of a mesh, and its boundary faces. Source: the arguments of the methods of
nonlinearconvectiondiffusionfem.hh:246-392. -/
structure Mesh (K P Q I : Type) (d : Nat) {N : Nat} (n : Fin N → Nat) where
  geo : Fin N → CellGeo K P d
  par : Fin N → Param K P Q d
  lfs : (c : Fin N) → Basis K P d (n c)
  dof : (c : Fin N) → Fin (n c) → I
  boundary : List (Face K P Q d N)

variable {K P Q I : Type} [Field K] [LinearOrder K] [Inhabited I] {d N : Nat} {n : Fin N → Nat}

/-- `jacobian_volume` and `jacobian_boundary` by finite differences, numericaljacobian.hh:43-81 and 264-301: for each column the coefficient is
disturbed by `epsilon*(1.0+std::abs(u(lfsu,j)))`. (The loops over containers are `NumericalJacobian.jacobianOne`.) -/
def numericalJacobian {m : Nat} (eps : K) (alpha : (Fin m → K) → Calls (Fin m) K) (x : Fin m → K) : Calls (Fin m × Fin m) K :=
  (List.finRange m).flatMap fun j =>
    let delta := NumericalJacobian.delta eps (x j)
    let up := Spec.total (alpha (Function.update x j (x j + delta)))
    let down := Spec.total (alpha x)
    (List.finRange m).map fun i => ((i, j), (up i - down i) / delta)

/-- The volume terms of a cell. Source: gridoperator/default/residualengine.hh:264-270, jacobianengine.hh:242-248 with
nonlinearconvectiondiffusionfem.hh:246-330. -/
def cellPart (eps : K) (intorder : Int) (mesh : Mesh K P Q I d n) (c : Fin N) : Part I K :=
  Part.ofCalls (Equiv.refl _) (mesh.dof c) (alphaVolume intorder (mesh.par c) (mesh.geo c) (mesh.lfs c))
    (numericalJacobian eps (alphaVolume intorder (mesh.par c) (mesh.geo c) (mesh.lfs c)))

/-- The terms of a boundary face. Source: gridoperator/default/residualengine.hh:302-308, jacobianengine.hh:263-269 with
nonlinearconvectiondiffusionfem.hh:333-392. -/
def facePart (eps : K) (intorder : Int) (mesh : Mesh K P Q I d n) (F : Face K P Q d N) : Part I K :=
  Part.ofCalls (Equiv.refl _) (mesh.dof F.inside) (alphaBoundary intorder F.par F.geo (mesh.lfs F.inside))
    (numericalJacobian eps (alphaBoundary intorder F.par F.geo (mesh.lfs F.inside)))

/-- All contributions (gridoperator/default/assembler.hh:84-279; their order does not matter). -/
def meshParts (eps : K) (intorder : Int) (mesh : Mesh K P Q I d n) : List (Part I K) :=
  (List.finRange N).map (cellPart eps intorder mesh) ++ mesh.boundary.map (facePart eps intorder mesh)

/-- The pattern (gridoperator/default/patternengine.hh:211-216 with localoperator/pattern.hh:18-26; no skeleton terms). -/
def meshPattern (mesh : Mesh K P Q I d n) : List (Assembly.PatternPart I) :=
  (List.finRange N).map fun c => fullVolumePattern (Equiv.refl _) (mesh.dof c)

/-- Coefficients and boundary conditions that depend on time (`setTime`, nonlinearconvectiondiffusionfem.hh:394-398), on a mesh. -/
structure Transient (K P Q I : Type) (d : Nat) {N : Nat} (n : Fin N → Nat) where
  geo : Fin N → CellGeo K P d
  lfs : (c : Fin N) → Basis K P d (n c)
  dof : (c : Fin N) → Fin (n c) → I
  par : K → Fin N → Param K P Q d
  boundary : List (K → Face K P Q d N)

/-- The problem at a time, nonlinearconvectiondiffusionfem.hh:394-398. -/
def Transient.at (pb : Transient K P Q I d n) (τ : K) : Mesh K P Q I d n where
  geo := pb.geo
  par := pb.par τ
  lfs := pb.lfs
  dof := pb.dof
  boundary := pb.boundary.map fun F => F τ

/-- The spatial operator: `alpha_volume` and `alpha_boundary`, nonlinearconvectiondiffusionfem.hh:246-392. -/
def Transient.spatial (eps : K) (intorder : Int) (pb : Transient K P Q I d n) : LocalParts I K := fun k e τ =>
  match k with
  | .uvVolume => if h : e < N then some (cellPart eps intorder (pb.at τ) ⟨e, h⟩) else none
  | .uvBoundary => pb.boundary[e]?.map fun F => facePart eps intorder (pb.at τ) (F τ)
  | _ => none

/-- The mass operator of a cell: `L2`, l2.hh:45-127. -/
def massPart (intorderadd : Int) (scaling : K) (pb : Transient K P Q I d n) (c : Fin N) : Part I K :=
  Part.ofCalls (Equiv.refl _) (pb.dof c) (L2.scalarAlphaVolume intorderadd scaling (pb.geo c) (pb.lfs c))
    fun _ => L2.scalarJacobianVolume intorderadd scaling (pb.geo c) (pb.lfs c)

/-- The temporal operator, l2.hh:45-127. -/
def Transient.temporal (intorderadd : Int) (scaling : K) (pb : Transient K P Q I d n) : LocalParts I K := fun k e _ =>
  match k with
  | .uvVolume => if h : e < N then some (massPart intorderadd scaling pb ⟨e, h⟩) else none
  | _ => none

/-- The calls of the grid assembler, gridoperator/default/assembler.hh:84-279: all cells and boundary faces (cell by cell; their order does not matter). -/
def Transient.trace (pb : Transient K P Q I d n) : List (OneStep.Kind × Nat) :=
  (List.range N).map (fun c => (.uvVolume, c)) ++ (List.range pb.boundary.length).map fun F => (.uvBoundary, F)

/-- The pattern (both operators have the full pattern of a cell), localoperator/pattern.hh:18-26. -/
def Transient.pattern (pb : Transient K P Q I d n) : List (Assembly.PatternPart I) :=
  (List.finRange N).map fun c => fullVolumePattern (Equiv.refl _) (pb.dof c)

end Verif.LocalOp.NonlinearFEM
