import Verif.Model.ConstrainedSolve
import Verif.Model.ConvectionDiffusion
import Verif.Model.DGMesh
import Verif.Spec.LocalOperator
import Mathlib.Logic.Equiv.Defs
/-
Assembly of a conforming finite element method: the contributions of the local operator of dune/pdelab/localoperator/convectiondiffusionfem.hh on the cells
and boundary faces of a mesh, as what the grid operator sees of them (`Verif.ConstrainedSolve.Part`).
-/
namespace Verif.ConstrainedSolve
open LocalOp

/-- What the engines make of the calls of a local operator: the local vector and the local matrix are filled with zeros, then with the contributions; local
indices are numbered by `e`, `dof` are the container indices. Source: gridoperator/default/residualengine.hh:152-187, jacobianengine.hh:121-162; the engine adds the contributions of a cell and its boundary faces in one local vector, here they are parts of their own. -/
def Part.ofCalls {I K ι : Type} [Inhabited I] [AddMonoid K] [DecidableEq ι] {n : Nat} (e : ι ≃ Fin n) (dof : ι → I)
    (res : (ι → K) → Calls ι K) (jac : (ι → K) → Calls (ι × ι) K) : Part I K where
  nv := n
  nu := n
  v i := if h : i < n then dof (e.symm ⟨i, h⟩) else default
  u i := if h : i < n then dof (e.symm ⟨i, h⟩) else default
  residual x i := if h : i < n then Spec.total (res fun j => x (e j)) (e.symm ⟨i, h⟩) else 0
  jacobian x i j := if h : i < n ∧ j < n then Spec.total (jac fun k => x (e k)) (e.symm ⟨i, h.1⟩, e.symm ⟨j, h.2⟩) else 0

/-- The pattern of a cell: all pairs of its degrees of freedom. Source: localoperator/pattern.hh:18-26. -/
def fullVolumePattern {I ι : Type} [Inhabited I] {n : Nat} (e : ι ≃ Fin n) (dof : ι → I) : Assembly.PatternPart I where
  nv := n
  nu := n
  v i := if h : i < n then dof (e.symm ⟨i, h⟩) else default
  u i := if h : i < n then dof (e.symm ⟨i, h⟩) else default
  links := (List.range n).flatMap fun i => (List.range n).map fun j => (i, j)

end Verif.ConstrainedSolve

namespace Verif.LocalOp.FEM
open ConstrainedSolve

/-- Geometry, coefficients, finite elements and container indices on the cells of a mesh, and its boundary faces. Source: the arguments of the methods of
convectiondiffusionfem.hh:61-325. -/
structure Mesh (K P Q I : Type) (d : Nat) {N : Nat} (n : Fin N → Nat) where
  geo : Fin N → CellGeo K P d
  par : Fin N → CellParam K P d
  lfs : (c : Fin N) → Basis K P d (n c)
  dof : (c : Fin N) → Fin (n c) → I
  boundary : List (DG.BoundaryFace K P Q d N)

variable {K P Q I : Type} [Field K] [LinearOrder K] [Inhabited I] {d N : Nat} {n : Fin N → Nat}

/-- The volume terms of a cell. Source: gridoperator/default/residualengine.hh:264-270, jacobianengine.hh:242-248 with convectiondiffusionfem.hh:61-203. -/
def cellPart (add : Int) (mesh : Mesh K P Q I d n) (c : Fin N) : Part I K :=
  Part.ofCalls (Equiv.refl _) (mesh.dof c) (alphaVolume add (mesh.geo c) (mesh.par c) (mesh.lfs c))
    fun _ => jacobianVolume add (mesh.geo c) (mesh.par c) (mesh.lfs c)

/-- The terms of a boundary face. Source: gridoperator/default/residualengine.hh:302-308, jacobianengine.hh:263-269 with convectiondiffusionfem.hh:205-325. -/
def facePart (add : Int) (mesh : Mesh K P Q I d n) (F : DG.BoundaryFace K P Q d N) : Part I K :=
  Part.ofCalls (Equiv.refl _) (mesh.dof F.inside) (alphaBoundary add F.geo (mesh.par F.inside) F.par (mesh.lfs F.inside))
    fun _ => jacobianBoundary add F.geo (mesh.par F.inside) F.par (mesh.lfs F.inside)

/-- All contributions (gridoperator/default/assembler.hh:84-279; their order does not matter). -/
def meshParts (add : Int) (mesh : Mesh K P Q I d n) : List (Part I K) :=
  (List.finRange N).map (cellPart add mesh) ++ mesh.boundary.map (facePart add mesh)

/-- The pattern (gridoperator/default/patternengine.hh:211-216 with localoperator/pattern.hh:18-26; no skeleton terms). -/
def meshPattern (mesh : Mesh K P Q I d n) : List (Assembly.PatternPart I) :=
  (List.finRange N).map fun c => fullVolumePattern (Equiv.refl _) (mesh.dof c)

end Verif.LocalOp.FEM
