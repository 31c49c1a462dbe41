import Verif.Model.FEMMesh
import Verif.Model.VectorOperators
import Mathlib.Logic.Equiv.Fin.Basic
/-
Assembly of the finite element methods for linear elasticity and for the (Navier-)Stokes equations: the contributions of the local operators of
dune/pdelab/localoperator/linearelasticity.hh and taylorhoodnavierstokes.hh on the cells and boundary faces of a mesh, as what the grid operator sees of them.

The degrees of freedom of a cell are numbered as in the local function spaces: component by component, the pressure last (`finProdFinEquiv`,
`finSumFinEquiv`).
-/
namespace Verif.LocalOp.Elasticity
open ConstrainedSolve

/-- A face on the boundary, with the boundary condition. Source: the arguments of linearelasticity.hh:269-324. -/
structure Face (K P Q : Type) (d N : Nat) where
  inside : Fin N
  geo : FaceGeo K P Q d
  isDirichlet : Q → Bool

/-- Geometry, material, finite elements and container indices on the cells of a mesh, and its boundary faces. Source: the arguments of the methods of
linearelasticity.hh:58-324. -/
structure Mesh (K P Q I : Type) (d : Nat) {N : Nat} (n : Fin N → Nat) where
  geo : Fin N → CellGeo K P d
  par : Fin N → Param K P Q d
  fe : (c : Fin N) → Basis K P d (n c)
  dof : (c : Fin N) → Fin d × Fin (n c) → I
  boundary : List (Face K P Q d N)

variable {K P Q I : Type} [Field K] [Inhabited I] {d N : Nat} {n : Fin N → Nat}

/-- The volume terms of a cell. Source: gridoperator/default/residualengine.hh:264-278, jacobianengine.hh:242-248 with
linearelasticity.hh:58-266. -/
def cellPart (intorder : Int) (mesh : Mesh K P Q I d n) (c : Fin N) : Part I K :=
  Part.ofCalls finProdFinEquiv (mesh.dof c)
    (fun x => alphaVolume intorder (mesh.par c) (mesh.geo c) (mesh.fe c) x ++ lambdaVolume intorder (mesh.par c) (mesh.geo c) (mesh.fe c))
    fun _ => jacobianVolume intorder (mesh.par c) (mesh.geo c) (mesh.fe c)

/-- The terms of a boundary face. Source: gridoperator/default/residualengine.hh:310-316 with linearelasticity.hh:269-324; there is no Jacobian. -/
def facePart (intorder : Int) (mesh : Mesh K P Q I d n) (F : Face K P Q d N) : Part I K :=
  Part.ofCalls finProdFinEquiv (mesh.dof F.inside)
    (fun _ => lambdaBoundary intorder { mesh.par F.inside with isDirichlet := F.isDirichlet } F.geo (mesh.fe F.inside)) fun _ => []

/-- All contributions (gridoperator/default/assembler.hh:84-279; their order does not matter). -/
def meshParts (intorder : Int) (mesh : Mesh K P Q I d n) : List (Part I K) :=
  (List.finRange N).map (cellPart intorder mesh) ++ mesh.boundary.map (facePart intorder mesh)

/-- The pattern (gridoperator/default/patternengine.hh:211-216 with localoperator/pattern.hh:18-26). -/
def meshPattern (mesh : Mesh K P Q I d n) : List (Assembly.PatternPart I) :=
  (List.finRange N).map fun c => fullVolumePattern finProdFinEquiv (mesh.dof c)

end Verif.LocalOp.Elasticity

namespace Verif.LocalOp.TaylorHood
open ConstrainedSolve

/-- A face on the boundary, with the boundary condition. Source: the arguments of taylorhoodnavierstokes.hh:300-365. -/
structure Face (K P Q : Type) (d N : Nat) where
  inside : Fin N
  geo : FaceGeo K P Q d
  isSimplex : Bool
  bctype : Q → BoundaryType
  j : Q → Fin d → K

/-- Geometry, material, finite elements and container indices on the cells of a mesh, and its boundary faces. Source: the arguments of the methods of
taylorhoodnavierstokes.hh:92-501. -/
structure Mesh (K P Q I : Type) (d : Nat) {N : Nat} (n m : Fin N → Nat) where
  isSimplex : Fin N → Bool
  geo : Fin N → CellGeo K P d
  par : Fin N → Param K P Q d
  v : (c : Fin N) → Basis K P d (n c)
  p : (c : Fin N) → Basis K P d (m c)
  dof : (c : Fin N) → Dof d (n c) (m c) → I
  boundary : List (Face K P Q d N)

variable {K P Q I : Type} [Field K] [Inhabited I] {d N : Nat} {n m : Fin N → Nat}

/-- The numbering of the degrees of freedom of a cell: the components of the velocity, then the pressure. Source: the local function spaces of a composite of
a power space and a space, gridfunctionspace/localfunctionspace.hh:82-130. -/
def numbering (d n m : Nat) : Dof d n m ≃ Fin (d * n + m) := (Equiv.sumCongr finProdFinEquiv (Equiv.refl _)).trans finSumFinEquiv

/-- The volume terms of a cell. Source: gridoperator/default/residualengine.hh:264-278, jacobianengine.hh:242-248 with
taylorhoodnavierstokes.hh:92-295, 369-501. -/
def cellPart (s : Int) (mesh : Mesh K P Q I d n m) (c : Fin N) : Part I K :=
  Part.ofCalls (numbering d (n c) (m c)) (mesh.dof c)
    (fun x => alphaVolume (mesh.isSimplex c) s (mesh.par c) (mesh.geo c) (mesh.v c) (mesh.p c) x ++
      lambdaVolume (mesh.isSimplex c) s (mesh.par c) (mesh.geo c) (mesh.v c) (mesh.p c))
    fun x => jacobianVolume (mesh.isSimplex c) s (mesh.par c) (mesh.geo c) (mesh.v c) (mesh.p c) x

/-- The terms of a boundary face. Source: gridoperator/default/residualengine.hh:310-316 with taylorhoodnavierstokes.hh:300-365; there is no Jacobian. -/
def facePart (s : Int) (mesh : Mesh K P Q I d n m) (F : Face K P Q d N) : Part I K :=
  Part.ofCalls (numbering d (n F.inside) (m F.inside)) (mesh.dof F.inside)
    (fun _ => lambdaBoundary F.isSimplex s { mesh.par F.inside with bctype := F.bctype, j := F.j } F.geo (mesh.v F.inside)) fun _ => []

/-- All contributions (gridoperator/default/assembler.hh:84-279; their order does not matter). -/
def meshParts (s : Int) (mesh : Mesh K P Q I d n m) : List (Part I K) :=
  (List.finRange N).map (cellPart s mesh) ++ mesh.boundary.map (facePart s mesh)

/-- The pattern (gridoperator/default/patternengine.hh:211-216 with localoperator/pattern.hh:18-26). -/
def meshPattern (mesh : Mesh K P Q I d n m) : List (Assembly.PatternPart I) :=
  (List.finRange N).map fun c => fullVolumePattern (numbering d (n c) (m c)) (mesh.dof c)

end Verif.LocalOp.TaylorHood
