import Verif.Model.VectorMesh
import Verif.Model.NumericalJacobian
/-
Assembly of the mixed finite element method for diffusion: the contributions of the local operator of dune/pdelab/localoperator/diffusionmixed.hh on the cells
and boundary faces of a mesh, as what the grid operator sees of them.
-/
namespace Verif.LocalOp.MixedDiffusion
open ConstrainedSolve

/-- The numerical Jacobian of a volume term: each unknown is disturbed in turn. Source: localoperator/numericaljacobian.hh:43-77 (the loops over containers are
`Verif.NumericalJacobian.jacobianOne`, which C49 shows to compute these quotients). -/
def numericalJacobian {ι K : Type} [DecidableEq ι] [Field K] [LinearOrder K] {n : Nat} (e : ι ≃ Fin n) (eps : K) (alpha : (ι → K) → Calls ι K) (x : ι → K) :
    Calls (ι × ι) K :=
  (List.finRange n).flatMap fun j => (List.finRange n).map fun i =>
    let delta := NumericalJacobian.delta eps (x (e.symm j))
    ((e.symm i, e.symm j),
      (Spec.total (alpha (Function.update x (e.symm j) (x (e.symm j) + delta))) (e.symm i) - Spec.total (alpha x) (e.symm i)) / delta)

/-- A face on the boundary, with the boundary condition. Source: the arguments of diffusionmixed.hh:230-299. -/
structure Face (K P Q : Type) (d N : Nat) where
  inside : Fin N
  geo : FaceGeo K P Q d
  neumann : Q → Bool

/-- Geometry, coefficients, finite elements and container indices on the cells of a mesh, and its boundary faces. Source: the arguments of the methods of
diffusionmixed.hh:65-299. -/
structure Mesh (K P Q I : Type) (d : Nat) {N : Nat} (n m : Fin N → Nat) where
  geo : Fin N → CellGeo K P d
  par : Fin N → Param K P Q d
  v : (c : Fin N) → VectorBasis K P d (n c)
  p : (c : Fin N) → Basis K P d (m c)
  dof : (c : Fin N) → Fin (n c) ⊕ Fin (m c) → I
  boundary : List (Face K P Q d N)

/-- The arguments of the constructor, the step of the numerical Jacobian, and the inversion of matrices. Source: diffusionmixed.hh:55-62, 85-97,
numericaljacobian.hh:28-41. -/
structure Method (K P : Type) (d : Nat) where
  qorderV : Int
  qorderP : Int
  eps : K
  invert : Matrix (Fin d) (Fin d) K → Matrix (Fin d) (Fin d) K
  origin : P

variable {K P Q I : Type} [Field K] [LinearOrder K] [Inhabited I] {d N : Nat} {n m : Fin N → Nat}

/-- The volume terms of a cell; the velocity comes first in the local numbering. Source: gridoperator/default/residualengine.hh:264-278,
jacobianengine.hh:242-248 with diffusionmixed.hh:65-226, numericaljacobian.hh:43-77. -/
def cellPart (o : Method K P d) (mesh : Mesh K P Q I d n m) (c : Fin N) : Part I K :=
  Part.ofCalls finSumFinEquiv (mesh.dof c)
    (fun x => alphaVolume o.qorderV o.qorderP o.invert o.origin (mesh.par c) (mesh.geo c) (mesh.v c) (mesh.p c) x ++
      lambdaVolume o.qorderP (mesh.par c) (mesh.geo c) (mesh.p c))
    (numericalJacobian finSumFinEquiv o.eps
      (alphaVolume o.qorderV o.qorderP o.invert o.origin (mesh.par c) (mesh.geo c) (mesh.v c) (mesh.p c)))

/-- The terms of a boundary face. Source: gridoperator/default/residualengine.hh:310-316 with diffusionmixed.hh:230-299; there is no Jacobian. -/
def facePart (o : Method K P d) (mesh : Mesh K P Q I d n m) (F : Face K P Q d N) : Part I K :=
  Part.ofCalls finSumFinEquiv (mesh.dof F.inside)
    (fun _ => lambdaBoundary o.qorderV o.invert o.origin { mesh.par F.inside with neumann := F.neumann } (mesh.geo F.inside) F.geo (mesh.v F.inside))
    fun _ => []

/-- All contributions (gridoperator/default/assembler.hh:84-279; their order does not matter). -/
def meshParts (o : Method K P d) (mesh : Mesh K P Q I d n m) : List (Part I K) :=
  (List.finRange N).map (cellPart o mesh) ++ mesh.boundary.map (facePart o mesh)

/-- The pattern (gridoperator/default/patternengine.hh:211-216 with localoperator/pattern.hh:18-26). -/
def meshPattern (mesh : Mesh K P Q I d n m) : List (Assembly.PatternPart I) :=
  (List.finRange N).map fun c => fullVolumePattern finSumFinEquiv (mesh.dof c)

end Verif.LocalOp.MixedDiffusion
