import Verif.Model.ConvectionDiffusion
/-
The assembly of the residual of the discontinuous Galerkin operator for the convection-diffusion equation over a mesh: the assembler visits every
cell, every inner face and every boundary face once (see C20 for that), and adds the contributions of the local operator to the entries of
the degrees of freedom of the cell or of the two cells. Every cell has its own basis, of its own size. The order of the visits, which no sum
depends on, is not modelled.
-/
namespace Verif.LocalOp.DG

variable {K P Q : Type} [Field K] {d N : Nat} {n : Fin N → Nat}

/-- A face between two cells, seen from the cell that assembles it. Source: gridoperator/default/assembler.hh:172-214. -/
structure Face (K P Q : Type) (d N : Nat) where
  geo : FaceGeo K P Q d
  inside : Fin N
  outside : Fin N

/-- A face on the boundary of the domain with its boundary condition. Source: gridoperator/default/assembler.hh:215-227. -/
structure BoundaryFace (K P Q : Type) (d N : Nat) where
  geo : FaceGeo K P Q d
  inside : Fin N
  par : FaceParam K Q

/-- What the operator sees of the mesh, the coefficients and the finite element space. Source: the arguments of the methods of
convectiondiffusiondg.hh:104-1075. -/
structure Mesh (K P Q : Type) (d : Nat) {N : Nat} (n : Fin N → Nat) where
  geo : Fin N → CellGeo K P d
  par : Fin N → CellParam K P d
  lfs : (c : Fin N) → Basis K P d (n c)
  inner : List (Face K P Q d N)
  boundary : List (BoundaryFace K P Q d N)

/-- The local residual of a cell is added to the entries of its degrees of freedom. Source: gridoperator/default/residualengine.hh:183-187. -/
def place (c : Fin N) (calls : Calls (Fin (n c)) K) : Calls ((c : Fin N) × Fin (n c)) K := calls.map fun e => (⟨c, e.1⟩, e.2)

/-- The local residuals of the two cells of a face are added to the entries of theirs. Source: gridoperator/default/residualengine.hh:183-199. -/
def placeFace (s t : Fin N) (calls : Calls (Fin (n s) ⊕ Fin (n t)) K) : Calls ((c : Fin N) × Fin (n c)) K :=
  calls.map fun e => (Sum.elim (fun i => ⟨s, i⟩) (fun i => ⟨t, i⟩) e.1, e.2)

/-- The local coefficients of the two cells of a face. Source: gridoperator/default/residualengine.hh:206-219. -/
def readFace (s t : Fin N) (x : (c : Fin N) × Fin (n c) → K) : Fin (n s) ⊕ Fin (n t) → K :=
  Sum.elim (fun i => x ⟨s, i⟩) fun i => x ⟨t, i⟩

/-- gridoperator/default/assembler.hh:114-266 with residualengine.hh:264-309  all contributions to the residual; `none` if the operator throws. -/
def meshResidual [LinearOrder K] (op : Op K) (mesh : Mesh K P Q d n) (x : (c : Fin N) × Fin (n c) → K) :
    Option (Calls ((c : Fin N) × Fin (n c)) K) := do
  let v := (List.finRange N).flatMap fun c =>
    place c (alphaVolume op (mesh.geo c) (mesh.par c) (mesh.lfs c) (mesh.lfs c) fun i => x ⟨c, i⟩) ++
    place c (lambdaVolume op (mesh.geo c) (mesh.par c) (mesh.lfs c))
  let s := mesh.inner.flatMap fun F =>
    placeFace F.inside F.outside (alphaSkeleton op F.geo (mesh.geo F.inside) (mesh.geo F.outside) (mesh.par F.inside) (mesh.par F.outside)
      (mesh.lfs F.inside) (mesh.lfs F.outside) (mesh.lfs F.inside) (mesh.lfs F.outside) (readFace F.inside F.outside x))
  let b ← mesh.boundary.mapM fun F =>
    (alphaBoundary op F.geo (mesh.geo F.inside) (mesh.par F.inside) F.par (mesh.lfs F.inside) (mesh.lfs F.inside)
      fun i => x ⟨F.inside, i⟩).map (place F.inside)
  return v ++ s ++ b.flatten

end Verif.LocalOp.DG
