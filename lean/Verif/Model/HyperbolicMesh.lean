import Verif.Model.Hyperbolic
/-
The assembly of the residuals of the discontinuous Galerkin operators for linear acoustics and for Maxwell's equations over a
mesh: the assembler visits every cell once, every inner face once and every boundary face once (see C20 for that), and adds the
contributions of the local operator to the entries of the degrees of freedom of the cell or of the two cells. All cells have the
same number `n` of basis functions (as the finite element maps for discontinuous Galerkin methods have), but their own basis.
-/
namespace Verif.LocalOp.Hyperbolic

variable {K P Q : Type} [Field K] {d n m N : Nat}

/-- An inner face with the cells inside and outside. Source: gridoperator/default/assembler.hh:165-213. -/
structure InnerFace (K P Q : Type) (d N : Nat) where
  geo : FaceGeo K P Q d
  inside : Fin N
  outside : Fin N

/-- A boundary face with its cell, and the outer state which the parameters give there (`param.g`).
Source: gridoperator/default/assembler.hh:215-227. -/
structure BoundaryFace (K P Q : Type) (d m N : Nat) where
  geo : FaceGeo K P Q d
  inside : Fin N
  g : Q → (Fin m → K) → Fin m → K

/-- A mesh with a discontinuous Galerkin space. Source: gridoperator/default/assembler.hh:114-266. -/
structure Mesh (K P Q : Type) (d m n N : Nat) where
  geo : Fin N → CellGeo K P d
  lfs : Fin N → Basis K P d n
  inner : List (InnerFace K P Q d N)
  boundary : List (BoundaryFace K P Q d m N)

/-- Contributions to a cell, added to the entries of its degrees of freedom. Source: gridoperator/default/residualengine.hh:183-188. -/
def place (c : Fin N) (calls : Calls (Fin m × Fin n) K) : Calls (Fin N × Fin m × Fin n) K :=
  calls.map fun e => ((c, e.1), e.2)

/-- Contributions to the two cells of a face. Source: gridoperator/default/residualengine.hh:197-204. -/
def placeFace (s t : Fin N) (calls : Calls ((Fin m × Fin n) ⊕ (Fin m × Fin n)) K) : Calls (Fin N × Fin m × Fin n) K :=
  calls.map fun e => (Sum.elim (fun i => (s, i)) (fun i => (t, i)) e.1, e.2)

/-- The calls of the local operator for a mesh, in the order of the assembler up to the interleaving of cells and faces (which no
sum depends on). Source: gridoperator/default/assembler.hh:114-266. -/
def overMesh (mesh : Mesh K P Q d m n N) (volume : Fin N → Option (Calls (Fin m × Fin n) K))
    (skeleton : InnerFace K P Q d N → Option (Calls ((Fin m × Fin n) ⊕ (Fin m × Fin n)) K))
    (boundary : BoundaryFace K P Q d m N → Option (Calls (Fin m × Fin n) K)) : Option (Calls (Fin N × Fin m × Fin n) K) := do
  let v ← (List.finRange N).mapM fun c => (volume c).map (place c)
  let s ← mesh.inner.mapM fun F => (skeleton F).map (placeFace F.inside F.outside)
  let b ← mesh.boundary.mapM fun F => (boundary F).map (place F.inside)
  return v.flatten ++ s.flatten ++ b.flatten

/-- The residual of linear acoustics without sources. Source: linearacousticsdg.hh:193-499. -/
def Acoustics.meshResidual [LinearOrder K] (solve : Acoustics.Solve K) (overintegration : Int) (mesh : Mesh K P Q d (d + 1) n N)
    (par : Fin N → Acoustics.CellParam K P d) (x : Fin N × Fin (d + 1) × Fin n → K) : Option (Calls (Fin N × Fin (d + 1) × Fin n) K) :=
  overMesh mesh (fun c => alphaVolume overintegration (mesh.geo c) (par c) (mesh.lfs c) fun i => x (c, i))
    (fun F => alphaSkeleton solve overintegration F.geo (mesh.geo F.inside) (mesh.geo F.outside) (par F.inside) (par F.outside)
      (mesh.lfs F.inside) (mesh.lfs F.outside) (fun i => x (F.inside, i)) fun i => x (F.outside, i))
    fun F => alphaBoundary solve overintegration F.geo (mesh.geo F.inside) (par F.inside) F.g (mesh.lfs F.inside) fun i => x (F.inside, i)

/-- The residual of Maxwell's equations without sources. Source: maxwelldg.hh:347-695. -/
def Maxwell.meshResidual [LinearOrder K] (sqrt : K → K) (invert : Maxwell.Invert K) (overintegration : Int) (mesh : Mesh K P Q 3 6 n N)
    (par : Fin N → Maxwell.CellParam K P) (x : Fin N × Fin 6 × Fin n → K) : Option (Calls (Fin N × Fin 6 × Fin n) K) :=
  overMesh mesh (fun c => alphaVolume overintegration (mesh.geo c) (par c) (mesh.lfs c) fun i => x (c, i))
    (fun F => alphaSkeleton sqrt invert overintegration F.geo (mesh.geo F.inside) (mesh.geo F.outside) (par F.inside) (par F.outside)
      (mesh.lfs F.inside) (mesh.lfs F.outside) (fun i => x (F.inside, i)) fun i => x (F.outside, i))
    fun F => alphaBoundary sqrt invert overintegration F.geo (mesh.geo F.inside) (par F.inside) F.g (mesh.lfs F.inside)
      fun i => x (F.inside, i)

/-- The residual of the temporal operators, which have no terms on faces. Source: linearacousticsdg.hh:616-656, maxwelldg.hh:815-856. -/
def Temporal.meshResidual (overintegration : Int) (mesh : Mesh K P Q d m n N) (x : Fin N × Fin m × Fin n → K) :
    Option (Calls (Fin N × Fin m × Fin n) K) :=
  overMesh mesh (fun c => alphaVolume overintegration (mesh.geo c) (mesh.lfs c) fun i => x (c, i)) (fun _ => some []) fun _ => some []

end Verif.LocalOp.Hyperbolic
