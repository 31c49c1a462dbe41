import Verif.Model.HyperbolicMesh
import Verif.Spec.Hyperbolic
import Verif.Spec.LocalOperator
/-
What C233 says: the energy of the computed fields, and the assumptions on the mesh. Only the input data of the assembly (cells,
faces, bases, quadrature rules) are used.
-/
namespace Verif.LocalOp.Spec

open Matrix LocalOp.Hyperbolic

variable {K P Q : Type} [Field K] {d n m N : Nat}

/-- The gradient of a basis function of a cell, in global coordinates. -/
def globalGradient (geo : CellGeo K P d) (lfs : Basis K P d n) (p : P) (k : Fin n) : Fin d → K :=
  geo.jacobianInverseTransposed p *ᵥ lfs.js p k

/-- The integral over a cell, with the quadrature rule that the operators use. -/
def cellIntegral (overintegration : Int) (mesh : Mesh K P Q d m n N) (c : Fin N) (f : P → K) : K :=
  quadrature ((mesh.geo c).quadratureRule (overintegration + 2 * (mesh.lfs c).order)) (mesh.geo c).integrationElement f

/-- The integral over an inner face. -/
def faceIntegral (overintegration : Int) (mesh : Mesh K P Q d m n N) (F : InnerFace K P Q d N) (f : Q → K) : K :=
  quadrature (F.geo.quadratureRule (overintegration + 1 + 2 * max (mesh.lfs F.inside).order (mesh.lfs F.outside).order))
    F.geo.integrationElement f

/-- The integral over a boundary face. -/
def boundaryIntegral (overintegration : Int) (mesh : Mesh K P Q d m n N) (F : BoundaryFace K P Q d m N) (f : Q → K) : K :=
  quadrature (F.geo.quadratureRule (overintegration + 1 + 2 * (mesh.lfs F.inside).order)) F.geo.integrationElement f

/-- The faces of the mesh enclose the cells, and the quadrature is exact for products of basis functions: the divergence theorem
holds for the product of two basis functions of a cell, in each direction. The normal of an inner face points from the cell inside
to the cell outside. -/
def DivergenceTheorem (overintegration : Int) (mesh : Mesh K P Q d m n N) : Prop :=
  ∀ (c : Fin N) (k l : Fin n) (j : Fin d),
    cellIntegral overintegration mesh c (fun p =>
      (mesh.lfs c).phi p k * globalGradient (mesh.geo c) (mesh.lfs c) p l j +
      (mesh.lfs c).phi p l * globalGradient (mesh.geo c) (mesh.lfs c) p k j) =
    (mesh.inner.map fun F =>
      (if F.inside = c then faceIntegral overintegration mesh F (fun q =>
        (mesh.lfs c).phi (F.geo.inInside q) k * (mesh.lfs c).phi (F.geo.inInside q) l * F.geo.centerUnitOuterNormal j) else 0) -
      (if F.outside = c then faceIntegral overintegration mesh F (fun q =>
        (mesh.lfs c).phi (F.geo.inOutside q) k * (mesh.lfs c).phi (F.geo.inOutside q) l * F.geo.centerUnitOuterNormal j) else 0)).sum +
    (mesh.boundary.map fun F =>
      if F.inside = c then boundaryIntegral overintegration mesh F (fun q =>
        (mesh.lfs c).phi (F.geo.inInside q) k * (mesh.lfs c).phi (F.geo.inInside q) l * F.geo.centerUnitOuterNormal j) else 0).sum

/-- Normals have length 1, no quadrature point has a negative weight, and the orders of the bases are supported by the operators. -/
structure ProperMesh [LinearOrder K] (mesh : Mesh K P Q d m n N) : Prop where
  cells : ∀ c o, ∀ q ∈ (mesh.geo c).quadratureRule o, 0 ≤ q.2 * (mesh.geo c).integrationElement q.1
  inner : ∀ F ∈ mesh.inner, ∀ o, ∀ q ∈ F.geo.quadratureRule o, 0 ≤ q.2 * F.geo.integrationElement q.1
  boundary : ∀ F ∈ mesh.boundary, ∀ o, ∀ q ∈ F.geo.quadratureRule o, 0 ≤ q.2 * F.geo.integrationElement q.1
  normals : ∀ F ∈ mesh.inner, F.geo.centerUnitOuterNormal ⬝ᵥ F.geo.centerUnitOuterNormal = 1
  boundaryNormals : ∀ F ∈ mesh.boundary, F.geo.centerUnitOuterNormal ⬝ᵥ F.geo.centerUnitOuterNormal = 1
  order : ∀ c, (mesh.lfs c).order < 20

/-- The finite element function of a cell. -/
def cellFunction (mesh : Mesh K P Q d m n N) (x : Fin N × Fin m × Fin n → K) (c : Fin N) : P → Fin m → K :=
  femFunction (mesh.lfs c).phi fun i => x (c, i)

/-- The energy of a discrete field: the integral of the energy density. -/
def meshEnergy (overintegration : Int) (mesh : Mesh K P Q d m n N) (density : (Fin m → K) → (Fin m → K) → K)
    (x : Fin N × Fin m × Fin n → K) : K :=
  ∑ c, cellIntegral overintegration mesh c fun p => density (cellFunction mesh x c p) (cellFunction mesh x c p)

/-- The sequence `x` of coefficients is computed by the implicit Euler method with step sizes `dt` for the spatial residual `r` and
the mass operator `mass`: each step satisfies M(x') - M(x) + dt r(x') = 0. -/
def ImplicitEuler {ι : Type} [DecidableEq ι] (mass r : (ι → K) → Option (Calls ι K)) (dt : Nat → K) (x : Nat → ι → K) : Prop :=
  ∀ k, ∃ m m' s, mass (x k) = some m ∧ mass (x (k + 1)) = some m' ∧ r (x (k + 1)) = some s ∧
    ∀ i, total m' i - total m i + dt k * total s i = 0

/-- Boundary values that feed in no energy. Integrating the equations over a cell gives half of the energy flux of the trace `u` at a
boundary face; the numerical flux with the outer state of the boundary values takes out at least that much. `flux` is the numerical
flux and `A` the flux of the equations, for the normal of the face. -/
def Passive [LinearOrder K] (E : (Fin m → K) → (Fin m → K) → K) (A : (Fin d → K) → (Fin m → K) → Fin m → K)
    (flux : (Fin d → K) → (Fin m → K) → (Fin m → K) → Fin m → K) (F : BoundaryFace K P Q d m N) : Prop :=
  ∀ q u, E (A F.geo.centerUnitOuterNormal u) u / 2 ≤ E (flux F.geo.centerUnitOuterNormal u (F.g q u)) u

end Verif.LocalOp.Spec
