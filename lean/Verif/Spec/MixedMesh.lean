import Verif.Model.MixedMesh
import Verif.Spec.VectorOperators
import Verif.Spec.MixedDiffusion
import Verif.Spec.DGForm
import Verif.Spec.ConstrainedSolve
import Mathlib.LinearAlgebra.Matrix.NonsingularInverse
/-
The mixed weak form of the diffusion equation `div σ = f`, `σ = -A ∇u` on a mesh.
-/
namespace Verif.LocalOp.MixedDiffusion
open Spec Matrix ConstrainedSolve Constraints

variable {K P Q I : Type} [Field K] {d N : Nat} {n m : Fin N → Nat}

/-- A mesh of affine cells with Jacobians `F` of absolute determinants `det`, regular tensors, and without reaction; the matrix inversion works. -/
structure Affine (o : Method K P d) (mesh : Mesh K P Q I d n m) (F : Fin N → Matrix (Fin d) (Fin d) K) (det : Fin N → K) : Prop where
  cells : ∀ c, AffineCell (mesh.geo c) (F c) (det c)
  tensor : ∀ c, ((mesh.par c).A (mesh.geo c).center).det ≠ 0
  reaction : ∀ c p, (mesh.par c).c p = 0
  invert : ∀ M, M.det ≠ 0 → M * o.invert M = 1

variable (o : Method K P d) (mesh : Mesh K P Q I d n m) (F : Fin N → Matrix (Fin d) (Fin d) K) (det : Fin N → K)

/-- The flux with coefficients `x` on a cell, its divergence, and the pressure. -/
def Mesh.flux (x : I → K) (c : Fin N) (p : P) : Fin d → K := piola (F c) (det c) (femVector (mesh.v c).phi (fun i => x (mesh.dof c (.inl i))) p)
def Mesh.divergence (x : I → K) (c : Fin N) (p : P) : K :=
  piolaDivergence (F c) ((mesh.geo c).jacobianInverseTransposed p)ᵀ (det c) (∑ i, x (mesh.dof c (.inl i)) • (mesh.v c).js p i)
def Mesh.pressure (x : I → K) (c : Fin N) (p : P) : K := femScalar (mesh.p c).phi (fun i => x (mesh.dof c (.inr i))) p

/-- The integral of `A⁻¹σ·τ`. -/
noncomputable def Mesh.resistance (x w : I → K) : K :=
  ∑ c, quadrature ((mesh.geo c).quadratureRule o.qorderV) (mesh.geo c).integrationElement fun p =>
    (((mesh.par c).A (mesh.geo c).center)⁻¹ *ᵥ mesh.flux F det x c p) ⬝ᵥ mesh.flux F det w c p

/-- The integral of `u div τ` over a cell, and over the mesh. -/
def Mesh.cellWork (x w : I → K) (c : Fin N) : K :=
  quadrature ((mesh.geo c).quadratureRule o.qorderP) (mesh.geo c).integrationElement fun p => mesh.pressure x c p * mesh.divergence F det w c p
def Mesh.pressureWork (x w : I → K) : K := ∑ c, mesh.cellWork o F det x w c

/-- The integral of `f q`. -/
def Mesh.source (w : I → K) : K :=
  ∑ c, quadrature ((mesh.geo c).quadratureRule o.qorderP) (mesh.geo c).integrationElement fun p => (mesh.par c).f p * mesh.pressure w c p

/-- The integral of `g τ·n` over the Dirichlet boundary. -/
def Mesh.boundaryWork (w : I → K) : K :=
  (mesh.boundary.map fun E => quadrature (E.geo.quadratureRule o.qorderV) E.geo.integrationElement fun q =>
    if E.neumann q then 0 else
      (mesh.par E.inside).g (E.geo.inInside q) * (mesh.flux F det w E.inside (E.geo.inInside q) ⬝ᵥ E.geo.unitOuterNormal q)).sum

/-- A solution: the linear constraints hold, `A⁻¹σ·τ - u div τ + g τ·n` and `div σ q - f q` integrate to zero for all test functions. -/
structure Solution [DecidableEq I] (t : Trafo I K) (x : I → K) : Prop where
  conforming : Conforming t x
  darcy : ∀ w, Homogeneous t w → mesh.resistance o F det x w - mesh.pressureWork o F det x w + mesh.boundaryWork o F det w = 0
  balance : ∀ w, Homogeneous t w → mesh.pressureWork o F det w x = mesh.source o w

/-- Every degree of freedom (`pressureDof` are those of the pressure) belongs to a cell, and the linear constraints do not mix flux and pressure. -/
structure Separated (t : Trafo I K) (pressureDof : I → Bool) : Prop where
  flux : ∀ c i, pressureDof (mesh.dof c (.inl i)) = false
  pressure : ∀ c i, pressureDof (mesh.dof c (.inr i)) = true
  used : ∀ k, ∃ c i, mesh.dof c i = k
  rows : ∀ k row, (k, row) ∈ t.rows → ∀ e ∈ row, pressureDof e.1 = pressureDof k

/-- A stable pair of spaces: only the zero flux has no resistance, and only the zero pressure does no work on any flux (the inf-sup condition). -/
structure Stable [DecidableEq I] (t : Trafo I K) (pressureDof : I → Bool) : Prop where
  definite : ∀ w, Homogeneous t w → mesh.resistance o F det w w = 0 → ∀ k, pressureDof k = false → w k = 0
  infSup : ∀ x, Homogeneous t x → (∀ w, Homogeneous t w → mesh.pressureWork o F det x w = 0) → ∀ k, pressureDof k = true → x k = 0

end Verif.LocalOp.MixedDiffusion
