import Verif.Model.FEMMesh
import Verif.Spec.DGForm
import Verif.Spec.ConstrainedSolve
/-
The finite element method for the convection-diffusion equation on a mesh, as a form of finite element functions.
-/
namespace Verif.LocalOp.FEM
open Spec Matrix ConstrainedSolve Constraints

variable {K P Q I : Type} [Field K] [LinearOrder K] {d N : Nat} {n : Fin N → Nat}

/-- The coefficients of a function on a cell. -/
def Mesh.onCell (mesh : Mesh K P Q I d n) (x : I → K) (c : Fin N) : Fin (n c) → K := fun i => x (mesh.dof c i)

/-- `∫ A∇u·∇w - u b·∇w + c u w - f w` on a cell. -/
def cellForm (add : Int) (mesh : Mesh K P Q I d n) (c : Fin N) (x w : I → K) : K :=
  integrate (mesh.geo c) (add + 2 * (mesh.lfs c).order) fun p =>
    let u := value (mesh.lfs c) (mesh.onCell x c) p
    let v := value (mesh.lfs c) (mesh.onCell w c) p
    let du := gradient (mesh.geo c) (mesh.lfs c) (mesh.onCell x c) p
    let dv := gradient (mesh.geo c) (mesh.lfs c) (mesh.onCell w c) p
    (tensor (mesh.geo c) (mesh.par c) p *ᵥ du) ⬝ᵥ dv - u * ((mesh.par c).b p ⬝ᵥ dv) + (mesh.par c).c p * u * v - (mesh.par c).f p * v

/-- `∫ j w` on a Neumann face, `∫ (b·n u + o) w` on an outflow face. -/
def faceForm (add : Int) (mesh : Mesh K P Q I d n) (F : DG.BoundaryFace K P Q d N) (x w : I → K) : K :=
  integrateFace F.geo (add + 2 * (mesh.lfs F.inside).order) fun q =>
    let u := value (mesh.lfs F.inside) (mesh.onCell x F.inside) (F.geo.inInside q)
    let v := value (mesh.lfs F.inside) (mesh.onCell w F.inside) (F.geo.inInside q)
    match F.par.bctype F.geo.center with
    | .neumann => F.par.j q * v
    | .outflow => (((mesh.par F.inside).b (F.geo.inInside q) ⬝ᵥ F.geo.unitOuterNormal q) * u + F.par.o q) * v
    | _ => 0

/-- The weak form of the equation. -/
def weakForm (add : Int) (mesh : Mesh K P Q I d n) (x w : I → K) : K :=
  ∑ c, cellForm add mesh c x w + (mesh.boundary.map fun F => faceForm add mesh F x w).sum

/-- `∫ A∇w·∇w + c w²`. -/
def meshEnergy (add : Int) (mesh : Mesh K P Q I d n) (w : I → K) : K :=
  ∑ c, integrate (mesh.geo c) (add + 2 * (mesh.lfs c).order) fun p =>
    (tensor (mesh.geo c) (mesh.par c) p *ᵥ gradient (mesh.geo c) (mesh.lfs c) (mesh.onCell w c) p) ⬝ᵥ
      gradient (mesh.geo c) (mesh.lfs c) (mesh.onCell w c) p + (mesh.par c).c p * value (mesh.lfs c) (mesh.onCell w c) p ^ 2

/-- `b·n` on a face. -/
def faceFlux (mesh : Mesh K P Q I d n) (F : DG.BoundaryFace K P Q d N) (q : Q) : K :=
  (mesh.par F.inside).b (F.geo.inInside q) ⬝ᵥ F.geo.unitOuterNormal q

/-- A problem whose spatial operator is dissipative: nonnegative quadrature weights, positive semidefinite diffusion, nonnegative reaction, boundary conditions
on all boundary faces. -/
structure Dissipative (add : Int) (mesh : Mesh K P Q I d n) : Prop where
  weights : ∀ c, NonnegWeights (mesh.geo c) (add + 2 * (mesh.lfs c).order)
  faceWeights : ∀ F ∈ mesh.boundary, NonnegFaceWeights F.geo (add + 2 * (mesh.lfs F.inside).order)
  diffusion : ∀ c p v, 0 ≤ ((mesh.par c).A p *ᵥ v) ⬝ᵥ v
  reaction : ∀ c p, 0 ≤ (mesh.par c).c p
  conditions : ∀ F ∈ mesh.boundary, F.par.bctype F.geo.center ≠ .none

/-- An elliptic problem: in addition, only the zero function has no energy among those that vanish on the Dirichlet boundary. -/
structure Elliptic (add : Int) (t : Trafo I K) [DecidableEq I] (mesh : Mesh K P Q I d n) : Prop extends Dissipative add mesh where
  definite : ∀ w, Homogeneous t w → meshEnergy add mesh w = 0 → ∀ k, w k = 0

/-- The flow is incompressible, as the quadrature sees it: `∫ w b·∇w` is the sum of `∫ ½ b·n w²` over the boundary, where test functions vanish on Dirichlet
faces, and the flow enters through Neumann faces and leaves through outflow faces, if at all. -/
structure Incompressible (add : Int) (t : Trafo I K) [DecidableEq I] (mesh : Mesh K P Q I d n) : Prop where
  divergence : ∀ w, Homogeneous t w →
    ∑ c, integrate (mesh.geo c) (add + 2 * (mesh.lfs c).order) (fun p => value (mesh.lfs c) (mesh.onCell w c) p *
      ((mesh.par c).b p ⬝ᵥ gradient (mesh.geo c) (mesh.lfs c) (mesh.onCell w c) p)) =
    (mesh.boundary.map fun F => integrateFace F.geo (add + 2 * (mesh.lfs F.inside).order) fun q =>
      faceFlux mesh F q / 2 * value (mesh.lfs F.inside) (mesh.onCell w F.inside) (F.geo.inInside q) ^ 2).sum
  boundary : ∀ F ∈ mesh.boundary, ∀ q ∈ F.geo.quadratureRule (add + 2 * (mesh.lfs F.inside).order),
    match F.par.bctype F.geo.center with
    | .dirichlet => ∀ w, Homogeneous t w → value (mesh.lfs F.inside) (mesh.onCell w F.inside) (F.geo.inInside q.1) = 0
    | .neumann => faceFlux mesh F q.1 ≤ 0
    | .outflow => 0 ≤ faceFlux mesh F q.1
    | .none => True

/-- Every constrained degree of freedom belongs to a cell. -/
def ConstrainedInCells (t : Trafo I K) [DecidableEq I] (mesh : Mesh K P Q I d n) : Prop :=
  ∀ k, t.Constrained k → ∃ c i, mesh.dof c i = k

/-- The finite element solution: it satisfies the linear constraints, and the weak form vanishes for all test functions. -/
def Solution [DecidableEq I] (add : Int) (t : Trafo I K) (mesh : Mesh K P Q I d n) (x : I → K) : Prop :=
  Conforming t x ∧ ∀ w, Homogeneous t w → weakForm add mesh x w = 0

/-- `∫ 2 j u` on a Neumann face, `∫ 2 o u` on an outflow face. -/
def facePotential (add : Int) (mesh : Mesh K P Q I d n) (F : DG.BoundaryFace K P Q d N) (x : I → K) : K :=
  integrateFace F.geo (add + 2 * (mesh.lfs F.inside).order) fun q =>
    match F.par.bctype F.geo.center with
    | .neumann => 2 * F.par.j q * value (mesh.lfs F.inside) (mesh.onCell x F.inside) (F.geo.inInside q)
    | .outflow => 2 * F.par.o q * value (mesh.lfs F.inside) (mesh.onCell x F.inside) (F.geo.inInside q)
    | _ => 0

/-- `∫ A∇u·∇u + c u² - 2 f u`, plus `∫ 2 j u` over the Neumann and `∫ 2 o u` over the outflow boundary. -/
def potential (add : Int) (mesh : Mesh K P Q I d n) (x : I → K) : K :=
  ∑ c, integrate (mesh.geo c) (add + 2 * (mesh.lfs c).order) (fun p =>
    (tensor (mesh.geo c) (mesh.par c) p *ᵥ gradient (mesh.geo c) (mesh.lfs c) (mesh.onCell x c) p) ⬝ᵥ
      gradient (mesh.geo c) (mesh.lfs c) (mesh.onCell x c) p + (mesh.par c).c p * value (mesh.lfs c) (mesh.onCell x c) p ^ 2 -
      2 * (mesh.par c).f p * value (mesh.lfs c) (mesh.onCell x c) p) +
  (mesh.boundary.map fun F => facePotential add mesh F x).sum

end Verif.LocalOp.FEM
