import Verif.Model.VectorMesh
import Verif.Spec.VectorOperators
import Verif.Spec.DGForm
import Verif.Spec.ConstrainedSolve
/-
The weak forms of linear elasticity and of the Navier-Stokes equations on a mesh.
-/
namespace Verif.LocalOp.Elasticity
open Spec Matrix ConstrainedSolve Constraints

variable {K P Q I : Type} [Field K] {d N : Nat} {n : Fin N → Nat}

/-- The displacement with coefficients `x` on a cell, and its gradient. -/
def Mesh.value (mesh : Mesh K P Q I d n) (x : I → K) (c : Fin N) (p : P) : Fin d → K :=
  femFunction (mesh.fe c).phi (fun i => x (mesh.dof c i)) p
def Mesh.grad (mesh : Mesh K P Q I d n) (x : I → K) (c : Fin N) (p : P) : Matrix (Fin d) (Fin d) K :=
  femGradient (fun p i => (mesh.geo c).jacobianInverseTransposed p *ᵥ (mesh.fe c).js p i) (fun i => x (mesh.dof c i)) p

/-- The work of the stresses of `x` on the displacement `w`: the integral of `2μ ε(u):ε(w) + λ div u div w`. -/
def Mesh.work (intorder : Int) (mesh : Mesh K P Q I d n) (x w : I → K) : K :=
  ∑ c, quadrature ((mesh.geo c).quadratureRule intorder) (mesh.geo c).integrationElement fun p =>
    elasticDensity ((mesh.par c).mu p) ((mesh.par c).lambda p) (mesh.grad x c p) (mesh.grad w c p)

/-- The work of the volume force: the integral of `f·w`. -/
def Mesh.load (intorder : Int) (mesh : Mesh K P Q I d n) (w : I → K) : K :=
  ∑ c, quadrature ((mesh.geo c).quadratureRule intorder) (mesh.geo c).integrationElement fun p => (mesh.par c).f p ⬝ᵥ mesh.value w c p

/-- Equilibrium: the linear constraints hold and the principle of virtual work, for all virtual displacements. -/
def Equilibrium [DecidableEq I] (intorder : Int) (t : Trafo I K) (mesh : Mesh K P Q I d n) (x : I → K) : Prop :=
  Conforming t x ∧ ∀ w, Homogeneous t w → mesh.work intorder x w = mesh.load intorder w

/-- An elastic body that is held: nonnegative Lamé constants and quadrature weights, and only the zero displacement has no energy among those allowed by the
constraints (Korn's inequality). -/
structure Held [LinearOrder K] [DecidableEq I] (intorder : Int) (t : Trafo I K) (mesh : Mesh K P Q I d n) : Prop where
  weights : ∀ c, ∀ q ∈ (mesh.geo c).quadratureRule intorder, 0 ≤ q.2 * (mesh.geo c).integrationElement q.1
  mu : ∀ c p, 0 ≤ (mesh.par c).mu p
  lambda : ∀ c p, 0 ≤ (mesh.par c).lambda p
  korn : ∀ w, Homogeneous t w → mesh.work intorder w w = 0 → ∀ k, w k = 0

/-- Every constrained degree of freedom belongs to a cell. -/
def ConstrainedInCells [DecidableEq I] (t : Trafo I K) (mesh : Mesh K P Q I d n) : Prop :=
  ∀ k, t.Constrained k → ∃ c i, mesh.dof c i = k

end Verif.LocalOp.Elasticity

namespace Verif.LocalOp.TaylorHood
open Spec Matrix ConstrainedSolve Constraints

variable {K P Q I : Type} [Field K] {d N : Nat} {n m : Fin N → Nat}

/-- The velocity with coefficients `x` on a cell, its gradient, and the pressure. -/
def Mesh.velocity (mesh : Mesh K P Q I d n m) (x : I → K) (c : Fin N) (p : P) : Fin d → K :=
  femFunction (mesh.v c).phi (fun i => x (mesh.dof c (.inl i))) p
def Mesh.grad (mesh : Mesh K P Q I d n m) (x : I → K) (c : Fin N) (p : P) : Matrix (Fin d) (Fin d) K :=
  femGradient (fun p i => (mesh.geo c).jacobianInverseTransposed p *ᵥ (mesh.v c).js p i) (fun i => x (mesh.dof c (.inl i))) p
def Mesh.pressure (mesh : Mesh K P Q I d n m) (x : I → K) (c : Fin N) (p : P) : K :=
  femScalar (mesh.p c).phi (fun i => x (mesh.dof c (.inr i))) p

/-- The quadrature of a function over a cell. -/
def Mesh.integral (s : Int) (mesh : Mesh K P Q I d n m) (c : Fin N) (g : P → K) : K :=
  quadrature ((mesh.geo c).quadratureRule (volumeOrder d (mesh.v c).order (mesh.isSimplex c) s)) (mesh.geo c).integrationElement g

/-- The integral of `-f·v + g₂ q`. -/
def Mesh.sources (s : Int) (mesh : Mesh K P Q I d n m) (w : I → K) : K :=
  ∑ c, quadrature ((mesh.geo c).quadratureRule (massOrder d (mesh.v c).order (mesh.isSimplex c) s)) (mesh.geo c).integrationElement fun p =>
    (mesh.par c).g2 p * mesh.pressure w c p - (mesh.par c).f p ⬝ᵥ mesh.velocity w c p

/-- The integral of `j·v` over the Neumann boundary. -/
def Mesh.traction (s : Int) (mesh : Mesh K P Q I d n m) (w : I → K) : K :=
  (mesh.boundary.map fun F => quadrature (F.geo.quadratureRule (faceOrder d (mesh.v F.inside).order F.isSimplex s)) F.geo.integrationElement fun q =>
    if F.bctype q = .stressNeumann then F.j q ⬝ᵥ mesh.velocity w F.inside (F.geo.inInside q) else 0).sum

/-- The weak form of the (Navier-)Stokes equations: the integral of `σ(u):∇v - p div v + ρ(u·∇)u·v - q div u`, sources and traction. -/
def weakForm (s : Int) (mesh : Mesh K P Q I d n m) (x w : I → K) : K :=
  ∑ c, mesh.integral s c (fun p => flowDensity (mesh.par c).navier (mesh.par c).fullTensor ((mesh.par c).mu p) ((mesh.par c).rho p)
    (mesh.grad x c p) (mesh.velocity x c p) (mesh.pressure x c p) (mesh.grad w c p) (mesh.velocity w c p) (mesh.pressure w c p)) +
    mesh.sources s w + mesh.traction s w

/-- The viscous dissipation: the integral of `σ(u):∇u`. -/
def Mesh.dissipation (s : Int) (mesh : Mesh K P Q I d n m) (w : I → K) : K :=
  ∑ c, mesh.integral s c fun p => contract (viscousStress (mesh.par c).fullTensor ((mesh.par c).mu p) (mesh.grad w c p)) (mesh.grad w c p)

/-- The integral of `p div v`. -/
def Mesh.pressureWork (s : Int) (mesh : Mesh K P Q I d n m) (x w : I → K) : K :=
  ∑ c, mesh.integral s c fun p => mesh.pressure x c p * (mesh.grad w c p).trace

/-- A solution: the linear constraints hold, and the weak form vanishes for all test functions. -/
def Solution [DecidableEq I] (s : Int) (t : Trafo I K) (mesh : Mesh K P Q I d n m) (x : I → K) : Prop :=
  Conforming t x ∧ ∀ w, Homogeneous t w → weakForm s mesh x w = 0

/-- Every degree of freedom (`pressureDof` are those of the pressure) belongs to a cell, and the linear constraints do not mix velocity and pressure. -/
structure Separated (t : Trafo I K) (mesh : Mesh K P Q I d n m) (pressureDof : I → Bool) : Prop where
  velocity : ∀ c i, pressureDof (mesh.dof c (.inl i)) = false
  pressure : ∀ c i, pressureDof (mesh.dof c (.inr i)) = true
  used : ∀ k, ∃ c i, mesh.dof c i = k
  rows : ∀ k row, (k, row) ∈ t.rows → ∀ e ∈ row, pressureDof e.1 = pressureDof k

/-- A stable Stokes problem: no convection, nonnegative viscosity and quadrature weights; only the zero velocity does not dissipate (Korn's inequality), and
only the zero pressure does no work on any velocity (the inf-sup condition). -/
structure StableStokes [LinearOrder K] [DecidableEq I] (s : Int) (t : Trafo I K) (mesh : Mesh K P Q I d n m) (pressureDof : I → Bool) : Prop where
  stokes : ∀ c, (mesh.par c).navier = false
  weights : ∀ c, ∀ q ∈ (mesh.geo c).quadratureRule (volumeOrder d (mesh.v c).order (mesh.isSimplex c) s), 0 ≤ q.2 * (mesh.geo c).integrationElement q.1
  mu : ∀ c p, 0 ≤ (mesh.par c).mu p
  korn : ∀ w, Homogeneous t w → mesh.dissipation s w = 0 → ∀ k, pressureDof k = false → w k = 0
  infSup : ∀ x, Homogeneous t x → (∀ w, Homogeneous t w → mesh.pressureWork s x w = 0) → ∀ k, pressureDof k = true → x k = 0

end Verif.LocalOp.TaylorHood
