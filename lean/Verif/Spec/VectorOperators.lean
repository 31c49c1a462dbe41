import Verif.Spec.LocalOperator
import Verif.Spec.Hyperbolic
import Mathlib.LinearAlgebra.Matrix.Trace
/-
Weak forms of the equations of linear elasticity, of the Navier-Stokes equations and of the mixed diffusion equation.
Independent of the model of the operators.
-/
namespace Verif.LocalOp.Spec

open Matrix

variable {K P : Type} [Field K] {d : Nat}

/-- The bilinear form of the matrix, with test function `y` and ansatz function `z`. -/
def bilinear {ι : Type} [Fintype ι] (J : ι × ι → K) (y z : ι → K) : K := ∑ i, y i * applyMatrix J z i

/-- The matrix of the partial derivatives of a vector field in a power space: row `c` is the gradient of component `c`. `grad`
are the gradients of the basis functions on the real element. -/
def femGradient {n : Nat} (grad : P → Fin n → Fin d → K) (x : Fin d × Fin n → K) (p : P) : Matrix (Fin d) (Fin d) K :=
  Matrix.of fun c k => ∑ i, x (c, i) * grad p i k

/-- The scalar finite element function with coefficients `x`. -/
def femScalar {n : Nat} (phi : P → Fin n → K) (x : Fin n → K) (p : P) : K := ∑ i, x i * phi p i

/-- The finite element function with vector valued basis functions and coefficients `x`. -/
def femVector {n : Nat} (phi : P → Fin n → Fin d → K) (x : Fin n → K) (p : P) (k : Fin d) : K := ∑ i, x i * phi p i k

/-- The product A:B of two matrices. -/
def contract (A B : Matrix (Fin d) (Fin d) K) : K := ∑ i, ∑ j, A i j * B i j

/-- The linearised strain of a displacement with gradient `A`. -/
def strain (A : Matrix (Fin d) (Fin d) K) : Matrix (Fin d) (Fin d) K := (1 / 2 : K) • (A + Aᵀ)

/-- The energy density of linear elasticity with Lamé's constants: 2μ ε(u):ε(v) + λ div u div v. -/
def elasticDensity (mu lambda : K) (A B : Matrix (Fin d) (Fin d) K) : K :=
  2 * mu * contract (strain A) (strain B) + lambda * (A.trace * B.trace)

/-- The viscous stress: μ∇u, or μ(∇u + ∇uᵀ). -/
def viscousStress (full : Bool) (mu : K) (A : Matrix (Fin d) (Fin d) K) : Matrix (Fin d) (Fin d) K :=
  if full then mu • (A + Aᵀ) else mu • A

/-- The density of the weak form of the (Navier-)Stokes equations: velocity with gradient `A` and value `u`, pressure `pr`, test
functions `v` with gradient `B` and `q`. σ:∇v - p div v + ρ (u·∇)u·v - q div u. -/
def flowDensity (navier full : Bool) (mu rho : K) (A : Matrix (Fin d) (Fin d) K) (u : Fin d → K) (pr : K)
    (B : Matrix (Fin d) (Fin d) K) (v : Fin d → K) (q : K) : K :=
  contract (viscousStress full mu A) B - pr * B.trace + (if navier then rho * ((A *ᵥ u) ⬝ᵥ v) else 0) - q * A.trace

/-- `w` is the curl, in three dimensions, of a vector field with derivative `A`: the antisymmetric part of the derivative is
the rotation with w. -/
def IsCurl₃ (A : Matrix (Fin 3) (Fin 3) K) (w : Fin 3 → K) : Prop := ∀ h, (A - Aᵀ) *ᵥ h = w ⨯₃ h

/-- The same in two dimensions, where the curl is a number. -/
def IsCurl₂ (A : Matrix (Fin 2) (Fin 2) K) (w : K) : Prop := ∀ h, (A - Aᵀ) *ᵥ h = w • ![-h 1, h 0]

/-- The Piola transformation of a vector on the reference element to a cell with Jacobian `F`. -/
def piola (F : Matrix (Fin d) (Fin d) K) (det : K) (v : Fin d → K) : Fin d → K := det⁻¹ • (F *ᵥ v)

end Verif.LocalOp.Spec
