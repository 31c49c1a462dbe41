import Mathlib.LinearAlgebra.CrossProduct
import Mathlib.LinearAlgebra.Matrix.Determinant.Basic
import Mathlib.Algebra.Order.Ring.Defs
/-
The equations of linear acoustics and Maxwell's equations as conservation laws, and what an upwind flux is. Independent of the
model of the operators.
-/
namespace Verif.LocalOp.Spec

open Matrix

variable {K : Type} [Field K] {d : Nat}

/-- Linear acoustics: the state is (ρ, w). The flux of ρ is w, the flux of w is c²ρ times the identity. -/
def acousticFlux (c : K) (u : Fin (d + 1) → K) : Matrix (Fin (d + 1)) (Fin d) K :=
  Matrix.of fun i j => Fin.cases (u j.succ) (fun k => if k = j then c ^ 2 * u 0 else 0) i

/-- The flux through a surface with normal `n`. -/
def acousticNormalFlux (c : K) (n : Fin d → K) (u : Fin (d + 1) → K) : Fin (d + 1) → K := acousticFlux c u *ᵥ n

/-- The energy of linear acoustics, c²ρ² + |w|², as a product. -/
def acousticEnergy (c : K) (u v : Fin (d + 1) → K) : K := c ^ 2 * u 0 * v 0 + ∑ i : Fin d, u i.succ * v i.succ

/-- Maxwell's equations: the state is (D, B). -/
def dPart (u : Fin 6 → K) : Fin 3 → K := ![u 0, u 1, u 2]
/-- -/
def bPart (u : Fin 6 → K) : Fin 3 → K := ![u 3, u 4, u 5]

/-- The flux through a surface with normal `n`: as ∂D/∂t - ∇×(B/μ) + .. and ∂B/∂t + ∇×(D/ε), it is (-n×B/μ, n×D/ε). -/
def maxwellNormalFlux (eps mu : K) (n : Fin 3 → K) (u : Fin 6 → K) : Fin 6 → K :=
  let e := -(n ⨯₃ (mu⁻¹ • bPart u))
  let h := n ⨯₃ (eps⁻¹ • dPart u)
  ![e 0, e 1, e 2, h 0, h 1, h 2]

/-- The energy of the electromagnetic field, |D|²/ε + |B|²/μ, as a product. -/
def maxwellEnergy (eps mu : K) (u v : Fin 6 → K) : K := (dPart u ⬝ᵥ dPart v) / eps + (bPart u ⬝ᵥ bPart v) / mu

/-- `u` is the sum of `p`, which is transported with speed `c` along the normal, of `q`, which is transported with speed `c`
against it, and of a part that is not transported. `A` is the flux through the surface as function of the state. -/
def IsWaveSplitting {ι : Type} (A : (ι → K) → ι → K) (c : K) (u p q : ι → K) : Prop :=
  A p = c • p ∧ A q = -c • q ∧ A (u - p - q) = 0

/-- A routine that solves linear systems with regular matrices. -/
def Solves (solve : (k : Nat) → Matrix (Fin k) (Fin k) K → (Fin k → K) → Fin k → K) : Prop :=
  ∀ k M b, M.det ≠ 0 → M *ᵥ solve k M b = b

/-- A routine that inverts regular matrices. -/
def Inverts (invert : Matrix (Fin 6) (Fin 6) K → Matrix (Fin 6) (Fin 6) K) : Prop :=
  ∀ M, M.det ≠ 0 → M * invert M = 1

/-- A routine that yields the nonnegative root of `a`. -/
def RootOf [LinearOrder K] (sqrt : K → K) (a : K) : Prop := sqrt a * sqrt a = a ∧ 0 ≤ sqrt a

/-- The quadrature of `f` over a cell or face: sum over the points of weight times integration element times value. -/
def quadrature {P : Type} (rule : List (P × K)) (integrationElement f : P → K) : K :=
  (rule.map fun q => f q.1 * (q.2 * integrationElement q.1)).sum

/-- The finite element function with coefficients `x` in a power space with `m` components and scalar basis `phi`. -/
def femFunction {m n : Nat} {P : Type} (phi : P → Fin n → K) (x : Fin m × Fin n → K) (p : P) (i : Fin m) : K :=
  ∑ k, x (i, k) * phi p k

/-- The flux across a surface is exact where the normal flux is the same on both sides (the conditions at an interface between
two materials): then the numerical flux is this common flux. -/
def ExactAtInterface {ι : Type} (A B : (ι → K) → ι → K) (flux : (ι → K) → (ι → K) → ι → K) : Prop :=
  ∀ uS uN, A uS = B uN → flux uS uN = A uS

end Verif.LocalOp.Spec
