import Verif.Model.NonlinearMesh
import Verif.Spec.ConstrainedSolve
import Verif.Spec.DGForm
import Verif.Spec.VectorOperators
import Verif.Spec.TransientSolve
/-
The finite element method for a semilinear equation on a mesh, as a form of finite element functions.
-/
namespace Verif.LocalOp.NonlinearFEM
open Spec Matrix ConstrainedSolve Constraints
open OneStep (Setting factors)

variable {K P Q I : Type} [Field K] [LinearOrder K] {d N : Nat} {n : Fin N → Nat}

/-- The coefficients of a function on a cell. -/
def Mesh.onCell (mesh : Mesh K P Q I d n) (x : I → K) (c : Fin N) : Fin (n c) → K := fun i => x (mesh.dof c i)

/-- `∫ D v(u) ∇u·∇w - q(u)·∇w - f(u) w` on a cell; the diffusion tensor is taken at the centre of the cell. -/
def cellForm (intorder : Int) (mesh : Mesh K P Q I d n) (c : Fin N) (x w : I → K) : K :=
  integrate (mesh.geo c) intorder fun p =>
    let u := value (mesh.lfs c) (mesh.onCell x c) p
    let du := gradient (mesh.geo c) (mesh.lfs c) (mesh.onCell x c) p
    let dw := gradient (mesh.geo c) (mesh.lfs c) (mesh.onCell w c) p
    ((mesh.par c).D (mesh.geo c).center *ᵥ ((mesh.par c).v p u • du)) ⬝ᵥ dw - (mesh.par c).q p u ⬝ᵥ dw -
      (mesh.par c).f p u * value (mesh.lfs c) (mesh.onCell w c) p

/-- `∫ j(u) w` on the part of a face that is not Dirichlet. -/
def faceForm (intorder : Int) (mesh : Mesh K P Q I d n) (F : Face K P Q d N) (x w : I → K) : K :=
  integrateFace F.geo intorder fun q =>
    if F.par.isDirichlet q then 0 else
      F.par.j (F.geo.inInside q) (value (mesh.lfs F.inside) (mesh.onCell x F.inside) (F.geo.inInside q)) *
        value (mesh.lfs F.inside) (mesh.onCell w F.inside) (F.geo.inInside q)

/-- The weak form of the equation. -/
def weakForm (intorder : Int) (mesh : Mesh K P Q I d n) (x w : I → K) : K :=
  ∑ c, cellForm intorder mesh c x w + (mesh.boundary.map fun F => faceForm intorder mesh F x w).sum

/-- `∫ D v ∇w·∇w`. -/
def meshEnergy (intorder : Int) (mesh : Mesh K P Q I d n) (w : I → K) : K :=
  ∑ c, integrate (mesh.geo c) intorder fun p =>
    ((mesh.par c).D (mesh.geo c).center *ᵥ ((mesh.par c).v p 0 • gradient (mesh.geo c) (mesh.lfs c) (mesh.onCell w c) p)) ⬝ᵥ
      gradient (mesh.geo c) (mesh.lfs c) (mesh.onCell w c) p

/-- A semilinear problem with nonnegative quadrature weights: diffusion and convective flux do not depend on the solution, the source does not increase with
it, and the flow through the boundary does not decrease. -/
structure Semilinear (intorder : Int) (mesh : Mesh K P Q I d n) : Prop where
  weights : ∀ c, NonnegWeights (mesh.geo c) intorder
  faceWeights : ∀ F ∈ mesh.boundary, NonnegFaceWeights F.geo intorder
  identity : ∀ c p u, (mesh.par c).w p u = u
  faceIdentity : ∀ F ∈ mesh.boundary, ∀ p u, F.par.w p u = u
  diffusion : ∀ c p u u', (mesh.par c).v p u = (mesh.par c).v p u'
  convection : ∀ c p u u', (mesh.par c).q p u = (mesh.par c).q p u'
  source : ∀ c p a b, ((mesh.par c).f p a - (mesh.par c).f p b) * (a - b) ≤ 0
  outflow : ∀ F ∈ mesh.boundary, ∀ p a b, 0 ≤ (F.par.j p a - F.par.j p b) * (a - b)

/-- The energy of functions that vanish on the Dirichlet boundary is at least `alpha` times the square of their norm (Poincaré's inequality). -/
def Coercive [DecidableEq I] [Fintype I] (intorder : Int) (t : Trafo I K) (mesh : Mesh K P Q I d n) (alpha : K) : Prop :=
  ∀ w, Homogeneous t w → alpha * ∑ k, w k ^ 2 ≤ meshEnergy intorder mesh w

/-- Source and flow through the boundary are affine functions of the solution. -/
structure AffineData (mesh : Mesh K P Q I d n) : Prop where
  source : ∀ c, ∃ a b : P → K, ∀ p u, (mesh.par c).f p u = a p + b p * u
  outflow : ∀ F ∈ mesh.boundary, ∃ a b : P → K, ∀ p u, F.par.j p u = a p + b p * u

/-- Every constrained degree of freedom belongs to a cell. -/
def ConstrainedInCells (t : Trafo I K) [DecidableEq I] (dof : (c : Fin N) → Fin (n c) → I) : Prop :=
  ∀ k, t.Constrained k → ∃ c i, dof c i = k

/-- `∫ scaling u w`. -/
def massForm (intorderadd : Int) (scaling : K) (pb : Transient K P Q I d n) (x w : I → K) : K :=
  ∑ c, integrate (pb.geo c) (2 * (pb.lfs c).order + intorderadd) fun p =>
    scaling * value (pb.lfs c) (fun i => x (pb.dof c i)) p * value (pb.lfs c) (fun i => w (pb.dof c i)) p

/-- `∑_{s ≤ r} (a_rs f1 ∫ scaling u_s w + b_rs f0 a(u_s, w))`, where `a` is the weak form at the time of the stage. -/
def schemeForm (intorder intorderadd : Int) (scaling : K) (pb : Transient K P Q I d n) (P' : Setting K) (x : Nat → I → K) (w : I → K) : K :=
  ∑ s ∈ Finset.range (P'.stage + 1),
    (P'.scheme.a P'.stage s * (factors P'.mode P'.dt).2 * massForm intorderadd scaling pb (x s) w +
     P'.scheme.b P'.stage s * (factors P'.mode P'.dt).1 * weakForm intorder (pb.at (P'.time + P'.scheme.d s * P'.dt)) (x s) w)

/-- A semilinear parabolic problem: at all times the problem is semilinear and the diffusion positive semidefinite; the mass operator is coercive. -/
structure Parabolic [DecidableEq I] [Fintype I] (intorder intorderadd : Int) (scaling : K) (t : Trafo I K) (pb : Transient K P Q I d n) (mu : K) : Prop where
  semilinear : ∀ τ, Semilinear intorder (pb.at τ)
  elliptic : ∀ τ c p a, 0 ≤ ((pb.par τ c).D (pb.geo c).center *ᵥ ((pb.par τ c).v p 0 • a)) ⬝ᵥ a
  mass : ∀ w, Homogeneous t w → mu * ∑ k, w k ^ 2 ≤ massForm intorderadd scaling pb w w

end Verif.LocalOp.NonlinearFEM
