import Verif.Model.TransientFlow
import Verif.Spec.VectorMesh
import Verif.Spec.TransientSolve
/-
The equations of a one-step method for the instationary (Navier-)Stokes equations.
-/
namespace Verif.LocalOp.TaylorHood
open ConstrainedSolve Constraints Spec OneStep Matrix

variable {K P Q I : Type} [Field K] [LinearOrder K] {d N : Nat} {n m : Fin N → Nat}

/-- The velocity with coefficients `x` on a cell. -/
def Transient.velocity (pb : Transient K P Q I d n m) (x : I → K) (c : Fin N) (p : P) : Fin d → K :=
  femFunction (pb.v c).phi (fun i => x (pb.dof c (.inl i))) p

/-- `∫ ρ u·v`. -/
def massForm (sm : Int) (pb : Transient K P Q I d n m) (x w : I → K) : K :=
  ∑ c, quadrature ((pb.geo c).quadratureRule (massOrder d (pb.v c).order (pb.isSimplex c) sm)) (pb.geo c).integrationElement fun p =>
    pb.rho c p * (pb.velocity x c p ⬝ᵥ pb.velocity w c p)

/-- `∑_{s ≤ r} (a_rs f1 ∫ ρ u_s·v + b_rs f0 a(x_s, w))`, where `a` is the weak form at the time of the stage. -/
def schemeForm (s sm : Int) (pb : Transient K P Q I d n m) (P' : Setting K) (x : Nat → I → K) (w : I → K) : K :=
  ∑ k ∈ Finset.range (P'.stage + 1),
    (P'.scheme.a P'.stage k * (factors P'.mode P'.dt).2 * massForm sm pb (x k) w +
     P'.scheme.b P'.stage k * (factors P'.mode P'.dt).1 * weakForm s (pb.at (P'.time + P'.scheme.d k * P'.dt)) (x k) w)

/-- The vectors of the stages of a step. -/
def StepSolution [DecidableEq I] (s sm : Int) (t : Trafo I K) (pb : Transient K P Q I d n m) (S : Scheme K) (time dt : K)
    (mode : DTMode) (g : K → I → K) (x : Nat → I → K) : Prop :=
  ∀ r, 1 ≤ r → r ≤ S.s → Conforming t (x r) ∧ (∀ k, t.Dirichlet k → x r k = g (time + S.d r * dt) k) ∧
    ∀ w, Homogeneous t w → schemeForm s sm pb ⟨S, time, dt, mode, r⟩ x w = 0

/-- Mass is conserved at a time: for all test pressures the integral of `q div u` is that of `q g₂`. -/
def Conserves [DecidableEq I] (s : Int) (t : Trafo I K) (pb : Transient K P Q I d n m) (τ : K) (x : I → K) : Prop :=
  ∀ w, Homogeneous t w → (pb.at τ).pressureWork s w x =
    ∑ c, quadrature ((pb.geo c).quadratureRule (massOrder d (pb.v c).order (pb.isSimplex c) s)) (pb.geo c).integrationElement fun p =>
      (pb.par τ c).g2 p * (pb.at τ).pressure w c p

/-- A stable instationary Stokes problem: no convection, nonnegative viscosity, density and quadrature weights; only the zero velocity has no kinetic energy, and only
the zero pressure does no work on any velocity (the inf-sup condition). -/
structure StableFlow [DecidableEq I] (s sm : Int) (t : Trafo I K) (pb : Transient K P Q I d n m) (pressureDof : I → Bool) : Prop where
  stokes : ∀ τ c, (pb.par τ c).navier = false
  weights : ∀ c, ∀ q ∈ (pb.geo c).quadratureRule (volumeOrder d (pb.v c).order (pb.isSimplex c) s), 0 ≤ q.2 * (pb.geo c).integrationElement q.1
  massWeights : ∀ c, ∀ q ∈ (pb.geo c).quadratureRule (massOrder d (pb.v c).order (pb.isSimplex c) sm), 0 ≤ q.2 * (pb.geo c).integrationElement q.1
  mu : ∀ τ c p, 0 ≤ (pb.par τ c).mu p
  rho : ∀ c p, 0 ≤ pb.rho c p
  definite : ∀ w, Homogeneous t w → massForm sm pb w w = 0 → ∀ k, pressureDof k = false → w k = 0
  infSup : ∀ τ x, Homogeneous t x → (∀ w, Homogeneous t w → (pb.at τ).pressureWork s x w = 0) → ∀ k, pressureDof k = true → x k = 0

/-- A scheme of which all stages are implicit, with coefficients as the grid operator assumes. -/
def ImplicitStages (S : Scheme K) : Prop := ∀ r, 1 ≤ r → r ≤ S.s → S.a r r = 1 ∧ 0 < S.b r r ∧ NoTinyCoefficients S r

end Verif.LocalOp.TaylorHood
