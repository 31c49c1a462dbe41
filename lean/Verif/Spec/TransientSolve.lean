import Verif.Model.TransientSolve
import Verif.Spec.FEMMesh
import Verif.Spec.OneStepOperator
/-
The equations of a one-step method for a finite element method with constraints.
-/
namespace Verif.ConstrainedSolve
open Constraints OneStep

section
variable {I K : Type} [DecidableEq I] [Field K] [LinearOrder K]

/-- All contributions of an operator at a time. -/
def partsAt (L : LocalParts I K) (trace : List (Kind × Nat)) (τ : K) : List (Part I K) := trace.filterMap fun c => L c.1 c.2 τ

/-- `∑_{s ≤ r} (a_rs f1 m(x_s, w) + b_rs f0 r(x_s, w))` with the forms of the temporal and the spatial operator at the times of the stages. -/
def stageForm (P : Setting K) (L0 L1 : LocalParts I K) (trace : List (Kind × Nat)) (x : Nat → I → K) (w : I → K) : K :=
  ∑ s ∈ Finset.range (P.stage + 1),
    (P.scheme.a P.stage s * (factors P.mode P.dt).2 * form (partsAt L1 trace (P.time + P.scheme.d s * P.dt)) (x s) w +
     P.scheme.b P.stage s * (factors P.mode P.dt).1 * form (partsAt L0 trace (P.time + P.scheme.d s * P.dt)) (x s) w)

/-- A temporal operator without volume terms after the skeleton. -/
def NoPost (L1 : LocalParts I K) : Prop := ∀ e τ, L1 .uvPost e τ = none ∧ L1 .vPost e τ = none

end

end Verif.ConstrainedSolve

namespace Verif.LocalOp.FEM
open ConstrainedSolve Constraints Spec OneStep

variable {K P Q I : Type} [Field K] [LinearOrder K] {d N : Nat} {n : Fin N → Nat}

/-- `∫ scaling u w`. -/
def massForm (intorderadd : Int) (scaling : K) (pb : Transient K P Q I d n) (x w : I → K) : K :=
  ∑ c, integrate (pb.geo c) (2 * (pb.lfs c).order + intorderadd) fun p =>
    scaling * value (pb.lfs c) (fun i => x (pb.dof c i)) p * value (pb.lfs c) (fun i => w (pb.dof c i)) p

/-- `∑_{s ≤ r} (a_rs f1 ∫ scaling u_s w + b_rs f0 a(u_s, w))`, where `a` is the weak form at the time of the stage. -/
def schemeForm (add intorderadd : Int) (scaling : K) (pb : Transient K P Q I d n) (P' : Setting K) (x : Nat → I → K) (w : I → K) : K :=
  ∑ s ∈ Finset.range (P'.stage + 1),
    (P'.scheme.a P'.stage s * (factors P'.mode P'.dt).2 * massForm intorderadd scaling pb (x s) w +
     P'.scheme.b P'.stage s * (factors P'.mode P'.dt).1 * weakForm add (pb.at (P'.time + P'.scheme.d s * P'.dt)) (x s) w)

/-- The vectors of the stages of a step. -/
def StepSolution [DecidableEq I] (add intorderadd : Int) (scaling : K) (t : Trafo I K) (pb : Transient K P Q I d n) (S : Scheme K) (time dt : K)
    (mode : DTMode) (g : K → I → K) (x : Nat → I → K) : Prop :=
  ∀ r, 1 ≤ r → r ≤ S.s → Conforming t (x r) ∧ (∀ k, t.Dirichlet k → x r k = g (time + S.d r * dt) k) ∧
    ∀ w, Homogeneous t w → schemeForm add intorderadd scaling pb ⟨S, time, dt, mode, r⟩ x w = 0

/-- A parabolic problem: at all times the spatial operator is dissipative and the flow incompressible, and the mass operator is positive definite. -/
structure Parabolic (add intorderadd : Int) (scaling : K) (t : Trafo I K) [DecidableEq I] (pb : Transient K P Q I d n) : Prop where
  dissipative : ∀ τ, Dissipative add (pb.at τ)
  incompressible : ∀ τ, Incompressible add t (pb.at τ)
  massWeights : ∀ c, NonnegWeights (pb.geo c) (2 * (pb.lfs c).order + intorderadd)
  nonneg : 0 ≤ scaling
  definite : ∀ w, Homogeneous t w → massForm intorderadd scaling pb w w = 0 → ∀ k, w k = 0

/-- A scheme with coefficients as the grid operator and the solver assume. -/
def SolvableStages (S : Scheme K) : Prop :=
  ∀ r, 1 ≤ r → r ≤ S.s → S.a r r = 1 ∧ 0 ≤ S.b r r ∧ NoTinyCoefficients S r

/-- `∫ scaling u`. -/
def amount (intorderadd : Int) (scaling : K) (pb : Transient K P Q I d n) (x : I → K) : K :=
  ∑ c, integrate (pb.geo c) (2 * (pb.lfs c).order + intorderadd) fun p => scaling * value (pb.lfs c) (fun i => x (pb.dof c i)) p

/-- `∫ j` on a Neumann face, `∫ b·n u + o` on an outflow face. -/
def faceOutflow (add : Int) (mesh : Mesh K P Q I d n) (F : DG.BoundaryFace K P Q d N) (x : I → K) : K :=
  integrateFace F.geo (add + 2 * (mesh.lfs F.inside).order) fun q =>
    match F.par.bctype F.geo.center with
    | .neumann => F.par.j q
    | .outflow => faceFlux mesh F q * value (mesh.lfs F.inside) (mesh.onCell x F.inside) (F.geo.inInside q) + F.par.o q
    | _ => 0

/-- What leaves the domain per time: reaction minus sources, and the flow through the boundary. -/
def loss (add : Int) (mesh : Mesh K P Q I d n) (x : I → K) : K :=
  ∑ c, integrate (mesh.geo c) (add + 2 * (mesh.lfs c).order) (fun p => (mesh.par c).c p * value (mesh.lfs c) (mesh.onCell x c) p - (mesh.par c).f p) +
  (mesh.boundary.map fun F => faceOutflow add mesh F x).sum

/-- The basis functions of every cell add up to one (and their derivatives to zero). -/
def PartitionOfUnity (pb : Transient K P Q I d n) : Prop :=
  ∀ c p, ∑ i, (pb.lfs c).phi p i = 1 ∧ ∑ i, (pb.lfs c).js p i = 0

end Verif.LocalOp.FEM
