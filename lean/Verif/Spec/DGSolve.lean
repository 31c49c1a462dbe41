import Verif.Model.DGSolve
import Verif.Spec.DGMesh
import Verif.Spec.ConvectionDiffusion
import Verif.Spec.TransientSolve
/-
The discontinuous Galerkin method on a mesh: its form, the fluxes between the cells, and the equations of a one-step method.
-/
namespace Verif.LocalOp.DG
open ConstrainedSolve Spec OneStep Matrix

variable {K P Q : Type} [Field K] [LinearOrder K] {d N : Nat} {n : Fin N → Nat}

/-- The form of the interior penalty method: `∫ A∇u·∇v - u b·∇v + (c u - f) v` over the cells and the terms on the faces. -/
def dgForm (op : Op K) (mesh : Mesh K P Q d n) (x w : MeshVec K n) : K :=
  ∑ c, (volumeForm (mesh.geo c) (mesh.par c) (mesh.lfs c) (op.intorder (mesh.lfs c).order) (onCell x c) (onCell w c) -
    integrate (mesh.geo c) (op.intorder (mesh.lfs c).order) fun p => (mesh.par c).f p * value (mesh.lfs c) (onCell w c) p) +
  (mesh.inner.map fun F => skeletonForm op F.geo (mesh.geo F.inside) (mesh.geo F.outside) (mesh.par F.inside) (mesh.par F.outside)
    (mesh.lfs F.inside) (mesh.lfs F.outside) (op.intorder (faceDegree mesh F)) (readFace F.inside F.outside x) (readFace F.inside F.outside w)).sum +
  (mesh.boundary.map fun F => boundaryForm op F.geo (mesh.geo F.inside) (mesh.par F.inside) F.par (mesh.lfs F.inside)
    (op.intorder (mesh.lfs F.inside).order) (onCell x F.inside) (onCell w F.inside)).sum

/-- The flux through an inner face, from the inside to the outside. -/
def innerFlux (op : Op K) (mesh : Mesh K P Q d n) (F : Face K P Q d N) (x : MeshVec K n) : K :=
  numericalFlux op F.geo (mesh.geo F.inside) (mesh.geo F.outside) (mesh.par F.inside) (mesh.par F.outside)
    (mesh.lfs F.inside) (mesh.lfs F.outside) (op.intorder (faceDegree mesh F)) (readFace F.inside F.outside x)

/-- The flux through a boundary face: `j` or `u b·n + o` as prescribed; at Dirichlet boundaries, where the value outside is `g`, that of the method. -/
def boundaryFlux (op : Op K) (mesh : Mesh K P Q d n) (F : BoundaryFace K P Q d N) (x : MeshVec K n) : K :=
  integrateFace F.geo (op.intorder (mesh.lfs F.inside).order) fun q =>
    let u := value (mesh.lfs F.inside) (onCell x F.inside) (F.geo.inInside q)
    let g := (mesh.par F.inside).g (F.geo.inInside q)
    let An := conormalS F.geo (mesh.geo F.inside) (mesh.par F.inside) q
    let bn := faceFlow mesh F.geo F.inside q
    match F.par.bctype q with
    | .dirichlet => (if bn ≥ 0 then u else g) * bn - An ⬝ᵥ gradient (mesh.geo F.inside) (mesh.lfs F.inside) (onCell x F.inside) (F.geo.inInside q) +
        op.alpha / ((mesh.geo F.inside).volume / F.geo.volume) * (if op.weightsOn then An ⬝ᵥ faceNormal F.geo (mesh.par F.inside) q else 1) *
          (((mesh.lfs F.inside).order * ((mesh.lfs F.inside).order + d - 1) : Nat) : K) * (u - g)
    | .outflow => u * bn + F.par.o q
    | .neumann => F.par.j q
    | .none => 0

/-- What leaves a cell through its faces. -/
def outOf (op : Op K) (mesh : Mesh K P Q d n) (c : Fin N) (x : MeshVec K n) : K :=
  (mesh.inner.map fun F => (if F.inside = c then innerFlux op mesh F x else 0) - if F.outside = c then innerFlux op mesh F x else 0).sum +
  (mesh.boundary.map fun F => if F.inside = c then boundaryFlux op mesh F x else 0).sum

/-- What a cell loses by reaction and gains from sources. -/
def netReaction (op : Op K) (mesh : Mesh K P Q d n) (c : Fin N) (x : MeshVec K n) : K :=
  integrate (mesh.geo c) (op.intorder (mesh.lfs c).order) fun p => (mesh.par c).c p * value (mesh.lfs c) (onCell x c) p - (mesh.par c).f p

/-- No outflow condition is prescribed where the flow enters. -/
def Accepts (op : Op K) (mesh : Mesh K P Q d n) : Prop :=
  ∀ F ∈ mesh.boundary, ∀ q ∈ F.geo.quadratureRule (op.intorder (mesh.lfs F.inside).order), ¬ OutflowOnInflow F.geo (mesh.par F.inside) F.par q.1

/-- The penalty is at least the threshold, and the flow is incompressible. -/
structure Stable (op : DG.Op K) (mesh : Mesh K P Q d n) : Prop where
  weightsOn : op.weightsOn = true
  alpha : 0 < op.alpha
  conditions : ∃ (κ : K) (Nf : Nat), 0 ≤ κ ∧ Admissible op mesh κ ∧ (∀ c, faces mesh c ≤ Nf) ∧ crossTerms op.method * κ * Nf ≤ op.alpha
  incompressible : Incompressible op mesh

/-- The penalty is above the threshold, and only zero has neither energy nor jumps. -/
structure Definite (op : Op K) (mesh : Mesh K P Q d n) : Prop where
  weightsOn : op.weightsOn = true
  alpha : 0 < op.alpha
  conditions : ∃ (κ : K) (Nf : Nat), 0 ≤ κ ∧ Admissible op mesh κ ∧ (∀ c, faces mesh c ≤ Nf) ∧ crossTerms op.method * κ * Nf < op.alpha
  incompressible : Incompressible op mesh
  definite : ∀ w : MeshVec K n, diffusionEnergy op mesh w = 0 → reactionEnergy op mesh w = 0 → jumpEnergy op mesh w = 0 → w = 0

/-- `∫ scaling u w` over all cells. -/
def massOf (intorderadd : Int) (scaling : K) (pb : Transient K P Q d n) (x w : MeshVec K n) : K :=
  ∑ c, integrate (pb.geo c) (2 * (pb.lfs c).order + intorderadd) fun p => scaling * value (pb.lfs c) (onCell x c) p * value (pb.lfs c) (onCell w c) p

/-- The equations of all stages of a step: `∑_{s ≤ r} (a_rs f1 ∫ scaling u_s w + b_rs f0 a(u_s, w)) = 0` for all test functions, with the form of the
method at the time of the stage. -/
def StepEquations (op : Op K) (intorderadd : Int) (scaling : K) (pb : Transient K P Q d n) (S : Scheme K) (time dt : K) (mode : DTMode)
    (x : Nat → MeshVec K n) : Prop :=
  ∀ r, 1 ≤ r → r ≤ S.s → ∀ w, ∑ s ∈ Finset.range (r + 1),
    (S.a r s * (factors mode dt).2 * massOf intorderadd scaling pb (x s) w +
     S.b r s * (factors mode dt).1 * dgForm op (pb.at (time + S.d s * dt)) (x s) w) = 0

/-- A parabolic problem. -/
structure Parabolic (op : Op K) (intorderadd : Int) (scaling : K) (pb : Transient K P Q d n) : Prop where
  stable : ∀ τ, Stable op (pb.at τ)
  massWeights : ∀ c, NonnegWeights (pb.geo c) (2 * (pb.lfs c).order + intorderadd)
  nonneg : 0 ≤ scaling
  definite : ∀ w, massOf intorderadd scaling pb w w = 0 → ∀ k, w k = 0

/-- `∫ scaling u` over a cell. -/
def amountIn (intorderadd : Int) (scaling : K) (pb : Transient K P Q d n) (c : Fin N) (x : MeshVec K n) : K :=
  integrate (pb.geo c) (2 * (pb.lfs c).order + intorderadd) fun p => scaling * value (pb.lfs c) (onCell x c) p

end Verif.LocalOp.DG
