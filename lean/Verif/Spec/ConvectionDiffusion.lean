import Verif.Model.ConvectionDiffusion
/-
Vocabulary for the properties of the convection-diffusion operators.
-/
namespace Verif.LocalOp.Spec

open Matrix

variable {K P Q : Type} [Field K] [LinearOrder K] {d n : Nat}

/-- An outflow boundary condition is prescribed at a point where the velocity points into the domain (by more than 1e-30). -/
def OutflowOnInflow (geo : FaceGeo K P Q d) (par : CellParam K P d) (fpar : FaceParam K Q) (ip : Q) : Prop :=
  fpar.bctype ip = .outflow ∧ par.b (geo.inInside ip) ⬝ᵥ geo.unitOuterNormal ip < -(1 / 10 ^ 30)

end Verif.LocalOp.Spec
