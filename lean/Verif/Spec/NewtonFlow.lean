import Verif.Spec.TransientFlow
/-
The loss of mass of an approximate flow.
-/
namespace Verif.LocalOp.TaylorHood
open ConstrainedSolve Spec

variable {K P Q I : Type} [Field K] [LinearOrder K] {d N : Nat} {n m : Fin N → Nat}

/-- `∫ q g₂ - ∫ q div u` at a time, `q` is the pressure with the coefficients `w`. -/
def massLoss (s : Int) (pb : Transient K P Q I d n m) (τ : K) (x w : I → K) : K :=
  ∑ c, quadrature ((pb.geo c).quadratureRule (massOrder d (pb.v c).order (pb.isSimplex c) s)) (pb.geo c).integrationElement (fun p =>
    (pb.par τ c).g2 p * (pb.at τ).pressure w c p) - (pb.at τ).pressureWork s w x

end Verif.LocalOp.TaylorHood
