import Verif.Model.LocalOperator
import Verif.Spec.LocalOperator
import Mathlib.Data.Matrix.Mul
/-
The nonlinear convection-diffusion equation with conforming finite elements:
dune/pdelab/localoperator/nonlinearconvectiondiffusionfem.hh.
-/
namespace Verif.LocalOp.NonlinearFEM

open Matrix

variable {K P Q : Type} [Field K] {d n : Nat}

/-- The parameters, nonlinearconvectiondiffusionfem.hh:75-149, on one cell. The last argument is the value of the solution. -/
structure Param (K P Q : Type) (d : Nat) where
  f : P → K → K
  w : P → K → K
  v : P → K → K
  D : P → Matrix (Fin d) (Fin d) K
  q : P → K → Fin d → K
  j : P → K → K
  isDirichlet : Q → Bool

/-- `alpha_volume`, nonlinearconvectiondiffusionfem.hh:246-330. -/
def alphaVolume (intorder : Int) (param : Param K P Q d) (geo : CellGeo K P d) (fe : Basis K P d n) (x : Fin n → K) :
    Calls (Fin n) K :=
  let tensor := param.D geo.center
  let w : Fin n → K := fun i => param.w geo.center (x i)
  (geo.quadratureRule intorder).flatMap fun ip =>
    let phi := fe.phi ip.1
    let u := ∑ i, w i * phi i
    let f := param.f ip.1 u
    let q := param.q ip.1 u
    let gradphi : Fin n → Fin d → K := fun i => geo.jacobianInverseTransposed ip.1 *ᵥ fe.js ip.1 i
    let vgradu := param.v ip.1 u • ∑ i, w i • gradphi i
    let Dvgradu := tensor *ᵥ vgradu
    let factor := ip.2 * geo.integrationElement ip.1
    (List.finRange n).map fun i => (i, (Dvgradu ⬝ᵥ gradphi i - q ⬝ᵥ gradphi i - f * phi i) * factor)

/-- `alpha_boundary`, nonlinearconvectiondiffusionfem.hh:333-392. -/
def alphaBoundary (intorder : Int) (param : Param K P Q d) (face : FaceGeo K P Q d) (fe : Basis K P d n) (x : Fin n → K) :
    Calls (Fin n) K :=
  let w : Fin n → K := fun i => param.w (face.inInside face.center) (x i)
  (face.quadratureRule intorder).flatMap fun ip =>
    if param.isDirichlet ip.1 then [] else
      let loc := face.inInside ip.1
      let phi := fe.phi loc
      let u := ∑ i, w i * phi i
      let j := param.j loc u
      let factor := ip.2 * face.integrationElement ip.1
      (List.finRange n).map fun i => (i, j * phi i * factor)

end Verif.LocalOp.NonlinearFEM
