import Verif.Model.LocalOperator
/-
Local operators for systems: linear elasticity, Taylor-Hood discretisation of the (Navier-)Stokes equations and its mass
operators, the mixed formulation of the diffusion equation, the mass operator for trees of spaces, a linear functional and the
two matrices of electrodynamics.

As in `Verif.Model.LocalOperator` a method is the sequence of its calls of `accumulate`. The leaves of a local function space
are addressed by the component (`Fin d × Fin n` for a power space with `d` scalar children of size `n`) or by `Sum` for a
composite space. All operators are Galerkin: `lfsu` and `lfsv` have the same basis. Material functions are functions of the
position in the cell. The order of the quadrature rule is a signed integer.
-/
namespace Verif.LocalOp

open Matrix

variable {K P Q : Type} [Field K] {d : Nat}

/-- `gradphi[i] = 0.0; jac.umv(js[i][0],gradphi[i])`: gradients on the real element. Used for `jacobianVolume`, linearelasticity.hh:58-133. -/
def gradients {n : Nat} (geo : CellGeo K P d) (fe : Basis K P d n) (p : P) (i : Fin n) : Fin d → K :=
  geo.jacobianInverseTransposed p *ᵥ fe.js p i

/-! ### Linear elasticity -/

namespace Elasticity

/-- The methods of the parameter class, linearelasticityparameter.hh:66-111. -/
structure Param (K P Q : Type) (d : Nat) where
  mu : P → K
  lambda : P → K
  f : P → Fin d → K
  isDirichlet : Q → Bool

/-- `jacobian_volume`, linearelasticity.hh:58-133. -/
def jacobianVolume {n : Nat} (intorder : Int) (param : Param K P Q d) (geo : CellGeo K P d) (fe : Basis K P d n) :
    Calls ((Fin d × Fin n) × (Fin d × Fin n)) K :=
  (geo.quadratureRule intorder).flatMap fun qp =>
    let gradphi := gradients geo fe qp.1
    let mu := param.mu qp.1
    let lambda := param.lambda qp.1
    let factor := qp.2 * geo.integrationElement qp.1
    (List.finRange d).flatMap fun c =>
      (List.finRange n).flatMap fun i =>
        (List.finRange d).flatMap fun k =>
          (List.finRange n).flatMap fun j =>
            [(((k, j), (k, i)), mu * gradphi i c * gradphi j c * factor),
             (((k, j), (c, i)), mu * gradphi i k * gradphi j c * factor),
             (((k, j), (c, i)), lambda * gradphi i c * gradphi j k * factor)]

/-- `alpha_volume`, linearelasticity.hh:136-218. -/
def alphaVolume {n : Nat} (intorder : Int) (param : Param K P Q d) (geo : CellGeo K P d) (fe : Basis K P d n)
    (x : Fin d × Fin n → K) : Calls (Fin d × Fin n) K :=
  (geo.quadratureRule intorder).flatMap fun qp =>
    let gradphi := gradients geo fe qp.1
    let mu := param.mu qp.1
    let lambda := param.lambda qp.1
    let factor := qp.2 * geo.integrationElement qp.1
    (List.finRange d).flatMap fun c =>
      let gradu : Fin d → K := ∑ i, x (c, i) • gradphi i
      (List.finRange n).flatMap fun i =>
        (List.finRange d).flatMap fun k =>
          [((c, i), mu * gradu k * gradphi i k * factor),
           ((k, i), mu * gradu k * gradphi i c * factor),
           ((k, i), lambda * gradu c * gradphi i k * factor)]

/-- `lambda_volume`, linearelasticity.hh:221-266. -/
def lambdaVolume {n : Nat} (intorder : Int) (param : Param K P Q d) (geo : CellGeo K P d) (fe : Basis K P d n) :
    Calls (Fin d × Fin n) K :=
  (geo.quadratureRule intorder).flatMap fun qp =>
    let y := param.f qp.1
    let factor := qp.2 * geo.integrationElement qp.1
    (List.finRange d).flatMap fun c => (List.finRange n).map fun i => ((c, i), -y c * fe.phi qp.1 i * factor)

/-- `lambda_boundary`, linearelasticity.hh:269-324: the surface force `y` stays zero. -/
def lambdaBoundary {n : Nat} (intorder : Int) (param : Param K P Q d) (face : FaceGeo K P Q d) (fe : Basis K P d n) :
    Calls (Fin d × Fin n) K :=
  (face.quadratureRule intorder).flatMap fun qp =>
    let loc := face.inInside qp.1
    if param.isDirichlet qp.1 then [] else
      let y : Fin d → K := 0
      let factor := qp.2 * face.integrationElement qp.1
      (List.finRange d).flatMap fun c => (List.finRange n).map fun i => ((c, i), y c * fe.phi loc i * factor)

end Elasticity

/-! ### Taylor-Hood Navier-Stokes -/

namespace TaylorHood

/-- stokesparameter.hh:32-39. -/
inductive BoundaryType where
  | doNothing | velocityDirichlet | stressNeumann | slipVelocity
  deriving DecidableEq

/-- The methods of the parameter class, stokesparameter.hh:184-279, and its two constants, 147-148. The dependence of the
traction `j` on the normal (which is always `unitOuterNormal` of the same point) is not written. -/
structure Param (K P Q : Type) (d : Nat) where
  navier : Bool
  fullTensor : Bool
  mu : P → K
  rho : P → K
  f : P → Fin d → K
  g2 : P → K
  bctype : Q → BoundaryType
  j : Q → Fin d → K

/-- The unknowns of a cell: the components of the velocity and the pressure. Used for `alphaVolume`, taylorhoodnavierstokes.hh:92-220. -/
abbrev Dof (d n m : Nat) := (Fin d × Fin n) ⊕ Fin m

/-- The order of the quadrature rule, taylorhoodnavierstokes.hh:121-124, 399-402. -/
def volumeOrder (dim vOrder : Nat) (isSimplex : Bool) (superintegration : Int) : Int :=
  let detJacOrder : Int := if isSimplex then 0 else (dim : Int) - 1
  let jacOrder : Int := if isSimplex then 0 else 1
  3 * vOrder - 1 + jacOrder + detJacOrder + superintegration

/-- taylorhoodnavierstokes.hh:253-255, navierstokesmass.hh:95-97, 144-146, 218-220, 272-274. -/
def massOrder (dim vOrder : Nat) (isSimplex : Bool) (superintegration : Int) : Int :=
  let detJacOrder : Int := if isSimplex then 0 else (dim : Int) - 1
  2 * vOrder + detJacOrder + superintegration

/-- taylorhoodnavierstokes.hh:323-326. -/
def faceOrder (dim vOrder : Nat) (isSimplex : Bool) (superintegration : Int) : Int :=
  let detJacOrder : Int := if isSimplex then 0 else (dim : Int) - 2
  let jacOrder : Int := if isSimplex then 0 else 1
  2 * vOrder + detJacOrder + jacOrder + superintegration

variable {n m : Nat}

/-- `alpha_volume`, taylorhoodnavierstokes.hh:92-220. -/
def alphaVolume (isSimplex : Bool) (superintegration : Int) (par : Param K P Q d) (geo : CellGeo K P d) (v : Basis K P d n)
    (p : Basis K P d m) (x : Dof d n m → K) : Calls (Dof d n m) K :=
  (geo.quadratureRule (volumeOrder d v.order isSimplex superintegration)).flatMap fun ip =>
    let gradphi := gradients geo v ip.1
    let psi := p.phi ip.1
    let phi := v.phi ip.1
    let vu : Fin d → K := if par.navier then fun c => ∑ i, x (.inl (c, i)) * phi i else 0
    let jacu : Fin d → Fin d → K := fun c => ∑ i, x (.inl (c, i)) • gradphi i
    let funcP := ∑ i, x (.inr i) * psi i
    let mu := par.mu ip.1
    let rho := par.rho ip.1
    let factor := ip.2 * geo.integrationElement ip.1
    ((List.finRange d).flatMap fun c =>
      let uNablaU := vu ⬝ᵥ jacu c
      (List.finRange n).flatMap fun i =>
        [(.inl (c, i), mu * (jacu c ⬝ᵥ gradphi i) * factor)] ++
        (if par.fullTensor then
          (List.finRange d).map fun dd => (.inl (c, i), mu * (jacu dd c * gradphi i dd) * factor) else []) ++
        [(.inl (c, i), -(funcP * gradphi i c) * factor)] ++
        (if par.navier then [(.inl (c, i), rho * uNablaU * phi i * factor)] else [])) ++
    (List.finRange m).flatMap fun i =>
      (List.finRange d).map fun c => (.inr i, -1 * jacu c c * psi i * factor)

/-- `lambda_volume`, taylorhoodnavierstokes.hh:225-295. -/
def lambdaVolume (isSimplex : Bool) (superintegration : Int) (par : Param K P Q d) (geo : CellGeo K P d) (v : Basis K P d n)
    (p : Basis K P d m) : Calls (Dof d n m) K :=
  (geo.quadratureRule (massOrder d v.order isSimplex superintegration)).flatMap fun ip =>
    let f1 := par.f ip.1
    let factor := ip.2 * geo.integrationElement ip.1
    let g2 := par.g2 ip.1
    ((List.finRange d).flatMap fun c => (List.finRange n).map fun i => (.inl (c, i), -f1 c * v.phi ip.1 i * factor)) ++
    (List.finRange m).map fun i => (.inr i, g2 * p.phi ip.1 i * factor)

/-- `lambda_boundary`, taylorhoodnavierstokes.hh:300-365. -/
def lambdaBoundary (faceIsSimplex : Bool) (superintegration : Int) (par : Param K P Q d) (face : FaceGeo K P Q d)
    (v : Basis K P d n) : Calls (Dof d n m) K :=
  (face.quadratureRule (faceOrder d v.order faceIsSimplex superintegration)).flatMap fun ip =>
    if par.bctype ip.1 ≠ .stressNeumann then [] else
      let phi := v.phi (face.inInside ip.1)
      let factor := ip.2 * face.integrationElement ip.1
      let stress := par.j ip.1
      (List.finRange d).flatMap fun c => (List.finRange n).map fun i => (.inl (c, i), stress c * phi i * factor)

/-- `jacobian_volume`, taylorhoodnavierstokes.hh:369-501. -/
def jacobianVolume (isSimplex : Bool) (superintegration : Int) (par : Param K P Q d) (geo : CellGeo K P d) (v : Basis K P d n)
    (p : Basis K P d m) (x : Dof d n m → K) : Calls (Dof d n m × Dof d n m) K :=
  (geo.quadratureRule (volumeOrder d v.order isSimplex superintegration)).flatMap fun ip =>
    let gradphi := gradients geo v ip.1
    let psi := p.phi ip.1
    let phi := v.phi ip.1
    let vu : Fin d → K := if par.navier then fun c => ∑ i, x (.inl (c, i)) * phi i else 0
    let mu := par.mu ip.1
    let rho := par.rho ip.1
    let factor := ip.2 * geo.integrationElement ip.1
    (List.finRange d).flatMap fun c =>
      let graduD : Fin d → K := if par.navier then ∑ l, x (.inl (c, l)) • gradphi l else 0
      ((List.finRange n).flatMap fun i =>
        ((List.finRange n).flatMap fun j =>
          [((.inl (c, i), .inl (c, j)), mu * (gradphi i ⬝ᵥ gradphi j) * factor)] ++
          (if par.fullTensor then
            (List.finRange d).map fun dd => ((.inl (c, i), .inl (dd, j)), mu * (gradphi j c * gradphi i dd) * factor) else [])) ++
        ((List.finRange m).map fun j => ((.inl (c, i), .inr j), -(gradphi i c * psi j) * factor)) ++
        (if par.navier then
          ((List.finRange d).flatMap fun k =>
            (List.finRange n).map fun j => ((.inl (c, i), .inl (k, j)), factor * rho * graduD k * phi i * phi j)) ++
          ((List.finRange n).map fun j => ((.inl (c, i), .inl (c, j)), factor * rho * phi i * (vu ⬝ᵥ gradphi j))) else [])) ++
      ((List.finRange m).flatMap fun i =>
        (List.finRange n).map fun j => ((.inr i, .inl (c, j)), -(gradphi j c * psi i) * factor))

end TaylorHood

/-! ### Mass operators of the Navier-Stokes equations -/

namespace VelocityMass

variable {n m : Nat}

/-- `NavierStokesMass`: `alpha_volume`, navierstokesmass.hh:48-56 with `scalar_alpha_volume`, 73-120. -/
def alphaVolume (isSimplex : Bool) (superintegration : Int) (rho : P → K) (geo : CellGeo K P d) (v : Basis K P d n)
    (x : TaylorHood.Dof d n m → K) : Calls (TaylorHood.Dof d n m) K :=
  (List.finRange d).flatMap fun c =>
    (geo.quadratureRule (TaylorHood.massOrder d v.order isSimplex superintegration)).flatMap fun ip =>
      let u := ∑ i, x (.inl (c, i)) * v.phi ip.1 i
      let factor := ip.2 * rho ip.1 * geo.integrationElement ip.1
      (List.finRange n).map fun i => (.inl (c, i), u * v.phi ip.1 i * factor)

/-- `jacobian_volume`, navierstokesmass.hh:60-69 with `scalar_jacobian_volume`, 123-164. -/
def jacobianVolume (isSimplex : Bool) (superintegration : Int) (rho : P → K) (geo : CellGeo K P d) (v : Basis K P d n) :
    Calls (TaylorHood.Dof d n m × TaylorHood.Dof d n m) K :=
  (List.finRange d).flatMap fun c =>
    (geo.quadratureRule (TaylorHood.massOrder d v.order isSimplex superintegration)).flatMap fun ip =>
      let factor := ip.2 * rho ip.1 * geo.integrationElement ip.1
      (List.finRange n).flatMap fun j =>
        (List.finRange n).map fun i => ((.inl (c, i), .inl (c, j)), v.phi ip.1 j * v.phi ip.1 i * factor)

/-- A finite element with vector valued shape functions: the order, the values, and the matrices of the derivatives.
Used for `alphaVolumeVec`, navierstokesmass.hh:197-246. -/
structure _root_.Verif.LocalOp.VectorBasis (K P : Type) (d n : Nat) where
  order : Nat
  phi : P → Fin n → Fin d → K
  js : P → Fin n → Matrix (Fin d) (Fin d) K

/-- `NavierStokesVelVecMass::alpha_volume`, navierstokesmass.hh:197-246. -/
def alphaVolumeVec (isSimplex : Bool) (superintegration : Int) (rho : P → K) (geo : CellGeo K P d) (v : VectorBasis K P d n)
    (x : Fin n ⊕ Fin m → K) : Calls (Fin n ⊕ Fin m) K :=
  (geo.quadratureRule (TaylorHood.massOrder d v.order isSimplex superintegration)).flatMap fun ip =>
    let u : Fin d → K := ∑ i, x (.inl i) • v.phi ip.1 i
    let factor := ip.2 * rho ip.1 * geo.integrationElement ip.1
    (List.finRange n).map fun i => (.inl i, (u ⬝ᵥ v.phi ip.1 i) * factor)

/-- `NavierStokesVelVecMass::jacobian_volume`, navierstokesmass.hh:250-294. -/
def jacobianVolumeVec (isSimplex : Bool) (superintegration : Int) (rho : P → K) (geo : CellGeo K P d) (v : VectorBasis K P d n) :
    Calls ((Fin n ⊕ Fin m) × (Fin n ⊕ Fin m)) K :=
  (geo.quadratureRule (TaylorHood.massOrder d v.order isSimplex superintegration)).flatMap fun ip =>
    let factor := ip.2 * rho ip.1 * geo.integrationElement ip.1
    (List.finRange n).flatMap fun i =>
      (List.finRange n).map fun j => ((.inl i, .inl j), (v.phi ip.1 j ⬝ᵥ v.phi ip.1 i) * factor)

end VelocityMass

/-! ### The mixed formulation of the diffusion equation -/

namespace MixedDiffusion

/-- The methods of the parameter class that are used, convectiondiffusionparameter.hh:119-222. -/
structure Param (K P Q : Type) (d : Nat) where
  A : P → Matrix (Fin d) (Fin d) K
  c : P → K
  f : P → K
  neumann : Q → Bool
  g : P → K

variable {n m : Nat}

/-- `alpha_volume`, diffusionmixed.hh:65-188. `invert` is `FieldMatrix::invert`, `origin` the position zero. -/
def alphaVolume (qorderV qorderP : Int) (invert : Matrix (Fin d) (Fin d) K → Matrix (Fin d) (Fin d) K) (origin : P)
    (param : Param K P Q d) (geo : CellGeo K P d) (v : VectorBasis K P d n) (p : Basis K P d m)
    (x : Fin n ⊕ Fin m → K) : Calls (Fin n ⊕ Fin m) K :=
  let jac := invert (geo.jacobianInverseTransposed origin)
  let det := geo.integrationElement origin
  let tensor := invert (param.A geo.center)
  ((geo.quadratureRule qorderV).flatMap fun ip =>
    let vtransformed : Fin n → Fin d → K := fun i => jacᵀ *ᵥ v.phi ip.1 i
    let sigma := ∑ i, x (.inl i) • vtransformed i
    let kinvsigma := tensor *ᵥ sigma
    let factor := ip.2 / det
    (List.finRange n).map fun i => (.inl i, (kinvsigma ⬝ᵥ vtransformed i) * factor)) ++
  (geo.quadratureRule qorderP).flatMap fun ip =>
    let u := ∑ i, x (.inr i) * p.phi ip.1 i
    let a0value := param.c ip.1
    let factor := ip.2
    let divergence : Fin n → K := fun i => ∑ j, v.js ip.1 i j j
    let divergencesigma := ∑ i, x (.inl i) * divergence i
    ((List.finRange m).map fun i => (.inr i, -a0value * u * p.phi ip.1 i * factor)) ++
    ((List.finRange n).map fun i => (.inl i, -u * divergence i * factor)) ++
    ((List.finRange m).map fun i => (.inr i, -divergencesigma * p.phi ip.1 i * factor))

/-- `lambda_volume`, diffusionmixed.hh:192-226. -/
def lambdaVolume (qorderP : Int) (param : Param K P Q d) (geo : CellGeo K P d) (p : Basis K P d m) : Calls (Fin n ⊕ Fin m) K :=
  (geo.quadratureRule qorderP).flatMap fun ip =>
    let y := param.f ip.1
    let factor := ip.2 * geo.integrationElement ip.1
    (List.finRange m).map fun i => (.inr i, y * p.phi ip.1 i * factor)

/-- `lambda_boundary`, diffusionmixed.hh:230-299. -/
def lambdaBoundary (qorderV : Int) (invert : Matrix (Fin d) (Fin d) K → Matrix (Fin d) (Fin d) K) (origin : P)
    (param : Param K P Q d) (geoInside : CellGeo K P d) (face : FaceGeo K P Q d) (v : VectorBasis K P d n) :
    Calls (Fin n ⊕ Fin m) K :=
  let jac := invert (geoInside.jacobianInverseTransposed origin)
  let det := geoInside.integrationElement origin
  (face.quadratureRule qorderV).flatMap fun ip =>
    if param.neumann ip.1 then [] else
      let loc := face.inInside ip.1
      let vtransformed : Fin n → Fin d → K := fun i => jacᵀ *ᵥ v.phi loc i
      let y := param.g loc
      let factor := ip.2 * face.integrationElement ip.1 / det
      (List.finRange n).map fun i => (.inl i, y * (vtransformed i ⬝ᵥ face.unitOuterNormal ip.1) * factor)

end MixedDiffusion

/-! ### The mass operator for trees of spaces and a linear functional -/

namespace L2

/-- `ScalarL2::alpha_volume`, l2.hh:45-83; `jacobian_apply_volume`, 87-90, calls it. -/
def scalarAlphaVolume {n : Nat} (intorderadd : Int) (scaling : K) (geo : CellGeo K P d) (fe : Basis K P d n) (x : Fin n → K) :
    Calls (Fin n) K :=
  (geo.quadratureRule (2 * fe.order + intorderadd)).flatMap fun qp =>
    let u := ∑ i, x i * fe.phi qp.1 i
    let factor := scaling * qp.2 * geo.integrationElement qp.1
    (List.finRange n).map fun i => (i, u * fe.phi qp.1 i * factor)

/-- `ScalarL2::jacobian_volume`, l2.hh:94-127. -/
def scalarJacobianVolume {n : Nat} (intorderadd : Int) (scaling : K) (geo : CellGeo K P d) (fe : Basis K P d n) :
    Calls (Fin n × Fin n) K :=
  (geo.quadratureRule (2 * fe.order + intorderadd)).flatMap fun qp =>
    let factor := scaling * qp.2 * geo.integrationElement qp.1
    (List.finRange n).flatMap fun j => (List.finRange n).map fun i => ((i, j), fe.phi qp.1 j * fe.phi qp.1 i * factor)

/-- The unknowns of a cell for a tree with `L` leaves. Used for `alphaVolume`, blockdiagonal.hh:103-113. -/
abbrev Dof {L : Nat} (size : Fin L → Nat) := (l : Fin L) × Fin (size l)

variable {L : Nat} {size : Fin L → Nat}

/-- `L2::alpha_volume`, which is that of `BlockDiagonalLocalOperatorFullCoupling`, blockdiagonal.hh:103-113: the leaves are
visited in order (19-43), each with the leaf at the same path of the other tree. Also `jacobian_apply_volume`, 115-125. -/
def alphaVolume (intorderadd : Int) (scaling : K) (geo : CellGeo K P d) (fe : (l : Fin L) → Basis K P d (size l))
    (x : Dof size → K) : Calls (Dof size) K :=
  (List.finRange L).flatMap fun l =>
    (scalarAlphaVolume intorderadd scaling geo (fe l) fun i => x ⟨l, i⟩).map fun c => (⟨l, c.1⟩, c.2)

/-- `L2::jacobian_volume`, blockdiagonal.hh:127-137. -/
def jacobianVolume (intorderadd : Int) (scaling : K) (geo : CellGeo K P d) (fe : (l : Fin L) → Basis K P d (size l)) :
    Calls (Dof size × Dof size) K :=
  (List.finRange L).flatMap fun l =>
    (scalarJacobianVolume intorderadd scaling geo (fe l)).map fun c => ((⟨l, c.1.1⟩, ⟨l, c.1.2⟩), c.2)

/-- `L2VolumeFunctional::lambda_volume`, l2volumefunctional.hh:54-86, for vector valued shape functions. The calls are those
of `rawAccumulate`; `weight` is `r.weight()`. -/
def functionalLambdaVolume {n : Nat} (quadOrder : Int) (f : P → Fin d → K) (geo : CellGeo K P d) (fe : VectorBasis K P d n)
    (weight : K) : Calls (Fin n) K :=
  (geo.quadratureRule quadOrder).flatMap fun ip =>
    let y := f ip.1
    let factor := weight * ip.2 * geo.integrationElement ip.1
    (List.finRange n).map fun i => (i, (y ⬝ᵥ fe.phi ip.1 i) * factor)

end L2

/-! ### Electrodynamics -/

namespace Electrodynamic

/-- `jacobianToCurl` in two dimensions, electrodynamic.hh:44-49. -/
def curl₂ (jacobian : Matrix (Fin 2) (Fin 2) K) : Fin 1 → K := fun _ => jacobian 1 0 - jacobian 0 1

/-- `jacobianToCurl` in three dimensions, electrodynamic.hh:50-56. -/
def curl₃ (jacobian : Matrix (Fin 3) (Fin 3) K) : Fin 3 → K :=
  fun i => jacobian (i + 2) (i + 1) - jacobian (i + 1) (i + 2)

/-- `Electrodynamic_T::jacobian_volume`, electrodynamic.hh:99-133. The shape functions are given in global coordinates. -/
def jacobianT {n : Nat} (qorder : Int) (eps : P → K) (geo : CellGeo K P d) (fe : VectorBasis K P d n) : Calls (Fin n × Fin n) K :=
  (geo.quadratureRule qorder).flatMap fun qp =>
    let factor := qp.2 * geo.integrationElement qp.1 * eps qp.1
    (List.finRange n).flatMap fun i =>
      (List.finRange n).map fun j => ((i, j), factor * (fe.phi qp.1 i ⬝ᵥ fe.phi qp.1 j))

/-- `Electrodynamic_S::jacobian_volume`, electrodynamic.hh:191-235. `toCurl` is the overload of `jacobianToCurl`. -/
def jacobianS {n e : Nat} (toCurl : Matrix (Fin d) (Fin d) K → Fin e → K) (qorder : Int) (mu : P → K) (geo : CellGeo K P d)
    (fe : VectorBasis K P d n) : Calls (Fin n × Fin n) K :=
  (geo.quadratureRule qorder).flatMap fun qp =>
    let rotphi : Fin n → Fin e → K := fun i => toCurl (fe.js qp.1 i)
    let factor := qp.2 * geo.integrationElement qp.1 / mu qp.1
    (List.finRange n).flatMap fun i => (List.finRange n).map fun j => ((i, j), factor * (rotphi i ⬝ᵥ rotphi j))

end Electrodynamic
end Verif.LocalOp
