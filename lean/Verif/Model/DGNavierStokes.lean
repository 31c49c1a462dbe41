import Verif.Model.VectorOperators
/-
The discontinuous Galerkin operators for the Navier-Stokes equations: dgnavierstokes.hh (one scalar basis per component of the
velocity) and dgnavierstokesvelvecfem.hh (a basis of vector fields), with the parameter classes of dgnavierstokesparameter.hh and
dginteriorpenaltyparameter.hh.

As in `Verif.Model.LocalOperator` a method is the sequence of its calls of `accumulate`. A method for a face adds to two residuals
`r_s`, `r_n` or four matrices: they are addressed by `Sum`, `inl` for the inside (`_s`) and `inr` for the outside (`_n`). For the
operator with scalar bases the two cells have the same number of shape functions, which the code asserts in `alpha_skeleton`
(440, 457).
-/
namespace Verif.LocalOp

open Matrix

variable {K P Q : Type} [Field K] {d : Nat}

/-! ### Interior penalty factors -/

/-- `DefaultInteriorPenalty::getFaceIP` between two cells, dginteriorpenaltyparameter.hh:32-38. -/
def defaultFaceIP [LinearOrder K] (sigma face inside outside : K) : K := sigma * face / min inside outside

/-- ... and at the boundary, dginteriorpenaltyparameter.hh:40-45. -/
def defaultBoundaryIP (sigma face inside : K) : K := sigma * face / inside

/-- `OverPenalizedInteriorPenalty::getFaceIP`, dginteriorpenaltyparameter.hh:69-76. `pow` is `std::pow`. -/
def overPenalizedFaceIP [LinearOrder K] (pow : K → K → K) (sigma beta face inside outside : K) : K :=
  sigma * pow (face / min inside outside) beta

/-- dginteriorpenaltyparameter.hh:78-84. -/
def overPenalizedBoundaryIP (pow : K → K → K) (sigma beta face inside : K) : K := sigma * pow (face / inside) beta

/-- `DGNavierStokesParameters::incompressibilityScaling`, dgnavierstokesparameter.hh:106-112. -/
def defaultIncompressibilityScaling (dt : K) : K := 1 / dt

namespace DGFlow

open TaylorHood (BoundaryType Dof)

/-- The methods of the parameter class: those of stokesparameter.hh:184-279, `incompressibilityScaling`, `getFaceIP` (as functions of
the volumes) and `epsilonIPSymmetryFactor` of dgnavierstokesparameter.hh:106-138, and `boundarySlip`, which only some classes have
(164-194). `mu` is evaluated with cells and, as `muFace`, with intersections. The dependence of `j` on the normal is not written. -/
structure Param (K P Q : Type) (d : Nat) where
  navier : Bool
  fullTensor : Bool
  mu : P → K
  rho : P → K
  muFace : Q → K
  f : P → Fin d → K
  g : P → Fin d → K
  g2 : P → K
  bctype : Q → BoundaryType
  j : Q → Fin d → K
  epsilon : Int
  boundarySlip : Option (Q → K)
  incompressibilityScaling : K → K
  faceIP : K → K → K → K
  boundaryIP : K → K → K

/-- `VariableBoundarySlipSwitch::boundarySlip`, dgnavierstokesparameter.hh:164-194: 1 if the parameter class has none. -/
def Param.slip (par : Param K P Q d) (q : Q) : K :=
  match par.boundarySlip with
  | none => 1
  | some s => s q

/-- The members of the operator that change: the time of `InstationaryLocalOperatorDefaultMethods`, the time of the parameter class
and `current_dt`. Used for `Clock.create`, dgnavierstokes.hh:74-77. -/
structure Clock (K : Type) where
  time : K
  paramTime : K
  currentDt : K

/-- The constructor, dgnavierstokes.hh:74-77, dgnavierstokesvelvecfem.hh:142-145. `paramTime` is that of the parameter object; the
time of the base class is not initialised (idefault.hh:21-33). -/
def Clock.create (uninitialised paramTime : K) : Clock K := ⟨uninitialised, paramTime, 1⟩

/-- `preStep`, dgnavierstokes.hh:80-83, dgnavierstokesvelvecfem.hh:148-151: only the length of the step is used. -/
def Clock.preStep (c : Clock K) (_time dt : K) (_stages : Int) : Clock K := { c with currentDt := dt }

/-- `setTime`, dgnavierstokes.hh:86-90, dgnavierstokesvelvecfem.hh:154-158. -/
def Clock.setTime (c : Clock K) (t : K) : Clock K := { c with time := t, paramTime := t }

/-- The order of the quadrature rule for volumes, dgnavierstokes.hh:124-127, 257-260; dgnavierstokesvelvecfem.hh:191-194,
313-316. -/
def volumeOrder (dim vOrder : Nat) (isSimplex : Bool) (superintegration : Int) : Int :=
  let detJacOrder : Int := if isSimplex then 0 else (dim : Int) - 1
  let jacOrder : Int := if isSimplex then 0 else 1
  3 * vOrder - 1 + jacOrder + detJacOrder + superintegration

/-- For faces between cells, dgnavierstokes.hh:408-410, 607-609; dgnavierstokesvelvecfem.hh:452-454, 643-645. -/
def skeletonOrder (dim vOrder : Nat) (isSimplex : Bool) (superintegration : Int) : Int :=
  let detJacOrder : Int := if isSimplex then 0 else (dim : Int) - 2
  2 * vOrder + detJacOrder + superintegration

/-- For the boundary terms and the source, dgnavierstokes.hh:808-810, 993-995, 1179-1181; dgnavierstokesvelvecfem.hh:839-841,
983-985, 1089-1091. -/
def boundaryOrder (dim vOrder : Nat) (isSimplex : Bool) (superintegration : Int) : Int :=
  let detJacOrder : Int := if isSimplex then 0 else (dim : Int) - 1
  2 * vOrder + detJacOrder + superintegration

/-- For `lambda_boundary`, dgnavierstokes.hh:1268-1271. -/
def lambdaBoundaryOrder (dim vOrder : Nat) (isSimplex : Bool) (superintegration : Int) : Int :=
  let detJacOrder : Int := if isSimplex then 0 else (dim : Int) - 2
  let jacOrder : Int := if isSimplex then 0 else 1
  2 * vOrder + detJacOrder + jacOrder + superintegration

variable {n m : Nat}

/-- The unknowns of the two cells at a face. Used for `alphaSkeleton`, dgnavierstokes.hh:358-554. -/
abbrev FaceDof (d n m : Nat) := Dof d n m ⊕ Dof d n m
/-- `lfsv_s_pfs_v.child(c), i`. Used for `alphaSkeleton`, dgnavierstokes.hh:358-554. -/
abbrev sv {d n m : Nat} (c : Fin d) (i : Fin n) : FaceDof d n m := .inl (.inl (c, i))
/-- `lfsv_n_pfs_v.child(c), i`. Used for `alphaSkeleton`, dgnavierstokes.hh:358-554. -/
abbrev nv {d n m : Nat} (c : Fin d) (i : Fin n) : FaceDof d n m := .inr (.inl (c, i))
/-- `lfsv_s_p, i`. Used for `alphaSkeleton`, dgnavierstokes.hh:358-554. -/
abbrev sp {d n m : Nat} (i : Fin m) : FaceDof d n m := .inl (.inr i)
/-- `lfsv_n_p, i`. Used for `alphaSkeleton`, dgnavierstokes.hh:358-554. -/
abbrev np {d n m : Nat} (i : Fin m) : FaceDof d n m := .inr (.inr i)

/-- `alpha_volume`, dgnavierstokes.hh:92-221. -/
def alphaVolume (isSimplex : Bool) (superintegration : Int) (currentDt : K) (par : Param K P Q d) (geo : CellGeo K P d)
    (v : Basis K P d n) (p : Basis K P d m) (x : Dof d n m → K) : Calls (Dof d n m) K :=
  let incompScaling := par.incompressibilityScaling currentDt
  (geo.quadratureRule (volumeOrder d v.order isSimplex superintegration)).flatMap fun ip =>
    let mu := par.mu ip.1
    let rho := par.rho ip.1
    let phi := v.phi ip.1
    let vu : Fin d → K := if par.navier then fun c => ∑ i, x (.inl (c, i)) * phi i else 0
    let psi := p.phi ip.1
    let pr := ∑ i, x (.inr i) * psi i
    let gradphi := gradients geo v ip.1
    let jacu : Fin d → Fin d → K := fun c => ∑ i, x (.inl (c, i)) • gradphi i
    let weight := ip.2 * geo.integrationElement ip.1
    ((List.finRange d).flatMap fun c =>
      (List.finRange n).flatMap fun i =>
        [(.inl (c, i), mu * (jacu c ⬝ᵥ gradphi i) * weight)] ++
        (if par.fullTensor then
          (List.finRange d).map fun dd => (.inl (c, i), mu * jacu dd c * gradphi i dd * weight) else []) ++
        [(.inl (c, i), -pr * gradphi i c * weight)] ++
        (if par.navier then [(.inl (c, i), rho * (vu ⬝ᵥ jacu c) * phi i * weight)] else [])) ++
    (List.finRange m).flatMap fun i =>
      (List.finRange d).map fun c => (.inr i, -jacu c c * psi i * incompScaling * weight)

/-- `jacobian_volume`, dgnavierstokes.hh:223-356. -/
def jacobianVolume (isSimplex : Bool) (superintegration : Int) (currentDt : K) (par : Param K P Q d) (geo : CellGeo K P d)
    (v : Basis K P d n) (p : Basis K P d m) (x : Dof d n m → K) : Calls (Dof d n m × Dof d n m) K :=
  let incompScaling := par.incompressibilityScaling currentDt
  (geo.quadratureRule (volumeOrder d v.order isSimplex superintegration)).flatMap fun ip =>
    let mu := par.mu ip.1
    let rho := par.rho ip.1
    let phi := v.phi ip.1
    let vu : Fin d → K := if par.navier then fun c => ∑ i, x (.inl (c, i)) * phi i else 0
    let psi := p.phi ip.1
    let gradphi := gradients geo v ip.1
    let weight := ip.2 * geo.integrationElement ip.1
    (List.finRange d).flatMap fun dv =>
      let graduDv : Fin d → K := if par.navier then ∑ l, x (.inl (dv, l)) • gradphi l else 0
      (List.finRange n).flatMap fun i =>
        ((List.finRange n).flatMap fun j =>
          [((.inl (dv, i), .inl (dv, j)), mu * (gradphi j ⬝ᵥ gradphi i) * weight)] ++
          (if par.fullTensor then
            (List.finRange d).map fun du =>
              ((.inl (dv, i), .inl (du, j)), mu * (gradphi j dv * gradphi i du) * weight) else [])) ++
        ((List.finRange m).flatMap fun j =>
          [((.inr j, .inl (dv, i)), -psi j * gradphi i dv * incompScaling * weight),
           ((.inl (dv, i), .inr j), -psi j * gradphi i dv * weight)]) ++
        (if par.navier then
          ((List.finRange n).map fun j =>
            ((.inl (dv, i), .inl (dv, j)), rho * (vu ⬝ᵥ gradphi j) * phi i * weight)) ++
          ((List.finRange d).flatMap fun du =>
            (List.finRange n).map fun j =>
              ((.inl (dv, i), .inl (du, j)), rho * phi j * graduDv du * phi i * weight)) else [])

/-- `alpha_skeleton`, dgnavierstokes.hh:358-554. -/
def alphaSkeleton (isSimplex : Bool) (superintegration : Int) (currentDt : K) (par : Param K P Q d) (geo : FaceGeo K P Q d)
    (geoIn geoOut : CellGeo K P d) (vS vN : Basis K P d n) (pS pN : Basis K P d m) (xS xN : Dof d n m → K) :
    Calls (FaceDof d n m) K :=
  let epsilon : K := par.epsilon
  let incompScaling := par.incompressibilityScaling currentDt
  let penalty := par.faceIP geo.volume geoIn.volume geoOut.volume
  (geo.quadratureRule (skeletonOrder d vS.order isSimplex superintegration)).flatMap fun ip =>
    let locS := geo.inInside ip.1
    let locN := geo.inOutside ip.1
    let phiS := vS.phi locS
    let phiN := vN.phi locN
    let uS : Fin d → K := fun c => ∑ i, xS (.inl (c, i)) * phiS i
    let uN : Fin d → K := fun c => ∑ i, xN (.inl (c, i)) * phiN i
    let psiS := pS.phi locS
    let psiN := pN.phi locN
    let prS := ∑ i, xS (.inr i) * psiS i
    let prN := ∑ i, xN (.inr i) * psiN i
    let gradS := gradients geoIn vS locS
    let gradN := gradients geoOut vN locN
    let jacuS : Fin d → Fin d → K := fun c => ∑ i, xS (.inl (c, i)) • gradS i
    let jacuN : Fin d → Fin d → K := fun c => ∑ i, xN (.inl (c, i)) • gradN i
    let normal := geo.unitOuterNormal ip.1
    let weight := ip.2 * geo.integrationElement ip.1
    let mu := par.muFace ip.1
    let factor := mu * weight
    ((List.finRange d).flatMap fun c =>
      let val := (1 / 2) * ((jacuS c ⬝ᵥ normal) + (jacuN c ⬝ᵥ normal)) * factor
      let jumpu := uS c - uN c
      let meanP := (1 / 2) * (prS + prN)
      ((List.finRange n).flatMap fun i =>
        [(sv c i, -val * phiS i), (nv c i, val * phiN i)] ++
        (if par.fullTensor then
          (List.finRange d).flatMap fun dd =>
            let tval := (1 / 2) * (jacuS dd c + jacuN dd c) * normal dd * factor
            [(sv c i, -tval * phiS i), (nv c i, tval * phiN i)] else [])) ++
      ((List.finRange n).flatMap fun i =>
        [(sv c i, epsilon * (1 / 2) * (gradS i ⬝ᵥ normal) * jumpu * factor),
         (nv c i, epsilon * (1 / 2) * (gradN i ⬝ᵥ normal) * jumpu * factor)] ++
        (if par.fullTensor then
          (List.finRange d).flatMap fun dd =>
            [(sv c i, epsilon * (1 / 2) * gradS i dd * (uS dd - uN dd) * normal c * factor),
             (nv c i, epsilon * (1 / 2) * gradN i dd * (uS dd - uN dd) * normal c * factor)] else [])) ++
      ((List.finRange n).flatMap fun i =>
        [(sv c i, penalty * jumpu * phiS i * factor), (nv c i, -penalty * jumpu * phiN i * factor)]) ++
      ((List.finRange n).flatMap fun i =>
        [(sv c i, meanP * phiS i * normal c * weight), (nv c i, -meanP * phiN i * normal c * weight)])) ++
    (let jumpun := (uS ⬝ᵥ normal) - (uN ⬝ᵥ normal)
     (List.finRange m).flatMap fun i =>
      [(sp i, (1 / 2) * psiS i * jumpun * incompScaling * weight), (np i, (1 / 2) * psiN i * jumpun * incompScaling * weight)])

/-- `jacobian_skeleton`, dgnavierstokes.hh:556-766. The calls of `mat_ss`, `mat_sn`, `mat_ns`, `mat_nn` are told apart by the sides of
their two entries. -/
def jacobianSkeleton (isSimplex : Bool) (superintegration : Int) (currentDt : K) (par : Param K P Q d) (geo : FaceGeo K P Q d)
    (geoIn geoOut : CellGeo K P d) (vS vN : Basis K P d n) (pS pN : Basis K P d m) :
    Calls (FaceDof d n m × FaceDof d n m) K :=
  let epsilon : K := par.epsilon
  let incompScaling := par.incompressibilityScaling currentDt
  let penalty := par.faceIP geo.volume geoIn.volume geoOut.volume
  (geo.quadratureRule (skeletonOrder d vS.order isSimplex superintegration)).flatMap fun ip =>
    let locS := geo.inInside ip.1
    let locN := geo.inOutside ip.1
    let phiS := vS.phi locS
    let phiN := vN.phi locN
    let psiS := pS.phi locS
    let psiN := pN.phi locN
    let gradS := gradients geoIn vS locS
    let gradN := gradients geoOut vN locN
    let normal := geo.unitOuterNormal ip.1
    let weight := ip.2 * geo.integrationElement ip.1
    let mu := par.muFace ip.1
    let factor := mu * weight
    (List.finRange d).flatMap fun c =>
      (List.finRange n).flatMap fun i =>
        ((List.finRange n).flatMap fun j =>
          let val := ((1 / 2) * (gradS i ⬝ᵥ normal) * phiS j) * factor
          [((sv c j, sv c i), -val), ((sv c i, sv c j), epsilon * val),
           ((sv c i, sv c j), phiS i * phiS j * penalty * factor)] ++
          (if par.fullTensor then
            (List.finRange d).flatMap fun dd =>
              let tval := ((1 / 2) * (gradS i c * normal dd) * phiS j) * factor
              [((sv c j, sv dd i), -tval), ((sv dd i, sv c j), epsilon * tval)] else [])) ++
        ((List.finRange n).flatMap fun j =>
          let val := (-(1 / 2) * (gradS i ⬝ᵥ normal) * phiN j) * factor
          [((nv c j, sv c i), -val), ((sv c i, nv c j), epsilon * val),
           ((nv c j, sv c i), -phiS i * phiN j * penalty * factor)] ++
          (if par.fullTensor then
            (List.finRange d).flatMap fun dd =>
              let tval := (-(1 / 2) * (gradS i c * normal dd) * phiN j) * factor
              [((nv c j, sv dd i), -tval), ((sv dd i, nv c j), epsilon * tval)] else [])) ++
        ((List.finRange n).flatMap fun j =>
          let val := ((1 / 2) * (gradN i ⬝ᵥ normal) * phiS j) * factor
          [((sv c j, nv c i), -val), ((nv c i, sv c j), epsilon * val),
           ((sv c j, nv c i), -phiN i * phiS j * penalty * factor)] ++
          (if par.fullTensor then
            (List.finRange d).flatMap fun dd =>
              let tval := ((1 / 2) * (gradN i c * normal dd) * phiS j) * factor
              [((sv c j, nv dd i), -tval), ((nv dd i, sv c j), epsilon * tval)] else [])) ++
        ((List.finRange n).flatMap fun j =>
          let val := (-(1 / 2) * (gradN i ⬝ᵥ normal) * phiN j) * factor
          [((nv c j, nv c i), -val), ((nv c i, nv c j), epsilon * val),
           ((nv c j, nv c i), phiN i * phiN j * penalty * factor)] ++
          (if par.fullTensor then
            (List.finRange d).flatMap fun dd =>
              let tval := (-(1 / 2) * (gradN i c * normal dd) * phiN j) * factor
              [((nv c j, nv dd i), -tval), ((nv dd i, nv c j), epsilon * tval)] else [])) ++
        ((List.finRange m).flatMap fun j =>
          let val := (1 / 2) * (psiS j * normal c * phiS i) * weight
          [((sv c i, sp j), val), ((sp j, sv c i), val * incompScaling)]) ++
        ((List.finRange m).flatMap fun j =>
          let val := (1 / 2) * (psiN j * normal c * phiS i) * weight
          [((sv c i, np j), val), ((np j, sv c i), val * incompScaling)]) ++
        ((List.finRange m).flatMap fun j =>
          let val := -(1 / 2) * (psiS j * normal c * phiN i) * weight
          [((nv c i, sp j), val), ((sp j, nv c i), val * incompScaling)]) ++
        ((List.finRange m).flatMap fun j =>
          let val := -(1 / 2) * (psiN j * normal c * phiN i) * weight
          [((nv c i, np j), val), ((np j, nv c i), val * incompScaling)])

/-- `alpha_boundary`, dgnavierstokes.hh:768-950. -/
def alphaBoundary (isSimplex : Bool) (superintegration : Int) (currentDt : K) (par : Param K P Q d) (geo : FaceGeo K P Q d)
    (geoIn : CellGeo K P d) (v : Basis K P d n) (p : Basis K P d m) (x : Dof d n m → K) : Calls (Dof d n m) K :=
  let epsilon : K := par.epsilon
  let incompScaling := par.incompressibilityScaling currentDt
  let penalty := par.boundaryIP geo.volume geoIn.volume
  (geo.quadratureRule (boundaryOrder d v.order isSimplex superintegration)).flatMap fun ip =>
    let loc := geo.inInside ip.1
    let phi := v.phi loc
    let u : Fin d → K := fun c => ∑ i, x (.inl (c, i)) * phi i
    let psi := p.phi loc
    let pr := ∑ i, x (.inr i) * psi i
    let grad := gradients geoIn v loc
    let jacu : Fin d → Fin d → K := fun c => ∑ i, x (.inl (c, i)) • grad i
    let normal := geo.unitOuterNormal ip.1
    let weight := ip.2 * geo.integrationElement ip.1
    let mu := par.muFace ip.1
    let bctype := par.bctype ip.1
    let slipFactor := if bctype = .slipVelocity then par.slip ip.1 else 0
    (if bctype = .velocityDirichlet ∨ bctype = .slipVelocity then
      let factor := weight * (1 - slipFactor)
      ((List.finRange d).flatMap fun c =>
        let val := (jacu c ⬝ᵥ normal) * factor * mu
        (List.finRange n).flatMap fun i =>
          [(.inl (c, i), -val * phi i), (.inl (c, i), epsilon * mu * (grad i ⬝ᵥ normal) * u c * factor)] ++
          (if par.fullTensor then
            (List.finRange d).flatMap fun dd =>
              [(.inl (c, i), -mu * jacu dd c * normal dd * phi i * factor),
               (.inl (c, i), epsilon * mu * grad i dd * u dd * normal c * factor)] else []) ++
          [(.inl (c, i), u c * phi i * mu * penalty * factor), (.inl (c, i), pr * phi i * normal c * weight)]) ++
      (List.finRange m).map fun i => (.inr i, psi i * (u ⬝ᵥ normal) * incompScaling * weight)
     else []) ++
    (if bctype = .slipVelocity then
      let factor := weight * slipFactor
      let tenSum : K := if par.fullTensor then 2 else 1
      (List.finRange d).flatMap fun c =>
        (List.finRange n).flatMap fun i =>
          ((List.finRange d).map fun dd =>
            (.inl (c, i), -tenSum * mu * (jacu dd ⬝ᵥ normal) * normal dd * phi i * normal c * factor)) ++
          [(.inl (c, i), epsilon * tenSum * mu * (u ⬝ᵥ normal) * (grad i ⬝ᵥ normal) * normal c * factor),
           (.inl (c, i), mu * penalty * (u ⬝ᵥ normal) * phi i * normal c * factor)]
     else [])

/-- `jacobian_boundary`, dgnavierstokes.hh:952-1142. -/
def jacobianBoundary (isSimplex : Bool) (superintegration : Int) (currentDt : K) (par : Param K P Q d) (geo : FaceGeo K P Q d)
    (geoIn : CellGeo K P d) (v : Basis K P d n) (p : Basis K P d m) : Calls (Dof d n m × Dof d n m) K :=
  let epsilon : K := par.epsilon
  let incompScaling := par.incompressibilityScaling currentDt
  let penalty := par.boundaryIP geo.volume geoIn.volume
  (geo.quadratureRule (boundaryOrder d v.order isSimplex superintegration)).flatMap fun ip =>
    let loc := geo.inInside ip.1
    let phi := v.phi loc
    let psi := p.phi loc
    let grad := gradients geoIn v loc
    let normal := geo.unitOuterNormal ip.1
    let weight := ip.2 * geo.integrationElement ip.1
    let mu := par.muFace ip.1
    let bctype := par.bctype ip.1
    let slipFactor := if bctype = .slipVelocity then par.slip ip.1 else 0
    (if bctype = .velocityDirichlet ∨ bctype = .slipVelocity then
      let factor := weight * (1 - slipFactor)
      (List.finRange d).flatMap fun c =>
        (List.finRange n).flatMap fun i =>
          ((List.finRange n).flatMap fun j =>
            let val := ((grad j ⬝ᵥ normal) * phi i) * factor * mu
            [((.inl (c, i), .inl (c, j)), -val), ((.inl (c, j), .inl (c, i)), epsilon * val)] ++
            (if par.fullTensor then
              (List.finRange d).flatMap fun dd =>
                let tval := ((grad j c * normal dd) * phi i) * factor * mu
                [((.inl (c, i), .inl (dd, j)), -tval), ((.inl (dd, j), .inl (c, i)), epsilon * tval)] else []) ++
            [((.inl (c, j), .inl (c, i)), phi i * phi j * mu * penalty * factor)]) ++
          ((List.finRange m).flatMap fun j =>
            [((.inr j, .inl (c, i)), (psi j * normal c * phi i) * weight * incompScaling),
             ((.inl (c, i), .inr j), (psi j * normal c * phi i) * weight)])
     else []) ++
    (if bctype = .slipVelocity then
      let factor := weight * slipFactor
      let pFactor := mu * penalty * factor
      ((List.finRange n).flatMap fun i =>
        (List.finRange n).flatMap fun j =>
          let tenSum : K := if par.fullTensor then 2 else 1
          let val := tenSum * ((grad j ⬝ᵥ normal) * phi i) * factor * mu
          (List.finRange d).flatMap fun c =>
            (List.finRange d).flatMap fun dd =>
              [((.inl (dd, i), .inl (c, j)), -val * normal c * normal dd),
               ((.inl (c, j), .inl (dd, i)), epsilon * val * normal c * normal dd)]) ++
      ((List.finRange n).flatMap fun i =>
        (List.finRange n).flatMap fun j =>
          let val := phi i * phi j * pFactor
          (List.finRange d).flatMap fun c =>
            (List.finRange d).map fun dd => ((.inl (c, j), .inl (dd, i)), val * normal c * normal dd))
     else [])

/-- `lambda_volume`, dgnavierstokes.hh:1144-1226. -/
def lambdaVolume (isSimplex : Bool) (superintegration : Int) (par : Param K P Q d) (geo : CellGeo K P d) (v : Basis K P d n)
    (p : Basis K P d m) : Calls (Dof d n m) K :=
  (geo.quadratureRule (boundaryOrder d v.order isSimplex superintegration)).flatMap fun ip =>
    let weight := ip.2 * geo.integrationElement ip.1
    let fval := par.f ip.1
    let factor := weight
    let g2 := par.g2 ip.1
    ((List.finRange d).flatMap fun c =>
      (List.finRange n).map fun i => (.inl (c, i), -fval c * (v.phi ip.1 i * factor))) ++
    (List.finRange m).map fun i => (.inr i, g2 * p.phi ip.1 i * factor)

/-- `lambda_boundary`, dgnavierstokes.hh:1228-1362. -/
def lambdaBoundary (isSimplex : Bool) (superintegration : Int) (currentDt : K) (par : Param K P Q d) (geo : FaceGeo K P Q d)
    (geoIn : CellGeo K P d) (v : Basis K P d n) (p : Basis K P d m) : Calls (Dof d n m) K :=
  let epsilon : K := par.epsilon
  let incompScaling := par.incompressibilityScaling currentDt
  let penalty := par.boundaryIP geo.volume geoIn.volume
  (geo.quadratureRule (lambdaBoundaryOrder d v.order isSimplex superintegration)).flatMap fun ip =>
    let loc := geo.inInside ip.1
    let phi := v.phi loc
    let psi := p.phi loc
    let grad := gradients geoIn v loc
    let normal := geo.unitOuterNormal ip.1
    let weight := ip.2 * geo.integrationElement ip.1
    let mu := par.muFace ip.1
    let bctype := par.bctype ip.1
    (if bctype = .velocityDirichlet then
      let u0 := par.g loc
      let factor := mu * weight
      ((List.finRange d).flatMap fun c =>
        (List.finRange n).flatMap fun i =>
          [(.inl (c, i), -epsilon * (grad i ⬝ᵥ normal) * factor * u0 c)] ++
          (if par.fullTensor then
            (List.finRange d).map fun dd =>
              let tval := (grad i c * normal dd) * factor
              (.inl (dd, i), -epsilon * tval * u0 c) else []) ++
          [(.inl (c, i), -phi i * penalty * u0 c * factor)]) ++
      (List.finRange m).map fun i =>
        let val := psi i * (u0 ⬝ᵥ normal) * weight
        (.inr i, -val * incompScaling)
     else []) ++
    (if bctype = .stressNeumann then
      let stress := par.j ip.1
      (List.finRange d).flatMap fun c => (List.finRange n).map fun i => (.inl (c, i), stress c * phi i * weight)
     else [])

end DGFlow

/-! ### The operator for vector valued shape functions -/

namespace DGFlowVec

open DGFlow (Param volumeOrder skeletonOrder boundaryOrder)

variable {n m n' m' : Nat}

/-- `VectorBasisInterfaceSwitch::jacobian` for a basis given on the reference element, dgnavierstokesvelvecfem.hh:71-90 (for a basis
given on the cell, 39-48, take the identity for `jacobianInverseTransposed`). -/
def jacobians (geo : CellGeo K P d) (v : VectorBasis K P d n) (p : P) (i : Fin n) : Matrix (Fin d) (Fin d) K :=
  Matrix.of fun row => geo.jacobianInverseTransposed p *ᵥ v.js p i row

/-- `contraction`, dgnavierstokesvelvecfem.hh:1119-1128. -/
def contraction (a b : Matrix (Fin d) (Fin d) K) : K := ∑ r, ∑ c, a r c * b r c

/-- `add_compute_flux`, dgnavierstokesvelvecfem.hh:1130-1138. -/
def addComputeFlux (du : Matrix (Fin d) (Fin d) K) (normal result : Fin d → K) : Fin d → K :=
  fun r => result r + ∑ c, du r c * normal c

/-- `alpha_volume`, dgnavierstokesvelvecfem.hh:160-278. -/
def alphaVolume (isSimplex : Bool) (superintegration : Int) (currentDt : K) (par : Param K P Q d) (geo : CellGeo K P d)
    (v : VectorBasis K P d n) (p : Basis K P d m) (x : Fin n ⊕ Fin m → K) : Calls (Fin n ⊕ Fin m) K :=
  let incompScaling := par.incompressibilityScaling currentDt
  (geo.quadratureRule (volumeOrder d v.order isSimplex superintegration)).flatMap fun ip =>
    let mu := par.mu ip.1
    let rho := par.rho ip.1
    let phi := v.phi ip.1
    let valU : Fin d → K := if par.navier then ∑ i, x (.inl i) • phi i else 0
    let psi := p.phi ip.1
    let valP := ∑ i, x (.inr i) * psi i
    let jacPhi := jacobians geo v ip.1
    let divPhi : Fin n → K := fun i => ∑ c, jacPhi i c c
    let jacU : Matrix (Fin d) (Fin d) K := ∑ i, x (.inl i) • jacPhi i
    let divU := ∑ i, x (.inl i) * divPhi i
    let weight := ip.2 * geo.integrationElement ip.1
    ((List.finRange n).flatMap fun i =>
      [(.inl i, contraction jacU (jacPhi i) * mu * weight), (.inl i, -divPhi i * valP * weight)] ++
      (if par.navier then [(.inl i, rho * ((jacU *ᵥ valU) ⬝ᵥ phi i) * weight)] else [])) ++
    (List.finRange m).map fun i => (.inr i, -divU * psi i * incompScaling * weight)

/-- `jacobian_volume`, dgnavierstokesvelvecfem.hh:280-399. -/
def jacobianVolume (isSimplex : Bool) (superintegration : Int) (currentDt : K) (par : Param K P Q d) (geo : CellGeo K P d)
    (v : VectorBasis K P d n) (p : Basis K P d m) (x : Fin n ⊕ Fin m → K) :
    Calls ((Fin n ⊕ Fin m) × (Fin n ⊕ Fin m)) K :=
  let incompScaling := par.incompressibilityScaling currentDt
  (geo.quadratureRule (volumeOrder d v.order isSimplex superintegration)).flatMap fun ip =>
    let mu := par.mu ip.1
    let rho := par.rho ip.1
    let phi := v.phi ip.1
    let valU : Fin d → K := if par.navier then ∑ i, x (.inl i) • phi i else 0
    let psi := p.phi ip.1
    let jacPhi := jacobians geo v ip.1
    let divPhi : Fin n → K := fun i => ∑ c, jacPhi i c c
    let jacU : Matrix (Fin d) (Fin d) K := if par.navier then ∑ i, x (.inl i) • jacPhi i else 0
    let weight := ip.2 * geo.integrationElement ip.1
    (List.finRange n).flatMap fun i =>
      ((List.finRange n).flatMap fun j =>
        [((.inl i, .inl j), mu * contraction (jacPhi j) (jacPhi i) * weight)] ++
        (if par.navier then
          [((.inl i, .inl j), rho * (((jacU *ᵥ phi j) ⬝ᵥ phi i) + ((jacPhi j *ᵥ valU) ⬝ᵥ phi i)) * weight)] else [])) ++
      ((List.finRange m).flatMap fun j =>
        [((.inl i, .inr j), -psi j * divPhi i * weight),
         ((.inr j, .inl i), -psi j * divPhi i * incompScaling * weight)])

/-- `alpha_skeleton`, dgnavierstokesvelvecfem.hh:401-588. -/
def alphaSkeleton (isSimplex : Bool) (superintegration : Int) (currentDt : K) (par : Param K P Q d) (geo : FaceGeo K P Q d)
    (geoIn geoOut : CellGeo K P d) (vS : VectorBasis K P d n) (vN : VectorBasis K P d n') (pS : Basis K P d m)
    (pN : Basis K P d m') (xS : Fin n ⊕ Fin m → K) (xN : Fin n' ⊕ Fin m' → K) :
    Calls ((Fin n ⊕ Fin m) ⊕ (Fin n' ⊕ Fin m')) K :=
  let epsilon : K := par.epsilon
  let incompScaling := par.incompressibilityScaling currentDt
  let penalty := par.faceIP geo.volume geoIn.volume geoOut.volume
  (geo.quadratureRule (skeletonOrder d vS.order isSimplex superintegration)).flatMap fun ip =>
    let locS := geo.inInside ip.1
    let locN := geo.inOutside ip.1
    let phiS := vS.phi locS
    let phiN := vN.phi locN
    let psiS := pS.phi locS
    let psiN := pN.phi locN
    let valPS := ∑ i, xS (.inr i) * psiS i
    let valPN := ∑ i, xN (.inr i) * psiN i
    let jacPhiS := jacobians geoIn vS locS
    let jacPhiN := jacobians geoOut vN locN
    let valUS : Fin d → K := ∑ i, xS (.inl i) • phiS i
    let jacUS : Matrix (Fin d) (Fin d) K := ∑ i, xS (.inl i) • jacPhiS i
    let valUN : Fin d → K := ∑ i, xN (.inl i) • phiN i
    let jacUN : Matrix (Fin d) (Fin d) K := ∑ i, xN (.inl i) • jacPhiN i
    let normal := geo.unitOuterNormal ip.1
    let weight := ip.2 * geo.integrationElement ip.1
    let mu := par.muFace ip.1
    let factor := mu * weight
    let jump := valUS - valUN
    let meanP := (1 / 2) * (valPS + valPN)
    let fluxJacU := (1 / 2 : K) • addComputeFlux jacUN normal (addComputeFlux jacUS normal 0)
    ((List.finRange n).flatMap fun i =>
      let fluxJacPhi := addComputeFlux (jacPhiS i) normal 0
      [(.inl (.inl i), -(fluxJacU ⬝ᵥ phiS i) * factor),
       (.inl (.inl i), epsilon * (1 / 2) * (fluxJacPhi ⬝ᵥ jump) * factor),
       (.inl (.inl i), penalty * (jump ⬝ᵥ phiS i) * factor),
       (.inl (.inl i), meanP * (phiS i ⬝ᵥ normal) * weight)]) ++
    ((List.finRange n').flatMap fun i =>
      let fluxJacPhi := addComputeFlux (jacPhiN i) normal 0
      [(.inr (.inl i), (fluxJacU ⬝ᵥ phiN i) * factor),
       (.inr (.inl i), epsilon * (1 / 2) * (fluxJacPhi ⬝ᵥ jump) * factor),
       (.inr (.inl i), -penalty * (jump ⬝ᵥ phiN i) * factor),
       (.inr (.inl i), -meanP * (phiN i ⬝ᵥ normal) * weight)]) ++
    ((List.finRange m).map fun i => (.inl (.inr i), (1 / 2) * psiS i * (jump ⬝ᵥ normal) * incompScaling * weight)) ++
    ((List.finRange m').map fun i => (.inr (.inr i), (1 / 2) * psiN i * (jump ⬝ᵥ normal) * incompScaling * weight))

/-- `jacobian_skeleton`, dgnavierstokesvelvecfem.hh:590-794. -/
def jacobianSkeleton (isSimplex : Bool) (superintegration : Int) (currentDt : K) (par : Param K P Q d) (geo : FaceGeo K P Q d)
    (geoIn geoOut : CellGeo K P d) (vS : VectorBasis K P d n) (vN : VectorBasis K P d n') (pS : Basis K P d m)
    (pN : Basis K P d m') :
    Calls (((Fin n ⊕ Fin m) ⊕ (Fin n' ⊕ Fin m')) × ((Fin n ⊕ Fin m) ⊕ (Fin n' ⊕ Fin m'))) K :=
  let epsilon : K := par.epsilon
  let incompScaling := par.incompressibilityScaling currentDt
  let penalty := par.faceIP geo.volume geoIn.volume geoOut.volume
  (geo.quadratureRule (skeletonOrder d vS.order isSimplex superintegration)).flatMap fun ip =>
    let locS := geo.inInside ip.1
    let locN := geo.inOutside ip.1
    let phiS := vS.phi locS
    let phiN := vN.phi locN
    let psiS := pS.phi locS
    let psiN := pN.phi locN
    let jacPhiS := jacobians geoIn vS locS
    let jacPhiN := jacobians geoOut vN locN
    let normal := geo.unitOuterNormal ip.1
    let weight := ip.2 * geo.integrationElement ip.1
    let mu := par.muFace ip.1
    let factor := mu * weight
    ((List.finRange n).flatMap fun i =>
      let fluxI := addComputeFlux (jacPhiS i) normal 0
      ((List.finRange n).flatMap fun j =>
        let fluxJ := addComputeFlux (jacPhiS j) normal 0
        [((.inl (.inl i), .inl (.inl j)), -(1 / 2) * (fluxJ ⬝ᵥ phiS i) * factor),
         ((.inl (.inl i), .inl (.inl j)), epsilon * (1 / 2) * (fluxI ⬝ᵥ phiS j) * factor),
         ((.inl (.inl i), .inl (.inl j)), penalty * (phiS j ⬝ᵥ phiS i) * factor)]) ++
      ((List.finRange n').flatMap fun j =>
        let fluxJ := addComputeFlux (jacPhiN j) normal 0
        [((.inl (.inl i), .inr (.inl j)), -(1 / 2) * (fluxJ ⬝ᵥ phiS i) * factor),
         ((.inl (.inl i), .inr (.inl j)), -epsilon * (1 / 2) * (fluxI ⬝ᵥ phiN j) * factor),
         ((.inl (.inl i), .inr (.inl j)), -penalty * (phiN j ⬝ᵥ phiS i) * factor)]) ++
      ((List.finRange m).map fun j => ((.inl (.inl i), .inl (.inr j)), (1 / 2) * psiS j * (phiS i ⬝ᵥ normal) * weight)) ++
      ((List.finRange m').map fun j => ((.inl (.inl i), .inr (.inr j)), (1 / 2) * psiN j * (phiS i ⬝ᵥ normal) * weight))) ++
    ((List.finRange n').flatMap fun i =>
      let fluxI := addComputeFlux (jacPhiN i) normal 0
      ((List.finRange n).flatMap fun j =>
        let fluxJ := addComputeFlux (jacPhiS j) normal 0
        [((.inr (.inl i), .inl (.inl j)), (1 / 2) * (fluxJ ⬝ᵥ phiN i) * factor),
         ((.inr (.inl i), .inl (.inl j)), epsilon * (1 / 2) * (fluxI ⬝ᵥ phiS j) * factor),
         ((.inr (.inl i), .inl (.inl j)), -penalty * (phiS j ⬝ᵥ phiN i) * factor)]) ++
      ((List.finRange n').flatMap fun j =>
        let fluxJ := addComputeFlux (jacPhiN j) normal 0
        [((.inr (.inl i), .inr (.inl j)), (1 / 2) * (fluxJ ⬝ᵥ phiN i) * factor),
         ((.inr (.inl i), .inr (.inl j)), -epsilon * (1 / 2) * (fluxI ⬝ᵥ phiN j) * factor),
         ((.inr (.inl i), .inr (.inl j)), penalty * (phiN j ⬝ᵥ phiN i) * factor)]) ++
      ((List.finRange m).map fun j => ((.inr (.inl i), .inl (.inr j)), -(1 / 2) * psiS j * (phiN i ⬝ᵥ normal) * weight)) ++
      ((List.finRange m').map fun j => ((.inr (.inl i), .inr (.inr j)), -(1 / 2) * psiN j * (phiN i ⬝ᵥ normal) * weight))) ++
    ((List.finRange m).flatMap fun i =>
      ((List.finRange n).map fun j =>
        ((.inl (.inr i), .inl (.inl j)), (1 / 2) * psiS i * (phiS j ⬝ᵥ normal) * incompScaling * weight)) ++
      ((List.finRange n').map fun j =>
        ((.inl (.inr i), .inr (.inl j)), -(1 / 2) * psiS i * (phiN j ⬝ᵥ normal) * incompScaling * weight))) ++
    ((List.finRange m').flatMap fun i =>
      ((List.finRange n).map fun j =>
        ((.inr (.inr i), .inl (.inl j)), (1 / 2) * psiN i * (phiS j ⬝ᵥ normal) * incompScaling * weight)) ++
      ((List.finRange n').map fun j =>
        ((.inr (.inr i), .inr (.inl j)), -(1 / 2) * psiN i * (phiN j ⬝ᵥ normal) * incompScaling * weight)))

/-- `alpha_boundary`, dgnavierstokesvelvecfem.hh:796-937. -/
def alphaBoundary (isSimplex : Bool) (superintegration : Int) (currentDt : K) (par : Param K P Q d) (geo : FaceGeo K P Q d)
    (geoIn : CellGeo K P d) (v : VectorBasis K P d n) (p : Basis K P d m) (x : Fin n ⊕ Fin m → K) :
    Calls (Fin n ⊕ Fin m) K :=
  let epsilon : K := par.epsilon
  let incompScaling := par.incompressibilityScaling currentDt
  let penalty := par.boundaryIP geo.volume geoIn.volume
  (geo.quadratureRule (boundaryOrder d v.order isSimplex superintegration)).flatMap fun ip =>
    let loc := geo.inInside ip.1
    let phi := v.phi loc
    let psi := p.phi loc
    let jacPhi := jacobians geoIn v loc
    let valP := ∑ i, x (.inr i) * psi i
    let valU : Fin d → K := ∑ i, x (.inl i) • phi i
    let jacU : Matrix (Fin d) (Fin d) K := ∑ i, x (.inl i) • jacPhi i
    let normal := geo.unitOuterNormal ip.1
    let weight := ip.2 * geo.integrationElement ip.1
    let mu := par.muFace ip.1
    let bctype := par.bctype ip.1
    (if bctype = .velocityDirichlet then
      let u0 := par.g loc
      let jump := valU - u0
      let fluxJacU := addComputeFlux jacU normal 0
      ((List.finRange n).flatMap fun i =>
        let fluxJacPhi := addComputeFlux (jacPhi i) normal 0
        [(.inl i, -mu * (fluxJacU ⬝ᵥ phi i) * weight),
         (.inl i, mu * epsilon * (fluxJacPhi ⬝ᵥ jump) * weight),
         (.inl i, mu * (jump ⬝ᵥ phi i) * penalty * weight),
         (.inl i, valP * (phi i ⬝ᵥ normal) * weight)]) ++
      (List.finRange m).map fun i => (.inr i, psi i * (jump ⬝ᵥ normal) * incompScaling * weight)
     else []) ++
    (if bctype = .stressNeumann then
      let stress := par.j ip.1
      (List.finRange n).map fun i => (.inl i, (stress ⬝ᵥ phi i) * weight)
     else [])

/-- `jacobian_boundary`, dgnavierstokesvelvecfem.hh:939-1062. -/
def jacobianBoundary (isSimplex : Bool) (superintegration : Int) (currentDt : K) (par : Param K P Q d) (geo : FaceGeo K P Q d)
    (geoIn : CellGeo K P d) (v : VectorBasis K P d n) (p : Basis K P d m) :
    Calls ((Fin n ⊕ Fin m) × (Fin n ⊕ Fin m)) K :=
  let epsilon : K := par.epsilon
  let incompScaling := par.incompressibilityScaling currentDt
  let penalty := par.boundaryIP geo.volume geoIn.volume
  (geo.quadratureRule (boundaryOrder d v.order isSimplex superintegration)).flatMap fun ip =>
    let loc := geo.inInside ip.1
    let phi := v.phi loc
    let psi := p.phi loc
    let jacPhi := jacobians geoIn v loc
    let normal := geo.unitOuterNormal ip.1
    let weight := ip.2 * geo.integrationElement ip.1
    let mu := par.muFace ip.1
    if par.bctype ip.1 = .velocityDirichlet then
      ((List.finRange n).flatMap fun i =>
        let fluxI := addComputeFlux (jacPhi i) normal 0
        ((List.finRange n).flatMap fun j =>
          let fluxJ := addComputeFlux (jacPhi j) normal 0
          [((.inl i, .inl j), -mu * (fluxJ ⬝ᵥ phi i) * weight),
           ((.inl i, .inl j), mu * epsilon * (fluxI ⬝ᵥ phi j) * weight),
           ((.inl i, .inl j), mu * (phi j ⬝ᵥ phi i) * penalty * weight)]) ++
        ((List.finRange m).map fun j => ((.inl i, .inr j), psi j * (phi i ⬝ᵥ normal) * weight))) ++
      ((List.finRange m).flatMap fun i =>
        (List.finRange n).map fun j => ((.inr i, .inl j), psi i * (phi j ⬝ᵥ normal) * incompScaling * weight))
    else []

/-- `lambda_volume`, dgnavierstokesvelvecfem.hh:1064-1115. -/
def lambdaVolume (isSimplex : Bool) (superintegration : Int) (par : Param K P Q d) (geo : CellGeo K P d)
    (v : VectorBasis K P d n) : Calls (Fin n ⊕ Fin m) K :=
  (geo.quadratureRule (boundaryOrder d v.order isSimplex superintegration)).flatMap fun ip =>
    let weight := ip.2 * geo.integrationElement ip.1
    let fval := par.f ip.1
    (List.finRange n).map fun i => (.inl i, -(fval ⬝ᵥ v.phi ip.1 i) * weight)

end DGFlowVec
end Verif.LocalOp
