import Verif.Model.LocalOperator
import Mathlib.Algebra.Field.Defs
import Mathlib.Order.Defs.LinearOrder
/-
Model of the local operators for the linear convection-diffusion equation:
dune/pdelab/localoperator/convectiondiffusionparameter.hh, convectiondiffusionccfv.hh, convectiondiffusionfem.hh and
convectiondiffusiondg.hh.
-/
namespace Verif.LocalOp

open Matrix

/-- convectiondiffusionparameter.hh:111-115. -/
inductive BC where
  | dirichlet | neumann | outflow | none
deriving DecidableEq, Repr

/-- convectiondiffusionparameter.hh:148-195  the coefficients the parameter class returns for one cell. (The velocity
field may be evaluated on the boundary, too.) -/
structure CellParam (K P : Type) (d : Nat) where
  permeabilityIsConstantPerCell : Bool
  A : P → Matrix (Fin d) (Fin d) K
  b : P → Fin d → K
  c : P → K
  f : P → K
  g : P → K

/-- convectiondiffusionparameter.hh:181-208  the values the parameter class returns for one intersection. -/
structure FaceParam (K Q : Type) where
  bctype : Q → BC
  j : Q → K
  o : Q → K

variable {K P Q : Type} [Field K] [LinearOrder K] {d n m : Nat}

/-! ### Cell-centred finite volumes -/
namespace CCFV

/-- The two vectors of degrees of freedom have one entry each (`x_s(lfsu_s,0)`, `x_n(lfsu_n,0)`). `Sum.inl` is the inside,
`Sum.inr` the outside. Used for `alphaSkeleton`, convectiondiffusionccfv.hh:112-180. -/
abbrev Sides := Fin 1 ⊕ Fin 1

/-- convectiondiffusionccfv.hh:65-82  `alpha_volume`. -/
def alphaVolume (geo : CellGeo K P d) (par : CellParam K P d) (x : Fin 1 → K) : Calls (Fin 1) K :=
  let localInside := geo.center
  let c := par.c localInside
  [(0, (c * x 0) * geo.volume)]

/-- convectiondiffusionccfv.hh:84-89  `jacobian_apply_volume`. -/
def jacobianApplyVolume (geo : CellGeo K P d) (par : CellParam K P d) (x : Fin 1 → K) : Calls (Fin 1) K :=
  alphaVolume geo par x

/-- convectiondiffusionccfv.hh:91-109  `jacobian_volume`. -/
def jacobianVolume (geo : CellGeo K P d) (par : CellParam K P d) : Calls (Fin 1 × Fin 1) K :=
  let localInside := geo.center
  let c := par.c localInside
  [((0, 0), c * geo.volume)]

/-- convectiondiffusionccfv.hh:136-143, 216-223  the area of the face. -/
def faceVolume (geo : FaceGeo K P Q d) : K := geo.integrationElement geo.center * geo.refVolume

/-- convectiondiffusionccfv.hh:154-159  `n_F * (A n_F)`. -/
def kNormal (A : Matrix (Fin d) (Fin d) K) (nF : Fin d → K) : K := nF ⬝ᵥ (A *ᵥ nF)

/-- convectiondiffusionccfv.hh:160  the harmonic average. -/
def kAvg (kInside kOutside : K) : K :=
  2 / (1 / (kInside + 1 / 10 ^ 30) + 1 / (kOutside + 1 / 10 ^ 30))

/-- convectiondiffusionccfv.hh:112-180  `alpha_skeleton`. `twoNorm` is the Euclidean norm. -/
def alphaSkeleton (twoNorm : (Fin d → K) → K) (geo : FaceGeo K P Q d) (geoIn geoOut : CellGeo K P d)
    (parIn parOut : CellParam K P d) (x : Sides → K) : Calls Sides K :=
  let faceVol := faceVolume geo
  let nF := geo.centerUnitOuterNormal
  let k := kAvg (kNormal (parIn.A geoIn.center) nF) (kNormal (parOut.A geoOut.center) nF)
  let b := parIn.b (geo.inInside geo.center)
  let vn := b ⬝ᵥ nF
  let uUpwind := if vn ≥ 0 then x (.inl 0) else x (.inr 0)
  let distance := twoNorm (geoIn.global geoIn.center - geoOut.global geoOut.center)
  [(.inl 0, (uUpwind * vn) * faceVol + k * (x (.inl 0) - x (.inr 0)) * faceVol / distance),
    (.inr 0, -(uUpwind * vn) * faceVol - k * (x (.inl 0) - x (.inr 0)) * faceVol / distance)]

/-- convectiondiffusionccfv.hh:182-190  `jacobian_apply_skeleton`. -/
def jacobianApplySkeleton (twoNorm : (Fin d → K) → K) (geo : FaceGeo K P Q d) (geoIn geoOut : CellGeo K P d)
    (parIn parOut : CellParam K P d) (x : Sides → K) : Calls Sides K :=
  alphaSkeleton twoNorm geo geoIn geoOut parIn parOut x

/-- convectiondiffusionccfv.hh:192-270  `jacobian_skeleton`. `mat_sn` takes the rows of the inside and the columns of the
outside, and so on. -/
def jacobianSkeleton (twoNorm : (Fin d → K) → K) (geo : FaceGeo K P Q d) (geoIn geoOut : CellGeo K P d)
    (parIn parOut : CellParam K P d) : Calls (Sides × Sides) K :=
  let faceVol := faceVolume geo
  let nF := geo.centerUnitOuterNormal
  let k := kAvg (kNormal (parIn.A geoIn.center) nF) (kNormal (parOut.A geoOut.center) nF)
  let b := parIn.b (geo.inInside geo.center)
  let vn := b ⬝ᵥ nF
  let distance := twoNorm (geoIn.global geoIn.center - geoOut.global geoOut.center)
  [((.inl 0, .inl 0), k * faceVol / distance),
    ((.inr 0, .inl 0), -k * faceVol / distance),
    ((.inl 0, .inr 0), -k * faceVol / distance),
    ((.inr 0, .inr 0), k * faceVol / distance)] ++
  (if vn ≥ 0 then
    [((.inl 0, .inl 0), vn * faceVol), ((.inr 0, .inl 0), -vn * faceVol)]
  else
    [((.inl 0, .inr 0), vn * faceVol), ((.inr 0, .inr 0), -vn * faceVol)])

/-- convectiondiffusionccfv.hh:295-392  `alpha_boundary`. -/
def alphaBoundary (twoNorm : (Fin d → K) → K) (geo : FaceGeo K P Q d) (geoIn : CellGeo K P d)
    (par : CellParam K P d) (fpar : FaceParam K Q) (x : Fin 1 → K) : Calls (Fin 1) K :=
  let faceVol := faceVolume geo
  match fpar.bctype geo.center with
  | .dirichlet =>
    let distance := twoNorm (geoIn.global geoIn.center - geo.global geo.center)
    let nF := geo.centerUnitOuterNormal
    let kInside := kNormal (par.A geoIn.center) nF
    let iplocal := geo.inInside geo.center
    let g := par.g iplocal
    let b := par.b iplocal
    [(0, (b ⬝ᵥ nF) * g * faceVol + kInside * (x 0 - g) * faceVol / distance)]
  | .neumann =>
    let j := fpar.j geo.center
    [(0, j * faceVol)]
  | .outflow =>
    let b := par.b (geo.inInside geo.center)
    let nF := geo.centerUnitOuterNormal
    let o := fpar.o geo.center
    [(0, ((b ⬝ᵥ nF) * x 0 + o) * faceVol)]
  | .none => []

/-- convectiondiffusionccfv.hh:394-464  `jacobian_boundary` (lines 447 and 460 hand over the trial space for the rows; both
spaces have one degree of freedom). -/
def jacobianBoundary (twoNorm : (Fin d → K) → K) (geo : FaceGeo K P Q d) (geoIn : CellGeo K P d)
    (par : CellParam K P d) (fpar : FaceParam K Q) : Calls (Fin 1 × Fin 1) K :=
  let faceVol := faceVolume geo
  match fpar.bctype geo.center with
  | .dirichlet =>
    let distance := twoNorm (geoIn.global geoIn.center - geo.global geo.center)
    let nF := geo.centerUnitOuterNormal
    let kInside := kNormal (par.A geoIn.center) nF
    [((0, 0), kInside * faceVol / distance)]
  | .outflow =>
    let b := par.b (geo.inInside geo.center)
    let nF := geo.centerUnitOuterNormal
    [((0, 0), (b ⬝ᵥ nF) * faceVol)]
  | .neumann | .none => []

/-- convectiondiffusionccfv.hh:466-482  `lambda_volume`. -/
def lambdaVolume (geo : CellGeo K P d) (par : CellParam K P d) : Calls (Fin 1) K :=
  let f := par.f geo.center
  [(0, -f * geo.volume)]

/-- convectiondiffusionccfv.hh:552-569  `alpha_volume` of the temporal operator; `capacity` is `param.d(cell,center)`. -/
def temporalAlphaVolume (geo : CellGeo K P d) (capacity : P → K) (x : Fin 1 → K) : Calls (Fin 1) K :=
  [(0, capacity geo.center * x 0 * geo.volume)]

/-- convectiondiffusionccfv.hh:571-576  `jacobian_apply_volume` of the temporal operator. -/
def temporalJacobianApplyVolume (geo : CellGeo K P d) (capacity : P → K) (x : Fin 1 → K) : Calls (Fin 1) K :=
  temporalAlphaVolume geo capacity x

/-- convectiondiffusionccfv.hh:578-596  `jacobian_volume` of the temporal operator. -/
def temporalJacobianVolume (geo : CellGeo K P d) (capacity : P → K) : Calls (Fin 1 × Fin 1) K :=
  [((0, 0), capacity geo.center * geo.volume)]

end CCFV

/-! ### Conforming finite elements -/
namespace FEM

/-- convectiondiffusionfem.hh:79-82, 97-100 (and 157-160, 174-177)  the diffusion tensor at a quadrature point. -/
def tensorAt (geo : CellGeo K P d) (par : CellParam K P d) (ip : P) : Matrix (Fin d) (Fin d) K :=
  if par.permeabilityIsConstantPerCell then par.A geo.center else par.A ip

/-- convectiondiffusionfem.hh:61-136  `alpha_volume`. -/
def alphaVolume (intorderadd : Int) (geo : CellGeo K P d) (par : CellParam K P d) (lfsu : Basis K P d n) (x : Fin n → K) :
    Calls (Fin n) K :=
  let intorder := intorderadd + 2 * lfsu.order
  (geo.quadratureRule intorder).flatMap fun (ip, weight) =>
    let tensor := tensorAt geo par ip
    let phi := lfsu.phi ip
    let u := ∑ i, x i * phi i
    let jac := geo.jacobianInverseTransposed ip
    let gradphi := fun i => jac *ᵥ lfsu.js ip i
    let gradu := ∑ i, x i • gradphi i
    let Agradu := tensor *ᵥ gradu
    let b := par.b ip
    let c := par.c ip
    let f := par.f ip
    let factor := weight * geo.integrationElement ip
    forEach fun i => ((Agradu ⬝ᵥ gradphi i) - u * (b ⬝ᵥ gradphi i) + (c * u - f) * phi i) * factor

/-- convectiondiffusionfem.hh:138-203  `jacobian_volume`. -/
def jacobianVolume (intorderadd : Int) (geo : CellGeo K P d) (par : CellParam K P d) (lfsu : Basis K P d n) :
    Calls (Fin n × Fin n) K :=
  let intorder := intorderadd + 2 * lfsu.order
  (geo.quadratureRule intorder).flatMap fun (ip, weight) =>
    let tensor := tensorAt geo par ip
    let jac := geo.jacobianInverseTransposed ip
    let gradphi := fun i => jac *ᵥ lfsu.js ip i
    let Agradphi := fun i => tensor *ᵥ gradphi i
    let phi := lfsu.phi ip
    let b := par.b ip
    let c := par.c ip
    let factor := weight * geo.integrationElement ip
    forEach₂ fun i j => ((Agradphi j ⬝ᵥ gradphi i) - phi j * (b ⬝ᵥ gradphi i) + c * phi j * phi i) * factor

/-- convectiondiffusionfem.hh:205-275  `alpha_boundary`. The boundary condition type is taken from the centre of the face. -/
def alphaBoundary (intorderadd : Int) (geo : FaceGeo K P Q d) (par : CellParam K P d) (fpar : FaceParam K Q)
    (lfsu : Basis K P d n) (x : Fin n → K) : Calls (Fin n) K :=
  let bctype := fpar.bctype geo.center
  if bctype = .dirichlet then []
  else
    let intorder := intorderadd + 2 * lfsu.order
    (geo.quadratureRule intorder).flatMap fun (ip, weight) =>
      let loc := geo.inInside ip
      let phi := lfsu.phi loc
      (if bctype = .neumann then
        let j := fpar.j ip
        let factor := weight * geo.integrationElement ip
        forEach fun i => j * phi i * factor
      else []) ++
      (if bctype = .outflow then
        let u := ∑ i, x i * phi i
        let b := par.b loc
        let normal := geo.unitOuterNormal ip
        let o := fpar.o ip
        let factor := weight * geo.integrationElement ip
        forEach fun i => ((b ⬝ᵥ normal) * u + o) * phi i * factor
      else [])

/-- convectiondiffusionfem.hh:278-325  `jacobian_boundary`. -/
def jacobianBoundary (intorderadd : Int) (geo : FaceGeo K P Q d) (par : CellParam K P d) (fpar : FaceParam K Q)
    (lfsu : Basis K P d n) : Calls (Fin n × Fin n) K :=
  let bctype := fpar.bctype geo.center
  if bctype = .dirichlet then []
  else if bctype = .neumann then []
  else
    let intorder := intorderadd + 2 * lfsu.order
    (geo.quadratureRule intorder).flatMap fun (ip, weight) =>
      let loc := geo.inInside ip
      let phi := lfsu.phi loc
      let b := par.b loc
      let normal := geo.unitOuterNormal ip
      let factor := weight * geo.integrationElement ip
      forEach₂ fun i j => (b ⬝ᵥ normal) * phi j * phi i * factor

end FEM

/-! ### Discontinuous Galerkin -/
namespace DG

/-- convectiondiffusiondg.hh:29-37. -/
inductive Method where
  | NIPG | SIPG | IIPG
deriving DecidableEq, Repr

/-- convectiondiffusiondg.hh:1084-1100  the members. `quadrature_factor` is 2 (line 96). -/
structure Op (K : Type) where
  method : Method
  /-- `weights == weightsOn` -/
  weightsOn : Bool
  alpha : K
  intorderadd : Int

/-- convectiondiffusiondg.hh:99-101  `theta`. -/
def Op.theta (op : Op K) : K :=
  match op.method with
  | .SIPG => -1
  | .IIPG => 0
  | .NIPG => 1

/-- convectiondiffusiondg.hh:139, 231, 360, 570, 745, 961  the quadrature order. -/
def Op.intorder (op : Op K) (order : Nat) : Int := op.intorderadd + 2 * order

/-- convectiondiffusiondg.hh:104-188  `alpha_volume`. -/
def alphaVolume (op : Op K) (geo : CellGeo K P d) (par : CellParam K P d) (lfsu : Basis K P d n) (lfsv : Basis K P d m)
    (x : Fin n → K) : Calls (Fin m) K :=
  let order := max lfsu.order lfsv.order
  (geo.quadratureRule (op.intorder order)).flatMap fun (ip, weight) =>
    let A := FEM.tensorAt geo par ip
    let phi := lfsu.phi ip
    let psi := lfsv.phi ip
    let u := ∑ i, x i * phi i
    let jac := geo.jacobianInverseTransposed ip
    let gradphi := fun i => jac *ᵥ lfsu.js ip i
    let gradpsi := fun i => jac *ᵥ lfsv.js ip i
    let gradu := ∑ i, x i • gradphi i
    let Agradu := A *ᵥ gradu
    let b := par.b ip
    let c := par.c ip
    let factor := weight * geo.integrationElement ip
    forEach fun i => ((Agradu ⬝ᵥ gradpsi i) - u * (b ⬝ᵥ gradpsi i) + c * u * psi i) * factor

/-- convectiondiffusiondg.hh:190-195  `jacobian_apply_volume`. -/
def jacobianApplyVolume (op : Op K) (geo : CellGeo K P d) (par : CellParam K P d) (lfsu : Basis K P d n)
    (lfsv : Basis K P d m) (x : Fin n → K) : Calls (Fin m) K :=
  alphaVolume op geo par lfsu lfsv x

/-- convectiondiffusiondg.hh:197-266  `jacobian_volume` (assumes `lfsv` to be `lfsu` except for the order). -/
def jacobianVolume (op : Op K) (geo : CellGeo K P d) (par : CellParam K P d) (lfsu : Basis K P d n)
    (lfsv : Basis K P d m) : Calls (Fin n × Fin n) K :=
  let order := max lfsu.order lfsv.order
  (geo.quadratureRule (op.intorder order)).flatMap fun (ip, weight) =>
    let A := FEM.tensorAt geo par ip
    let phi := lfsu.phi ip
    let jac := geo.jacobianInverseTransposed ip
    let gradphi := fun i => jac *ᵥ lfsu.js ip i
    let Agradphi := fun i => A *ᵥ gradphi i
    let b := par.b ip
    let c := par.c ip
    let factor := weight * geo.integrationElement ip
    forEach₂ fun i j => ((Agradphi j ⬝ᵥ gradphi i) - phi j * (b ⬝ᵥ gradphi i) + c * phi j * phi i) * factor

/-- The values computed from the diffusion tensors at a quadrature point of a face: `A_s n`, `A_n n`, `omega_s`, `omega_n`
and the penalty factor. Used for `coupling`, convectiondiffusiondg.hh:313-346. -/
structure Coupling (K : Type) (d : Nat) where
  AnS : Fin d → K
  AnN : Fin d → K
  omegaS : K
  omegaN : K
  penalty : K

/-- convectiondiffusiondg.hh:313-346 (527-560)  the values for given tensors and normal. -/
def coupling (op : Op K) (hF : K) (degree : Nat) (AS AN : Matrix (Fin d) (Fin d) K) (nF : Fin d → K) : Coupling K d :=
  let AnS := AS *ᵥ nF
  let AnN := AN *ᵥ nF
  let factor : K := (degree * (degree + d - 1) : Nat)
  if op.weightsOn then
    let deltaS := AnS ⬝ᵥ nF
    let deltaN := AnN ⬝ᵥ nF
    let omegaS := deltaN / (deltaS + deltaN + 1 / 10 ^ 20)
    let omegaN := deltaS / (deltaS + deltaN + 1 / 10 ^ 20)
    let harmonicAverage := 2 * deltaS * deltaN / (deltaS + deltaN + 1 / 10 ^ 20)
    ⟨AnS, AnN, omegaS, omegaN, (op.alpha / hF) * harmonicAverage * factor⟩
  else ⟨AnS, AnN, 1 / 2, 1 / 2, (op.alpha / hF) * 1 * factor⟩

/-- convectiondiffusiondg.hh:302-313, 364-382 (516-527, 574-592)  the values used at a quadrature point: evaluated at the
cell centres with the normal at the face centre, or with the tensors and the normal at the point if the tensor is not
constant. (The variables that are updated in the loop are overwritten in every iteration.) -/
def couplingAt (op : Op K) (geo : FaceGeo K P Q d) (geoIn geoOut : CellGeo K P d) (parIn parOut : CellParam K P d)
    (degree : Nat) (ip : Q) : Coupling K d :=
  let hF := min geoIn.volume geoOut.volume / geo.volume
  if parIn.permeabilityIsConstantPerCell then
    coupling op hF degree (parIn.A geoIn.center) (parOut.A geoOut.center) geo.centerUnitOuterNormal
  else coupling op hF degree (parIn.A (geo.inInside ip)) (parOut.A (geo.inOutside ip)) (geo.unitOuterNormal ip)

/-- convectiondiffusiondg.hh:428-438 (615-625)  upwinding: `(omegaup_s, omegaup_n)`. -/
def upwind (normalflux : K) : K × K := if normalflux ≥ 0 then (1, 0) else (0, 1)

/-- Contributions to the inside. Used for `alphaSkeleton`, convectiondiffusiondg.hh:268-471. -/
def inside {ι κ : Type} (l : Calls ι K) : Calls (ι ⊕ κ) K := l.map fun c => (.inl c.1, c.2)
/-- Contributions to the outside. Used for `alphaSkeleton`, convectiondiffusiondg.hh:268-471. -/
def outside {ι κ : Type} (l : Calls κ K) : Calls (ι ⊕ κ) K := l.map fun c => (.inr c.1, c.2)

/-- convectiondiffusiondg.hh:268-471  `alpha_skeleton`. -/
def alphaSkeleton {ns nn ms mn : Nat} (op : Op K) (geo : FaceGeo K P Q d) (geoIn geoOut : CellGeo K P d)
    (parIn parOut : CellParam K P d) (lfsuS : Basis K P d ns) (lfsuN : Basis K P d nn) (lfsvS : Basis K P d ms)
    (lfsvN : Basis K P d mn) (x : Fin ns ⊕ Fin nn → K) : Calls (Fin ms ⊕ Fin mn) K :=
  let order := max (max lfsuS.order lfsuN.order) (max lfsvS.order lfsvN.order)
  let degree := max lfsuS.order lfsuN.order
  (geo.quadratureRule (op.intorder order)).flatMap fun (ip, weight) =>
    let nF := geo.unitOuterNormal ip
    let cp := couplingAt op geo geoIn geoOut parIn parOut degree ip
    let iplocalS := geo.inInside ip
    let iplocalN := geo.inOutside ip
    let phiS := lfsuS.phi iplocalS
    let phiN := lfsuN.phi iplocalN
    let psiS := lfsvS.phi iplocalS
    let psiN := lfsvN.phi iplocalN
    let uS := ∑ i, x (.inl i) * phiS i
    let uN := ∑ i, x (.inr i) * phiN i
    let jacS := geoIn.jacobianInverseTransposed iplocalS
    let tgradphiS := fun i => jacS *ᵥ lfsuS.js iplocalS i
    let tgradpsiS := fun i => jacS *ᵥ lfsvS.js iplocalS i
    let jacN := geoOut.jacobianInverseTransposed iplocalN
    let tgradphiN := fun i => jacN *ᵥ lfsuN.js iplocalN i
    let tgradpsiN := fun i => jacN *ᵥ lfsvN.js iplocalN i
    let graduS := ∑ i, x (.inl i) • tgradphiS i
    let graduN := ∑ i, x (.inr i) • tgradphiN i
    let b := parIn.b iplocalS
    let normalflux := b ⬝ᵥ nF
    let omegaupS := (upwind normalflux).1
    let omegaupN := (upwind normalflux).2
    let factor := weight * geo.integrationElement ip
    let term1 := (omegaupS * uS + omegaupN * uN) * normalflux * factor
    let term2 := -(cp.omegaS * (cp.AnS ⬝ᵥ graduS) + cp.omegaN * (cp.AnN ⬝ᵥ graduN)) * factor
    let term3 := (uS - uN) * factor
    let term4 := cp.penalty * (uS - uN) * factor
    inside (forEach fun i => term1 * psiS i) ++ outside (forEach fun i => -term1 * psiN i) ++
    inside (forEach fun i => term2 * psiS i) ++ outside (forEach fun i => -term2 * psiN i) ++
    inside (forEach fun i => term3 * op.theta * cp.omegaS * (cp.AnS ⬝ᵥ tgradpsiS i)) ++
    outside (forEach fun i => term3 * op.theta * cp.omegaN * (cp.AnN ⬝ᵥ tgradpsiN i)) ++
    inside (forEach fun i => term4 * psiS i) ++ outside (forEach fun i => -term4 * psiN i)

/-- convectiondiffusiondg.hh:473-481  `jacobian_apply_skeleton`. -/
def jacobianApplySkeleton {ns nn ms mn : Nat} (op : Op K) (geo : FaceGeo K P Q d) (geoIn geoOut : CellGeo K P d)
    (parIn parOut : CellParam K P d) (lfsuS : Basis K P d ns) (lfsuN : Basis K P d nn) (lfsvS : Basis K P d ms)
    (lfsvN : Basis K P d mn) (x : Fin ns ⊕ Fin nn → K) : Calls (Fin ms ⊕ Fin mn) K :=
  alphaSkeleton op geo geoIn geoOut parIn parOut lfsuS lfsuN lfsvS lfsvN x

/-- `mat_ss`. Used for `jacobianSkeleton`, convectiondiffusiondg.hh:483-669. -/
def blockSS {ι κ : Type} (l : Calls (ι × ι) K) : Calls ((ι ⊕ κ) × (ι ⊕ κ)) K :=
  l.map fun c => ((.inl c.1.1, .inl c.1.2), c.2)
/-- `mat_sn`. Used for `jacobianSkeleton`, convectiondiffusiondg.hh:483-669. -/
def blockSN {ι κ : Type} (l : Calls (ι × κ) K) : Calls ((ι ⊕ κ) × (ι ⊕ κ)) K :=
  l.map fun c => ((.inl c.1.1, .inr c.1.2), c.2)
/-- `mat_ns`. Used for `jacobianSkeleton`, convectiondiffusiondg.hh:483-669. -/
def blockNS {ι κ : Type} (l : Calls (κ × ι) K) : Calls ((ι ⊕ κ) × (ι ⊕ κ)) K :=
  l.map fun c => ((.inr c.1.1, .inl c.1.2), c.2)
/-- `mat_nn`. Used for `jacobianSkeleton`, convectiondiffusiondg.hh:483-669. -/
def blockNN {ι κ : Type} (l : Calls (κ × κ) K) : Calls ((ι ⊕ κ) × (ι ⊕ κ)) K :=
  l.map fun c => ((.inr c.1.1, .inr c.1.2), c.2)

/-- `for j, for i: mat.accumulate(.., v1); mat.accumulate(.., v2); ..` Used for `jacobianSkeleton`, convectiondiffusiondg.hh:483-669. -/
def forEach₂List {m n : Nat} (v : Fin m → Fin n → List K) : Calls (Fin m × Fin n) K :=
  (List.finRange n).flatMap fun j => (List.finRange m).flatMap fun i => (v i j).map fun a => ((i, j), a)

/-- convectiondiffusiondg.hh:483-669  `jacobian_skeleton`. -/
def jacobianSkeleton {ns nn ms mn : Nat} (op : Op K) (geo : FaceGeo K P Q d) (geoIn geoOut : CellGeo K P d)
    (parIn parOut : CellParam K P d) (lfsuS : Basis K P d ns) (lfsuN : Basis K P d nn) (lfsvS : Basis K P d ms)
    (lfsvN : Basis K P d mn) : Calls ((Fin ns ⊕ Fin nn) × (Fin ns ⊕ Fin nn)) K :=
  let order := max (max lfsuS.order lfsuN.order) (max lfsvS.order lfsvN.order)
  let degree := max lfsuS.order lfsuN.order
  (geo.quadratureRule (op.intorder order)).flatMap fun (ip, weight) =>
    let nF := geo.unitOuterNormal ip
    let cp := couplingAt op geo geoIn geoOut parIn parOut degree ip
    let iplocalS := geo.inInside ip
    let iplocalN := geo.inOutside ip
    let phiS := lfsuS.phi iplocalS
    let phiN := lfsuN.phi iplocalN
    let jacS := geoIn.jacobianInverseTransposed iplocalS
    let tgradphiS := fun i => jacS *ᵥ lfsuS.js iplocalS i
    let jacN := geoOut.jacobianInverseTransposed iplocalN
    let tgradphiN := fun i => jacN *ᵥ lfsuN.js iplocalN i
    let b := parIn.b iplocalS
    let normalflux := b ⬝ᵥ nF
    let omegaupS := (upwind normalflux).1
    let omegaupN := (upwind normalflux).2
    let factor := weight * geo.integrationElement ip
    let ipfactor := cp.penalty * factor
    let temp1S := fun j => -(cp.AnS ⬝ᵥ tgradphiS j) * cp.omegaS * factor
    let temp1N := fun j => -(cp.AnN ⬝ᵥ tgradphiN j) * cp.omegaN * factor
    blockSS (forEach₂List fun i j =>
      [omegaupS * phiS j * normalflux * factor * phiS i, temp1S j * phiS i,
        phiS j * factor * op.theta * cp.omegaS * (cp.AnS ⬝ᵥ tgradphiS i), phiS j * ipfactor * phiS i]) ++
    blockSN (forEach₂List fun i j =>
      [omegaupN * phiN j * normalflux * factor * phiS i, temp1N j * phiS i,
        -phiN j * factor * op.theta * cp.omegaS * (cp.AnS ⬝ᵥ tgradphiS i), -phiN j * ipfactor * phiS i]) ++
    blockNS (forEach₂List fun i j =>
      [-omegaupS * phiS j * normalflux * factor * phiN i, -temp1S j * phiN i,
        phiS j * factor * op.theta * cp.omegaN * (cp.AnN ⬝ᵥ tgradphiN i), -phiS j * ipfactor * phiN i]) ++
    blockNN (forEach₂List fun i j =>
      [-omegaupN * phiN j * normalflux * factor * phiN i, -temp1N j * phiN i,
        -phiN j * factor * op.theta * cp.omegaN * (cp.AnN ⬝ᵥ tgradphiN i), phiN j * ipfactor * phiN i])

/-- convectiondiffusiondg.hh:717-761 (935-977)  `An_F_s` and the penalty factor at a quadrature point of a boundary face. -/
def boundaryCouplingAt (op : Op K) (geo : FaceGeo K P Q d) (geoIn : CellGeo K P d) (par : CellParam K P d) (degree : Nat)
    (ip : Q) : (Fin d → K) × K :=
  let hF := geoIn.volume / geo.volume
  let factor : K := (degree * (degree + d - 1) : Nat)
  let An := if par.permeabilityIsConstantPerCell then par.A geoIn.center *ᵥ geo.centerUnitOuterNormal
    else par.A (geo.inInside ip) *ᵥ geo.unitOuterNormal ip
  let nF := if par.permeabilityIsConstantPerCell then geo.centerUnitOuterNormal else geo.unitOuterNormal ip
  let harmonicAverage := if op.weightsOn then An ⬝ᵥ nF else 1
  (An, (op.alpha / hF) * harmonicAverage * factor)

/-- convectiondiffusiondg.hh:747-877  the loop body of `residual_boundary_integral` for one quadrature point; `none` if the
exception of lines 802-806 is thrown. -/
def residualBoundaryPoint (op : Op K) (geo : FaceGeo K P Q d) (geoIn : CellGeo K P d) (par : CellParam K P d)
    (fpar : FaceParam K Q) (lfsu : Basis K P d n) (lfsv : Basis K P d m) (x : Fin n → K) (jacobianApply : Bool)
    (ip : Q) (weight : K) : Option (Calls (Fin m) K) :=
  let nF := geo.unitOuterNormal ip
  let An := (boundaryCouplingAt op geo geoIn par lfsu.order ip).1
  let penalty := (boundaryCouplingAt op geo geoIn par lfsu.order ip).2
  let iplocal := geo.inInside ip
  let phi := lfsu.phi iplocal
  let psi := lfsv.phi iplocal
  let factor := weight * geo.integrationElement ip
  let u := ∑ i, x i * phi i
  let b := par.b iplocal
  let normalflux := b ⬝ᵥ nF
  match fpar.bctype ip with
  | .none => some []
  | .neumann => some (if !jacobianApply then forEach fun i => fpar.j ip * psi i * factor else [])
  | .outflow =>
    if normalflux < -(1 / 10 ^ 30) then Option.none
    else
      let term1 := u * normalflux * factor
      some ((forEach fun i => term1 * psi i) ++
        (if !jacobianApply then forEach fun i => fpar.o ip * psi i * factor else []))
  | .dirichlet =>
    let jac := geoIn.jacobianInverseTransposed iplocal
    let tgradphi := fun i => jac *ᵥ lfsu.js iplocal i
    let tgradpsi := fun i => jac *ᵥ lfsv.js iplocal i
    let gradu := ∑ i, x i • tgradphi i
    let g := if jacobianApply then 0 else par.g iplocal
    let omegaupS := (upwind normalflux).1
    let omegaupN := (upwind normalflux).2
    let term1 := (omegaupS * u + omegaupN * g) * normalflux * factor
    let term2 := (An ⬝ᵥ gradu) * factor
    let term3 := (u - g) * factor
    let term4 := penalty * (u - g) * factor
    some ((forEach fun i => term1 * psi i) ++ (forEach fun i => -term2 * psi i) ++
      (forEach fun i => term3 * op.theta * (An ⬝ᵥ tgradpsi i)) ++ (forEach fun i => term4 * psi i))

/-- A loop whose body may throw. Used for `residualBoundaryIntegral`, convectiondiffusiondg.hh:671-879. -/
def loop {α ι : Type} (body : α → Option (Calls ι K)) : List α → Option (Calls ι K)
  | [] => some []
  | a :: l => do
    let c ← body a
    let cs ← loop body l
    return c ++ cs

/-- convectiondiffusiondg.hh:671-879  `residual_boundary_integral`. -/
def residualBoundaryIntegral (op : Op K) (geo : FaceGeo K P Q d) (geoIn : CellGeo K P d) (par : CellParam K P d)
    (fpar : FaceParam K Q) (lfsu : Basis K P d n) (lfsv : Basis K P d m) (x : Fin n → K) (jacobianApply : Bool) :
    Option (Calls (Fin m) K) :=
  let order := max lfsu.order lfsv.order
  loop (fun ip => residualBoundaryPoint op geo geoIn par fpar lfsu lfsv x jacobianApply ip.1 ip.2)
    (geo.quadratureRule (op.intorder order))

/-- convectiondiffusiondg.hh:881-889  `alpha_boundary`. -/
def alphaBoundary (op : Op K) (geo : FaceGeo K P Q d) (geoIn : CellGeo K P d) (par : CellParam K P d)
    (fpar : FaceParam K Q) (lfsu : Basis K P d n) (lfsv : Basis K P d m) (x : Fin n → K) : Option (Calls (Fin m) K) :=
  residualBoundaryIntegral op geo geoIn par fpar lfsu lfsv x false

/-- convectiondiffusiondg.hh:891-899  `jacobian_apply_boundary`. -/
def jacobianApplyBoundary (op : Op K) (geo : FaceGeo K P Q d) (geoIn : CellGeo K P d) (par : CellParam K P d)
    (fpar : FaceParam K Q) (lfsu : Basis K P d n) (lfsv : Basis K P d m) (x : Fin n → K) : Option (Calls (Fin m) K) :=
  residualBoundaryIntegral op geo geoIn par fpar lfsu lfsv x true

/-- convectiondiffusiondg.hh:963-1042  the loop body of `jacobian_boundary`; `none` if the exception of lines 1000-1004 is
thrown. -/
def jacobianBoundaryPoint (op : Op K) (geo : FaceGeo K P Q d) (geoIn : CellGeo K P d) (par : CellParam K P d)
    (fpar : FaceParam K Q) (lfsu : Basis K P d n) (ip : Q) (weight : K) : Option (Calls (Fin n × Fin n) K) :=
  let nF := geo.unitOuterNormal ip
  let An := (boundaryCouplingAt op geo geoIn par lfsu.order ip).1
  let penalty := (boundaryCouplingAt op geo geoIn par lfsu.order ip).2
  let iplocal := geo.inInside ip
  let phi := lfsu.phi iplocal
  let factor := weight * geo.integrationElement ip
  let b := par.b iplocal
  let normalflux := b ⬝ᵥ nF
  match fpar.bctype ip with
  | .none | .neumann => some []
  | .outflow =>
    if normalflux < -(1 / 10 ^ 30) then Option.none
    else some (forEach₂ fun i j => phi j * normalflux * factor * phi i)
  | .dirichlet =>
    let jac := geoIn.jacobianInverseTransposed iplocal
    let tgradphi := fun i => jac *ᵥ lfsu.js iplocal i
    let omegaupS : K := if normalflux ≥ 0 then 1 else 0
    some ((forEach₂ fun i j => omegaupS * phi j * normalflux * factor * phi i) ++
      (forEach₂ fun i j => -(An ⬝ᵥ tgradphi j) * factor * phi i) ++
      (forEach₂ fun i j => phi j * factor * op.theta * (An ⬝ᵥ tgradphi i)) ++
      (forEach₂ fun i j => penalty * phi j * phi i * factor))

/-- convectiondiffusiondg.hh:901-1044  `jacobian_boundary`. -/
def jacobianBoundary (op : Op K) (geo : FaceGeo K P Q d) (geoIn : CellGeo K P d) (par : CellParam K P d)
    (fpar : FaceParam K Q) (lfsu : Basis K P d n) (lfsv : Basis K P d m) : Option (Calls (Fin n × Fin n) K) :=
  let order := max lfsu.order lfsv.order
  loop (fun ip => jacobianBoundaryPoint op geo geoIn par fpar lfsu ip.1 ip.2)
    (geo.quadratureRule (op.intorder order))

/-- convectiondiffusiondg.hh:1046-1075  `lambda_volume`. -/
def lambdaVolume (op : Op K) (geo : CellGeo K P d) (par : CellParam K P d) (lfsv : Basis K P d n) : Calls (Fin n) K :=
  let order := lfsv.order
  (geo.quadratureRule (op.intorder order)).flatMap fun (ip, weight) =>
    let phi := lfsv.phi ip
    let f := par.f ip
    let factor := weight * geo.integrationElement ip
    forEach fun i => -f * phi i * factor

end DG
end Verif.LocalOp
