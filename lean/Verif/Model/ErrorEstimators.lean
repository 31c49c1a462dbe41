import Verif.Model.ConvectionDiffusion
import Verif.Model.Darcy
/-
The local operators that assemble squared error indicators: dune/pdelab/localoperator/convectiondiffusionfem.hh:342-1045 and
dune/pdelab/localoperator/errorindicatordg.hh.

The test space has one function per cell, so every contribution goes to the entry 0 of its cell. Numbers are elements of an
ordered field; the Euclidean norm of a vector is a parameter `twoNorm`. A division by zero, which yields an infinite value or
no number at all, is the outcome `none` of the discontinuous Galerkin indicator.
-/
namespace Verif.LocalOp.Estimator

open Matrix Verif.LocalOp.Darcy

variable {K P Q : Type} [Field K] [LinearOrder K] {d n m : Nat}

/-- The inner loop of `diameter`, convectiondiffusionfem.hh:651-656 (and 789-794, 1033-1038, errorindicatordg.hh:395-400). -/
def innerLoop (twoNorm : (Fin d → K) → K) (xi : Fin d → K) (hmax : K) (rest : List (Fin d → K)) : K :=
  rest.foldl (fun hmax xj => max hmax (twoNorm (xj - xi))) hmax

/-- The outer loop of `diameter`, convectiondiffusionfem.hh:648-657 (and the three copies). -/
def outerLoop (twoNorm : (Fin d → K) → K) : K → List (Fin d → K) → K
  | hmax, [] => hmax
  | hmax, xi :: rest => outerLoop twoNorm (innerLoop twoNorm xi hmax rest) rest

/-- `diameter`, convectiondiffusionfem.hh:642-659, 780-797, 1024-1041 and errorindicatordg.hh:386-403. The geometry is given by its
corners. -/
def diameter (twoNorm : (Fin d → K) → K) (corners : List (Fin d → K)) : K := outerLoop twoNorm (-1) corners

namespace FEM

/-- convectiondiffusionfem.hh:383-429  `alpha_volume`. -/
def alphaVolume (hT : K) (geo : CellGeo K P d) (par : CellParam K P d) (lfsu : Basis K P d n) (x : Fin n → K) : Calls (Fin 1) K :=
  let intorder := 2 * (lfsu.order : Int)
  let sum := ((geo.quadratureRule intorder).map fun ip =>
    let phi := lfsu.phi ip.1
    let u := ∑ i, x i * phi i
    let c := par.c ip.1
    let f := par.f ip.1
    let factor := ip.2 * geo.integrationElement ip.1
    (f * f - c * c * u * u) * factor).sum
  [(0, hT * hT * sum)]

/-- convectiondiffusionfem.hh:434-539  `alpha_skeleton`. `hIn` and `hOut` are the diameters of the two cells. Whether the tensor is
constant on each cell is declared by the class of the parameters, so it is the same on both sides. -/
def alphaSkeleton (hIn hOut : K) (geo : FaceGeo K P Q d) (geoIn geoOut : CellGeo K P d) (parIn parOut : CellParam K P d)
    (lfsuS : Basis K P d n) (xS : Fin n → K) (lfsuN : Basis K P d m) (xN : Fin m → K) : Calls (Fin 1 ⊕ Fin 1) K :=
  let intorder := 2 * (lfsuS.order : Int)
  let sum := ((geo.quadratureRule intorder).map fun ip =>
    let iplocalS := geo.inInside ip.1
    let iplocalN := geo.inOutside ip.1
    let AnS := if parIn.permeabilityIsConstantPerCell then parIn.A geoIn.center *ᵥ geo.centerUnitOuterNormal
      else parIn.A iplocalS *ᵥ geo.unitOuterNormal ip.1
    let AnN := if parIn.permeabilityIsConstantPerCell then parOut.A geoOut.center *ᵥ geo.centerUnitOuterNormal
      else parOut.A iplocalN *ᵥ geo.unitOuterNormal ip.1
    let tgradphiS := fun i => geoIn.jacobianInverseTransposed iplocalS *ᵥ lfsuS.js iplocalS i
    let tgradphiN := fun i => geoOut.jacobianInverseTransposed iplocalN *ᵥ lfsuN.js iplocalN i
    let graduS := ∑ i, xS i • tgradphiS i
    let graduN := ∑ i, xN i • tgradphiN i
    let factor := ip.2 * geo.integrationElement ip.1
    let jump := (AnS ⬝ᵥ graduS) - (AnN ⬝ᵥ graduN)
    1 / 4 * jump * jump * factor).sum
  let hT := max hIn hOut
  [(.inl 0, hT * sum), (.inr 0, hT * sum)]

/-- convectiondiffusionfem.hh:544-637  `alpha_boundary`. -/
def alphaBoundary (hT : K) (geo : FaceGeo K P Q d) (geoIn : CellGeo K P d) (par : CellParam K P d) (fpar : FaceParam K Q)
    (lfsu : Basis K P d n) (x : Fin n → K) : Calls (Fin 1) K :=
  if fpar.bctype geo.center ≠ .neumann then []
  else
    let intorder := 2 * (lfsu.order : Int)
    let sum := ((geo.quadratureRule intorder).map fun ip =>
      let iplocal := geo.inInside ip.1
      let An := if par.permeabilityIsConstantPerCell then par.A geoIn.center *ᵥ geo.centerUnitOuterNormal
        else par.A iplocal *ᵥ geo.unitOuterNormal ip.1
      let tgradphi := fun i => geoIn.jacobianInverseTransposed iplocal *ᵥ lfsu.js iplocal i
      let gradu := ∑ i, x i • tgradphi i
      let j := fpar.j ip.1
      let factor := ip.2 * geo.integrationElement ip.1
      let jump := j + (An ⬝ᵥ gradu)
      jump * jump * factor).sum
    [(0, hT * sum)]

end FEM

namespace DG

/-- errorindicatordg.hh:105-106 (and 208-212, 330-331)  the smallest diagonal entry of the tensor at the centre. The code is
rejected by the compiler unless the dimension is 2 or 3. -/
def epsilon : {d : Nat} → Matrix (Fin d) (Fin d) K → Option K
  | 2, A => some (min (A 0 0) (A 1 1))
  | 3, A => some (min (A 2 2) (min (A 0 0) (A 1 1)))
  | _, _ => none

/-- A quotient of floating point numbers; `none` for a division by zero. Used for `alphaVolume`, errorindicatordg.hh:76-162. -/
def divide (a b : K) : Option K := if b = 0 then none else some (a / b)

/-- errorindicatordg.hh:76-162  `alpha_volume`. `h_T*h_T / pOrder / pOrder / epsilon * sum`. -/
def alphaVolume (hT : K) (geo : CellGeo K P d) (par : CellParam K P d) (lfsu : Basis K P d n) (x : Fin n → K) :
    Option (Calls (Fin 1) K) := do
  let eps ← epsilon (par.A geo.center)
  let pOrder := lfsu.order
  let intorder := 2 * (pOrder : Int)
  let sum := ((geo.quadratureRule intorder).map fun qp =>
    let phi := lfsu.phi qp.1
    let u := ∑ i, x i * phi i
    let c := par.c qp.1
    let f := par.f qp.1
    let beta := par.b qp.1
    let gradu := evalGradient geo lfsu x qp.1
    let factor := qp.2 * geo.integrationElement qp.1
    let square := f - (beta ⬝ᵥ gradu) - c * u
    square * square * factor).sum
  let q1 ← divide (hT * hT) (pOrder : K)
  let q2 ← divide q1 (pOrder : K)
  let q3 ← divide q2 eps
  pure [(0, q3 * sum)]

/-- errorindicatordg.hh:167-289  `alpha_skeleton`. `hFace` is the diameter of the face. The method and the weights handed over to the
constructor are not used. -/
def alphaSkeleton (gamma hFace : K) (geo : FaceGeo K P Q d) (geoIn geoOut : CellGeo K P d) (parIn parOut : CellParam K P d)
    (lfsuS : Basis K P d n) (xS : Fin n → K) (lfsuN : Basis K P d m) (xN : Fin m → K) : Option (Calls (Fin 1 ⊕ Fin 1) K) := do
  let epsS ← epsilon (parIn.A geoIn.center)
  let epsN ← epsilon (parOut.A geoOut.center)
  let nF := geo.centerUnitOuterNormal
  let intorder := 2 * (lfsuS.order : Int)
  let fluxJump := ((geo.quadratureRule intorder).map fun qp =>
    let iplocalS := geo.inInside qp.1
    let iplocalN := geo.inOutside qp.1
    let AnS := parIn.A iplocalS *ᵥ nF
    let AnN := parOut.A iplocalN *ᵥ nF
    let graduS := evalGradient geoIn lfsuS xS iplocalS
    let graduN := evalGradient geoOut lfsuN xN iplocalN
    let factor := qp.2 * geo.integrationElement qp.1
    let jump := (AnS ⬝ᵥ graduS) - (AnN ⬝ᵥ graduN)
    jump * jump * factor).sum
  let uhJump := ((geo.quadratureRule intorder).map fun qp =>
    let uS := evalFunction lfsuS xS (geo.inInside qp.1)
    let uN := evalFunction lfsuN xN (geo.inOutside qp.1)
    let factor := qp.2 * geo.integrationElement qp.1
    let jump := uS - uN
    jump * jump * factor).sum
  let etaE := 1 / 2 * hFace * fluxJump
  let penalty ← divide gamma hFace
  let wS ← divide hFace epsS
  let wN ← divide hFace epsN
  let etaJS := 1 / 2 * (penalty + wS) * uhJump
  let etaJN := 1 / 2 * (penalty + wN) * uhJump
  pure [(.inl 0, etaE + etaJS), (.inr 0, etaE + etaJN)]

/-- errorindicatordg.hh:294-378  `alpha_boundary`. -/
def alphaBoundary (gamma hFace : K) (geo : FaceGeo K P Q d) (geoIn : CellGeo K P d) (par : CellParam K P d) (fpar : FaceParam K Q)
    (lfsu : Basis K P d n) (x : Fin n → K) : Option (Calls (Fin 1) K) := do
  let eps ← epsilon (par.A geoIn.center)
  let intorder := 2 * (lfsu.order : Int)
  if fpar.bctype geo.center ≠ .dirichlet then pure []
  else
    let uhJump := ((geo.quadratureRule intorder).map fun qp =>
      let iplocal := geo.inInside qp.1
      let gDirichlet := par.g iplocal
      let u := evalFunction lfsu x iplocal
      let factor := qp.2 * geo.integrationElement qp.1
      let jump := u - gDirichlet
      jump * jump * factor).sum
    let penalty ← divide gamma hFace
    let w ← divide hFace eps
    pure [(0, (penalty + w) * uhJump)]

end DG

namespace Temporal

/-- The parameters of a time step. The object with the coefficients is shared with the operators of the simulation; the second
component of the results below is the time that it is left at. The coefficients are functions of this time.
Used for `alphaVolume1`, convectiondiffusionfem.hh:704-762. -/
structure Step (K : Type) where
  time : K
  dt : K

/-- convectiondiffusionfem.hh:704-762  `alpha_volume` of `ConvectionDiffusionTemporalResidualEstimator1`. `f t` is the source term after
`setTime(t)`. -/
def alphaVolume1 (s : Step K) (hT : K) (geo : CellGeo K P d) (f : K → P → K) (paramTime : K) (lfsu : Basis K P d n) (x : Fin n → K) :
    Calls (Fin 1) K × K :=
  let rule := geo.quadratureRule (2 * (lfsu.order : Int))
  let fDown := fun p => f s.time p
  let fMid := fun p => f (s.time + 1 / 2 * s.dt) p
  let fUp := fun p => f (s.time + s.dt) p
  let fAverage := fun p => 1 / 6 * fDown p + 2 / 3 * fMid p + 1 / 6 * fUp p
  let sum := (rule.map fun ip =>
    let u := ∑ i, x i * lfsu.phi ip.1 i
    u * u * (ip.2 * geo.integrationElement ip.1)).sum
  let fsum := fun g : P → K => (rule.map fun ip =>
    (g ip.1 - fAverage ip.1) * (g ip.1 - fAverage ip.1) * (ip.2 * geo.integrationElement ip.1)).sum
  ([(0, hT * hT / s.dt * sum),
    (0, hT * hT * s.dt * (1 / 6 * fsum fDown + 2 / 3 * fsum fMid + 1 / 6 * fsum fUp))],
    if rule = [] then paramTime else s.time + s.dt)

/-- convectiondiffusionfem.hh:861-963  `alpha_volume` of `ConvectionDiffusionTemporalResidualEstimator`. `interpolate` are the
coefficients of the interpolation of a function on the cell; `CD_RHS_LocalAdapter`, 803-820, hands over the source term. (The sum
of the squares of the values is computed, too, and not used.) -/
def alphaVolume (s : Step K) (geo : CellGeo K P d) (f : K → P → K) (interpolate : (P → K) → Fin n → K) (lfsu : Basis K P d n)
    (x : Fin n → K) : Calls (Fin 1) K × K :=
  let fDown := interpolate (f s.time)
  let fMid := interpolate (f (s.time + 1 / 2 * s.dt))
  let fUp := interpolate (f (s.time + s.dt))
  let rule := geo.quadratureRule (2 * (lfsu.order : Int))
  let gradphi := fun (p : P) (i : Fin n) => geo.jacobianInverseTransposed p *ᵥ lfsu.js p i
  let sumGrad := (rule.map fun ip =>
    let gradu := ∑ i, x i • gradphi ip.1 i
    (gradu ⬝ᵥ gradu) * (ip.2 * geo.integrationElement ip.1)).sum
  let fsumGrad := fun c : Fin n → K => (rule.map fun ip =>
    let gradfAverage := ∑ i, (1 / 6 * fDown i + 2 / 3 * fMid i + 1 / 6 * fUp i) • gradphi ip.1 i
    let gradf := (∑ i, c i • gradphi ip.1 i) - gradfAverage
    (gradf ⬝ᵥ gradf) * (ip.2 * geo.integrationElement ip.1)).sum
  ([(0, s.dt * sumGrad),
    (0, s.dt * s.dt * s.dt * (1 / 6 * fsumGrad fDown + 2 / 3 * fsumGrad fMid + 1 / 6 * fsumGrad fUp))],
    s.time + s.dt)

/-- convectiondiffusionfem.hh:967-1017  `alpha_boundary` of `ConvectionDiffusionTemporalResidualEstimator`. The type of the boundary
condition is asked for at the time that the parameters happen to have. -/
def alphaBoundary (s : Step K) (hT : K) (geo : FaceGeo K P Q d) (bctype : K → Q → BC) (j : K → Q → K) (paramTime : K)
    (lfsu : Basis K P d n) : Calls (Fin 1) K × K :=
  if bctype paramTime geo.center ≠ .neumann then ([], paramTime)
  else
    let rule := geo.quadratureRule (2 * (lfsu.order : Int))
    let jDown := fun q => j s.time q
    let jMid := fun q => j (s.time + 1 / 2 * s.dt) q
    let jUp := fun q => j (s.time + s.dt) q
    let sum := fun g : Q → K => (rule.map fun ip =>
      (g ip.1 - jMid ip.1) * (g ip.1 - jMid ip.1) * (ip.2 * geo.integrationElement ip.1)).sum
    ([(0, (hT + s.dt * s.dt / hT) * s.dt * (1 / 2) * (sum jDown + sum jUp))],
      if rule = [] then paramTime else s.time + s.dt)

/-- A boundary face as `alphaBoundary` sees it. Used for `cell`, gridoperator/default/assembler.hh:141-222. -/
structure BoundaryFace (K P Q : Type) (d : Nat) where
  geo : FaceGeo K P Q d
  bctype : K → Q → BC
  j : K → Q → K

/-- The contributions of one cell in the order in which the grid operator asks for them: first the cell, then its boundary faces
(gridoperator/default/assembler.hh:141-222, modelled in `Verif.Model.GridAssembler`). -/
def cell (s : Step K) (hT : K) (geo : CellGeo K P d) (f : K → P → K) (interpolate : (P → K) → Fin n → K) (lfsu : Basis K P d n)
    (x : Fin n → K) (faces : List (BoundaryFace K P Q d)) (_paramTime : K) : Calls (Fin 1) K × K :=
  faces.foldl (fun r face =>
    let b := alphaBoundary s hT face.geo face.bctype face.j r.2 lfsu
    (r.1 ++ b.1, b.2)) (alphaVolume s geo f interpolate lfsu x)

end Temporal

end Verif.LocalOp.Estimator
