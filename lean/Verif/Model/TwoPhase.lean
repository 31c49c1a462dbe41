import Verif.Model.LocalOperator
import Verif.Model.Darcy
/-
Two-phase flow with two-point fluxes: dune/pdelab/localoperator/twophaseccfv.hh.
-/
namespace Verif.LocalOp.TwoPhase

open Matrix

variable {K P : Type} [Field K] [LinearOrder K] {d : Nat}

/-- A cell: its volume, its centre, and the parameters (twophaseccfv.hh:67-236) at its centre as functions of the pressure or of
the saturation. The sources are functions of the time. -/
structure Cell (K : Type) (d : Nat) where
  volume : K
  center : Fin d → K
  phi : K
  kAbs : K
  sL : K → K
  krL : K → K
  krG : K → K
  muL : K → K
  muG : K → K
  nuL : K → K
  nuG : K → K
  rhoL : K → K
  rhoG : K → K
  qL : K → K
  qG : K → K

/-- A face: its area, its centre, its unit outer normal, and the boundary conditions at its centre as functions of the time.
Used for `alphaSkeleton`, twophaseccfv.hh:298-401. -/
structure Face (K : Type) (d : Nat) where
  volume : K
  center : Fin d → K
  normal : Fin d → K
  bcL : K → Int
  bcG : K → Int
  gL : K → K
  gG : K → K
  jL : K → K
  jG : K → K

/-- The operator: gravity, scaling factors and time, twophaseccfv.hh:273-276, 511-514. -/
structure Op (K : Type) (d : Nat) where
  gravity : Fin d → K
  scaleL : K
  scaleG : K
  time : K

/-- The unknowns of a cell: liquid pressure 0, gas pressure 1. Used for `lambdaVolume`, twophaseccfv.hh:278-296. -/
abbrev liquid : Fin 2 := 0
/-- Used for `lambdaVolume`, twophaseccfv.hh:278-296. -/
abbrev gas : Fin 2 := 1

/-- twophaseccfv.hh:516-520. -/
def aavg (a b : K) : K := 1 / 2 * (a + b)
/-- twophaseccfv.hh:522-527. -/
def havg (a b : K) : K := 2 / (1 / (a + 1 / 10 ^ 30) + 1 / (b + 1 / 10 ^ 30))

/-- `setTime`, twophaseccfv.hh:506-509. -/
def Op.setTime (op : Op K d) (t : K) : Op K d := { op with time := t }

/-- `lambda_volume`, twophaseccfv.hh:278-296. -/
def lambdaVolume (op : Op K d) (cell : Cell K d) : Calls (Fin 2) K :=
  [(liquid, -op.scaleL * cell.qL op.time * cell.volume), (gas, -op.scaleG * cell.qG op.time * cell.volume)]

/-- `alpha_skeleton`, twophaseccfv.hh:298-401; `xs`, `xn` are the pressures of the two cells. -/
def alphaSkeleton (twoNorm : (Fin d → K) → K) (op : Op K d) (face : Face K d) (inside outside : Cell K d) (xs xn : Fin 2 → K) :
    Calls (Fin 2 ⊕ Fin 2) K :=
  let distance := twoNorm (outside.center - inside.center)
  let gn := op.gravity ⬝ᵥ face.normal
  let wL := (xs liquid - xn liquid) / distance + aavg (inside.rhoL (xs liquid)) (outside.rhoL (xn liquid)) * gn
  let nuL := aavg (inside.nuL (xs liquid)) (outside.nuL (xn liquid))
  let sLUpwind := if wL ≥ 0 then inside.sL (xs gas - xs liquid) else outside.sL (xn gas - xn liquid)
  let sGUpwind := 1 - sLUpwind
  let lambdaLIn := inside.krL sLUpwind / inside.muL (xs liquid)
  let lambdaLOut := outside.krL sLUpwind / outside.muL (xn liquid)
  let sigmaL := havg (lambdaLIn * inside.kAbs) (lambdaLOut * outside.kAbs)
  let wG := (xs gas - xn gas) / distance + aavg (inside.rhoG (xs gas)) (outside.rhoG (xn gas)) * gn
  let nuG := aavg (inside.nuG (xs gas)) (outside.nuG (xn gas))
  let sGUpwind := if wL * wG ≤ 0 then
      1 - (if wG ≥ 0 then inside.sL (xs gas - xs liquid) else outside.sL (xn gas - xn liquid))
    else sGUpwind
  let lambdaGIn := inside.krG sGUpwind / inside.muG (xs gas)
  let lambdaGOut := outside.krG sGUpwind / outside.muG (xn gas)
  let sigmaG := havg (lambdaGIn * inside.kAbs) (lambdaGOut * outside.kAbs)
  [(.inl liquid, op.scaleL * nuL * sigmaL * wL * face.volume), (.inr liquid, -op.scaleL * nuL * sigmaL * wL * face.volume),
    (.inl gas, op.scaleG * nuG * sigmaG * wG * face.volume), (.inr gas, -op.scaleG * nuG * sigmaG * wG * face.volume)]

/-- `alpha_boundary`, twophaseccfv.hh:405-471. -/
def alphaBoundary (twoNorm : (Fin d → K) → K) (op : Op K d) (face : Face K d) (inside : Cell K d) (xs : Fin 2 → K) :
    Calls (Fin 2) K :=
  if face.bcL op.time ≠ 1 ∧ face.bcG op.time ≠ 1 then [] else
    let distance := twoNorm (face.center - inside.center)
    let gn := op.gravity ⬝ᵥ face.normal
    (if face.bcL op.time = 1 then
      let wL := (xs liquid - face.gL op.time) / distance + inside.rhoL (xs liquid) * gn
      let sL := inside.sL (xs gas - xs liquid)
      let sigmaL := inside.krL sL / inside.muL (xs liquid) * inside.kAbs
      let nuL := inside.nuL (xs liquid)
      [(liquid, op.scaleL * nuL * sigmaL * wL * face.volume)]
    else []) ++
    (if face.bcG op.time = 1 then
      let wG := (xs gas - face.gG op.time) / distance + inside.rhoG (xs gas) * gn
      let sL := inside.sL (xs gas - xs liquid)
      let sG := 1 - sL
      let sigmaG := inside.krG sG / inside.muG (xs gas) * inside.kAbs
      let nuG := inside.nuG (xs gas)
      [(gas, op.scaleL * nuG * sigmaG * wG * face.volume)]
    else [])

/-- `lambda_boundary`, twophaseccfv.hh:474-503. -/
def lambdaBoundary (op : Op K d) (face : Face K d) : Calls (Fin 2) K :=
  if face.bcL op.time ≠ 0 ∧ face.bcG op.time ≠ 0 then [] else
    (if face.bcL op.time = 0 then [(liquid, op.scaleL * face.jL op.time * face.volume)] else []) ++
    (if face.bcG op.time = 0 then [(gas, op.scaleG * face.jG op.time * face.volume)] else [])

/-- `alpha_volume` of the temporal operator, twophaseccfv.hh:569-592. -/
def temporalAlphaVolume (op : Op K d) (cell : Cell K d) (x : Fin 2 → K) : Calls (Fin 2) K :=
  let sL := cell.sL (x gas - x liquid)
  [(liquid, op.scaleL * cell.phi * sL * cell.nuL (x liquid) * cell.volume),
    (gas, op.scaleG * cell.phi * (1 - sL) * cell.nuG (x gas) * cell.volume)]

/-- `TwoPhaseParameterInterface`, twophaseccfv.hh:67-236: the parameters of a cell as they are seen through the interface, which
forwards each method to the implementation. -/
def interface (imp : Cell K d) : Cell K d :=
  { volume := imp.volume, center := imp.center, phi := imp.phi, kAbs := imp.kAbs, sL := imp.sL, krL := imp.krL, krG := imp.krG,
    muL := imp.muL, muG := imp.muL, nuL := imp.nuL, nuG := imp.nuG, rhoL := imp.rhoL, rhoG := imp.rhoG, qL := imp.qL,
    qG := imp.qG }

/-- An intersection of a cell, with the neighbour and its pressures. Used for `normalVelocityL`, twophaseccfv.hh:682-777. -/
structure Intersection (K : Type) (d : Nat) where
  index : Fin (2 * d)
  face : Face K d
  boundary : Bool
  outside : Option (Cell K d × (Fin 2 → K))

/-- The normal velocity in `V_l::evaluate`, twophaseccfv.hh:682-777. `*(intersection.outside())` is read as the outside cell. -/
def normalVelocityL (twoNorm : (Fin d → K) → K) (gravity : Fin d → K) (time : K) (cell : Cell K d) (xs : Fin 2 → K)
    (is : Intersection K d) : K :=
  let vn : K := 0
  let vn := match is.outside with
    | some (out, xn) =>
      let distance := twoNorm (out.center - cell.center)
      let gn := gravity ⬝ᵥ is.face.normal
      let nuOut := out.nuL (xn gas)
      let wL := (xs liquid - xn liquid) / distance + aavg (cell.rhoL (xs liquid)) (out.rhoL (xn liquid)) * gn
      let sLUpwind := if wL ≥ 0 then cell.sL (xs gas - xs liquid) else out.sL (xn gas - xn liquid)
      let lambdaIn := cell.krL sLUpwind / cell.muL (xs liquid)
      let lambdaOut := out.krL sLUpwind / out.muL (xn liquid)
      let sigmaL := havg (lambdaIn * cell.kAbs) (lambdaOut * out.kAbs)
      aavg (cell.nuL (xs liquid)) nuOut * sigmaL * wL
    | none => vn
  if is.boundary then
    let distance := twoNorm (is.face.center - cell.center)
    if is.face.bcL time = 1 then
      let gn := gravity ⬝ᵥ is.face.normal
      let wL := (xs liquid - is.face.gL time) / distance + cell.rhoL (xs liquid) * gn
      let sigmaL := cell.krL (cell.sL (xs gas - xs liquid)) / cell.muL (xs liquid) * cell.kAbs
      cell.nuL (xs liquid) * sigmaL * wL
    else if is.face.bcL time = 0 then is.face.jL time else vn
  else vn

/-- The normal velocity in `V_g::evaluate`, twophaseccfv.hh:917-1014. In line 956 the density of the outside is evaluated in the
inside element. -/
def normalVelocityG (twoNorm : (Fin d → K) → K) (gravity : Fin d → K) (time : K) (cell : Cell K d) (xs : Fin 2 → K)
    (is : Intersection K d) : K :=
  let vn : K := 0
  let vn := match is.outside with
    | some (out, xn) =>
      let distance := twoNorm (out.center - cell.center)
      let gn := gravity ⬝ᵥ is.face.normal
      let rhoOut := cell.rhoG (xn gas)
      let wG := (xs gas - xn gas) / distance + aavg (cell.rhoG (xs gas)) rhoOut * gn
      let sLUpwind := if wG ≥ 0 then cell.sL (xs gas - xs liquid) else out.sL (xn gas - xn liquid)
      let sGUpwind := 1 - sLUpwind
      let lambdaIn := cell.krG sGUpwind / cell.muG (xs gas)
      let lambdaOut := out.krG sGUpwind / out.muG (xn gas)
      let sigmaG := havg (lambdaIn * cell.kAbs) (lambdaOut * out.kAbs)
      aavg (cell.nuG (xs gas)) (out.nuG (xn gas)) * sigmaG * wG
    | none => vn
  if is.boundary then
    let distance := twoNorm (is.face.center - cell.center)
    if is.face.bcG time = 1 then
      let gn := gravity ⬝ᵥ is.face.normal
      let wG := (xs gas - is.face.gG time) / distance + cell.rhoG (xs gas) * gn
      let sG := 1 - cell.sL (xs gas - xs liquid)
      let sigmaG := cell.krG sG / cell.muG (xs gas) * cell.kAbs
      cell.nuG (xs gas) * sigmaG * wG
    else if is.face.bcG time = 0 then is.face.jG time else vn
  else vn

/-- The rest of `evaluate`, twophaseccfv.hh:673-677, 779-804 and 908-912, 1016-1041: the coefficients, `vn` gives the normal
velocities, and the Piola transformation. `invert` is `FieldMatrix::invert`; coefficients of faces without intersection are
not initialised, here they are zero. -/
def velocity (invert : Matrix (Fin d) (Fin d) K → Matrix (Fin d) (Fin d) K) (rt0 : P → Fin (2 * d) → Fin d → K)
    (jacobianInverseTransposed : P → Matrix (Fin d) (Fin d) K) (vn : Intersection K d → K) (iss : List (Intersection K d)) (x : P) :
    Fin d → K :=
  let B := jacobianInverseTransposed x
  let determinant := B.det
  let coeff : Fin (2 * d) → K := iss.foldl (fun c is =>
    let vstar := vn is • is.face.normal
    let vstarhat := determinant • (Bᵀ *ᵥ vstar)
    Function.update c is.index (vstarhat ⬝ᵥ Darcy.normalHat is.index)) 0
  let yhat := ∑ i, coeff i • rt0 x i
  determinant⁻¹ • ((invert B)ᵀ *ᵥ yhat)

end Verif.LocalOp.TwoPhase
