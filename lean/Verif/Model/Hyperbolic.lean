import Verif.Model.LocalOperator
import Mathlib.LinearAlgebra.Matrix.Notation
import Mathlib.Algebra.Field.Defs
import Mathlib.Algebra.Order.Group.Unbundled.Abs
/-
Model of the discontinuous Galerkin operators for linear acoustics and for Maxwell's equations:
dune/pdelab/localoperator/linearacousticsdg.hh and maxwelldg.hh.

A degree of freedom of the power space is a pair of a component and a basis function of the (common) scalar space.
`FieldMatrix::solve`, `FieldMatrix::invert` and `sqrt` are parameters: they belong to dune-common and the standard library. The
cache has 20 entries and is indexed by the order of the basis; `none` is the access behind its end.
-/
namespace Verif.LocalOp.Hyperbolic

open Matrix

variable {K P Q : Type} [Field K] {d n ns nn m : Nat}

/-- `for (k<n) for (i<m) r.accumulate(lfsv.child(i),k,v(i,k))`, basis functions outside. Used for `faceCalls`, linearacousticsdg.hh:376-383. -/
def forBasis (v : Fin m → Fin n → K) : Calls (Fin m × Fin n) K :=
  (List.finRange n).flatMap fun k => (List.finRange m).map fun i => ((i, k), v i k)

/-- `for (i<m) for (k<n) r.accumulate(lfsv.child(i),k,v(i,k))`, components outside. Used for `lambdaVolume`, linearacousticsdg.hh:501-536. -/
def forComponents (v : Fin m → Fin n → K) : Calls (Fin m × Fin n) K :=
  (List.finRange m).flatMap fun i => (List.finRange n).map fun k => ((i, k), v i k)

/-- linearacousticsdg.hh:189, 596, maxwelldg.hh:343, 797  `cache(20)`: `cache[order]` is defined for orders less than 20.
(Stated for the whole method; with a quadrature rule without points the cache would not be accessed.) -/
def withCache {α : Type} (orders : List Nat) (r : α) : Option α := if orders.all (· < 20) then some r else none

/-- linearacousticsdg.hh:238-242, 359-367, 471-475, maxwelldg.hh:398-403, 547-557, 666-671  `u[k] += x(lfsv.child(k),j)*phi[j]`. -/
def evaluate (x : Fin m × Fin n → K) (phi : Fin n → K) (i : Fin m) : K := ∑ k, x (i, k) * phi k

/-- linearacousticsdg.hh:376-383, maxwelldg.hh:568-575  the contributions of a flux at a quadrature point of an inner
face. -/
def faceCalls (f : Fin m → K) (phiS : Fin ns → K) (phiN : Fin nn → K) (factor : K) :
    Calls ((Fin m × Fin ns) ⊕ (Fin m × Fin nn)) K :=
  ((forBasis fun i k => f i * phiS k * factor).map fun c => (.inl c.1, c.2)) ++
  ((forBasis fun i k => -f i * phiN k * factor).map fun c => (.inr c.1, c.2))

/-! ### Linear acoustics -/
namespace Acoustics

/-- linearacousticsdg.hh:105-110  the tangential vector `s` chosen in three dimensions. (The code compares the norm of `s` with
1e-5; the model compares the squares.) -/
def tangential [LinearOrder K] (n : Fin 3 → K) : Fin 3 → K :=
  let s : Fin 3 → K := ![n 1 - n 2, n 2 - n 0, n 0 - n 1]
  if s ⬝ᵥ s < (1 / 10 ^ 5) ^ 2 then ![n 1 + n 2, n 2 - n 0, -(n 0 + n 1)] else s

/-- linearacousticsdg.hh:43-48, 72-78, 102-121  `LinearAcousticsEigenvectors<dim>::eigenvectors_transposed` (in other dimensions
the class has no such member). -/
def eigenvectorsTransposed [LinearOrder K] : (d : Nat) → K → (Fin d → K) → Matrix (Fin (d + 1)) (Fin (d + 1)) K
  | 1, c, n => !![1, c * n 0; -1, c * n 0]
  | 2, c, n => !![0, -n 1, n 0; 1, c * n 0, c * n 1; -1, c * n 0, c * n 1]
  | 3, c, n =>
    let s := tangential n
    let t : Fin 3 → K := ![n 1 * s 2 - n 2 * s 1, n 2 * s 0 - n 0 * s 2, n 0 * s 1 - n 1 * s 0]
    !![0, s 0, s 1, s 2; 0, t 0, t 1, t 2; 1, c * n 0, c * n 1, c * n 2; -1, c * n 0, c * n 1, c * n 2]
  | _, _, _ => 0

/-- linearacousticsdg.hh:50-55, 80-86, 123-142  `LinearAcousticsEigenvectors<dim>::eigenvectors` (not used by the operator). -/
def eigenvectors [LinearOrder K] : (d : Nat) → K → (Fin d → K) → Matrix (Fin (d + 1)) (Fin (d + 1)) K
  | 1, c, n => !![1, -1; c * n 0, c * n 0]
  | 2, c, n => !![0, 1, -1; -n 1, c * n 0, c * n 0; n 0, c * n 1, c * n 1]
  | 3, c, n =>
    let s := tangential n
    let t : Fin 3 → K := ![n 1 * s 2 - n 2 * s 1, n 2 * s 0 - n 0 * s 2, n 0 * s 1 - n 1 * s 0]
    !![0, 0, 1, -1; s 0, t 0, c * n 0, c * n 0; s 1, t 1, c * n 1, c * n 1; s 2, t 2, c * n 2, c * n 2]
  | _, _, _ => 0

/-- `FieldMatrix::solve` for square matrices. Used for `aPlus`, linearacousticsdg.hh:315-327. -/
abbrev Solve (K : Type) := (k : Nat) → Matrix (Fin k) (Fin k) K → (Fin k → K) → Fin k → K

/-- linearacousticsdg.hh:315-327 (431-443)  `A_plus_s`. -/
def aPlus [LinearOrder K] (solve : Solve K) (c : K) (nF : Fin d → K) : Matrix (Fin (d + 1)) (Fin (d + 1)) K :=
  let RT := eigenvectorsTransposed d c nF
  let row : Fin (d + 1) := ⟨d - 1, by omega⟩
  let alpha := RT row
  let beta := solve _ RT (Pi.single row 1)
  Matrix.of fun i j => c * alpha i * beta j

/-- linearacousticsdg.hh:329-338 (445-454)  `A_minus_n`. -/
def aMinus [LinearOrder K] (solve : Solve K) (c : K) (nF : Fin d → K) : Matrix (Fin (d + 1)) (Fin (d + 1)) K :=
  let RT := eigenvectorsTransposed d c nF
  let row : Fin (d + 1) := Fin.last d
  let alpha := RT row
  let beta := solve _ RT (Pi.single row 1)
  Matrix.of fun i j => -c * alpha i * beta j

/-- linearacousticsdg.hh:369-373 (482-486)  the numerical flux. -/
def numericalFlux [LinearOrder K] (solve : Solve K) (cS cN : K) (nF : Fin d → K) (uS uN : Fin (d + 1) → K) :
    Fin (d + 1) → K :=
  aPlus solve cS nF *ᵥ uS + aMinus solve cN nF *ᵥ uN

/-- linearacousticsparameter.hh  the coefficients for one cell: the speed of sound and the right hand side.
Used for `alphaVolume`, linearacousticsdg.hh:193-268. -/
structure CellParam (K P : Type) (d : Nat) where
  c : P → K
  q : P → Fin (d + 1) → K

/-- linearacousticsdg.hh:193-268  `alpha_volume`. -/
def alphaVolume (overintegration : Int) (geo : CellGeo K P d) (par : CellParam K P d) (lfs : Basis K P d n)
    (x : Fin (d + 1) × Fin n → K) : Option (Calls (Fin (d + 1) × Fin n) K) :=
  let c2 := par.c geo.center * par.c geo.center
  let intorder := overintegration + 2 * lfs.order
  withCache [lfs.order] <| (geo.quadratureRule intorder).flatMap fun (ip, weight) =>
    let phi := lfs.phi ip
    let u := evaluate x phi
    let jac := geo.jacobianInverseTransposed ip
    let gradphi := fun i => jac *ᵥ lfs.js ip i
    let factor := weight * geo.integrationElement ip
    (List.finRange n).flatMap fun k =>
      ((List.finRange d).map fun j => ((0, k), -u j.succ * gradphi k j * factor)) ++
      ((List.finRange d).map fun j => ((j.succ, k), -c2 * u 0 * gradphi k j * factor))

/-- linearacousticsdg.hh:270-393  `alpha_skeleton`. -/
def alphaSkeleton [LinearOrder K] (solve : Solve K) (overintegration : Int) (geo : FaceGeo K P Q d)
    (geoIn geoOut : CellGeo K P d) (parIn parOut : CellParam K P d) (lfsS : Basis K P d ns) (lfsN : Basis K P d nn)
    (xS : Fin (d + 1) × Fin ns → K) (xN : Fin (d + 1) × Fin nn → K) :
    Option (Calls ((Fin (d + 1) × Fin ns) ⊕ (Fin (d + 1) × Fin nn)) K) :=
  let nF := geo.centerUnitOuterNormal
  let cS := parIn.c geoIn.center
  let cN := parOut.c geoOut.center
  let intorder := overintegration + 1 + 2 * max lfsS.order lfsN.order
  withCache [lfsS.order, lfsN.order] <| (geo.quadratureRule intorder).flatMap fun (ip, weight) =>
    let phiS := lfsS.phi (geo.inInside ip)
    let phiN := lfsN.phi (geo.inOutside ip)
    let uS := evaluate xS phiS
    let uN := evaluate xN phiN
    let f := numericalFlux solve cS cN nF uS uN
    let factor := weight * geo.integrationElement ip
    faceCalls f phiS phiN factor

/-- linearacousticsdg.hh:395-499  `alpha_boundary`; `g` is `param.g(intersection,position,u_s)`. -/
def alphaBoundary [LinearOrder K] (solve : Solve K) (overintegration : Int) (geo : FaceGeo K P Q d) (geoIn : CellGeo K P d)
    (par : CellParam K P d) (g : Q → (Fin (d + 1) → K) → Fin (d + 1) → K) (lfsS : Basis K P d ns)
    (xS : Fin (d + 1) × Fin ns → K) : Option (Calls (Fin (d + 1) × Fin ns) K) :=
  let nF := geo.centerUnitOuterNormal
  let cS := par.c geoIn.center
  let intorder := overintegration + 1 + 2 * lfsS.order
  withCache [lfsS.order] <| (geo.quadratureRule intorder).flatMap fun (ip, weight) =>
    let phiS := lfsS.phi (geo.inInside ip)
    let uS := evaluate xS phiS
    let uN := g ip uS
    let f := numericalFlux solve cS cS nF uS uN
    let factor := weight * geo.integrationElement ip
    forBasis fun i k => f i * phiS k * factor

/-- linearacousticsdg.hh:501-536  `lambda_volume`. -/
def lambdaVolume (overintegration : Int) (geo : CellGeo K P d) (par : CellParam K P d) (lfs : Basis K P d n) :
    Option (Calls (Fin (d + 1) × Fin n) K) :=
  let intorder := overintegration + 2 * lfs.order
  withCache [lfs.order] <| (geo.quadratureRule intorder).flatMap fun (ip, weight) =>
    let q := par.q ip
    let phi := lfs.phi ip
    let factor := weight * geo.integrationElement ip
    forComponents fun i k => -q i * phi k * factor

end Acoustics

/-! ### Maxwell's equations -/
namespace Maxwell

/-- maxwelldg.hh:80-92  the vectors `re` and `im`. -/
def reIm [LinearOrder K] (n : Fin 3 → K) : (Fin 3 → K) × (Fin 3 → K) :=
  let a := n 0
  let b := n 1
  let c := n 2
  if |c| < 1 / 2 then (![a * c, b * c, c * c - 1], ![-b, a, 0])
  else (![a * b, b * b - 1, b * c], ![c, 0, -a])

/-- maxwelldg.hh:76-128  `MaxwellEigenvectors<3>::eigenvectors`: columns for the eigenvalues s, s, -s, -s, 0, 0. -/
def eigenvectors [LinearOrder K] (sqrt : K → K) (eps mu : K) (n : Fin 3 → K) : Matrix (Fin 6) (Fin 6) K :=
  let re := (reIm n).1
  let im := (reIm n).2
  let R : Matrix (Fin 6) (Fin 6) K :=
    !![re 0, -im 0, im 0, re 0, n 0, 0;
       re 1, -im 1, im 1, re 1, n 1, 0;
       re 2, -im 2, im 2, re 2, n 2, 0;
       im 0, re 0, re 0, -im 0, 0, n 0;
       im 1, re 1, re 1, -im 1, 0, n 1;
       im 2, re 2, re 2, -im 2, 0, n 2]
  let weps := sqrt eps
  let wmu := sqrt mu
  Matrix.of fun i j => if i < 3 then R i j * weps else R i j * wmu

/-- `FieldMatrix::invert`. Used for `aPlus`, maxwelldg.hh:504-513. -/
abbrev Invert (K : Type) := Matrix (Fin 6) (Fin 6) K → Matrix (Fin 6) (Fin 6) K

/-- maxwelldg.hh:504-513 (625-634)  `Aplus_s`. -/
def aPlus [LinearOrder K] (sqrt : K → K) (invert : Invert K) (eps mu : K) (nF : Fin 3 → K) : Matrix (Fin 6) (Fin 6) K :=
  let R := eigenvectors sqrt eps mu nF
  let D : Matrix (Fin 6) (Fin 6) K := Matrix.diagonal ![1 / sqrt (eps * mu), 1 / sqrt (eps * mu), 0, 0, 0, 0]
  R * D * invert R

/-- maxwelldg.hh:515-524 (636-645)  `Aminus_n`. -/
def aMinus [LinearOrder K] (sqrt : K → K) (invert : Invert K) (eps mu : K) (nF : Fin 3 → K) : Matrix (Fin 6) (Fin 6) K :=
  let R := eigenvectors sqrt eps mu nF
  let D : Matrix (Fin 6) (Fin 6) K := Matrix.diagonal ![0, 0, -1 / sqrt (eps * mu), -1 / sqrt (eps * mu), 0, 0]
  R * D * invert R

/-- maxwelldg.hh:559-563 (678-682)  the numerical flux. -/
def numericalFlux [LinearOrder K] (sqrt : K → K) (invert : Invert K) (epsS muS epsN muN : K) (nF : Fin 3 → K)
    (uS uN : Fin 6 → K) : Fin 6 → K :=
  aPlus sqrt invert epsS muS nF *ᵥ uS + aMinus sqrt invert epsN muN nF *ᵥ uN

/-- maxwelldg.hh:418-426  the flux `F` in the volume. -/
def flux (muinv epsinv : K) (u : Fin 6 → K) : Matrix (Fin 6) (Fin 3) K :=
  !![0, -muinv * u 5, muinv * u 4;
     muinv * u 5, 0, -muinv * u 3;
     -muinv * u 4, muinv * u 3, 0;
     0, epsinv * u 2, -epsinv * u 1;
     -epsinv * u 2, 0, epsinv * u 0;
     epsinv * u 1, -epsinv * u 0, 0]

/-- maxwellparameter.hh  the coefficients for one cell. Used for `alphaVolume`, maxwelldg.hh:347-446. -/
structure CellParam (K P : Type) where
  eps : P → K
  mu : P → K
  sigma : P → K
  j : P → Fin 6 → K

/-- maxwelldg.hh:347-446  `alpha_volume`. -/
def alphaVolume (overintegration : Int) (geo : CellGeo K P 3) (par : CellParam K P) (lfs : Basis K P 3 n)
    (x : Fin 6 × Fin n → K) : Option (Calls (Fin 6 × Fin n) K) :=
  let mu := par.mu geo.center
  let eps := par.eps geo.center
  let sigma := par.sigma geo.center
  let muinv := 1 / mu
  let epsinv := 1 / eps
  let intorder := overintegration + 2 * lfs.order
  withCache [lfs.order] <| (geo.quadratureRule intorder).flatMap fun (ip, weight) =>
    let phi := lfs.phi ip
    let u := evaluate x phi
    let jac := geo.jacobianInverseTransposed ip
    let gradphi := fun i => jac *ᵥ lfs.js ip i
    let factor := weight * geo.integrationElement ip
    let F := flux muinv epsinv u
    ((List.finRange 6).flatMap fun i => (List.finRange n).flatMap fun k => (List.finRange 3).map fun j =>
      ((i, k), -F i j * gradphi k j * factor)) ++
    ((List.finRange 3).flatMap fun i => (List.finRange n).map fun k =>
      ((Fin.castLE (by decide) i, k), (sigma / eps) * u (Fin.castLE (by decide) i) * phi k * factor))

/-- maxwelldg.hh:448-584  `alpha_skeleton`. -/
def alphaSkeleton [LinearOrder K] (sqrt : K → K) (invert : Invert K) (overintegration : Int) (geo : FaceGeo K P Q 3)
    (geoIn geoOut : CellGeo K P 3) (parIn parOut : CellParam K P) (lfsS : Basis K P 3 ns) (lfsN : Basis K P 3 nn)
    (xS : Fin 6 × Fin ns → K) (xN : Fin 6 × Fin nn → K) : Option (Calls ((Fin 6 × Fin ns) ⊕ (Fin 6 × Fin nn)) K) :=
  let muS := parIn.mu geoIn.center
  let muN := parOut.mu geoOut.center
  let epsS := parIn.eps geoIn.center
  let epsN := parOut.eps geoOut.center
  let nF := geo.centerUnitOuterNormal
  let intorder := overintegration + 1 + 2 * max lfsS.order lfsN.order
  withCache [lfsS.order, lfsN.order] <| (geo.quadratureRule intorder).flatMap fun (ip, weight) =>
    let phiS := lfsS.phi (geo.inInside ip)
    let phiN := lfsN.phi (geo.inOutside ip)
    let uS := evaluate xS phiS
    let uN := evaluate xN phiN
    let f := numericalFlux sqrt invert epsS muS epsN muN nF uS uN
    let factor := weight * geo.integrationElement ip
    faceCalls f phiS phiN factor

/-- maxwelldg.hh:586-695  `alpha_boundary`. -/
def alphaBoundary [LinearOrder K] (sqrt : K → K) (invert : Invert K) (overintegration : Int) (geo : FaceGeo K P Q 3)
    (geoIn : CellGeo K P 3) (par : CellParam K P) (g : Q → (Fin 6 → K) → Fin 6 → K) (lfsS : Basis K P 3 ns)
    (xS : Fin 6 × Fin ns → K) : Option (Calls (Fin 6 × Fin ns) K) :=
  let muS := par.mu geoIn.center
  let epsS := par.eps geoIn.center
  let nF := geo.centerUnitOuterNormal
  let intorder := overintegration + 1 + 2 * lfsS.order
  withCache [lfsS.order] <| (geo.quadratureRule intorder).flatMap fun (ip, weight) =>
    let phiS := lfsS.phi (geo.inInside ip)
    let uS := evaluate xS phiS
    let uN := g ip uS
    let f := numericalFlux sqrt invert epsS muS epsS muS nF uS uN
    let factor := weight * geo.integrationElement ip
    forBasis fun i k => f i * phiS k * factor

/-- maxwelldg.hh:697-732  `lambda_volume`. -/
def lambdaVolume (overintegration : Int) (geo : CellGeo K P 3) (par : CellParam K P) (lfs : Basis K P 3 n) :
    Option (Calls (Fin 6 × Fin n) K) :=
  let intorder := overintegration + 2 * lfs.order
  withCache [lfs.order] <| (geo.quadratureRule intorder).flatMap fun (ip, weight) =>
    let j := par.j ip
    let phi := lfs.phi ip
    let factor := weight * geo.integrationElement ip
    forComponents fun i k => -j i * phi k * factor

end Maxwell

/-! ### The temporal operators

linearacousticsdg.hh:582-697 and maxwelldg.hh:783-897 are the same for `m` = dim+1 and `m` = 2*dim components. -/
namespace Temporal

/-- linearacousticsdg.hh:599-614, maxwelldg.hh:800-813  `pattern_volume`: the links `((component, i), (component, j))`. -/
def patternVolume (m nu nv : Nat) : List ((Fin m × Fin nv) × (Fin m × Fin nu)) :=
  (List.finRange m).flatMap fun k => (List.finRange nv).flatMap fun i => (List.finRange nu).map fun j => ((k, i), (k, j))

/-- linearacousticsdg.hh:616-656, maxwelldg.hh:815-856  `alpha_volume`. -/
def alphaVolume (overintegration : Int) (geo : CellGeo K P d) (lfs : Basis K P d n) (x : Fin m × Fin n → K) :
    Option (Calls (Fin m × Fin n) K) :=
  let intorder := overintegration + 2 * lfs.order
  withCache [lfs.order] <| (geo.quadratureRule intorder).flatMap fun (ip, weight) =>
    let phi := lfs.phi ip
    let u := evaluate x phi
    let factor := weight * geo.integrationElement ip
    forComponents fun i k => u i * phi k * factor

/-- linearacousticsdg.hh:658-689, maxwelldg.hh:858-889  `jacobian_volume`. -/
def jacobianVolume (m : Nat) (overintegration : Int) (geo : CellGeo K P d) (lfs : Basis K P d n) :
    Option (Calls ((Fin m × Fin n) × (Fin m × Fin n)) K) :=
  let intorder := overintegration + 2 * lfs.order
  withCache [lfs.order] <| (geo.quadratureRule intorder).flatMap fun (ip, weight) =>
    let phi := lfs.phi ip
    let factor := weight * geo.integrationElement ip
    (List.finRange m).flatMap fun k => (List.finRange n).flatMap fun i => (List.finRange n).map fun j =>
      (((k, i), (k, j)), phi j * phi i * factor)

end Temporal

/-! ### Time of the coefficients -/

/-- Two clocks: the member `t` of `InstationaryLocalOperatorDefaultMethods` (idefault.hh:104-116), returned by `getTime()`, and
the time of the parameter object that the operator evaluates. -/
structure Clocks (T : Type) where
  operator : T
  parameter : T

/-- The local operators that hold a parameter object and inherit from `InstationaryLocalOperatorDefaultMethods`.
Used for `LocalOperator.setTime`, convectiondiffusionccfv.hh:485-488. -/
inductive LocalOperator where
  | convectionDiffusionCCFV | convectionDiffusionFEM | convectionDiffusionDG | nonlinearConvectionDiffusionFEM
  | dgNavierStokes | dgNavierStokesVelVecFEM | taylorHoodNavierStokes | linearAcousticsDG | maxwellDG
deriving DecidableEq, Repr

/-- `setTime(t)`: convectiondiffusionccfv.hh:485-488, convectiondiffusionfem.hh:329-332, convectiondiffusiondg.hh:1078-1082,
nonlinearconvectiondiffusionfem.hh:395-398, dgnavierstokes.hh:86-90, dgnavierstokesvelvecfem.hh:154-158,
taylorhoodnavierstokes.hh:84-88, linearacousticsdg.hh:539-541, maxwelldg.hh:735-737. -/
def LocalOperator.setTime {T : Type} (op : LocalOperator) (t : T) (s : Clocks T) : Clocks T :=
  match op with
  | .convectionDiffusionCCFV => { s with parameter := t }
  | .convectionDiffusionFEM => { s with parameter := t }
  | .convectionDiffusionDG => { operator := t, parameter := t }
  | .nonlinearConvectionDiffusionFEM => { s with parameter := t }
  | .dgNavierStokes => { operator := t, parameter := t }
  | .dgNavierStokesVelVecFEM => { operator := t, parameter := t }
  | .taylorHoodNavierStokes => { operator := t, parameter := t }
  | .linearAcousticsDG => s
  | .maxwellDG => s

end Verif.LocalOp.Hyperbolic
