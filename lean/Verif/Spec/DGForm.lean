import Verif.Model.ConvectionDiffusion
import Verif.Spec.LocalOperator
/-
The weighted interior penalty method for the convection-diffusion equation, written down as a bilinear form of finite
element functions. Independent of the loops of the operator.
-/
namespace Verif.LocalOp.Spec

open Matrix

variable {K P Q : Type} [Field K] [LinearOrder K] {d n : Nat}

/-- The value and the gradient of the finite element function with coefficients `x`. -/
def value (lfs : Basis K P d n) (x : Fin n → K) (p : P) : K := ∑ i, x i * lfs.phi p i

def gradient (geo : CellGeo K P d) (lfs : Basis K P d n) (x : Fin n → K) (p : P) : Fin d → K :=
  ∑ i, x i • (geo.jacobianInverseTransposed p *ᵥ lfs.js p i)

/-- Numerical integration over a cell and over a face. -/
def integrate (geo : CellGeo K P d) (order : Int) (g : P → K) : K :=
  ((geo.quadratureRule order).map fun q => g q.1 * (q.2 * geo.integrationElement q.1)).sum

def integrateFace (geo : FaceGeo K P Q d) (order : Int) (g : Q → K) : K :=
  ((geo.quadratureRule order).map fun q => g q.1 * (q.2 * geo.integrationElement q.1)).sum

/-- `A` at a point of a cell. -/
def tensor (geo : CellGeo K P d) (par : CellParam K P d) (p : P) : Matrix (Fin d) (Fin d) K :=
  if par.permeabilityIsConstantPerCell then par.A geo.center else par.A p

/-- The volume terms: `∫ A∇u·∇v - u b·∇v + c u v`. -/
def volumeForm (geo : CellGeo K P d) (par : CellParam K P d) (lfs : Basis K P d n) (order : Int) (x y : Fin n → K) : K :=
  integrate geo order fun p =>
    (tensor geo par p *ᵥ gradient geo lfs x p) ⬝ᵥ gradient geo lfs y p
      - value lfs x p * (par.b p ⬝ᵥ gradient geo lfs y p) + par.c p * value lfs x p * value lfs y p

/-- Diffusion tensors and normal used at a point of a face: at the centres if the tensor is constant on cells. -/
def faceNormal (geo : FaceGeo K P Q d) (parIn : CellParam K P d) (q : Q) : Fin d → K :=
  if parIn.permeabilityIsConstantPerCell then geo.centerUnitOuterNormal else geo.unitOuterNormal q

/-- `A n` on the two sides of a face. -/
def conormalS (geo : FaceGeo K P Q d) (geoIn : CellGeo K P d) (parIn : CellParam K P d) (q : Q) : Fin d → K :=
  tensor geoIn parIn (geo.inInside q) *ᵥ faceNormal geo parIn q

def conormalN (geo : FaceGeo K P Q d) (geoOut : CellGeo K P d) (parIn parOut : CellParam K P d) (q : Q) : Fin d → K :=
  (if parIn.permeabilityIsConstantPerCell then parOut.A geoOut.center else parOut.A (geo.inOutside q)) *ᵥ faceNormal geo parIn q

/-- The weights of the two sides: `δ_n/(δ_s+δ_n)` and `δ_s/(δ_s+δ_n)` with `δ = n·A n`, or one half each. (The code adds 1e-20 to
the denominator.) -/
def weightS (on : Bool) (dS dN : K) : K := if on then dN / (dS + dN + 1 / 10 ^ 20) else 1 / 2
def weightN (on : Bool) (dS dN : K) : K := if on then dS / (dS + dN + 1 / 10 ^ 20) else 1 / 2

/-- The penalty: `α/h · (harmonic mean of δ_s and δ_n) · p(p+d-1)`. -/
def penalty (on : Bool) (alpha h dS dN : K) (p d : Nat) : K :=
  alpha / h * (if on then 2 * dS * dN / (dS + dN + 1 / 10 ^ 20) else 1) * ((p * (p + d - 1) : Nat) : K)

/-- The sign of the symmetrisation term: nonsymmetric, incomplete and symmetric interior penalty method. -/
def sign : DG.Method → K
  | .NIPG => 1
  | .IIPG => 0
  | .SIPG => -1

/-- The terms on a face between two cells:
`∫ u↑ (b·n) [v] - {A∇u·n} [v] + θ [u] {A∇v·n} + γ [u] [v]`, where `[u] = u_s - u_n`, `{·}` is the weighted mean and `u↑` the value
from the upwind side. -/
def skeletonForm {ns nn : Nat} (op : DG.Op K) (geo : FaceGeo K P Q d) (geoIn geoOut : CellGeo K P d)
    (parIn parOut : CellParam K P d) (lfsS : Basis K P d ns) (lfsN : Basis K P d nn) (order : Int)
    (x y : Fin ns ⊕ Fin nn → K) : K :=
  integrateFace geo order fun q =>
    let uS := value lfsS (fun i => x (.inl i)) (geo.inInside q)
    let uN := value lfsN (fun i => x (.inr i)) (geo.inOutside q)
    let vS := value lfsS (fun i => y (.inl i)) (geo.inInside q)
    let vN := value lfsN (fun i => y (.inr i)) (geo.inOutside q)
    let duS := gradient geoIn lfsS (fun i => x (.inl i)) (geo.inInside q)
    let duN := gradient geoOut lfsN (fun i => x (.inr i)) (geo.inOutside q)
    let dvS := gradient geoIn lfsS (fun i => y (.inl i)) (geo.inInside q)
    let dvN := gradient geoOut lfsN (fun i => y (.inr i)) (geo.inOutside q)
    let AnS := conormalS geo geoIn parIn q
    let AnN := conormalN geo geoOut parIn parOut q
    let n := faceNormal geo parIn q
    let wS := weightS op.weightsOn (AnS ⬝ᵥ n) (AnN ⬝ᵥ n)
    let wN := weightN op.weightsOn (AnS ⬝ᵥ n) (AnN ⬝ᵥ n)
    let γ := penalty op.weightsOn op.alpha (min geoIn.volume geoOut.volume / geo.volume) (AnS ⬝ᵥ n) (AnN ⬝ᵥ n)
      (max lfsS.order lfsN.order) d
    let bn := parIn.b (geo.inInside q) ⬝ᵥ geo.unitOuterNormal q
    let θ : K := sign op.method
    (if bn ≥ 0 then uS else uN) * bn * (vS - vN) - (wS * (AnS ⬝ᵥ duS) + wN * (AnN ⬝ᵥ duN)) * (vS - vN)
      + θ * (uS - uN) * (wS * (AnS ⬝ᵥ dvS) + wN * (AnN ⬝ᵥ dvN)) + γ * (uS - uN) * (vS - vN)

/-- The terms on a face of the boundary, at a point: for a Dirichlet condition with value `g`
`(u or g, from upwind) (b·n) v - A∇u·n v + θ (u-g) A∇v·n + γ (u-g) v`, for outflow `(u b·n + o) v`, for Neumann `j v`. -/
def boundaryForm (op : DG.Op K) (geo : FaceGeo K P Q d) (geoIn : CellGeo K P d) (par : CellParam K P d) (fpar : FaceParam K Q)
    (lfs : Basis K P d n) (order : Int) (x y : Fin n → K) : K :=
  integrateFace geo order fun q =>
    let u := value lfs x (geo.inInside q)
    let v := value lfs y (geo.inInside q)
    let du := gradient geoIn lfs x (geo.inInside q)
    let dv := gradient geoIn lfs y (geo.inInside q)
    let An := conormalS geo geoIn par q
    let g := par.g (geo.inInside q)
    let γ := op.alpha / (geoIn.volume / geo.volume) * (if op.weightsOn then An ⬝ᵥ faceNormal geo par q else 1) *
      ((lfs.order * (lfs.order + d - 1) : Nat) : K)
    let bn := par.b (geo.inInside q) ⬝ᵥ geo.unitOuterNormal q
    let θ : K := sign op.method
    match fpar.bctype q with
    | .dirichlet => (if bn ≥ 0 then u else g) * bn * v - (An ⬝ᵥ du) * v + θ * (u - g) * (An ⬝ᵥ dv) + γ * (u - g) * v
    | .outflow => (u * bn + fpar.o q) * v
    | .neumann => fpar.j q * v
    | .none => 0

/-- The shape functions sum up to one (and their derivatives to zero): constants are in the space. -/
def HasConstants (lfs : Basis K P d n) : Prop := ∀ p, ∑ i, lfs.phi p i = 1 ∧ ∑ i, lfs.js p i = 0

/-- The flux from the inside to the outside through a face, as the method computes it:
`∫ u↑ (b·n) - {A∇u·n} + γ [u]`. -/
def numericalFlux {ns nn : Nat} (op : DG.Op K) (geo : FaceGeo K P Q d) (geoIn geoOut : CellGeo K P d)
    (parIn parOut : CellParam K P d) (lfsS : Basis K P d ns) (lfsN : Basis K P d nn) (order : Int)
    (x : Fin ns ⊕ Fin nn → K) : K :=
  integrateFace geo order fun q =>
    let uS := value lfsS (fun i => x (.inl i)) (geo.inInside q)
    let uN := value lfsN (fun i => x (.inr i)) (geo.inOutside q)
    let duS := gradient geoIn lfsS (fun i => x (.inl i)) (geo.inInside q)
    let duN := gradient geoOut lfsN (fun i => x (.inr i)) (geo.inOutside q)
    let AnS := conormalS geo geoIn parIn q
    let AnN := conormalN geo geoOut parIn parOut q
    let n := faceNormal geo parIn q
    let bn := parIn.b (geo.inInside q) ⬝ᵥ geo.unitOuterNormal q
    (if bn ≥ 0 then uS else uN) * bn
      - (weightS op.weightsOn (AnS ⬝ᵥ n) (AnN ⬝ᵥ n) * (AnS ⬝ᵥ duS) + weightN op.weightsOn (AnS ⬝ᵥ n) (AnN ⬝ᵥ n) * (AnN ⬝ᵥ duN))
      + penalty op.weightsOn op.alpha (min geoIn.volume geoOut.volume / geo.volume) (AnS ⬝ᵥ n) (AnN ⬝ᵥ n)
          (max lfsS.order lfsN.order) d * (uS - uN)

/-- The velocity has no normal component at the quadrature points of a face, or vanishes at those of a cell. -/
def NoNormalVelocity (geo : FaceGeo K P Q d) (par : CellParam K P d) (order : Int) : Prop :=
  ∀ q ∈ geo.quadratureRule order, par.b (geo.inInside q.1) ⬝ᵥ geo.unitOuterNormal q.1 = 0

def NoVelocity (geo : CellGeo K P d) (par : CellParam K P d) (order : Int) : Prop :=
  ∀ q ∈ geo.quadratureRule order, par.b q.1 = 0

/-- The quadrature has nonnegative weights. -/
def NonnegWeights (geo : CellGeo K P d) (order : Int) : Prop :=
  ∀ q ∈ geo.quadratureRule order, 0 ≤ q.2 * geo.integrationElement q.1

def NonnegFaceWeights (geo : FaceGeo K P Q d) (order : Int) : Prop :=
  ∀ q ∈ geo.quadratureRule order, 0 ≤ q.2 * geo.integrationElement q.1

end Verif.LocalOp.Spec
