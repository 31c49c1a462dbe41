import Verif.Model.DGMesh
import Verif.Spec.DGForm
/-
Stability of interior penalty methods on a mesh: energies, the discrete trace inequality and the conditions on the data.
-/
namespace Verif.LocalOp.Spec

open Matrix DG

variable {K P Q : Type} [Field K] [LinearOrder K] {d N : Nat} {n : Fin N → Nat}

/-- Coefficients of a function on the mesh, and those on a cell. -/
abbrev MeshVec (K : Type) {N : Nat} (n : Fin N → Nat) := (c : Fin N) × Fin (n c) → K

def onCell (x : MeshVec K n) (c : Fin N) : Fin (n c) → K := fun i => x ⟨c, i⟩

/-- `A∇u·∇u` at a point of a cell. -/
def energyDensity (mesh : Mesh K P Q d n) (c : Fin N) (y : Fin (n c) → K) (p : P) : K :=
  (tensor (mesh.geo c) (mesh.par c) p *ᵥ gradient (mesh.geo c) (mesh.lfs c) y p) ⬝ᵥ gradient (mesh.geo c) (mesh.lfs c) y p

/-- `∫ A∇u·∇u` over a cell. -/
def cellEnergy (op : Op K) (mesh : Mesh K P Q d n) (c : Fin N) (y : Fin (n c) → K) : K :=
  integrate (mesh.geo c) (op.intorder (mesh.lfs c).order) (energyDensity mesh c y)

/-- `∫ A∇u·∇u` and `∫ c u²` over all cells. -/
def diffusionEnergy (op : Op K) (mesh : Mesh K P Q d n) (x : MeshVec K n) : K := ∑ c, cellEnergy op mesh c (onCell x c)

def reactionEnergy (op : Op K) (mesh : Mesh K P Q d n) (x : MeshVec K n) : K :=
  ∑ c, integrate (mesh.geo c) (op.intorder (mesh.lfs c).order) fun p => (mesh.par c).c p * value (mesh.lfs c) (onCell x c) p ^ 2

/-- The order of the quadrature on an inner face, and the polynomial degree there. -/
def faceDegree (mesh : Mesh K P Q d n) (F : Face K P Q d N) : Nat := max (mesh.lfs F.inside).order (mesh.lfs F.outside).order

/-- The jump of a function at a point of an inner face. -/
def jump (mesh : Mesh K P Q d n) (F : Face K P Q d N) (x : MeshVec K n) (q : Q) : K :=
  value (mesh.lfs F.inside) (onCell x F.inside) (F.geo.inInside q) - value (mesh.lfs F.outside) (onCell x F.outside) (F.geo.inOutside q)

/-- The penalties for the parameter one, of the jumps and of the values on the Dirichlet boundary. -/
def jumpEnergy (op : Op K) (mesh : Mesh K P Q d n) (x : MeshVec K n) : K :=
  (mesh.inner.map fun F => integrateFace F.geo (op.intorder (faceDegree mesh F)) fun q =>
    penalty op.weightsOn 1 (min (mesh.geo F.inside).volume (mesh.geo F.outside).volume / F.geo.volume)
      (conormalS F.geo (mesh.geo F.inside) (mesh.par F.inside) q ⬝ᵥ faceNormal F.geo (mesh.par F.inside) q)
      (conormalN F.geo (mesh.geo F.outside) (mesh.par F.inside) (mesh.par F.outside) q ⬝ᵥ faceNormal F.geo (mesh.par F.inside) q)
      (faceDegree mesh F) d * jump mesh F x q ^ 2).sum +
  (mesh.boundary.map fun F => integrateFace F.geo (op.intorder (mesh.lfs F.inside).order) fun q =>
    if F.par.bctype q = .dirichlet then
      F.geo.volume / (mesh.geo F.inside).volume *
        (conormalS F.geo (mesh.geo F.inside) (mesh.par F.inside) q ⬝ᵥ faceNormal F.geo (mesh.par F.inside) q) *
        (((mesh.lfs F.inside).order * ((mesh.lfs F.inside).order + d - 1) : Nat) : K) *
        value (mesh.lfs F.inside) (onCell x F.inside) (F.geo.inInside q) ^ 2
    else 0).sum

/-- The flow through a face. -/
def faceFlow (mesh : Mesh K P Q d n) (geo : FaceGeo K P Q d) (c : Fin N) (q : Q) : K :=
  (mesh.par c).b (geo.inInside q) ⬝ᵥ geo.unitOuterNormal q

/-- The discrete trace inequality for the degree `p` on a face of a cell: `∫_F A∇u·∇u ≤ κ p(p+d-1) |F|/|T| ∫_T A∇u·∇u`. On simplices it holds
with `κ = 1/d` (T. Warburton, J. Hesthaven, 2003, for gradients of degree `p-1`). -/
def TraceInequality (op : Op K) (mesh : Mesh K P Q d n) (κ : K) (geo : FaceGeo K P Q d) (order : Int) (c : Fin N) (point : Q → P) : Prop :=
  ∀ y : Fin (n c) → K, integrateFace geo order (fun q => energyDensity mesh c y (point q)) ≤
    κ * (((mesh.lfs c).order * ((mesh.lfs c).order + d - 1) : Nat) : K) * (geo.volume / (mesh.geo c).volume) * cellEnergy op mesh c y

/-- The number of faces of a cell. -/
def faces (mesh : Mesh K P Q d n) (c : Fin N) : Nat :=
  mesh.inner.countP (fun F => F.inside = c) + mesh.inner.countP (fun F => F.outside = c) + mesh.boundary.countP fun F => F.inside = c

/-- The mesh and the coefficients are as they should be: positive volumes and weights, polynomials of positive degree, symmetric and positive
semidefinite diffusion, no negative reaction; the trace inequality holds with the constant `κ`. Whether the diffusion is constant per cell is a
property of the parameter class. -/
structure Admissible (op : Op K) (mesh : Mesh K P Q d n) (κ : K) : Prop where
  dim : 0 < d
  flag : ∀ c c', (mesh.par c).permeabilityIsConstantPerCell = (mesh.par c').permeabilityIsConstantPerCell
  volume : ∀ c, 0 < (mesh.geo c).volume
  degree : ∀ c, 0 < (mesh.lfs c).order
  weights : ∀ c, NonnegWeights (mesh.geo c) (op.intorder (mesh.lfs c).order)
  symmetric : ∀ c p, ((mesh.par c).A p).transpose = (mesh.par c).A p
  diffusion : ∀ c p v, 0 ≤ ((mesh.par c).A p *ᵥ v) ⬝ᵥ v
  reaction : ∀ c p, 0 ≤ (mesh.par c).c p
  inner : ∀ F ∈ mesh.inner, 0 < F.geo.volume ∧ NonnegFaceWeights F.geo (op.intorder (faceDegree mesh F)) ∧
    TraceInequality op mesh κ F.geo (op.intorder (faceDegree mesh F)) F.inside F.geo.inInside ∧
    TraceInequality op mesh κ F.geo (op.intorder (faceDegree mesh F)) F.outside F.geo.inOutside
  boundary : ∀ F ∈ mesh.boundary, 0 < F.geo.volume ∧ NonnegFaceWeights F.geo (op.intorder (mesh.lfs F.inside).order) ∧
    TraceInequality op mesh κ F.geo (op.intorder (mesh.lfs F.inside).order) F.inside F.geo.inInside

/-- The flow is incompressible, as the quadrature sees it: `∫_T u b·∇u` summed over the cells is the sum of `∫ ½ b·n u²` over their boundaries. And
there is only outflow through outflow boundaries, none through Neumann boundaries and those without condition. -/
structure Incompressible (op : Op K) (mesh : Mesh K P Q d n) : Prop where
  divergence : ∀ x : MeshVec K n,
    ∑ c, integrate (mesh.geo c) (op.intorder (mesh.lfs c).order) (fun p =>
      value (mesh.lfs c) (onCell x c) p * ((mesh.par c).b p ⬝ᵥ gradient (mesh.geo c) (mesh.lfs c) (onCell x c) p)) =
    (mesh.inner.map fun F => integrateFace F.geo (op.intorder (faceDegree mesh F)) fun q => faceFlow mesh F.geo F.inside q / 2 *
      (value (mesh.lfs F.inside) (onCell x F.inside) (F.geo.inInside q) ^ 2 -
        value (mesh.lfs F.outside) (onCell x F.outside) (F.geo.inOutside q) ^ 2)).sum +
    (mesh.boundary.map fun F => integrateFace F.geo (op.intorder (mesh.lfs F.inside).order) fun q => faceFlow mesh F.geo F.inside q / 2 *
      value (mesh.lfs F.inside) (onCell x F.inside) (F.geo.inInside q) ^ 2).sum
  boundary : ∀ F ∈ mesh.boundary, ∀ q ∈ F.geo.quadratureRule (op.intorder (mesh.lfs F.inside).order),
    (F.par.bctype q.1 = .outflow → 0 ≤ faceFlow mesh F.geo F.inside q.1) ∧
    (F.par.bctype q.1 = .neumann ∨ F.par.bctype q.1 = .none → faceFlow mesh F.geo F.inside q.1 ≤ 0)

/-- How much of the cross terms of the method the penalty has to balance: nothing for the nonsymmetric method. -/
def crossTerms : Method → K
  | .NIPG => 0
  | .IIPG => 1 / 4
  | .SIPG => 1

end Verif.LocalOp.Spec
