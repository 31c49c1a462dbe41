import Verif.Model.DiscreteFunctions
import Mathlib.Analysis.Calculus.FDeriv.Basic
import Mathlib.Analysis.Calculus.InverseFunctionTheorem.FDeriv
import Mathlib.Topology.Algebra.Module.FiniteDimension
import Mathlib.LinearAlgebra.Matrix.ToLin
import Mathlib.Analysis.Normed.Module.FiniteDimension
/-
Vocabulary for the properties of discrete functions.
-/
namespace Verif.DiscreteFunctions.Spec

open Matrix Topology

variable {I X V J K : Type} [Field K] {d : Nat}

/-- The linear combination of the shape functions of a leaf at a point with the coefficients of the element in the vector. -/
def combination {W : Type} [AddCommGroup W] [Module K W] (x : I → K) (e : Element I X V J K d) (leaf : Leaf X V J) (phi : List W) : W :=
  ((List.range leaf.size).map fun i => x (e.containerIndex (leaf.localIndex i)) • phi.getD i 0).sum

/-- The leaves of the local function space number their degrees of freedom within the space and their bases have as many functions as
degrees of freedom. -/
structure Consistent (e : Element I X V J K d) : Prop where
  localIndex : ∀ leaf ∈ e.leaves, ∀ i < leaf.size, leaf.localIndex i < e.size
  function : ∀ leaf ∈ e.leaves, ∀ p, (leaf.function p).length = leaf.size
  jacobian : ∀ leaf ∈ e.leaves, ∀ p, (leaf.jacobian p).length = leaf.size

/-- The local function space is itself a leaf. -/
structure SingleLeaf (e : Element I X V J K d) (leaf : Leaf X V J) : Prop where
  leaves : e.leaves = [leaf]
  size : leaf.size = e.size
  localIndex : ∀ i, leaf.localIndex i = i

/-- Calls a function again and again: every call finds the buffer its predecessor left behind. -/
def calls {B C Y : Type} (f : B → C → Option (Y × B)) : B → List C → Option (List Y)
  | _, [] => some []
  | b, c :: cs => (f b c).bind fun r => (calls f r.2 cs).map fun ys => r.1 :: ys

/-! ### Derivatives -/

/-- The linear functional with the given coefficients, `v ↦ y · v`. -/
noncomputable def pairing (y : Fin d → ℝ) : (Fin d → ℝ) →L[ℝ] ℝ :=
  LinearMap.toContinuousLinearMap (Fintype.linearCombination ℝ y)

/-- The linear map with the given matrix. -/
noncomputable def linear (A : Matrix (Fin d) (Fin d) ℝ) : (Fin d → ℝ) →L[ℝ] (Fin d → ℝ) :=
  LinearMap.toContinuousLinearMap A.mulVecLin

/-- `F` maps the reference element to the element, its Jacobian at `p` is regular and `jit` is the transposed of its inverse. -/
def IsGeometry (F : (Fin d → ℝ) → Fin d → ℝ) (p : Fin d → ℝ) (jit : Matrix (Fin d) (Fin d) ℝ) : Prop :=
  ∃ A : Matrix (Fin d) (Fin d) ℝ, HasStrictFDerivAt F (linear A) p ∧ jitᵀ * A = 1

/-- `evaluateJacobian` of the leaf returns the derivatives of the shape functions at `p`. -/
def IsJacobian (leaf : Leaf (Fin d → ℝ) ℝ (Fin d → ℝ)) (p : Fin d → ℝ) : Prop :=
  ∀ i < leaf.size, HasFDerivAt (fun q => (leaf.function q).getD i 0) (pairing ((leaf.jacobian p).getD i 0)) p

/-- On the element, near the image of `p`, the function `U` in global coordinates is the discrete function of the leaf. -/
def Represents (U : (Fin d → ℝ) → ℝ) (F : (Fin d → ℝ) → Fin d → ℝ) (x : I → ℝ) (e : Element I (Fin d → ℝ) ℝ J ℝ d)
    (leaf : Leaf (Fin d → ℝ) ℝ J) (p : Fin d → ℝ) : Prop :=
  ∀ᶠ q in 𝓝 p, U (F q) = combination x e leaf (leaf.function q)

/-- The components of a vector field are the discrete functions of the leaves. -/
def RepresentsField (U : Fin d → (Fin d → ℝ) → ℝ) (F : (Fin d → ℝ) → Fin d → ℝ) (x : I → ℝ) (e : Element I (Fin d → ℝ) ℝ (Fin d → ℝ) ℝ d)
    (p : Fin d → ℝ) : Prop :=
  e.leaves.length = d ∧
    ∀ (k : Fin d) (leaf : Leaf (Fin d → ℝ) ℝ (Fin d → ℝ)), e.leaves[k.val]? = some leaf → IsJacobian leaf p ∧ Represents (U k) F x e leaf p

/-- The `k`-th partial derivative. -/
noncomputable def pderiv (k : Fin d) (u : (Fin d → ℝ) → ℝ) (X : Fin d → ℝ) : ℝ := fderiv ℝ u X (Pi.single k 1)

/-- The divergence `∑ ∂ₖ Uₖ`. -/
noncomputable def divergence (U : Fin d → (Fin d → ℝ) → ℝ) (X : Fin d → ℝ) : ℝ := ∑ k, pderiv k (U k) X

/-- The curl in three dimensions. -/
noncomputable def curl3 (U : Fin 3 → (Fin 3 → ℝ) → ℝ) (X : Fin 3 → ℝ) : Fin 3 → ℝ :=
  ![pderiv 1 (U 2) X - pderiv 2 (U 1) X, pderiv 2 (U 0) X - pderiv 0 (U 2) X, pderiv 0 (U 1) X - pderiv 1 (U 0) X]

/-- The curl of a vector field in the plane. -/
noncomputable def curl2 (U : Fin 2 → (Fin 2 → ℝ) → ℝ) (X : Fin 2 → ℝ) : ℝ := pderiv 0 (U 1) X - pderiv 1 (U 0) X

/-- The Jacobian as a list of rows. -/
def rows {m n : Nat} (A : Matrix (Fin m) (Fin n) K) : List (List K) := List.ofFn fun i => List.ofFn (A i)

/-- A vector of the plane as a vector in space. -/
def inPlane (v : Fin 2 → K) : Fin 3 → K := ![v 0, v 1, 0]

/-- A vector orthogonal to the plane. -/
def upright (v : Fin 1 → K) : Fin 3 → K := ![0, 0, v 0]

/-! ### Vector fields -/

/-- Twice the signed area of a triangle: positive iff the corners are in counterclockwise order. -/
def orientation (corner : Fin 3 → Fin 2 → K) : K :=
  (corner 1 0 - corner 0 0) * (corner 2 1 - corner 0 1) - (corner 1 1 - corner 0 1) * (corner 2 0 - corner 0 0)

/-- `nu` is the unit vector that is orthogonal to the edge from corner `a` to corner `b` and points away from corner `c`. -/
def IsUnitOuterNormal (corner : Fin 3 → Fin 2 → ℝ) (a b c : Fin 3) (nu : Fin 2 → ℝ) : Prop :=
  nu ⬝ᵥ nu = 1 ∧ nu ⬝ᵥ (corner b - corner a) = 0 ∧ nu ⬝ᵥ (corner c - corner a) < 0

/-- The Euclidean norm. -/
noncomputable def euclidean (v : Fin 2 → ℝ) : ℝ := Real.sqrt (v ⬝ᵥ v)

/-- The barycentric coordinates of a point of the reference triangle. -/
def barycentric (x : Fin 2 → ℝ) : Fin 3 → ℝ := ![1 - x 0 - x 1, x 0, x 1]

end Verif.DiscreteFunctions.Spec
