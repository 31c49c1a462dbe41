import Verif.Model.OrthonormalBasis
import Verif.Spec.FiniteElements
/-
Vocabulary for the orthonormal polynomial bases.
-/
namespace Verif.OPB.Spec
open FE.Spec (point cubeIntegral)

/-- The space P_k in `d` variables: sums of multiples of monomials of total degree at most `k`. -/
inductive Pk {K : Type} [Field K] (k d : Nat) : ((Nat → K) → K) → Prop
  | monomial (a : Nat → Nat) (h : ∑ j ∈ Finset.range d, a j ≤ k) : Pk k d fun x => ∏ j ∈ Finset.range d, x j ^ a j
  | add (f g) : Pk k d f → Pk k d g → Pk k d fun x => f x + g x
  | smul (c : K) (f) : Pk k d f → Pk k d fun x => c * f x

/-- The polynomials meant by a `BasisType`. -/
def space {K : Type} [Field K] : BasisType → (k d : Nat) → ((Nat → K) → K) → Prop
  | .Pk, k, d => Pk k d
  | .Qk, k, d => FE.Spec.Qk k d

/-- The integral over the reference simplex. -/
noncomputable def simplexIntegral (d : Nat) (f : (Nat → ℝ) → ℝ) : ℝ :=
  ∫ x in {x : Fin d → ℝ | (∀ i, 0 ≤ x i) ∧ ∑ i, x i ≤ 1}, f (point x)

/-- The integral over the reference element. -/
noncomputable def integral : Shape → (d : Nat) → ((Nat → ℝ) → ℝ) → ℝ
  | .cube, d, f => cubeIntegral d f
  | .simplex, d, f => simplexIntegral d f
  | .other, _, _ => 0

/-- The reference elements for which a basis can be constructed. -/
def supported : Shape → (d : Nat) → Prop
  | .cube, d => 0 < d
  | .simplex, d => 0 < d ∧ d ≤ 3
  | .other, _ => False

end Verif.OPB.Spec
