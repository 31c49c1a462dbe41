import Verif.Model.FiniteElements
import Mathlib.Algebra.Polynomial.Eval.Defs
import Mathlib.Algebra.Polynomial.Degree.Defs
import Mathlib.MeasureTheory.Constructions.Pi
import Mathlib.MeasureTheory.Integral.Bochner.Basic
import Mathlib.MeasureTheory.Measure.Lebesgue.Basic
/-
Vocabulary for the finite elements on cubes.
-/
namespace Verif.FE.Spec
open Polynomial

variable {K : Type} [Field K]

/-- The space Q_k in `d` variables: sums of products of polynomials of degree at most `k` in one variable each. -/
inductive Qk (k d : Nat) : ((Nat → K) → K) → Prop
  | product (g : Nat → K[X]) (h : ∀ j < d, (g j).natDegree ≤ k) : Qk k d fun x => ∏ j ∈ Finset.range d, (g j).eval (x j)
  | add (f g) : Qk k d f → Qk k d g → Qk k d fun x => f x + g x
  | smul (c : K) (f) : Qk k d f → Qk k d fun x => c * f x

/-- The finite element function with coefficients `c`, given the values of the basis functions. -/
def combination (c phi : List K) : K := (List.zipWith (· * ·) c phi).sum

/-- The point `x` with the coordinate `j` replaced. -/
def moved (x : Nat → K) (j : Nat) (t : K) : Nat → K := fun l => if l = j then t else x l

/-- The point with the given coordinates. -/
def point {d : Nat} (x : Fin d → ℝ) : Nat → ℝ := fun j => if h : j < d then x ⟨j, h⟩ else 0

/-- The integral over the unit cube. -/
noncomputable def cubeIntegral (d : Nat) (f : (Nat → ℝ) → ℝ) : ℝ := ∫ x in Set.Icc (0 : Fin d → ℝ) 1, f (point x)

/-- What a quadrature rule, a list of (position, weight), gives for the integral. -/
def quadrature (rule : List ((Nat → K) × K)) (f : (Nat → K) → K) : K := (rule.map fun xw => f xw.1 * xw.2).sum

end Verif.FE.Spec
