import Verif.Model.ExplicitSolve
import Verif.Spec.TransientSolve
import Verif.Spec.CCFVSolve
import Verif.Spec.TimeStepSize
/-
Explicit schemes, and what their linear solver does.
-/
namespace Verif.ConstrainedSolve
open OneStep

/-- Every stage depends on the earlier ones only, and no coefficient is rounded to zero. -/
def ExplicitScheme {K : Type} [Field K] [LinearOrder K] (S : Scheme K) : Prop :=
  ∀ r, 1 ≤ r → r ≤ S.s → S.a r r = 1 ∧ S.b r r = 0 ∧ NoTinyCoefficients S r

/-- A matrix times a vector. -/
def matVec {I K : Type} [Fintype I] [Field K] (A : I → I → K) (x : I → K) : I → K := fun i => ∑ j, A i j * x j

/-- The linear solver solves systems with regular matrices, whatever the start vector. -/
def SolvesRegular {I K : Type} [Fintype I] [Field K] (ls : (I → I → K) → (I → K) → (I → K) → I → K) : Prop :=
  ∀ A b g, (∀ y, matVec A y = (fun _ => 0) → y = fun _ => 0) → matVec A (ls A b g) = b

end Verif.ConstrainedSolve
