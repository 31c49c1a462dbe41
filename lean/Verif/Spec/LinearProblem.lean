import Verif.Model.LinearProblem
/-
Specification of the solver for linear problems.
-/
namespace Verif.LinearProblem.Spec

variable {K X : Type} [Field K] [LinearOrder K] [AddCommGroup X]

/-- The problem `A x = b`: the residual is `A x - b` with an additive `A`, which the Jacobian reproduces at every point. -/
structure IsLinear (P : Problem K X) (A : X → X) (b : X) : Prop where
  additive : ∀ x y, A (x - y) = A x - A y
  residual : ∀ x, P.residual x = A x - b
  jacobian : ∀ x, P.jacobian x = A

/-- The linear solver reports truthfully (on additive matrices): the reported reduction is the one achieved, and if it reports convergence, at least the requested
reduction was achieved. -/
def Truthful (P : Problem K X) : Prop := ∀ M r red, (∀ x y, M (x - y) = M x - M y) →
  P.norm (r - M (P.solve M r red).2.1) = P.norm r * (P.solve M r red).2.2.1 ∧
  ((P.solve M r red).1 = true → P.norm (r - M (P.solve M r red).2.1) ≤ red * P.norm r)

/-- Reuse is only requested when an assembled matrix is available: the history is read with `keep`, the flag set by `setKeepMatrix`, and
`have`, whether the last solve left an assembled matrix. -/
def ReuseOk : (keep has : Bool) → List (Op X) → Prop
  | _, _, [] => True
  | keep, has, .apply _ reuse :: ops => (reuse = true → has = true) ∧ ReuseOk keep keep ops
  | keep, has, .applyAgain reuse :: ops => (reuse = true → has = true) ∧ ReuseOk keep keep ops
  | keep, _, .discardMatrix :: ops => ReuseOk keep false ops
  | _, has, .setKeepMatrix b :: ops => ReuseOk b has ops

end Verif.LinearProblem.Spec
