import Verif.Spec.LinearProblem
import Mathlib.Algebra.Order.Field.Basic
import Mathlib.Algebra.Order.Ring.Rat
import Mathlib.Algebra.Group.Basic
import Mathlib.Tactic.Abel
import Mathlib.Tactic.NormNum
import Mathlib.Tactic.Ring
import Mathlib.Tactic.Linarith
/-
Theorems about the solver for linear stationary problems (C75).
-/
namespace Verif

open LinearProblem LinearProblem.Spec

section general

variable {K X : Type} [Field K] [LinearOrder K] [IsStrictOrderedRing K] [AddCommGroup X]

/-- The matrix kept from before, if it has to be there, is the right one. -/
def LinearProblem.MatrixOk (A : X → X) (keep has : Bool) (s : State K X) : Prop :=
  s.keepMatrix = keep ∧ (has = true → s.matrix = some A)

omit [IsStrictOrderedRing K] in
theorem LinearProblem.apply_matrix (P : Problem K X) (A : X → X) (b : X) (h : IsLinear P A b) (keep has : Bool) (s : State K X)
    (hs : MatrixOk A keep has s) (reuse : Bool) (hr : reuse = true → has = true) :
    MatrixOk A keep keep (apply P reuse s) ∧ (if reuse then s.matrix.getD (fun _ => 0) else P.jacobian s.x) = A := by
  have e : (if reuse then s.matrix.getD (fun _ => 0) else P.jacobian s.x) = A := by
    cases reuse
    · exact h.jacobian s.x
    · rw [if_pos rfl, hs.2 (hr rfl)]; rfl
  refine ⟨⟨hs.1, ?_⟩, e⟩
  intro hk
  show (if s.keepMatrix then some (if reuse then s.matrix.getD (fun _ => 0) else P.jacobian s.x) else none) = _
  rw [hs.1, hk, if_pos rfl, e]

omit [IsStrictOrderedRing K] in
theorem LinearProblem.run_matrix (P : Problem K X) (A : X → X) (b : X) (h : IsLinear P A b) (last : Op X) :
    ∀ (ops : List (Op X)) (keep has : Bool) (s : State K X), MatrixOk A keep has s → ReuseOk keep has (ops ++ [last]) →
      ∃ keep' has', MatrixOk A keep' has' (run P s ops) ∧ ReuseOk keep' has' [last] := by
  intro ops
  induction ops with
  | nil => intro keep has s hs hr; exact ⟨keep, has, hs, hr⟩
  | cons op ops ih =>
    intro keep has s hs hr
    cases op with
    | apply x reuse =>
      exact ih _ _ _ (apply_matrix P A b h keep has { s with x := x } hs reuse hr.1).1 hr.2
    | applyAgain reuse =>
      exact ih _ _ _ (apply_matrix P A b h keep has s hs reuse hr.1).1 hr.2
    | discardMatrix =>
      exact ih keep false (discardMatrix s) ⟨hs.1, fun h => by cases h⟩ hr
    | setKeepMatrix b' =>
      exact ih b' has _ ⟨rfl, hs.2⟩ hr

/-- C75 (assembled matrices, converged solvers). After any history of solves, discards and changes of the matrix policy in which the matrix is
only reused when one was assembled and kept, a solve of a linear problem with a truthful linear solver returns statistics that describe
the returned solution, and if the linear solver converged the norm of its residual is at most the larger of `reduction` times the
initial one and `min_defect`. Missing: reuse without a matrix and linear solvers that do not converge (`C75_false`). -/
theorem C75_linear_solve_partial (P : Problem K X) (A : X → X) (b : X) (h : IsLinear P A b) (ht : Truthful P)
    (s : State K X) (hs : s.keepMatrix = true ∧ s.matrix = none) (ops : List (Op X)) (x : X) (reuse : Bool)
    (hr : ReuseOk true false (ops ++ [.apply x reuse])) (hpos : 0 < P.norm (P.residual x)) :
    let before := run P s ops
    let after := run P s (ops ++ [.apply x reuse])
    ∃ res, after.result = some res ∧ res.firstDefect = P.norm (P.residual x) ∧ res.defect = P.norm (P.residual after.x) ∧
      (res.converged = true → P.norm (P.residual after.x) ≤ max (before.reduction * P.norm (P.residual x)) before.minDefect) := by
  intro before after
  obtain ⟨keep, has, hm, hr'⟩ := run_matrix P A b h _ ops true false s ⟨hs.1, fun h => by cases h⟩ hr
  have e : after = apply P reuse { before with x := x } := by
    show run P s (ops ++ [.apply x reuse]) = _
    unfold run
    rw [List.foldl_append]
    rfl
  have hA := (apply_matrix P A b h keep has { before with x := x } hm reuse hr'.1).2
  dsimp only at hA
  have hres : P.residual after.x = P.residual x - A (P.solve A (P.residual x) (max before.reduction (before.minDefect /
      P.norm (P.residual x)))).2.1 := by
    rw [e]
    show P.residual (x - (P.solve (if reuse then before.matrix.getD (fun _ => 0) else P.jacobian x) _ _).2.1) = _
    rw [hA, h.residual, h.residual, h.additive]
    dsimp only
    abel
  have h1 := ht A (P.residual x) (max before.reduction (before.minDefect / P.norm (P.residual x))) h.additive
  refine ⟨⟨_, _, _, _, _⟩, by rw [e]; rfl, rfl, ?_, ?_⟩
  · show P.norm (P.residual x) * (P.solve (if reuse then before.matrix.getD (fun _ => 0) else P.jacobian x) _ _).2.2.1 = _
    rw [hA, hres, h1.1]
  · intro hc
    have hc' : (P.solve A (P.residual x) (max before.reduction (before.minDefect / P.norm (P.residual x)))).1 = true := by
      have : (P.solve (if reuse then before.matrix.getD (fun _ => 0) else P.jacobian x) (P.residual x)
        (max before.reduction (before.minDefect / P.norm (P.residual x)))).1 = true := hc
      rwa [hA] at this
    rw [hres]
    refine le_trans (h1.2 hc') ?_
    rw [max_mul_of_nonneg _ _ hpos.le, div_mul_cancel₀ _ hpos.ne']

end general

/-! ### Witnesses -/

/-- `2 x = 4` over the rationals, with a solver that tries half the right hand side and otherwise gives up; the norm is the absolute value. -/
def linearExample : Problem ℚ ℚ :=
  ⟨fun x => 2 * x - 4, fun _ y => 2 * y, fun r => if r < 0 then -r else r,
   fun M r red => if r - M (r / 2) = 0 then (decide (0 ≤ red), r / 2, 0, 1) else (false, 0, 1, 0)⟩

/-- The state after construction. -/
def linearStart : State ℚ ℚ := ⟨0, none, true, 1 / 100, 1 / 1000, none⟩

example : IsLinear linearExample (fun y => 2 * y) 4 :=
  ⟨fun x y => by ring, fun _ => rfl, fun _ => rfl⟩
example : Truthful linearExample := by
  intro M r red hM
  have h0 : M 0 = 0 := by simpa using hM 0 0
  have hn : 0 ≤ linearExample.norm r := by
    simp only [linearExample]; split <;> linarith
  by_cases h : r - M (r / 2) = 0
  · have e : linearExample.solve M r red = (decide (0 ≤ red), r / 2, 0, 1) := if_pos h
    rw [e, h]
    refine ⟨by simp [linearExample], fun hc => ?_⟩
    have : linearExample.norm 0 = 0 := by simp [linearExample]
    rw [this]
    exact mul_nonneg (of_decide_eq_true hc) hn
  · have e : linearExample.solve M r red = (false, 0, 1, 0) := if_neg h
    rw [e, h0]
    exact ⟨by simp, fun hc => by cases hc⟩
example : ReuseOk true false ([.apply 1 false, .applyAgain true] ++ [.apply 7 true] : List (Op ℚ)) := by
  simp [ReuseOk]
example : 0 < linearExample.norm (linearExample.residual 7) := by
  simp only [linearExample]; norm_num
example : (run linearExample linearStart ([.apply 1 false, .applyAgain true] ++ [.apply 7 true])).x = 2 := by decide +kernel

/-- C75 is false in general: (1) a solve with `reuse_matrix` before any matrix was assembled uses a matrix that is zero; (2) so does a second
solve if matrices are not kept; (3) if the linear solver does not converge the solution is changed all the same. All without
exception. -/
theorem C75_false :
    (run linearExample linearStart [.apply 7 true]).x = 7 ∧
    (run linearExample linearStart [.setKeepMatrix false, .apply 7 false, .apply 7 true]).x = 7 ∧
    (∃ P : Problem ℚ ℚ, (run P linearStart [.apply 7 false]).x ≠ 7 ∧
      (run P linearStart [.apply 7 false]).result.map (·.converged) = some false) :=
  ⟨by decide +kernel, by decide +kernel, { linearExample with solve := fun _ _ _ => (false, 1, 1, 0) }, by decide +kernel,
    by decide +kernel⟩

end Verif
