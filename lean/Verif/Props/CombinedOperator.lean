import Verif.Proofs.CombinedOperator
import Verif.Props.GridAssembler
import Mathlib.Algebra.Field.Rat
/-
Theorems about sums of local operators (C38, C39).
-/
namespace Verif

open CombinedOperator CombinedOperator.Spec

variable {K : Type} [Field K] [DecidableEq K]

/-- C38 (all methods but `alpha_boundary` and the four `jacobian_apply_*`): for every (nested, weighted) sum of local operators the call of a
method leads to exactly one call of the same method of every summand that implements it and whose total weight is not zero, in order, with
the weights of the arguments multiplied by the total weight of the summand. Afterwards the weights of all arguments are as before. -/
theorem C38_sum_partial (o : LOp K) (m : Method) (hm : sound m = true) (st : CombinedOperator.St K) :
    invoke o m st = some ⟨st.weights, st.log ++ expected o m st.weights⟩ := by
  have he : expected o m st.weights = expectedOf (summands o) m st.weights := by unfold expected expectedOf; rw [switchFlag_eq]
  rw [he]
  unfold invoke
  by_cases hf : hasFlag o (switchFlag m) = true
  · rw [if_pos hf]; exact call_spec o m st hm hf
  · rw [if_neg hf]
    have : expectedOf (summands o) m st.weights = [] := expectedOf_noFlag _ _ _ (noFlag o _ (by simpa using hf))
    rw [this]; simp

/-- An operator with the given flags. -/
def opWith (id : Nat) (fs : List Flag) (t : Bool) : LOp Rat := .base id (fun f => fs.contains f) t

example : invoke (.wsum [2, 0, 3] [opWith 0 [.doAlphaVolume] false, opWith 1 [.doAlphaVolume] false,
      .sum [opWith 2 [.doAlphaVolume] false, opWith 3 [.doLambdaVolume] false, .wsum [5, 1] [opWith 4 [.doAlphaVolume] false,
      opWith 5 [.doAlphaVolume] false]]]) .alphaVolume ⟨[none, none, none, none, some 7], []⟩ =
    some ⟨[none, none, none, none, some 7], [⟨0, .alphaVolume, [none, none, none, none, some 14]⟩,
      ⟨2, .alphaVolume, [none, none, none, none, some 21]⟩, ⟨4, .alphaVolume, [none, none, none, none, some 105]⟩,
      ⟨5, .alphaVolume, [none, none, none, none, some 21]⟩]⟩ := by decide +kernel

/-- C38 is false of the code for `alpha_boundary`: the boundary terms of the summands are not evaluated at all, and instead the
post-skeleton terms of summands that have such are evaluated on the boundary intersection. -/
theorem C38_alpha_boundary_false :
    invoke (.sum [opWith 0 [.doAlphaBoundary] false, opWith 1 [.doAlphaVolumePostSkeleton] false]) .alphaBoundary ⟨[], []⟩ =
      some ⟨[], [⟨1, .alphaVolumePostSkeleton, []⟩]⟩ ∧
    expected (.sum [opWith 0 [.doAlphaBoundary] false, opWith 1 [.doAlphaVolumePostSkeleton] false]) .alphaBoundary [] =
      [⟨0, .alphaBoundary, []⟩] := by decide +kernel

/-- What `alpha_boundary` of a combined operator does, for all summands: the post-skeleton terms. -/
theorem C38_alpha_boundary_dispatch (ops : List (LOp K)) (st : CombinedOperator.St K) :
    call (.sum ops) .alphaBoundary st = call (.sum ops) .alphaVolumePostSkeleton st := by
  simp [call, combinedCall, switchArity]

/-- C38 is false of the code for the application of Jacobians: the combined operators pass one argument (two for the skeleton) less than the
call switch expects, for every tuple of summands, so that the code is ill-formed as soon as the method is used. -/
theorem C38_jacobian_apply_false (ops : List (LOp K)) (ws : List K) (st : CombinedOperator.St K) (m : Method)
    (hm : m ∈ [Method.jacobianApplyVolume, .jacobianApplyVolumePostSkeleton, .jacobianApplySkeleton, .jacobianApplyBoundary]) :
    call (.sum ops) m st = none ∧ call (.wsum ws ops) m st = none := by
  simp only [List.mem_cons, List.not_mem_nil, or_false] at hm
  rcases hm with rfl | rfl | rfl | rfl <;> simp [call, combinedCall, switchArity]

/-- C38, for two summands: `skip_entity` and `skip_intersection` report an error exactly if the summands disagree, and return the common
answer otherwise. -/
theorem C38_skip_partial (a b : Bool) :
    (CombinedOperator.skip [a, b] = none ↔ ¬ agree [a, b]) ∧ (agree [a, b] → CombinedOperator.skip [a, b] = some a) := by
  cases a <;> cases b <;> simp [CombinedOperator.skip, agree]

/-- C38 is false of the code for other numbers of summands: an error is reported exactly if an odd number of them wants to skip. -/
theorem C38_skip_odd (answers : List Bool) (h : answers ≠ []) :
    CombinedOperator.skip answers = none ↔ answers.count true % 2 = 1 := by
  unfold CombinedOperator.skip
  dsimp only
  rw [xor_count]
  cases answers with
  | nil => exact absurd rfl h
  | cons a l =>
    rw [Bool.false_xor]
    by_cases hc : (a :: l).count true % 2 = 1
    · simp [hc]
    · simp [hc]

/-- Three summands that agree lead to an error; three that disagree do not; and so does a single one. -/
theorem C38_skip_false : CombinedOperator.skip [true, true, true] = none ∧ agree [true, true, true] ∧
    CombinedOperator.skip [true, true, false] = some true ∧ ¬ agree [true, true, false] ∧ CombinedOperator.skip [true] = none := by
  refine ⟨rfl, ?_, rfl, ?_, rfl⟩
  · intro a ha b hb; simp at ha hb; simp [ha, hb]
  · intro h; exact absurd (h true (by simp) false (by simp)) (by simp)

omit [Field K] [DecidableEq K] in
/-- C39 is false of the code: the check accepts every non-empty tuple of summands, whatever they require. -/
theorem C39_never_rejects (ops : List (LOp K)) (h : ops ≠ []) : accepted ops = true := by
  cases ops with
  | nil => exact absurd rfl h
  | cons o os =>
    unfold accepted oneSidedSkeleton twoSidedSkeleton
    simp only [List.all_cons]
    cases twoSided o <;> simp

/-- C39 is false of the code: a one-sided and a two-sided summand are accepted together, the combined operator wants two-sided visits, so that
on the grid of two cells the skeleton terms of the first summand, which alone are evaluated once on the common face, are evaluated twice. -/
theorem C39_mixed_false :
    let one := opWith 0 [.doAlphaSkeleton] false
    let two := opWith 1 [.doAlphaSkeleton] true
    accepted [one, two] = true ∧ oneSidedSkeleton one = true ∧ twoSidedSkeleton two = true ∧
    GridAssembler.calls .assembleUVSkeleton 1 (GridAssembler.assemble (plainEngine (twoSided one) false) true twoCells) = 1 ∧
    GridAssembler.calls .assembleUVSkeleton 1 (GridAssembler.assemble (plainEngine (twoSided (.sum [one, two])) false) true twoCells) = 2 ∧
    invoke (.sum [one, two]) .alphaSkeleton ⟨[], []⟩ = some ⟨[], [⟨0, .alphaSkeleton, []⟩, ⟨1, .alphaSkeleton, []⟩]⟩ := by
  decide +kernel

omit [Field K] [DecidableEq K] in
theorem anyTwoSided_eq (ops : List (LOp K)) : anyTwoSided ops = ops.any twoSidedSkeleton := by
  induction ops with
  | nil => rfl
  | cons o os ih => simp only [anyTwoSided, ih, List.any_cons, twoSidedSkeleton]

omit [Field K] [DecidableEq K] in
/-- C39, what is true: tuples in which all summands with skeleton terms want the same are accepted, and the combined operator wants the same. -/
theorem C39_uniform_partial (ops : List (LOp K)) (h : ops ≠ []) (t : Bool)
    (hu : ∀ o, o ∈ ops → (hasFlag o .doAlphaSkeleton || hasFlag o .doLambdaSkeleton) = true → twoSided o = t)
    (hs : ∃ o, o ∈ ops ∧ (hasFlag o .doAlphaSkeleton || hasFlag o .doLambdaSkeleton) = true) :
    accepted ops = true ∧ twoSided (.sum ops) = t := by
  refine ⟨C39_never_rejects ops h, ?_⟩
  simp only [twoSided, anyTwoSided_eq]
  obtain ⟨o, ho, hos⟩ := hs
  cases t with
  | true => exact List.any_eq_true.2 ⟨o, ho, by unfold twoSidedSkeleton; rw [hos, hu o ho hos]; rfl⟩
  | false =>
    rw [List.any_eq_false]
    intro o ho
    unfold twoSidedSkeleton
    cases hk : (hasFlag o .doAlphaSkeleton || hasFlag o .doLambdaSkeleton) with
    | false => simp
    | true => simp [hu o ho hk]

example : accepted [opWith 0 [.doAlphaSkeleton] true, opWith 1 [.doAlphaVolume] false] = true ∧
    twoSided (.sum [opWith 0 [.doAlphaSkeleton] true, opWith 1 [.doAlphaVolume] false]) = true := by decide +kernel

end Verif
