import Verif.Proofs.Newton
import Mathlib.Algebra.Order.Ring.Rat
import Mathlib.Tactic.NormNum
/-
Theorems about the line search, the termination criterion and the Newton solver (C27, C28, C71-C74).
-/
namespace Verif

open Newton Newton.Spec

section general

variable {K X : Type} [Field K] [LinearOrder K] [IsStrictOrderedRing K] [AddCommGroup X] [Module K X]

/-- C27 (for damping factors other than one). The line search of Hackbusch and Reusken leaves a defect that belongs to the solution it
leaves; if it returns, it made a full step below the absolute limit, or took the first trial of sufficient decrease, or, if told so and no
trial was sufficient, a best trial, which improves the defect; if it throws, the solution is the previous one, no trial was sufficient and,
if the best trial was acceptable, none improved the defect. Missing: damping factor one, for which it is false (`C27_false`). -/
theorem C27_line_search_partial (P : Problem K X) (absoluteLimit : K) (maxIterations : Nat) (damping : K) (acceptBest : Bool) (x c : X)
    (h0 : 0 < damping) (h1 : damping ≠ 1) :
    let out := hackbuschReusken P absoluteLimit maxIterations damping acceptBest ⟨x, P.defect x⟩ c
    LineSearchOutcome P.defect absoluteLimit maxIterations damping acceptBest x c out.1.solution out.1.defect (out.2 = none) :=
  hackbuschReusken_spec P absoluteLimit maxIterations damping acceptBest x c h0 h1

/-- C28 (faithful part). Starting from any initial guess and with any matrix kept from before: if `apply` returns, the termination criterion
holds for the defect of the returned solution, `converged` is set, the reported defect and first defect are those of the returned and the
initial solution, `iterations` is the number of linear solves, the reported reduction is their quotient provided an iteration was made,
and a forced iteration was made; if it throws, `converged` is not set and the defect still belongs to the solution. Linear iterations
are summed up in both cases. Missing: the reduction without iterations (`C28_reduction_false`), damping factor one. -/
theorem C28_newton_partial (P : Problem K X) (q : Params K) (hq : Damped q) (kept : Option (Option X)) (x : X) :
    let out := apply P q kept x
    out.1.result.firstDefect = P.defect x ∧ out.1.result.defect = P.defect out.1.solution ∧
    out.1.result.linearIterations = linearIterations out.1.log ∧
    (out.2 = none → out.1.result.converged = true ∧ Criterion q (P.defect x) (P.defect out.1.solution) ∧
      out.1.result.iterations = solves out.1.log ∧
      (0 < out.1.result.iterations → out.1.result.reduction = quotient (P.defect out.1.solution) (P.defect x)) ∧
      (q.forceIteration = true → 0 < out.1.result.iterations)) ∧
    (out.2 ≠ none → out.1.result.converged = false) := by
  intro out
  have h := apply_spec P q hq kept x
  exact ⟨h.first, h.defect, h.linit, h.success, h.failure⟩

/-- C71. `apply` always comes to an end: it makes at most `MaxIterations` linear solves (one, if that is zero and an iteration is forced),
and the bound on the number of loop iterations in the model is never reached. -/
theorem C71_newton_terminates (P : Problem K X) (q : Params K) (kept : Option (Option X)) (x : X) :
    (apply P q kept x).2 ≠ some .outOfFuel ∧
    solves (apply P q kept x).1.log ≤ if q.forceIteration then max q.maxIterations 1 else q.maxIterations :=
  apply_fuel P q kept x

/-- C72 (default threshold). With the default reassemble threshold zero, a positive absolute limit and defects that are numbers, every linear
system is solved with the Jacobian at the current iterate (unless an iteration is forced from a solution with defect zero), and a matrix
kept from before is never used. Missing: defects that are NaN, and zero first defects with a forced iteration (`C72_false`). -/
theorem C72_current_jacobian_partial (P : Problem K X) (q : Params K) (hq : Damped q) (kept : Option (Option X)) (x : X)
    (hthr : q.reassembleThreshold = 0) (habs : 0 < q.absoluteLimit) (hnum : ∀ y, ∃ d, P.defect y = some d ∧ 0 ≤ d)
    (hforce : q.forceIteration = true → P.defect x ≠ some 0) :
    ∀ m y red n, .linearSolve m y red n ∈ (apply P q kept x).1.log → m = some y := by
  intro m y red n hm
  have := apply_log P q hq kept x (fun e => match e with | .assemble _ => True | .linearSolve m y _ _ => m = some y)
    (fun _ => trivial) ?_ _ hm
  · exact this
  · intro s s' hi ht hp
    obtain ⟨d, hd, hd0⟩ := hnum s.solution
    have hpos : 0 < d := by
      rcases not_criterion q s.result hi.unconv ht with ⟨hf, h0⟩ | hc
      · have e := hi.start h0
        rw [e] at hd
        have := hforce hf
        rw [hd] at this
        exact lt_of_le_of_ne hd0 (fun h => this (by rw [h]))
      · by_contra hlt
        apply hc
        left
        rw [hi.defect, hd]
        exact ⟨d, q.absoluteLimit, rfl, rfl, by linarith⟩
    obtain ⟨p, hp0, hpd⟩ : ∃ p : K, s.previousDefect = some p ∧ 0 ≤ p := by
      obtain ⟨z, hz⟩ := hi.prev
      obtain ⟨p, h1, h2⟩ := hnum z
      exact ⟨p, by rw [hz, h1], h2⟩
    have hr : ratioGt s.result.defect s.previousDefect q.reassembleThreshold = true := by
      rw [hi.defect, hd, hp0, hthr]
      unfold ratioGt
      by_cases hz : p = 0
      · simp [hz, hpos]
      · simp only [hz, if_false]
        exact decide_eq_true (div_pos hpos (lt_of_le_of_ne hpd (Ne.symm hz)))
    unfold prepareStep at hp
    rw [if_pos hr] at hp
    split at hp
    · cases hp; rfl
    · cases hp

/-- C72, any threshold below one: if the first defect is a positive number, the Jacobian is assembled at the initial guess before anything else,
so a matrix kept from before is never used. -/
theorem C72_first_assembly (P : Problem K X) (q : Params K) (kept : Option (Option X)) (x : X) (d : K)
    (hthr : q.reassembleThreshold < 1) (hd : P.defect x = some d) (hpos : 0 < d) :
    (apply P q kept x).1.log = [] ∨ ∃ l, (apply P q kept x).1.log = .assemble x :: l := by
  rw [apply_log_eq]
  have hr : ratioGt (P.defect x) (P.defect x) q.reassembleThreshold = true := by
    rw [hd]
    unfold ratioGt
    dsimp only
    rw [if_neg hpos.ne', div_self hpos.ne']
    exact decide_eq_true hthr
  exact first_assembly P q _ _ hr rfl

/-- C73 (bounds). With a reduction of at most one and a positive absolute limit, and if all defects are numbers, the reduction requested of the
linear solver is fixed if so configured, and otherwise at most the larger of `MinLinearReduction` and one tenth. Missing: the documented
minimum, see `C73_false`. -/
theorem C73_linear_reduction_partial (P : Problem K X) (q : Params K) (hq : Damped q) (kept : Option (Option X)) (x : X)
    (habs : 0 < q.absoluteLimit) (hred : q.reduction ≤ 1) (hnum : ∀ y, ∃ d, P.defect y = some d ∧ 0 ≤ d) :
    ∀ m y red n, .linearSolve m y red n ∈ (apply P q kept x).1.log →
      (q.fixedLinearReduction = true → red = some q.minLinearReduction) ∧
      ∃ r, red = some r ∧ r ≤ max q.minLinearReduction (1 / 10) := by
  intro m y red n hm
  have := apply_log P q hq kept x (fun e => match e with
      | .assemble _ => True
      | .linearSolve _ _ red _ => (q.fixedLinearReduction = true → red = some q.minLinearReduction) ∧
          ∃ r, red = some r ∧ r ≤ max q.minLinearReduction (1 / 10))
    (fun _ => trivial) ?_ _ hm
  · exact this
  · intro s s' hi ht hp
    obtain ⟨h1, h2, h3, -, -⟩ := prepareStep_fields P q _ _ (Or.inl hp)
    show (_ → linearReduction q s'.result s'.previousDefect = _) ∧ ∃ r, linearReduction q s'.result s'.previousDefect = _ ∧ _
    rw [h2, h3]
    unfold linearReduction
    constructor
    · intro hfix
      rw [if_neg (by rw [hfix]; simp)]
    · split
      · rename_i hc
        obtain ⟨d, hd, hd0⟩ := hnum s.solution
        obtain ⟨f, hf, hf0⟩ := hnum x
        obtain ⟨z, hz⟩ := hi.prev
        obtain ⟨p, hp1, -⟩ := hnum z
        rw [hi.first, hi.defect, hd, hf, hz, hp1]
        refine ⟨_, rfl, max_le ?_ (le_trans (min_le_left _ _) (le_max_left _ _))⟩
        have hstop : max (f * q.reduction) q.absoluteLimit ≤ d := by
          rcases not_criterion q s.result hi.unconv ht with ⟨hforce, h0⟩ | hcrit
          · have e := hi.start h0
            rw [e, hf] at hd
            have e2 : f = d := Option.some.inj hd
            rw [← e2]
            refine max_le ?_ ?_
            · calc f * q.reduction ≤ f * 1 := mul_le_mul_of_nonneg_left hred hf0
                _ = f := mul_one f
            · by_contra hlt
              apply hc.2
              refine ⟨h0, ?_⟩
              rw [ltF_iff, hi.first, hf]
              exact ⟨f, _, rfl, rfl, by linarith⟩
          · rw [hi.first, hi.defect, hd, hf] at hcrit
            refine max_le ?_ ?_
            · by_contra hlt
              exact hcrit (Or.inr ⟨d, _, rfl, rfl, by linarith⟩)
            · by_contra hlt
              exact hcrit (Or.inl ⟨d, _, rfl, rfl, by linarith⟩)
        have hdpos : 0 < d := lt_of_lt_of_le habs (le_trans (le_max_right _ _) hstop)
        refine le_trans ?_ (le_max_right _ _)
        rw [div_le_div_iff₀ (by linarith) (by norm_num)]
        linarith
      · exact ⟨_, rfl, le_max_left _ _⟩

/-- C74 (parameters of the solver itself). `setParameters` sets those of the parameters of the solver that are in the tree and leaves the
others, and sets exactly the given parameters of the termination criterion if they are in the sub tree `Terminate`. Missing: the rest
(`C74_false`). -/
theorem C74_set_parameters_partial (toString : K → K) (t : ParamTree K) (q : Params K) :
    let q' := setParameters toString t q
    (q'.reduction = t.reduction.getD q.reduction) ∧ (q'.absoluteLimit = t.absoluteLimit.getD q.absoluteLimit) ∧
    (q'.keepMatrix = t.keepMatrix.getD q.keepMatrix) ∧ (q'.minLinearReduction = t.minLinearReduction.getD q.minLinearReduction) ∧
    (q'.fixedLinearReduction = t.fixedLinearReduction.getD q.fixedLinearReduction) ∧
    (q'.reassembleThreshold = t.reassembleThreshold.getD q.reassembleThreshold) ∧
    (∀ n f, t.terminate = some (n, f) → q'.maxIterations = n.getD q.maxIterations ∧ q'.forceIteration = f.getD q.forceIteration) ∧
    (∀ n, t.terminate = none → t.maxIterations = some n → q'.maxIterations = n) ∧
    (t.strategy = some .noLineSearch → q'.lineSearch = .none) ∧
    (∀ n d b, t.strategy = some .hackbuschReusken → t.lineSearch = some (some n, some d, some b) →
      q'.lineSearch = .hackbuschReusken n d b) ∧
    (∀ n d b, t.strategy = some .hackbuschReuskenAcceptBest → t.lineSearch = some (some n, some d, some b) →
      q'.lineSearch = .hackbuschReusken n d true) := by
  refine ⟨rfl, rfl, rfl, rfl, rfl, rfl, ?_, ?_, ?_, ?_, ?_⟩
  · intro n f h; simp only [setParameters, h]; exact ⟨trivial, trivial⟩
  · intro n h h'; simp only [setParameters, h, h', Option.getD_some]
  · intro h; simp only [setParameters, h, Option.getD_some]
  · intro n d b h h'; simp only [setParameters, h, h', Option.getD_some]
  · intro n d b h h'; simp only [setParameters, h, h', Option.getD_some]

end general

/-! ### Witnesses -/

/-- A one-dimensional problem over the rationals: defect `|x - 1|`-like table, Newton correction by a given function. -/
def newtonExample : Problem ℚ ℚ :=
  ⟨fun x => some (if x < 0 then -x else x), fun _ => true, fun m x _ => (true, match m with | none => 0 | some _ => x / 2, 3)⟩

/-- Parameters near the defaults. -/
def newtonParams : Params ℚ :=
  ⟨1 / 10, 1 / 100, true, 1 / 1000, false, 0, 40, false, .hackbuschReusken 10 (1 / 2) false⟩

example : Damped newtonParams := by unfold Damped newtonParams; norm_num
example : ∀ y, ∃ d, newtonExample.defect y = some d ∧ 0 ≤ d := by
  intro y; refine ⟨_, rfl, ?_⟩; split <;> linarith
example : newtonParams.forceIteration = true → newtonExample.defect 1 ≠ some 0 := by decide
example : newtonParams.reassembleThreshold = 0 ∧ 0 < newtonParams.absoluteLimit ∧ newtonParams.reduction ≤ 1 := by
  unfold newtonParams; norm_num

/-- The run from `1` converges in four iterations, each with its own Jacobian. -/
example : (apply newtonExample newtonParams none 1).2 = none ∧ (apply newtonExample newtonParams none 1).1.result.iterations = 4 ∧
    (apply newtonExample newtonParams none 1).1.result.reduction = some (1 / 16) ∧
    (apply newtonExample newtonParams none 1).1.result.linearIterations = 12 := by decide +kernel

/-- C27 is false for damping factor one: if told to accept the best, the line search returns without exception, the solution is the
previous one and the defect that of a trial. -/
theorem C27_false : ∃ (P : Problem ℚ ℚ) (x c : ℚ), P.defect x = some 1 ∧
    let out := hackbuschReusken P (1 / 1000) 2 1 true ⟨x, P.defect x⟩ c
    out.2 = none ∧ out.1.solution = x ∧ out.1.defect = some (9 / 10) :=
  ⟨⟨fun x => some (if x = 1 then 1 else 9 / 10), fun _ => true, fun _ _ _ => (true, 1, 0)⟩, 1, 1, by decide +kernel, by decide +kernel⟩

/-- C28 is false in general: if the initial guess already satisfies the criterion, the reported reduction is zero, not the quotient one. -/
theorem C28_reduction_false : ∃ (P : Problem ℚ ℚ) (q : Params ℚ) (x : ℚ),
    (apply P q none x).2 = none ∧ P.defect x = some (1 / 1000) ∧
    (apply P q none x).1.result.reduction = some 0 ∧
    (apply P q none x).1.result.defect = (apply P q none x).1.result.firstDefect :=
  ⟨newtonExample, newtonParams, 1 / 1000, by decide +kernel, by decide +kernel, by decide +kernel, by decide +kernel⟩

/-- C72 is false in general: a forced iteration from a solution with defect zero, or a first defect that is NaN, or a threshold of one or
more, make the solver use a matrix that was never assembled. -/
theorem C72_false :
    (∃ (P : Problem ℚ ℚ) (q : Params ℚ) (x : ℚ), q.reassembleThreshold = 0 ∧ P.defect x = some 0 ∧
      ∃ y red n, Ev.linearSolve none y red n ∈ (apply P q none x).1.log) ∧
    (∃ (P : Problem ℚ ℚ) (q : Params ℚ) (x : ℚ), q.reassembleThreshold = 0 ∧ P.defect x = none ∧
      ∃ y red n, Ev.linearSolve none y red n ∈ (apply P q none x).1.log) ∧
    (∃ (P : Problem ℚ ℚ) (q : Params ℚ) (x : ℚ), q.reassembleThreshold = 1 ∧ P.defect x = some 1 ∧
      ∃ y red n, Ev.linearSolve none y red n ∈ (apply P q none x).1.log) := by
  refine ⟨⟨newtonExample, { newtonParams with forceIteration := true }, 0, rfl, by decide +kernel, 0, some (1 / 1000), 3, by decide +kernel⟩,
    ⟨{ newtonExample with defect := fun _ => none }, newtonParams, 0, rfl, rfl, 0, none, 3, by decide +kernel⟩,
    ⟨newtonExample, { newtonParams with reassembleThreshold := 1 }, 1, rfl, by decide +kernel, 1, some (1 / 100), 3, by decide +kernel⟩⟩

/-- C73: the documented bound (the requested reduction is at most `MinLinearReduction`) is false: close to convergence it may be larger. -/
theorem C73_false : ∃ (P : Problem ℚ ℚ) (q : Params ℚ) (x : ℚ), q.fixedLinearReduction = false ∧ q.minLinearReduction = 1 / 1000 ∧
    ∃ m y n, Ev.linearSolve m y (some (1 / 100)) n ∈ (apply P q none x).1.log :=
  ⟨newtonExample, newtonParams, 1, rfl, rfl, some 1, 1, 3, by decide +kernel⟩

/-- C74 is false: setting a single parameter resets the line search and the termination criterion to their defaults; and a damping factor
given in the flat tree is changed by its conversion to a string with six digits. -/
theorem C74_false :
    (∃ (t : ParamTree ℚ) (q : Params ℚ), t.maxIterations = none ∧ t.strategy = none ∧ q.maxIterations = 100 ∧ q.lineSearch = .none ∧
      (setParameters id t q).maxIterations = 40 ∧ ∃ n d b, (setParameters id t q).lineSearch = .hackbuschReusken n d b) ∧
    (∃ (t : ParamTree ℚ) (q : Params ℚ), t.lineSearchDampingFactor = some (1 / 3) ∧
      ∃ n d b, (setParameters (fun x => (Rat.floor (x * 1000000 + 1 / 2) : ℚ) / 1000000) t q).lineSearch = .hackbuschReusken n d b ∧ d ≠ 1 / 3) := by
  refine ⟨⟨{ reduction := some (1 / 2) }, { newtonParams with maxIterations := 100, lineSearch := .none }, rfl, rfl, rfl, rfl, rfl, _, _, _, rfl⟩,
    ⟨{ lineSearchDampingFactor := some (1 / 3) }, newtonParams, rfl, _, _, _, rfl, ?_⟩⟩
  decide +kernel

end Verif
