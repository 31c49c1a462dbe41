import Verif.Proofs.Adaptivity
import Mathlib.Algebra.Order.Ring.Rat
import Mathlib.Tactic.NormNum
/-
Theorems about error-based marking and the time adaptation strategy (C40, C41, C42, C77).
-/
namespace Verif

open Adaptivity Adaptivity.Spec

variable {K : Type} [Field K] [LinearOrder K] [IsStrictOrderedRing K]

/-- C40 for `error_fraction`: let `m` be the largest error and `total` the sum of all (absolute) errors. For all errors and fractions both
thresholds lie in `[0, m]`. Either the errors above the refinement threshold and those below the coarsening threshold are the wanted fractions
of the total up to one per cent, or the thresholds are ends of intervals of length `m / 2^20` that bracket the wanted fractions. -/
theorem C40_error_fraction (x : List K) (alpha beta m : K) (hm : ∀ e, e ∈ x → |e| ≤ m) (hm' : (∃ e, e ∈ x ∧ |e| = m) ∨ (x = [] ∧ m = 0)) :
    (0 ≤ (errorFraction x alpha beta).1 ∧ (errorFraction x alpha beta).1 ≤ m) ∧
    (0 ≤ (errorFraction x alpha beta).2 ∧ (errorFraction x alpha beta).2 ≤ m) ∧
    (((x.map fun e => |e|).sum ≠ 0 ∧
        Met alpha (errorAbove x (errorFraction x alpha beta).1) (x.map fun e => |e|).sum ∧
        Met beta (errorBelow x (errorFraction x alpha beta).2) (x.map fun e => |e|).sum) ∨
      (BracketsAbove (errorAbove x) alpha (x.map fun e => |e|).sum m (errorFraction x alpha beta).1 ∧
        BracketsBelow (errorBelow x) beta (x.map fun e => |e|).sum m (errorFraction x alpha beta).2)) := by
  have h := bisect_result (fun e => e) x alpha beta (oneNorm x) m (infNorm_eq x m hm hm')
  have e1 : sumAlpha (fun e : K => e) x = errorAbove x := by funext eta; rw [sumAlpha_eq]; simp [errorAbove]
  have e2 : sumBeta (fun e : K => e) x = errorBelow x := by funext eta; rw [sumBeta_eq]; simp [errorBelow]
  rw [e1, e2] at h
  rw [← oneNorm_eq]
  exact h

/-- C40 for `element_fraction`: the same with numbers of cells. -/
theorem C40_element_fraction (x : List K) (alpha beta m : K) (hm : ∀ e, e ∈ x → |e| ≤ m) (hm' : (∃ e, e ∈ x ∧ |e| = m) ∨ (x = [] ∧ m = 0)) :
    (0 ≤ (elementFraction x alpha beta).1 ∧ (elementFraction x alpha beta).1 ≤ m) ∧
    (0 ≤ (elementFraction x alpha beta).2 ∧ (elementFraction x alpha beta).2 ≤ m) ∧
    (((x.length : K) ≠ 0 ∧
        Met alpha (countAbove x (elementFraction x alpha beta).1) x.length ∧
        Met beta (countBelow x (elementFraction x alpha beta).2) x.length) ∨
      (BracketsAbove (countAbove x) alpha x.length m (elementFraction x alpha beta).1 ∧
        BracketsBelow (countBelow x) beta x.length m (elementFraction x alpha beta).2)) := by
  have h := bisect_result (fun _ => 1) x alpha beta (x.length : K) m (infNorm_eq x m hm hm')
  have e1 : sumAlpha (fun _ : K => 1) x = countAbove x := by funext eta; rw [sumAlpha_eq, sum_ones]; rfl
  have e2 : sumBeta (fun _ : K => 1) x = countBelow x := by funext eta; rw [sumBeta_eq, sum_ones]; rfl
  rw [e1, e2] at h
  exact h

/-- Errors 1, 2, 3, 4: refining 70 per cent and coarsening 30 per cent of the error stops early with the thresholds 3; with equal errors the bracket is
what remains. -/
example : errorFraction ([1, 2, 3, 4] : List Rat) (7 / 10) (3 / 10) = (3, 3) := by decide +kernel
example : (errorFraction ([1, 1] : List Rat) (1 / 2) (1 / 2)).1 = 1 - 1 / 2 ^ 20 := by decide +kernel

omit [IsStrictOrderedRing K] in
/-- C41: `mark_grid` marks for refinement exactly the cells with error at least the refinement threshold on levels below the maximum, and for
coarsening exactly the cells with error at most the coarsening threshold on levels above the minimum. -/
theorem C41_mark_grid (refine coarsen : K) (lo hi : Int) (cells : List (Cell K)) (j : Nat) :
    ((1, j) ∈ markGrid refine coarsen lo hi 0 cells ↔ ∃ c, cells[j]? = some c ∧ refine ≤ c.error ∧ c.level < hi) ∧
    ((-1, j) ∈ markGrid refine coarsen lo hi 0 cells ↔ ∃ c, cells[j]? = some c ∧ c.error ≤ coarsen ∧ lo < c.level) ∧
    (∀ mk, (mk, j) ∈ markGrid refine coarsen lo hi 0 cells → mk = 1 ∨ mk = -1) := by
  refine ⟨?_, ?_, ?_⟩
  · rw [mem_markGrid]
    constructor
    · rintro ⟨k, c, h1, h2, h3 | h3⟩
      · rw [Nat.zero_add] at h2; subst h2; exact ⟨c, h1, h3.2⟩
      · exact absurd h3.1 (by decide)
    · rintro ⟨c, h1, h2⟩; exact ⟨j, c, h1, by simp, Or.inl ⟨rfl, h2⟩⟩
  · rw [mem_markGrid]
    constructor
    · rintro ⟨k, c, h1, h2, h3 | h3⟩
      · exact absurd h3.1 (by decide)
      · rw [Nat.zero_add] at h2; subst h2; exact ⟨c, h1, h3.2⟩
    · rintro ⟨c, h1, h2⟩; exact ⟨j, c, h1, by simp, Or.inr ⟨rfl, h2⟩⟩
  · intro mk h
    rw [mem_markGrid] at h
    obtain ⟨k, c, _, _, h3 | h3⟩ := h
    · exact Or.inl h3.1
    · exact Or.inr h3.1

omit [IsStrictOrderedRing K] in
/-- C41: if the refinement threshold is larger than the coarsening threshold then no cell gets two different marks. -/
theorem C41_no_conflict (refine coarsen : K) (h : coarsen < refine) (lo hi : Int) (cells : List (Cell K)) (j : Nat) :
    ¬ ((1, j) ∈ markGrid refine coarsen lo hi 0 cells ∧ (-1, j) ∈ markGrid refine coarsen lo hi 0 cells) := by
  rintro ⟨h1, h2⟩
  obtain ⟨c, hc, h3, _⟩ := (C41_mark_grid refine coarsen lo hi cells j).1.1 h1
  obtain ⟨d, hd, h4, _⟩ := (C41_mark_grid refine coarsen lo hi cells j).2.1.1 h2
  rw [hc] at hd
  cases hd
  exact absurd (h3.trans h4) (not_le.2 h)

example : markGrid (3 : Rat) 1 0 2 0 [⟨1, 4⟩, ⟨2, 4⟩, ⟨1, 2⟩, ⟨1, 1⟩, ⟨0, 1⟩] = [(1, 0), (-1, 3)] := by decide +kernel

omit [IsStrictOrderedRing K] in
/-- C41 for `mark_grid_for_coarsening`: what is true is that cells with small errors are marked, and only for coarsening. -/
theorem C41_coarsening_partial (refine coarsen : K) (cells : List (Cell K)) (j : Nat) (mk : Int) :
    ((mk, j) ∈ markForCoarsening refine coarsen 0 cells → mk = -1) ∧
    (∀ c, cells[j]? = some c → c.error ≤ coarsen → (-1, j) ∈ markForCoarsening refine coarsen 0 cells) ∧
    (∀ c, cells[j]? = some c → coarsen < c.error → c.error < refine → (mk, j) ∉ markForCoarsening refine coarsen 0 cells) := by
  refine ⟨?_, ?_, ?_⟩
  · intro h
    obtain ⟨_, _, _, _, h, _⟩ := (mem_markForCoarsening ..).1 h
    exact h
  · intro c hc he
    exact (mem_markForCoarsening ..).2 ⟨j, c, hc, by simp, rfl, Or.inr he⟩
  · intro c hc h1 h2 h
    obtain ⟨k, d, hd, hk, _, h3⟩ := (mem_markForCoarsening ..).1 h
    rw [Nat.zero_add] at hk
    subst hk
    rw [hc] at hd
    cases hd
    rcases h3 with h3 | h3
    · exact absurd h3 (not_le.2 h2)
    · exact absurd h3 (not_le.2 h1)

omit [IsStrictOrderedRing K] in
/-- C41 is false of the code for `mark_grid_for_coarsening`: every cell with an error above the refinement threshold, i.e. the cells with the
largest errors, is marked for coarsening as well. -/
theorem C41_coarsening_false (refine coarsen : K) (cells : List (Cell K)) (j : Nat) (c : Cell K) (hc : cells[j]? = some c)
    (h : refine ≤ c.error) : (-1, j) ∈ markForCoarsening refine coarsen 0 cells :=
  (mem_markForCoarsening ..).2 ⟨j, c, hc, by simp, rfl, Or.inl h⟩

example : markForCoarsening (3 : Rat) 1 0 [⟨1, 100⟩, ⟨1, 2⟩, ⟨1, 1⟩] = [(-1, 0), (-1, 2)] := by decide +kernel

/-- C42 (acceptance): whatever happened before, a step is accepted if and only if adaptation is switched off or the estimated error is within
the allowed one. -/
theorem C42_accept (es : List (Event K)) (p : Params K) (m : Int) (a : Args K) :
    (run Strategy.init (es ++ [.evaluate p m a])).accept = true ↔ Acceptable p a := by
  unfold run
  rw [List.foldl_append]
  exact (evaluate_accept p m a _).1

/-- C42 (accumulated error): for all histories the accumulated error is the sum of the estimates of the accepted steps. -/
theorem C42_accumulated (es : List (Event K)) : (run Strategy.init es).accumulated = acceptedErrors es := by
  rw [run_accumulated]; simp [Strategy.init]

/-- C42 (no increase after a decrease): if in a history the step was decreased (`newDT() < dt`) when estimators were evaluated, no new step was
started since then, and now a step is rejected, then its size is not increased. -/
theorem C42_no_increase (es₁ es₂ : List (Event K)) (p₁ p₂ : Params K) (m₁ m₂ : Int) (a₁ a₂ : Args K)
    (hdt₁ : 0 < a₁.dt) (hinc₁ : 1 ≤ p₁.increaseFactor) (hdt₂ : 0 < a₂.dt) (hdec₂ : p₂.decreaseFactor < 1)
    (hd : (run Strategy.init (es₁ ++ [.evaluate p₁ m₁ a₁])).newDt < a₁.dt)
    (hn : ∀ e, e ∈ es₂ → e ≠ .start) (hr : ¬ Acceptable p₂ a₂) :
    (run Strategy.init (es₁ ++ [.evaluate p₁ m₁ a₁] ++ es₂ ++ [.evaluate p₂ m₂ a₂])).newDt ≤ a₂.dt := by
  have hflag : (run Strategy.init (es₁ ++ [.evaluate p₁ m₁ a₁])).haveDecreased = true := by
    revert hd
    unfold run
    rw [List.foldl_append]
    simp only [List.foldl_cons, List.foldl_nil, step]
    intro hd
    have hge : a₁.dt ≤ p₁.increaseFactor * a₁.dt := le_mul_of_one_le_left hdt₁.le hinc₁
    by_cases hr₁ : Acceptable p₁ a₁
    · rcases (evaluate_accepted p₁ m₁ a₁ _ hr₁).2 with h | h
      · rw [h] at hd; exact absurd hd (lt_irrefl _)
      · rw [h] at hd; exact absurd hd (not_lt.2 hge)
    · rcases evaluate_rejected p₁ m₁ a₁ (es₁.foldl step Strategy.init) hr₁ with h | h | h
      · exact h.2.2
      · rw [h.1] at hd; exact absurd hd (not_lt.2 hge)
      · exact h.2.2.2
  have hflag₂ : (run Strategy.init (es₁ ++ [.evaluate p₁ m₁ a₁] ++ es₂)).haveDecreased = true := by
    have := run_haveDecreased es₂ _ hn hflag
    unfold run at this ⊢
    rw [List.foldl_append]
    exact this
  unfold run at hflag₂ ⊢
  rw [List.foldl_append]
  simp only [List.foldl_cons, List.foldl_nil, step]
  rcases evaluate_rejected p₂ m₂ a₂ _ hr with h | h | h
  · rw [h.1]; exact (mul_lt_of_lt_one_left hdt₂ hdec₂).le
  · rw [hflag₂] at h; exact absurd h.2.2.1 (by simp)
  · rw [h.1]

/-- The default parameters with a tolerance of one and without energy rate. -/
def defaultParams (verbose : Int) : Params Rat := ⟨16, 1 / 2, 33333 / 100000, 1, false, 7 / 10, 2 / 10, 2 / 10, 1 / 2, 3 / 2, 0, verbose⟩

/-- A step that is rejected with dominating temporal error, and then with dominating spatial error. -/
example : (run Strategy.init [Event.evaluate (defaultParams 0) 100 ⟨1, [⟨0, 1⟩], [1], 1⟩]).newDt = (1 / 2 : Rat) ∧
    (run Strategy.init [.evaluate (defaultParams 0) 100 ⟨1, [⟨0, 1⟩], [1], 1⟩,
      .evaluate (defaultParams 0) 100 ⟨1 / 2, [⟨0, 8⟩], [0], 1⟩]).newDt = (1 / 2 : Rat) ∧
    (run Strategy.init [.evaluate (defaultParams 0) 100 ⟨1 / 2, [⟨0, 8⟩], [0], 1⟩]).newDt = (3 / 4 : Rat) := by decide +kernel

/-- C77 is false of the code: with verbosity 1 a cell on level 1 with a small error is not marked for coarsening when the grid is refined,
since the verbosity is passed as the minimal level. -/
theorem C77_verbosity_false :
    (evaluate (defaultParams 0) 100 ⟨1, [⟨1, 8⟩, ⟨1, 8⟩, ⟨1, 1⟩], [0], 1⟩ Strategy.init).marks ≠
    (evaluate (defaultParams 1) 100 ⟨1, [⟨1, 8⟩, ⟨1, 8⟩, ⟨1, 1⟩], [0], 1⟩ Strategy.init).marks := by decide +kernel

omit [IsStrictOrderedRing K] in
/-- C77, what is true: everything else does not depend on the verbosity, nor do the marks for refinement. -/
theorem C77_verbosity_partial (p : Params K) (v : Int) (m : Int) (a : Args K) (s : Strategy K) (j : Nat) :
    (evaluate { p with verbose := v } m a s).accept = (evaluate p m a s).accept ∧
    (evaluate { p with verbose := v } m a s).newDt = (evaluate p m a s).newDt ∧
    (evaluate { p with verbose := v } m a s).adaptDt = (evaluate p m a s).adaptDt ∧
    (evaluate { p with verbose := v } m a s).adaptGrid = (evaluate p m a s).adaptGrid ∧
    (evaluate { p with verbose := v } m a s).accumulated = (evaluate p m a s).accumulated ∧
    ((1, j) ∈ (evaluate { p with verbose := v } m a s).marks ↔ (1, j) ∈ (evaluate p m a s).marks) := by
  unfold evaluate
  dsimp only
  refine ⟨?_, ?_, ?_, ?_, ?_, ?_⟩
  iterate 5 (split <;> [rfl; (split <;> [rfl; (split <;> [rfl; (split <;> rfl)])])])
  split
  · exact Iff.rfl
  · split
    · exact Iff.rfl
    · split
      · exact Iff.rfl
      · dsimp only
        rw [(C41_mark_grid ..).1, (C41_mark_grid ..).1]

end Verif
