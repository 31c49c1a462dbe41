import Verif.Proofs.NewtonConvergence
import Mathlib.Tactic.FieldSimp
import Mathlib.Tactic.Positivity
/-
Local convergence of the Newton solver that always reassembles, with the linear reductions it requests.
-/
namespace Verif.Newton

open Spec

variable {K X : Type} [Field K] [LinearOrder K] [IsStrictOrderedRing K] [AddCommGroup X] [Module K X]

/-- The requested linear reduction: positive, and at most the larger of the least wanted one and a tenth. -/
theorem linearReduction_range (q : Params K) (r : Result K) (f d p : K) (hf : r.firstDefect = some f) (hd : r.defect = some d) (hpos : 0 < d)
    (hp : 0 < p) (habs : 0 < q.absoluteLimit) (h1 : q.absoluteLimit ≤ d) (h2 : f * q.reduction ≤ d) (hmin : 0 < q.minLinearReduction) :
    ∃ l, linearReduction q r (some p) = some l ∧ 0 < l ∧ l ≤ max q.minLinearReduction (1 / 10) := by
  unfold linearReduction
  split
  · rw [hf, hd]
    dsimp only
    have hstop : 0 < max (f * q.reduction) q.absoluteLimit := lt_max_of_lt_right habs
    have hle : max (f * q.reduction) q.absoluteLimit ≤ d := max_le h2 h1
    refine ⟨_, rfl, lt_max_of_lt_left (by positivity), max_le ?_ ?_⟩
    · refine le_trans ?_ (le_max_right _ _)
      rw [div_le_div_iff₀ (by positivity) (by norm_num)]
      linarith
    · exact le_trans (min_le_left _ _) (le_max_left _ _)
  · exact ⟨_, rfl, hmin, le_max_left _ _⟩

theorem loop_local (P : Problem K X) (q : Params K) (hforce : q.forceIteration = false) (habs : 0 < q.absoluteLimit)
    (hthr : q.reassembleThreshold = 0) (hmin : 0 < q.minLinearReduction)
    (hn : ∀ n e b, q.lineSearch = .hackbuschReusken n e b → 0 < n) (hok : ∀ y, P.jacobianOk y = true) (f : K) (b : Nat → K)
    (hstep : ∀ i y d r, P.defect y = some d → q.absoluteLimit ≤ d → d ≤ b i → 0 < r → r ≤ max q.minLinearReduction (1 / 10) →
      (P.solve (some y) y (some r)).1 = true ∧
      ∃ d', P.defect (y - (P.solve (some y) y (some r)).2.1) = some d' ∧ d' ≤ 3 / 4 * d ∧ d' ≤ b (i + 1))
    (k : Nat) (hk : k ≤ q.maxIterations) (hcrit : b k < q.absoluteLimit ∨ b k < f * q.reduction) :
    ∀ (n : Nat) (s : State K X) (d p : K), s.result.defect = P.defect s.solution → P.defect s.solution = some d →
      s.result.firstDefect = some f → d ≤ b s.result.iterations → s.result.iterations ≤ k → k + 1 ≤ n + s.result.iterations →
      s.previousDefect = some p → (0 < d → 0 < p) →
      (loop P q n s).2 = none ∧ (loop P q n s).1.result.iterations ≤ k ∧ ∃ d', P.defect (loop P q n s).1.solution = some d' ∧
        d' ≤ b (loop P q n s).1.result.iterations
  | 0, s, d, p, _, _, _, _, hi, hfuel, _, _ => by omega
  | n + 1, s, d, p, hdef, hd, hf, hle, hi, hfuel, hprev, hp => by
    unfold loop
    by_cases hc : Criterion q s.result.firstDefect s.result.defect
    · rw [terminate_yes q s.result hforce hc]
      exact ⟨rfl, hi, d, hd, hle⟩
    · have hlt : s.result.iterations < k := by
        by_contra hge
        have e : s.result.iterations = k := by omega
        apply hc
        rw [hf, hdef, hd]
        rw [e] at hle
        rcases hcrit with h | h
        · exact Or.inl ⟨d, _, rfl, rfl, lt_of_le_of_lt hle h⟩
        · exact Or.inr ⟨d, _, rfl, rfl, lt_of_le_of_lt hle h⟩
      have h1 : q.absoluteLimit ≤ d := by
        by_contra h0
        apply hc
        left
        rw [hdef, hd]
        exact ⟨d, _, rfl, rfl, not_le.mp h0⟩
      have h2 : f * q.reduction ≤ d := by
        by_contra h0
        apply hc
        right
        rw [hdef, hd, hf]
        exact ⟨d, _, rfl, rfl, not_le.mp h0⟩
      have hpos : 0 < d := lt_of_lt_of_le habs h1
      have hp' := hp hpos
      rw [terminate_no q s.result hforce hc (by omega)]
      dsimp only
      have hr : ratioGt s.result.defect s.previousDefect q.reassembleThreshold = true := by
        rw [hdef, hd, hprev]
        unfold ratioGt
        dsimp only
        rw [if_neg hp'.ne', hthr]
        exact decide_eq_true (div_pos hpos hp')
      have hprep : prepareStep P q { s with result := { s.result with converged := false } } =
          .ok { s with result := { s.result with converged := false }, jacobian := some (some s.solution), log := s.log ++ [.assemble s.solution] } := by
        unfold prepareStep
        dsimp only
        rw [hr, if_pos rfl, if_pos (hok _)]
      rw [hprep]
      dsimp only
      rw [Option.getD_some, hprev]
      obtain ⟨l, hl, hl1, hl2⟩ := linearReduction_range q { s.result with converged := false } f d p hf (by rw [← hd, ← hdef]) hpos hp' habs h1 h2 hmin
      rw [hl]
      obtain ⟨hs1, d', hs2, hs3, hs4⟩ := hstep s.result.iterations s.solution d l hd h1 hle hl1 hl2
      rw [if_neg (by rw [hs1]; simp)]
      have hfs := full_step P q s.solution _ d d' hd hs2 hs3 hn
      rw [hdef, hfs]
      dsimp only
      exact loop_local P q hforce habs hthr hmin hn hok f b hstep k hk hcrit n _ d' d hs2.symm hs2 hf hs4 hlt (by dsimp only; omega) hd
        (fun _ => hpos)

theorem apply_local (P : Problem K X) (q : Params K) (hforce : q.forceIteration = false) (habs : 0 < q.absoluteLimit)
    (hthr : q.reassembleThreshold = 0) (hmin : 0 < q.minLinearReduction)
    (hn : ∀ n e b, q.lineSearch = .hackbuschReusken n e b → 0 < n) (hok : ∀ y, P.jacobianOk y = true) (b : Nat → K)
    (hstep : ∀ i y d r, P.defect y = some d → q.absoluteLimit ≤ d → d ≤ b i → 0 < r → r ≤ max q.minLinearReduction (1 / 10) →
      (P.solve (some y) y (some r)).1 = true ∧
      ∃ d', P.defect (y - (P.solve (some y) y (some r)).2.1) = some d' ∧ d' ≤ 3 / 4 * d ∧ d' ≤ b (i + 1))
    (kept : Option (Option X)) (x : X) (f : K) (hf : P.defect x = some f) (hb : f ≤ b 0)
    (k : Nat) (hk : k ≤ q.maxIterations) (hcrit : b k < q.absoluteLimit ∨ b k < f * q.reduction) :
    (apply P q kept x).2 = none ∧ (apply P q kept x).1.result.iterations ≤ k ∧ ∃ d', P.defect (apply P q kept x).1.solution = some d' ∧
        d' ≤ b (apply P q kept x).1.result.iterations := by
  have h := loop_local P q hforce habs hthr hmin hn hok f b hstep k hk hcrit (q.maxIterations + 2)
    ⟨x, { Result.clear with defect := P.defect x, firstDefect := P.defect x }, P.defect x, kept.orElse fun _ => some none, []⟩ f f rfl hf hf
    hb (Nat.zero_le _) (by dsimp only [Result.clear]; omega) hf id
  unfold apply
  dsimp only
  split
  · split
    · exact h
    · exact ⟨rfl, h.2⟩
  · exact h

end Verif.Newton
