import Verif.Proofs.Newton
import Mathlib.Tactic.NormNum
import Mathlib.Tactic.Ring
import Mathlib.Tactic.Linarith
/-
The Newton solver converges if full steps reduce the defect.
-/
namespace Verif.Newton

open Spec

variable {K X : Type} [Field K] [LinearOrder K] [IsStrictOrderedRing K] [AddCommGroup X] [Module K X]

omit [IsStrictOrderedRing K] in
theorem terminate_yes (q : Params K) (r : Result K) (hforce : q.forceIteration = false) (h : Criterion q r.firstDefect r.defect) :
    terminate q r = ({ r with converged := true }, .ok true) := by
  unfold terminate
  rw [if_neg (by rw [hforce]; simp)]
  have e : (ltF r.defect (some q.absoluteLimit) || ltF r.defect (r.firstDefect.map (· * q.reduction))) = true := by
    rw [Bool.or_eq_true, ltF_iff, ltF_iff]
    exact h
  dsimp only
  rw [e]
  simp

omit [IsStrictOrderedRing K] in
theorem terminate_no (q : Params K) (r : Result K) (hforce : q.forceIteration = false) (h : ¬ Criterion q r.firstDefect r.defect)
    (hi : r.iterations < q.maxIterations) : terminate q r = ({ r with converged := false }, .ok false) := by
  unfold terminate
  rw [if_neg (by rw [hforce]; simp)]
  have e : (ltF r.defect (some q.absoluteLimit) || ltF r.defect (r.firstDefect.map (· * q.reduction))) = false := by
    rw [Bool.eq_false_iff, Ne, Bool.or_eq_true, ltF_iff, ltF_iff]
    exact h
  dsimp only
  rw [e, if_neg (by simp; omega)]

omit [IsStrictOrderedRing K] [AddCommGroup X] [Module K X] in
/-- The Jacobian is there, or will be assembled now. -/
theorem prepareStep_ready (P : Problem K X) (q : Params K) (s : State K X) (hok : ∀ y, P.jacobianOk y = true)
    (h : (∃ z, s.jacobian = some (some z)) ∨ ratioGt s.result.defect s.previousDefect q.reassembleThreshold = true) :
    ∃ z l, prepareStep P q s = .ok { s with jacobian := some (some z), log := l } := by
  unfold prepareStep
  by_cases hr : ratioGt s.result.defect s.previousDefect q.reassembleThreshold = true
  · rw [if_pos hr, if_pos (hok _)]
    exact ⟨_, _, rfl⟩
  · rw [if_neg hr]
    rcases h with ⟨z, h⟩ | h
    · exact ⟨z, s.log, by rw [← h]⟩
    · exact absurd h hr

/-- A full step that reduces the defect to three quarters is taken by every line search. -/
theorem full_step (P : Problem K X) (q : Params K) (x c : X) (d d' : K) (hd : P.defect x = some d) (hd' : P.defect (x - c) = some d')
    (hle : d' ≤ 3 / 4 * d) (hn : ∀ n e b, q.lineSearch = .hackbuschReusken n e b → 0 < n) :
    lineSearch P q ⟨x, P.defect x⟩ c = (⟨x - c, some d'⟩, none) := by
  have hu : update P (x - (1 : K) • c) = ⟨x - c, some d'⟩ := by
    unfold update
    rw [one_smul, hd']
  unfold lineSearch
  split
  · rw [hu]
  · rename_i n e b hls
    obtain ⟨m, rfl⟩ : ∃ m, n = m + 1 := ⟨n - 1, by have := hn n e b hls; omega⟩
    unfold hackbuschReusken
    dsimp only
    rw [hu]
    split
    · rfl
    · have : hrLoop P c e ⟨x, P.defect x⟩ (m + 1) ⟨⟨x, P.defect x⟩, 1, 0, P.defect x, false⟩ =
          ⟨⟨x - c, some d'⟩, 1, 0, P.defect x, true⟩ := by
        unfold hrLoop
        dsimp only
        rw [hu, hd]
        have : leF (some d') (Option.map (fun d => (1 - 1 / 4) * d) (some d)) = true := by
          rw [leF_iff]
          refine ⟨d', _, rfl, rfl, ?_⟩
          have e : (1 - 1 / 4 : K) = 3 / 4 := by norm_num
          rw [e]
          exact hle
        rw [if_pos this]
      rw [this]
      rfl

theorem loop_converges (P : Problem K X) (q : Params K) (hforce : q.forceIteration = false) (habs : 0 < q.absoluteLimit)
    (hn : ∀ n e b, q.lineSearch = .hackbuschReusken n e b → 0 < n) (hok : ∀ y, P.jacobianOk y = true) (rho : K) (h0 : 0 ≤ rho)
    (h34 : rho ≤ 3 / 4) (hstep : ∀ z y red d, P.defect y = some d → (P.solve (some z) y red).1 = true ∧
      ∃ d', P.defect (y - (P.solve (some z) y red).2.1) = some d' ∧ d' ≤ rho * d)
    (f : K) (k : Nat) (hk : k ≤ q.maxIterations) (hcrit : rho ^ k * f < q.absoluteLimit ∨ rho ^ k * f < f * q.reduction) :
    ∀ (n : Nat) (s : State K X) (d : K), s.result.defect = P.defect s.solution → P.defect s.solution = some d →
      s.result.firstDefect = some f → d ≤ rho ^ s.result.iterations * f → s.result.iterations ≤ k → k + 1 ≤ n + s.result.iterations →
      ((∃ z, s.jacobian = some (some z)) ∨ (0 < d → ratioGt (some d) s.previousDefect q.reassembleThreshold = true)) →
      (loop P q n s).2 = none ∧ (loop P q n s).1.result.iterations ≤ k ∧ ∃ d', P.defect (loop P q n s).1.solution = some d' ∧
        d' ≤ rho ^ (loop P q n s).1.result.iterations * f
  | 0, s, d, _, _, _, _, hi, hfuel, _ => by omega
  | n + 1, s, d, hdef, hd, hf, hle, hi, hfuel, hj => by
    unfold loop
    by_cases hc : Criterion q s.result.firstDefect s.result.defect
    · rw [terminate_yes q s.result hforce hc]
      exact ⟨rfl, hi, d, hd, hle⟩
    · have hlt : s.result.iterations < k := by
        by_contra hge
        have e : s.result.iterations = k := by omega
        apply hc
        rw [hf, hdef, hd]
        rw [e] at hle
        rcases hcrit with h | h
        · exact Or.inl ⟨d, _, rfl, rfl, lt_of_le_of_lt hle h⟩
        · exact Or.inr ⟨d, _, rfl, rfl, lt_of_le_of_lt hle h⟩
      have hpos : 0 < d := by
        by_contra hd0
        apply hc
        left
        rw [hdef, hd]
        exact ⟨d, _, rfl, rfl, by linarith⟩
      rw [terminate_no q s.result hforce hc (by omega)]
      dsimp only
      obtain ⟨z, l, hp⟩ := prepareStep_ready P q { s with result := { s.result with converged := false } } hok (by
        rcases hj with hj | hj
        · exact Or.inl hj
        · right
          dsimp only
          rw [hdef, hd]
          exact hj hpos)
      rw [hp]
      dsimp only
      rw [Option.getD_some]
      generalize linearReduction q _ s.previousDefect = red
      obtain ⟨hs1, d', hs2, hs3⟩ := hstep z s.solution red d hd
      rw [if_neg (by rw [hs1]; simp)]
      have hfs := full_step P q s.solution _ d d' hd hs2 (le_trans hs3 (mul_le_mul_of_nonneg_right h34 hpos.le)) hn
      rw [hdef, hfs]
      dsimp only
      refine loop_converges P q hforce habs hn hok rho h0 h34 hstep f k hk hcrit n _ d' hs2.symm hs2 hf ?_ hlt (by dsimp only; omega)
        (Or.inl ⟨z, rfl⟩)
      dsimp only
      refine le_trans hs3 ?_
      rw [pow_succ, mul_comm (rho ^ _) rho, mul_assoc]
      exact mul_le_mul_of_nonneg_left hle h0

end Verif.Newton
