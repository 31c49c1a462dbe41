import Verif.Model.NewtonSolve
import Verif.Spec.NewtonSolve
import Verif.Proofs.ConstrainedSolve
import Verif.Proofs.NewtonConvergence
import Mathlib.Algebra.Order.BigOperators.Ring.Finset
import Mathlib.Algebra.Order.Chebyshev
/-
What stays true along the iterates of Newton's method, and the error bound by the residual.
-/
namespace Verif.NewtonSolve
open Constraints Assembly ConstrainedSolve Newton Newton.Spec

section Loop
variable {K X : Type} [Field K] [LinearOrder K] [IsStrictOrderedRing K] [AddCommGroup X] [Module K X]

omit [IsStrictOrderedRing K] in
theorem hrLoop_along (P : Problem K X) (c : X) (damping : K) (prev : LS K X) : ∀ (n : Nat) (s : HR K X),
    s.cur.solution = prev.solution → ∃ l : K, (hrLoop P c damping prev n s).cur.solution = prev.solution - l • c
  | 0, s, h => ⟨0, by rw [zero_smul, sub_zero]; exact h⟩
  | n + 1, s, h => by
    unfold hrLoop
    dsimp only
    split
    · exact ⟨s.lambda, by show s.cur.solution - _ = _; rw [h]⟩
    · exact hrLoop_along P c damping prev n _ rfl

omit [IsStrictOrderedRing K] in
/-- The line search moves the solution along the correction. -/
theorem lineSearch_along (P : Problem K X) (q : Params K) (cur : LS K X) (c : X) :
    ∃ l : K, (lineSearch P q cur c).1.solution = cur.solution - l • c := by
  unfold lineSearch
  split
  · exact ⟨1, rfl⟩
  · rename_i n d b e
    unfold hackbuschReusken
    dsimp only
    obtain ⟨l, hl⟩ := hrLoop_along P c d cur n ⟨cur, 1, 0, cur.defect, false⟩ rfl
    split
    · exact ⟨1, rfl⟩
    · split
      · exact ⟨l, hl⟩
      · split
        · exact ⟨0, by rw [zero_smul, sub_zero]; rfl⟩
        · split
          · exact ⟨0, by rw [zero_smul, sub_zero]; rfl⟩
          · split
            · exact ⟨_, rfl⟩
            · exact ⟨l, hl⟩

omit [IsStrictOrderedRing K] in
theorem terminate_stop (q : Params K) (r : Result K) (hforce : q.forceIteration = false) (h : ¬ Criterion q r.firstDefect r.defect)
    (hi : q.maxIterations ≤ r.iterations) : terminate q r = ({ r with converged := false }, .error .terminate) := by
  unfold terminate
  rw [if_neg (by rw [hforce]; simp)]
  have e : (ltF r.defect (some q.absoluteLimit) || ltF r.defect (r.firstDefect.map (· * q.reduction))) = false := by
    rw [Bool.eq_false_iff, Ne, Bool.or_eq_true, ltF_iff, ltF_iff]
    exact h
  dsimp only
  rw [e, if_pos ⟨hi, rfl⟩]

omit [IsStrictOrderedRing K] in
/-- What multiples of the corrections preserve holds for the final solution, with or without exception. -/
theorem loop_keeps (P : Problem K X) (q : Params K) (hforce : q.forceIteration = false) (habs : 0 < q.absoluteLimit)
    (hok : ∀ y, P.jacobianOk y = true) (Q : X → Prop)
    (hstep : ∀ z y red, Q y → (P.solve (some z) y red).1 = true → ∀ l : K, Q (y - l • (P.solve (some z) y red).2.1)) :
    ∀ (n : Nat) (s : State K X), Q s.solution →
      ((∃ z, s.jacobian = some (some z)) ∨ ∃ d, s.result.defect = some d ∧
        (0 < d → ratioGt (some d) s.previousDefect q.reassembleThreshold = true)) →
      Q (loop P q n s).1.solution
  | 0, s, h, _ => h
  | n + 1, s, h, hj => by
    unfold loop
    by_cases hc : Criterion q s.result.firstDefect s.result.defect
    · rw [terminate_yes q s.result hforce hc]
      exact h
    · by_cases hi : s.result.iterations < q.maxIterations
      · rw [terminate_no q s.result hforce hc hi]
        dsimp only
        obtain ⟨z, l, hp⟩ := prepareStep_ready P q { s with result := { s.result with converged := false } } hok (by
          rcases hj with hj | ⟨d, hd, hj⟩
          · exact Or.inl hj
          · right
            dsimp only
            rw [hd]
            apply hj
            by_contra h0
            apply hc
            left
            exact ⟨d, _, hd, rfl, lt_of_le_of_lt (not_lt.mp h0) habs⟩)
        rw [hp]
        dsimp only
        rw [Option.getD_some]
        generalize linearReduction q _ s.previousDefect = red
        by_cases hs : (P.solve (some z) s.solution red).1 = false
        · rw [if_pos hs]
          exact h
        · rw [if_neg hs]
          obtain ⟨l, hl⟩ := lineSearch_along P q ⟨s.solution, s.result.defect⟩ (P.solve (some z) s.solution red).2.1
          have hQ : Q (lineSearch P q ⟨s.solution, s.result.defect⟩ (P.solve (some z) s.solution red).2.1).1.solution := by
            rw [hl]
            exact hstep z s.solution red h (by simpa using hs) l
          split
          · exact hQ
          · exact loop_keeps P q hforce habs hok Q hstep n _ hQ (Or.inl ⟨z, rfl⟩)
      · rw [terminate_stop q s.result hforce hc (not_lt.mp hi)]
        exact h

omit [IsStrictOrderedRing K] in
/-- The same for what all corrections preserve, with any parameters. -/
theorem loop_keeps_always (P : Problem K X) (q : Params K) (Q : X → Prop)
    (hstep : ∀ z y red, Q y → ∀ l : K, Q (y - l • (P.solve z y red).2.1)) :
    ∀ (n : Nat) (s : State K X), Q s.solution → Q (loop P q n s).1.solution
  | 0, s, h => h
  | n + 1, s, h => by
    unfold loop
    dsimp only
    split
    · exact h
    · exact h
    · split
      · rename_i s' hp
        rw [(prepareStep_fields P q _ s' (Or.inr hp)).1]
        exact h
      · rename_i s' hp
        have hs' : s'.solution = s.solution := (prepareStep_fields P q _ s' (Or.inl hp)).1
        split
        · show Q s'.solution
          rw [hs']
          exact h
        · have hQ : ∀ d red, Q (lineSearch P q ⟨s'.solution, d⟩ (P.solve (s'.jacobian.getD none) s'.solution red).2.1).1.solution := by
            intro d red
            obtain ⟨l, hl⟩ := lineSearch_along P q ⟨s'.solution, d⟩ (P.solve (s'.jacobian.getD none) s'.solution red).2.1
            rw [hl]
            exact hstep _ _ red (by rw [hs']; exact h) l
          split
          · exact hQ _ _
          · exact loop_keeps_always P q Q hstep n _ (hQ _ _)

omit [IsStrictOrderedRing K] in
theorem apply_keeps_always (P : Problem K X) (q : Params K) (Q : X → Prop)
    (hstep : ∀ z y red, Q y → ∀ l : K, Q (y - l • (P.solve z y red).2.1)) (kept : Option (Option X)) (x : X) (hx : Q x) :
    Q (apply P q kept x).1.solution := by
  have h := loop_keeps_always P q Q hstep (q.maxIterations + 2)
    ⟨x, { Result.clear with defect := P.defect x, firstDefect := P.defect x }, P.defect x, kept.orElse fun _ => some none, []⟩ hx
  unfold apply
  dsimp only
  split
  · split
    · exact h
    · exact h
  · exact h

theorem apply_keeps (P : Problem K X) (q : Params K) (hforce : q.forceIteration = false) (habs : 0 < q.absoluteLimit)
    (hthr : q.reassembleThreshold < 1) (hok : ∀ y, P.jacobianOk y = true) (Q : X → Prop)
    (hstep : ∀ z y red, Q y → (P.solve (some z) y red).1 = true → ∀ l : K, Q (y - l • (P.solve (some z) y red).2.1))
    (kept : Option (Option X)) (x : X) (d : K) (hd : P.defect x = some d) (hx : Q x) : Q (apply P q kept x).1.solution := by
  have h := loop_keeps P q hforce habs hok Q hstep (q.maxIterations + 2)
    ⟨x, { Result.clear with defect := P.defect x, firstDefect := P.defect x }, P.defect x, kept.orElse fun _ => some none, []⟩ hx
    (Or.inr ⟨d, hd, fun hpos => by
      dsimp only
      rw [hd]
      unfold ratioGt
      dsimp only
      rw [if_neg hpos.ne', div_self hpos.ne']
      exact decide_eq_true hthr⟩)
  unfold apply
  dsimp only
  split
  · split
    · exact h
    · exact h
  · exact h

end Loop

section Problem
variable {I F : Type} [DecidableEq I] [Field F] [LinearOrder F] [Fintype I]

theorem dirichlet_conforming {t : Trafo I F} (hdir : ∀ k row, (k, row) ∈ t.rows → row = []) (x : I → F) : Conforming t x :=
  fun k row hm hn => absurd (hdir k row hm) hn

theorem problem_ok {t : Trafo I F} (h : Admissible t) (symmetric : Bool) (ci0 : Nat → I) (pattern : List (PatternPart I))
    (parts : List (Part I F)) (hp : PatternFits t pattern parts) (norm : (I → F) → F)
    (solve : Matrix I F → (I → F) → Option F → Bool × (I → F) × Nat) (unassembled : (I → F) → Option F → Bool × (I → F) × Nat)
    (y : I → F) : (problem t symmetric ci0 pattern parts norm solve unassembled).jacobianOk y = true := by
  obtain ⟨m, hm, _⟩ := jacobian_rows h symmetric ci0 pattern parts hp y
  show (jacobian t symmetric ci0 pattern parts y).isSome = true
  rw [hm]
  rfl

/-- The system with the assembled Jacobian has a solution. -/
theorem solvable {t : Trafo I F} (h : Admissible t) (symmetric : Bool) (ci0 : Nat → I) (pattern : List (PatternPart I))
    (parts : List (Part I F)) (hp : PatternFits t pattern parts) (A : Part I F → Nat → Nat → F) (b : Part I F → Nat → F)
    (ha : ∀ p ∈ parts, Affine p (A p) (b p)) (hreg : Regular t parts) (x r : I → F) :
    ∃ m, jacobian t symmetric ci0 pattern parts x = some m ∧ ∃ z : I → F, ∀ i, ∑ c, m.val i c * z c = r i := by
  obtain ⟨m, hm, hc, hf⟩ := jacobian_rows h symmetric ci0 pattern parts hp x
  refine ⟨m, hm, ?_⟩
  have hrow : ∀ (z : I → F) k, t.Constrained k → ∑ c, m.val k c * z c = z k := by
    intro z k hk
    simp [hc k hk]
  have hfree : ∀ (z : I → F), (∀ k, t.Constrained k → z k = 0) → ∀ r, ¬ t.Constrained r →
      ∑ c, m.val r c * z c = pair parts (fun k => testWeight t k r) (localProduct A (backTransform t false z)) := by
    intro z hz r hr
    rw [← jacobian_row h symmetric parts x A (fun p hp => (ha p hp _).1) z hz r]
    exact Finset.sum_congr rfl fun c _ => by rw [hf r hr]
  have hinj : ∀ z : I → F, (∀ i, ∑ c, m.val i c * z c = 0) → z = 0 := by
    intro z hz
    have hzc : ∀ k, t.Constrained k → z k = 0 := fun k hk => by rw [← hrow z k hk]; exact hz k
    have hy : Homogeneous t (backTransform t false z) :=
      ⟨back_conforming h z fun k hk => hzc k (linear_constrained hk),
        fun k hk => by rw [(back_spec h z).1 k (not_linear_of_dirichlet h hk)]; exact hzc k ⟨_, hk⟩⟩
    have h0 := hreg _ hy (fun w hw => by
      rw [bilinear_affine parts A b ha, pair_homogeneous h parts w hw _ (fun _ => 0)
        (fun r hr => by rw [← hfree z hzc r hr, hz r])]
      simp)
    funext k
    by_cases hk : Linear t k
    · exact hzc k (linear_constrained hk)
    · rw [← (back_spec h z).1 k hk]; exact h0 k
  let f : (I → F) →ₗ[F] (I → F) := Matrix.mulVecLin (Matrix.of m.val)
  have happ : ∀ z i, f z i = ∑ c, m.val i c * z c := fun z i => rfl
  have hfi : Function.Injective f := by
    rw [← LinearMap.ker_eq_bot, LinearMap.ker_eq_bot']
    intro z hz
    exact hinj z fun i => by rw [← happ, hz]; rfl
  obtain ⟨z, hz⟩ := LinearMap.injective_iff_surjective.mp hfi r
  exact ⟨z, fun i => by rw [← happ, hz]⟩

/-- The distance to the solution is bounded by the residual. -/
theorem error_bound [IsStrictOrderedRing F] {t : Trafo I F} (h : Admissible t)
    (parts : List (Part I F)) (alpha : F) (ha : 0 < alpha) (hm : StronglyMonotone t parts alpha) (norm : (I → F) → F)
    (hn : TwoNorm t norm) (x y : I → F) (hx : Conforming t x) (hy : Galerkin t parts y) (hd : ∀ k, t.Dirichlet k → x k = y k) :
    alpha * norm (fun k => x k - y k) ≤ norm (residual t parts x) := by
  have hw : Homogeneous t fun k => x k - y k := ⟨conforming_sub hx hy.1, fun k hk => by simp only [hd k hk, sub_self]⟩
  have h1 := hm x y hx hy.1 hd
  rw [hy.2 _ hw, form_residual h parts x _ hw, sub_zero] at h1
  have h2 := Finset.sum_mul_sq_le_sq_mul_sq Finset.univ (fun k => x k - y k) (residual t parts x)
  obtain ⟨h3, h4⟩ := hn (fun k => x k - y k) fun k hk => by simp only [hd k hk, sub_self]
  obtain ⟨h5, h6⟩ := hn (residual t parts x) fun k hk => residual_constrained t parts x k ⟨_, hk⟩
  generalize norm (fun k => x k - y k) = e at *
  generalize norm (residual t parts x) = d at *
  rw [← h4, ← h6, ← mul_pow] at h2
  rw [← h4] at h1
  have h7 := abs_le_of_sq_le_sq h2 (mul_nonneg h3 h5)
  have h8 : alpha * e ^ 2 ≤ e * d := le_trans h1 (le_trans (le_abs_self _) h7)
  by_cases he : e = 0
  · rw [he, mul_zero]; exact h5
  · have hpos : 0 < e := lt_of_le_of_ne h3 (Ne.symm he)
    have : e * (alpha * e) ≤ e * d := by linarith [show e * (alpha * e) = alpha * e ^ 2 by ring]
    exact le_of_mul_le_mul_left this hpos

end Problem

end Verif.NewtonSolve
