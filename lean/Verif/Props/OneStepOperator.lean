import Verif.Proofs.OneStepOperator
import Verif.Proofs.OneStepParams
import Mathlib.Algebra.Module.LinearMap.Basic
import Mathlib.Tactic.Linarith
import Mathlib.Algebra.Module.Rat
/-
C23, C24, C65, C66: the instationary grid operator.
-/
namespace Verif
open OneStep Finset

variable {K X V : Type} [Field K] [LinearOrder K] [IsStrictOrderedRing K] [AddCommGroup V] [Module K V]

theorem tiny_smul (c f : K) (v : V) (h : c = 0 ∨ |c| > 1 / 1000000) :
    (if |c| > threshold then (c * f) • v else 0) = (c * f) • v := by
  unfold threshold
  rcases h with rfl | h
  · simp
  · rw [if_pos h]

theorem preStage_const (P : Setting K) (R0 R1 : Op K X V) (x : Nat → X) (trace : List (Kind × Nat)) (st : St K X V)
    (ht : NoTinyCoefficients P.scheme P.stage) :
    (preStage P true R0 R1 x trace st).res0 = ∑ s ∈ range P.stage,
      ((P.scheme.a P.stage s * P.factor1) • form R1 trace (P.time + P.scheme.d s * P.dt) (x s) +
       (P.scheme.b P.stage s * P.factor0) • form R0 trace (P.time + P.scheme.d s * P.dt) (x s)) := by
  unfold preStage
  rw [(preStageFold_res P true R0 R1 x trace _).1]
  simp only [if_true, List.sum_map_add, zero_add]
  rw [sum_pre0, sum_pre1, ← sum_add_distrib]
  refine sum_congr rfl fun s hs => ?_
  have h := ht s (by have := mem_range.mp hs; omega)
  rw [tiny_smul _ _ _ h.1, tiny_smul _ _ _ h.2, add_comm]

theorem form_forwards (R1 : Op K X V) (hp : NoPostSkeleton R1) :
    (fun k e t x => if forwards1 k then R1 k e t x else 0) = R1 := by
  funext k e t x
  cases k
  case uvPost => simp [forwards1, hp .uvPost e t x (Or.inl rfl)]
  case vPost => simp [forwards1, hp .vPost e t x (Or.inr rfl)]
  all_goals simp [forwards1]

/-- **C23.** For a scheme whose nonzero coefficients are not tiny (and `a_rr = 1`), and a temporal operator without volume terms
after the skeleton: `preStage` with the old stages followed by `residual` with a candidate for the new stage computes, for
every pair of operators, every traversal and every mode, the formula of the scheme. -/
theorem C23_residual_is_scheme_formula_partial (P : Setting K) (R0 R1 : Op K X V) (x : Nat → X) (trace : List (Kind × Nat))
    (st : St K X V) (r : V) (ha : P.scheme.a P.stage P.stage = 1) (ht : NoTinyCoefficients P.scheme P.stage)
    (hp : NoPostSkeleton R1) :
    residual P R0 R1 (preStage P true R0 R1 x trace st).res0 trace (x P.stage) r = r + schemeResidual P R0 R1 trace x := by
  unfold residual schemeResidual
  dsimp only
  rw [baseFold_res, preStage_const P R0 R1 x trace st ht, sum_range_succ, factors_eq, ha, one_mul,
    form_forwards R1 hp]
  have hb := (ht P.stage (le_refl _)).2
  simp only [stageState, decide_eq_true_eq]
  rw [tiny_smul _ _ _ hb]
  abel

/-- **C23 for the built-in schemes.** All coefficients of the built-in schemes are above the threshold (the one-step theta
scheme if theta is not within 10^-6 of 0 or 1, or equal to them), and `a_rr = 1`. -/
theorem C23_builtin_schemes (theta r alpha : K) (ht0 : theta = 0 ∨ theta > 1 / 1000000)
    (ht1 : theta = 1 ∨ 1 - theta > 1 / 1000000) (hr1 : 141/100 < r) (hr2 : r < 142/100) (ha1 : 43/100 < alpha)
    (ha2 : alpha < 44/100) :
    ∀ S ∈ [oneStepTheta theta, explicitEuler, implicitEuler, heun, shu3, rk4, alexander2 r, fractionalStep r,
      alexander3 alpha], ∀ k, 1 ≤ k → k ≤ S.s → S.a k k = 1 ∧ NoTinyCoefficients S k := by
  have pos : ∀ c : K, c > 1 / 1000000 → (c = 0 ∨ |c| > 1 / 1000000) := fun c h =>
    Or.inr (lt_of_lt_of_le h (le_abs_self c))
  have neg : ∀ c : K, -c > 1 / 1000000 → (c = 0 ∨ |c| > 1 / 1000000) := fun c h =>
    Or.inr (lt_of_lt_of_le h (neg_le_abs c))
  have p1 : ((1 : K) = 0 ∨ |(1 : K)| > 1 / 1000000) := pos 1 (by norm_num)
  have n1 : ((-1 : K) = 0 ∨ |(-1 : K)| > 1 / 1000000) := neg _ (by norm_num)
  have z0 : ((0 : K) = 0 ∨ |(0 : K)| > 1 / 1000000) := Or.inl rfl
  intro S hS k h1 hk
  simp only [List.mem_cons, List.not_mem_nil, or_false] at hS
  rcases hS with rfl | rfl | rfl | rfl | rfl | rfl | rfl | rfl | rfl
  · simp only [oneStepTheta] at hk
    interval_cases k
    refine ⟨by simp [Scheme.a, oneStepTheta], fun s hs => ?_⟩
    interval_cases s
    · refine ⟨by simpa [Scheme.a, oneStepTheta] using n1, ?_⟩
      rcases ht1 with rfl | h
      · left; simp [Scheme.b, oneStepTheta]
      · simpa [Scheme.b, oneStepTheta] using pos _ h
    · refine ⟨by simpa [Scheme.a, oneStepTheta] using p1, ?_⟩
      rcases ht0 with rfl | h
      · left; simp [Scheme.b, oneStepTheta]
      · simpa [Scheme.b, oneStepTheta] using pos _ h
  · simp only [explicitEuler, oneStepTheta] at hk
    interval_cases k
    refine ⟨by simp [Scheme.a, explicitEuler, oneStepTheta], fun s hs => ?_⟩
    interval_cases s <;> simp [Scheme.a, Scheme.b, explicitEuler, oneStepTheta] <;> norm_num
  · simp only [implicitEuler, oneStepTheta] at hk
    interval_cases k
    refine ⟨by simp [Scheme.a, implicitEuler, oneStepTheta], fun s hs => ?_⟩
    interval_cases s <;> simp [Scheme.a, Scheme.b, implicitEuler, oneStepTheta] <;> norm_num
  · simp only [heun] at hk
    interval_cases k <;> refine ⟨by simp [Scheme.a, heun], fun s hs => ?_⟩ <;> interval_cases s <;>
      refine ⟨?_, ?_⟩ <;> first
        | exact z0 | exact p1 | exact n1
        | (refine pos _ ?_; simp [Scheme.a, Scheme.b, heun]; norm_num; done)
        | (refine neg _ ?_; simp [Scheme.a, Scheme.b, heun]; norm_num; done)
  · simp only [shu3] at hk
    interval_cases k <;> refine ⟨by simp [Scheme.a, shu3], fun s hs => ?_⟩ <;> interval_cases s <;>
      refine ⟨?_, ?_⟩ <;> first
        | exact z0 | exact p1 | exact n1
        | (refine pos _ ?_; simp [Scheme.a, Scheme.b, shu3]; norm_num; done)
        | (refine neg _ ?_; simp [Scheme.a, Scheme.b, shu3]; norm_num; done)
  · simp only [rk4] at hk
    interval_cases k <;> refine ⟨by simp [Scheme.a, rk4], fun s hs => ?_⟩ <;> interval_cases s <;>
      refine ⟨?_, ?_⟩ <;> first
        | exact z0 | exact p1 | exact n1
        | (refine pos _ ?_; simp [Scheme.a, Scheme.b, rk4]; norm_num; done)
        | (refine neg _ ?_; simp [Scheme.a, Scheme.b, rk4]; norm_num; done)
  · simp only [alexander2] at hk
    interval_cases k <;> refine ⟨by simp [Scheme.a, alexander2], fun s hs => ?_⟩ <;> interval_cases s <;>
      refine ⟨?_, ?_⟩ <;> first
        | exact z0 | exact p1 | exact n1
        | (refine pos _ ?_; simp [Scheme.b, alexander2]; linarith; done)
  · simp only [fractionalStep] at hk
    interval_cases k <;> refine ⟨by simp [Scheme.a, fractionalStep], fun s hs => ?_⟩ <;> interval_cases s <;>
      refine ⟨?_, ?_⟩ <;> first
        | exact z0 | exact p1 | exact n1
        | (refine pos _ ?_; simp [Scheme.b, fractionalStep]; nlinarith; done)
  · simp only [alexander3] at hk
    interval_cases k <;> refine ⟨by simp [Scheme.a, alexander3], fun s hs => ?_⟩ <;> interval_cases s <;>
      refine ⟨?_, ?_⟩ <;> first
        | exact z0 | exact p1 | exact n1
        | (refine pos _ ?_; simp [Scheme.b, alexander3]; nlinarith; done)
        | (refine neg _ ?_; simp [Scheme.b, alexander3]; nlinarith; done)

/-- **C23** is false of the code for tiny coefficients: the one-step theta scheme with theta = 10^-7 is an implicit scheme, but
its spatial residual at the new time is not assembled. -/
theorem C23_residual_is_scheme_formula_false :
    ¬ ∀ (P : Setting ℚ) (R0 R1 : Op ℚ ℚ ℚ) (x : Nat → ℚ) (trace : List (Kind × Nat)) (st : St ℚ ℚ ℚ) (r : ℚ),
      P.scheme.a P.stage P.stage = 1 → NoPostSkeleton R1 →
      residual P R0 R1 (preStage P true R0 R1 x trace st).res0 trace (x P.stage) r
        = r + schemeResidual P R0 R1 trace x := by
  intro h
  have := h ⟨oneStepTheta (1/10000000), 0, 1, .multiplyOperator0ByDT, 1⟩ (fun _ _ _ x => x) (fun _ _ _ _ => 0)
    (fun s => if s = 1 then 1 else 0) [(.uvVolume, 0)] ⟨⟨0, 0, 0⟩, ⟨0, 0, 0⟩, 0, 0⟩ 0 rfl (fun _ _ _ _ _ => rfl)
  revert this
  decide +kernel

/-- **C24** is false of the code: volume terms after the skeleton of the temporal operator are not part of the residual of the
new stage, although they are part of the constant part assembled for the old stages. -/
theorem C24_all_contributions_false :
    ¬ ∀ (P : Setting ℚ) (R0 R1 : Op ℚ ℚ ℚ) (x : Nat → ℚ) (trace : List (Kind × Nat)) (st : St ℚ ℚ ℚ) (r : ℚ),
      P.scheme.a P.stage P.stage = 1 → NoTinyCoefficients P.scheme P.stage →
      residual P R0 R1 (preStage P true R0 R1 x trace st).res0 trace (x P.stage) r
        = r + schemeResidual P R0 R1 trace x := by
  intro h
  have := h ⟨oneStepTheta 1, 0, 1, .multiplyOperator0ByDT, 1⟩ (fun _ _ _ _ => 0)
    (fun k _ _ x => if k = .uvPost then x else 0)
    (fun s => if s = 1 then 1 else 0) [(.uvPost, 0)] ⟨⟨0, 0, 0⟩, ⟨0, 0, 0⟩, 0, 0⟩ 0 rfl
    (by
      intro s hs
      have : s = 0 ∨ s = 1 := by simp at hs; omega
      rcases this with rfl | rfl <;> decide +kernel)
  revert this
  decide +kernel

/-- **C24.** Exactly these terms are missing: with them added, the residual is the formula of the scheme. -/
theorem C24_missing_contributions_partial (P : Setting K) (R0 R1 : Op K X V) (x : Nat → X) (trace : List (Kind × Nat))
    (st : St K X V) (r : V) (ha : P.scheme.a P.stage P.stage = 1) (ht : NoTinyCoefficients P.scheme P.stage) :
    residual P R0 R1 (preStage P true R0 R1 x trace st).res0 trace (x P.stage) r
      + (factors P.mode P.dt).2 • form R1 (trace.filter fun c => c.1 = .uvPost ∨ c.1 = .vPost)
          (P.time + P.scheme.d P.stage * P.dt) (x P.stage)
      = r + schemeResidual P R0 R1 trace x := by
  unfold residual schemeResidual
  dsimp only
  rw [baseFold_res, preStage_const P R0 R1 x trace st ht, sum_range_succ, factors_eq, ha, one_mul]
  have hsplit : ∀ (t : K) (y : X), form R1 trace t y
      = form (fun k e t x => if forwards1 k then R1 k e t x else 0) trace t y
        + form R1 (trace.filter fun c => c.1 = .uvPost ∨ c.1 = .vPost) t y := by
    intro t y
    induction trace with
    | nil => simp [form]
    | cons c trace ih =>
      rw [form_cons, form_cons, ih, List.filter_cons]
      cases hk : c.1 <;> simp [forwards1, form_cons, hk] <;> abel
  have hb := (ht P.stage (le_refl _)).2
  simp only [stageState, decide_eq_true_eq]
  rw [tiny_smul _ _ _ hb, hsplit, smul_add]
  abel

/-- **C65.** For operators that are affine in the solution, with Jacobians `J0`, `J1`: differences of the residual of a stage are
given by its Jacobian, for every traversal, mode, scheme and stage (including tiny coefficients and post-skeleton terms). -/
theorem C65_jacobian_matches_residual {X : Type} [AddCommGroup X] [Module K X] (P : Setting K) (R0 R1 : Op K X V)
    (J0 J1 : Op K X (X →ₗ[K] V)) (h0 : ∀ k e t x y, R0 k e t y - R0 k e t x = J0 k e t x (y - x))
    (h1 : ∀ k e t x y, R1 k e t y - R1 k e t x = J1 k e t x (y - x)) (const r : V) (trace : List (Kind × Nat)) (x y : X) :
    residual P R0 R1 const trace y r - residual P R0 R1 const trace x r = jacobian P J0 J1 trace x 0 (y - x) := by
  have hform : ∀ (R : Op K X V) (J : Op K X (X →ₗ[K] V)), (∀ k e t x y, R k e t y - R k e t x = J k e t x (y - x)) →
      ∀ t, form R trace t y - form R trace t x = form J trace t x (y - x) := by
    intro R J h t
    induction trace with
    | nil => simp [form]
    | cons c trace ih =>
      rw [form_cons, form_cons, form_cons, LinearMap.add_apply, ← h, ← ih]; abel
  unfold residual jacobian
  simp only [baseFold_res, stageState]
  have hf : ∀ t, form (fun k e t x => if forwards1 k then R1 k e t x else 0) trace t y
      - form (fun k e t x => if forwards1 k then R1 k e t x else 0) trace t x
      = form (fun k e t x => if forwards1 k then J1 k e t x else 0) trace t x (y - x) :=
    hform _ _ (by intro k e t x y; cases forwards1 k <;> simp [h1])
  split
  · simp only [LinearMap.add_apply, LinearMap.zero_apply, LinearMap.smul_apply]
    rw [← hform R0 J0 h0, ← hf, smul_sub, smul_sub]; abel
  · simp only [LinearMap.add_apply, LinearMap.zero_apply, LinearMap.smul_apply]
    rw [← hf, smul_sub]; abel

/-- **C66.** In explicit mode `explicit_jacobian_residual` computes the spatial and the temporal part of the constant residual
separately, and (for a temporal operator whose Jacobian has only volume terms) minus the Jacobian of the temporal operator at
the time of the new stage. -/
theorem C66_explicit_parts_partial {M : Type} [AddCommGroup M] [Module K M] (P : Setting K) (R0 R1 : Op K X V)
    (J1 : Op K X M) (x : Nat → X) (trace : List (Kind × Nat)) (st : St K X V) (A : M)
    (hv : ∀ k e t x, k ≠ .uvVolume → k ≠ .vVolume → J1 k e t x = 0) (ht : NoTinyCoefficients P.scheme P.stage) :
    explicitJacobianResidual P R0 R1 J1 x trace st A
      = (A - form J1 trace (P.time + P.scheme.d P.stage * P.dt) (x P.stage),
         ∑ s ∈ range P.stage, (P.scheme.b P.stage s * (factors P.mode P.dt).1)
            • form R0 trace (P.time + P.scheme.d s * P.dt) (x s),
         ∑ s ∈ range P.stage, (P.scheme.a P.stage s * (factors P.mode P.dt).2)
            • form R1 trace (P.time + P.scheme.d s * P.dt) (x s)) := by
  have key : ∀ (st : St K X V) (A : M),
      (trace.foldl (explicitCall P R0 R1 J1 x) (st, A)).2 = A - form J1 trace (P.time + P.scheme.d P.stage * P.dt) (x P.stage) ∧
      (trace.foldl (explicitCall P R0 R1 J1 x) (st, A)).1.res0 = st.res0 + (trace.map fun c => pre0 P R0 x c P.stage).sum ∧
      (trace.foldl (explicitCall P R0 R1 J1 x) (st, A)).1.res1 = st.res1 + (trace.map fun c => pre1 P R1 x c P.stage).sum := by
    clear ht
    induction trace with
    | nil => intro st A; simp [form]
    | cons c trace ih =>
      intro st A
      rw [List.foldl_cons]
      have hstep : ∃ st', explicitCall P R0 R1 J1 x (st, A) c
          = (st', A - J1 c.1 c.2 (P.time + P.scheme.d P.stage * P.dt) (x P.stage)) ∧
          st'.res0 = st.res0 + pre0 P R0 x c P.stage ∧ st'.res1 = st.res1 + pre1 P R1 x c P.stage := by
        have hc := preStageCall_res P false R0 R1 x st c
        by_cases hk : c.1 = .uvVolume ∨ c.1 = .vVolume
        · refine ⟨_, by unfold explicitCall; simp only [if_pos hk, neg_smul, one_smul, ← sub_eq_add_neg]; rfl, ?_, ?_⟩
          · simpa using hc.1
          · simpa using hc.2.1
        · have hz : ∀ t y, J1 c.1 c.2 t y = 0 := fun t y =>
            hv _ _ _ _ (fun h => hk (Or.inl h)) (fun h => hk (Or.inr h))
          refine ⟨_, by unfold explicitCall; simp only [if_neg hk, hz, smul_zero, add_zero, sub_zero]; rfl, ?_, ?_⟩
          · simpa using hc.1
          · simpa using hc.2.1
      obtain ⟨st', he, e0, e1⟩ := hstep
      rw [he]
      obtain ⟨g1, g2, g3⟩ := ih st' (A - J1 c.1 c.2 (P.time + P.scheme.d P.stage * P.dt) (x P.stage))
      refine ⟨?_, ?_, ?_⟩
      · rw [g1, form_cons]; abel
      · rw [g2, e0, List.map_cons, List.sum_cons, add_assoc]
      · rw [g3, e1, List.map_cons, List.sum_cons, add_assoc]
  unfold explicitJacobianResidual
  obtain ⟨g1, g2, g3⟩ := key { st with res0 := 0, res1 := 0 } A
  simp only [g1, g2, g3, zero_add, sum_pre0, sum_pre1, factors_eq]
  have e0 : ∀ s ∈ range P.stage, s ≤ P.stage := fun s hs => (mem_range.mp hs).le
  congr 2
  · refine sum_congr rfl fun s hs => ?_
    exact tiny_smul _ _ _ (ht s (e0 s hs)).2
  · refine sum_congr rfl fun s hs => ?_
    exact tiny_smul _ _ _ (ht s (e0 s hs)).1

/-- **C66** is false of the code for skeleton and boundary terms of the temporal operator: their Jacobian is evaluated at the time of
the last old stage. (One stage of the explicit Euler scheme with a boundary term that is the time.) -/
theorem C66_explicit_parts_false :
    ¬ ∀ (P : Setting ℚ) (R0 R1 : Op ℚ ℚ ℚ) (J1 : Op ℚ ℚ ℚ) (x : Nat → ℚ) (trace : List (Kind × Nat)) (st : St ℚ ℚ ℚ) (A : ℚ),
      NoTinyCoefficients P.scheme P.stage → 1 ≤ P.stage →
      (explicitJacobianResidual P R0 R1 J1 x trace st A).1
        = A - form J1 trace (P.time + P.scheme.d P.stage * P.dt) (x P.stage) := by
  intro h
  have := h ⟨oneStepTheta 0, 0, 1, .doNotAssembleDT, 1⟩ (fun _ _ _ _ => 0) (fun _ _ _ _ => 0)
    (fun k _ t _ => if k = .uvBoundary then t else 0) (fun _ => 0) [(.uvVolume, 0), (.uvBoundary, 0)]
    ⟨⟨0, 0, 0⟩, ⟨0, 0, 0⟩, 0, 0⟩ 0
    (by
      intro s hs
      have : s = 0 ∨ s = 1 := by simp at hs; omega
      rcases this with rfl | rfl <;> decide +kernel) (le_refl _)
  revert this
  decide +kernel

/-- The hypotheses of C23 and C66 are met by a two-stage scheme with a source term and a mass term. -/
example : (heun : Scheme ℚ).a 2 2 = 1 ∧ NoTinyCoefficients (heun : Scheme ℚ) 2 ∧
    NoPostSkeleton (fun k _ _ x => if k = .uvVolume then x else 0 : Op ℚ ℚ ℚ) :=
  ⟨by simp [Scheme.a, heun],
   (C23_builtin_schemes (0 : ℚ) (1415/1000) (435/1000) (Or.inl rfl) (Or.inr (by norm_num)) (by norm_num) (by norm_num)
    (by norm_num) (by norm_num) heun (by simp) 2 (by norm_num) (by simp [heun])).2,
   by intro k e t x h; rcases h with rfl | rfl <;> simp⟩

end Verif
