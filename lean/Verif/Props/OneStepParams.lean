import Verif.Proofs.OneStepParams
import Mathlib.Topology.Order.IntermediateValue
import Mathlib.Analysis.Real.Sqrt
import Mathlib.Topology.Algebra.Order.Field
/-
C22: coefficients of the time-stepping schemes.
-/
namespace Verif
open OneStep Finset

variable {K : Type} [Field K] [LinearOrder K] [IsStrictOrderedRing K]

/-- **C22 (tables, consistency).** All built-in schemes have complete tables and are consistent. -/
theorem C22_schemes_are_consistent (theta r alpha : K) (hr : r * r = 2) :
    ∀ S ∈ [oneStepTheta theta, explicitEuler, implicitEuler, heun, shu3, rk4, alexander2 r, fractionalStep r,
      alexander3 alpha], S.WellFormed ∧ S.Consistent := by
  intro S hS
  simp only [List.mem_cons, List.not_mem_nil, or_false] at hS
  rcases hS with rfl | rfl | rfl | rfl | rfl | rfl | rfl | rfl | rfl
  all_goals
    refine ⟨by simp [Scheme.WellFormed, oneStepTheta, explicitEuler, implicitEuler, heun, shu3, rk4, alexander2,
      fractionalStep, alexander3], by simp [Scheme.d, oneStepTheta, explicitEuler, implicitEuler, heun, shu3, rk4, alexander2,
      fractionalStep, alexander3], by simp [Scheme.d, oneStepTheta, explicitEuler, implicitEuler, heun, shu3, rk4,
      alexander2, fractionalStep, alexander3], ?_⟩
    intro k h1 hk
    simp only [oneStepTheta, explicitEuler, implicitEuler, heun, shu3, rk4, alexander2, fractionalStep, alexander3] at hk
    interval_cases k <;>
      (refine ⟨by simp [Scheme.a, oneStepTheta, explicitEuler, implicitEuler, heun, shu3, rk4, alexander2, fractionalStep,
        alexander3], ?_, ?_⟩ <;>
        simp [Finset.sum_range_succ, Scheme.a, Scheme.b, Scheme.d, oneStepTheta, explicitEuler, implicitEuler, heun, shu3,
          rk4, alexander2, fractionalStep, alexander3] <;>
        first | ring1 | linear_combination (1/2 : K) * hr)

/-- **C22 (order).** The schemes have the documented orders, for every right hand side `f(t,u)`; the one-step theta scheme is
of second order for theta = 1/2. Alexander's third scheme is of third order for the exact value of its parameter (see
`C22_alexander3_parameter` for the value the code computes). -/
theorem C22_orders (theta r alpha : K) (hr : r * r = 2) (ha : alexanderPoly alpha = 0) :
    (oneStepTheta theta).HasOrder 1 ∧ (oneStepTheta (1/2 : K)).HasOrder 2 ∧ (explicitEuler : Scheme K).HasOrder 1 ∧
    (implicitEuler : Scheme K).HasOrder 1 ∧ (heun : Scheme K).HasOrder 2 ∧ (shu3 : Scheme K).HasOrder 3 ∧
    (rk4 : Scheme K).HasOrder 4 ∧ (alexander2 r).HasOrder 2 ∧ (fractionalStep r).HasOrder 2 ∧
    (alexander3 alpha).HasOrder 3 := by
  have hc := C22_schemes_are_consistent theta r alpha hr
  have hc' := C22_schemes_are_consistent (1/2) r alpha hr
  refine ⟨hasOrder_of _ (hc _ (by simp)).2 _ (order_oneStepTheta theta), hasOrder_of _ (hc' _ (by simp)).2 _ order_crankNicolson,
    hasOrder_of _ (hc _ (by simp)).2 _ (order_oneStepTheta 0), hasOrder_of _ (hc _ (by simp)).2 _ (order_oneStepTheta 1),
    hasOrder_of _ (hc _ (by simp)).2 _ order_heun, hasOrder_of _ (hc _ (by simp)).2 _ order_shu3,
    hasOrder_of _ (hc _ (by simp)).2 _ order_rk4, hasOrder_of _ (hc _ (by simp)).2 _ (order_alexander2 r hr),
    hasOrder_of _ (hc _ (by simp)).2 _ (order_fractionalStep r hr),
    hasOrder_of _ (hc _ (by simp)).2 _ (order_alexander3 alpha ha)⟩

/-- **C22 (Alexander's parameter).** Ten Newton steps, in exact arithmetic, determine the parameter of Alexander's third order
scheme up to a defect below `10^-9000`; for any value of the parameter the order conditions hold up to the stated
multiples of the defect. -/
theorem C22_alexander3_parameter :
    |alexanderPoly (alexander3Alpha : K)| ≤ (1 / 10 ^ 9) ^ 1024 ∧
    ∀ alpha : K, ∃ T : Nat → Nat → K,
      (∀ (V : Type) [AddCommGroup V] [Module K V] (f : K → V → V) (t dt : K) (u : Nat → V),
        (alexander3 alpha).Solves f t dt u ↔ RungeKutta 3 T (alexander3 alpha).d f t dt u) ∧
      ∑ i ∈ range 4, T 3 i = 1 ∧
      ∑ i ∈ range 4, T 3 i * (alexander3 alpha).d i = 1/2 - 3/4 * alexanderPoly alpha ∧
      ∑ i ∈ range 4, T 3 i * (alexander3 alpha).d i ^ 2 = 1/3 + (1 - 9 * alpha) / 8 * alexanderPoly alpha ∧
      ∑ i ∈ range 4, T 3 i * ∑ j ∈ range 4, T i j * (alexander3 alpha).d j = 1/6 + (1 - 9/4 * alpha) * alexanderPoly alpha := by
  constructor
  · have := (newton_iterate (4358665215 / 10000000000 : K) (by norm_num) (by norm_num)
      (by unfold alexanderPoly; rw [abs_le]; constructor <;> norm_num) 10 (le_refl _)).1
    unfold alexander3Alpha
    refine le_trans this ?_
    rw [show (2 : Nat) ^ 10 = 1024 by norm_num]
    have : (0 : K) ≤ (1 / 10 ^ 9) ^ 1024 := by positivity
    exact div_le_self this (by norm_num)
  · intro alpha
    have hc : (alexander3 alpha).Consistent := by
      refine ⟨by simp [Scheme.d, alexander3], by simp [Scheme.d, alexander3], ?_⟩
      intro k h1 hk
      simp only [alexander3] at hk
      interval_cases k <;>
      (refine ⟨by simp [Scheme.a, alexander3], ?_, ?_⟩ <;>
        simp [Finset.sum_range_succ, Scheme.a, Scheme.b, Scheme.d, alexander3] <;> ring1)
    refine ⟨butcher (alexander3 alpha), solves_iff _ hc, ?_, ?_, ?_, ?_⟩ <;>
    simp [alexander3, sum_range_succ, butcher_succ, butcher_zero, Scheme.a, Scheme.b, Scheme.d, alexanderPoly] <;> ring

/-- **C22 (implicitness).** A scheme reports to be explicit exactly if no stage equation contains the spatial residual at the
new stage. -/
theorem C22_implicit_flag (theta r alpha : K) (ht : 0 ≤ theta) (hr : r * r = 2) (ha : alexanderPoly alpha = 0) :
    ∀ S ∈ [oneStepTheta theta, explicitEuler, implicitEuler, heun, shu3, rk4, alexander2 r, fractionalStep r,
      alexander3 alpha], S.implicit = false ↔ ∀ k, 1 ≤ k → k ≤ S.s → S.b k k = 0 := by
  have hr2 : (1 : K) - 1/2 * r ≠ 0 := by
    intro h
    have : r = 2 := by linear_combination (-2) * h
    rw [this] at hr; norm_num at hr
  have ha0 : alpha ≠ 0 := by
    rintro rfl; unfold alexanderPoly at ha; norm_num at ha
  intro S hS
  simp only [List.mem_cons, List.not_mem_nil, or_false] at hS
  rcases hS with rfl | rfl | rfl | rfl | rfl | rfl | rfl | rfl | rfl
  · constructor
    · intro h k h1 hk
      simp only [oneStepTheta, decide_eq_false_iff_not, not_lt] at h hk
      interval_cases k
      simp [Scheme.b, oneStepTheta, le_antisymm h ht]
    · intro h
      have := h 1 (le_refl _) (le_refl _)
      simp [Scheme.b, oneStepTheta] at this
      simp [oneStepTheta, this]
  · refine ⟨fun _ k h1 hk => ?_, fun _ => by simp [explicitEuler, oneStepTheta]⟩
    simp only [explicitEuler, oneStepTheta] at hk
    interval_cases k; simp [Scheme.b, explicitEuler, oneStepTheta]
  · refine ⟨fun h => by simp [implicitEuler, oneStepTheta] at h, fun h => ?_⟩
    have := h 1 (le_refl _) (le_refl _)
    simp [Scheme.b, implicitEuler, oneStepTheta] at this
  · refine ⟨fun _ k h1 hk => ?_, fun _ => rfl⟩
    simp only [heun] at hk
    interval_cases k <;> simp [Scheme.b, heun]
  · refine ⟨fun _ k h1 hk => ?_, fun _ => rfl⟩
    simp only [shu3] at hk
    interval_cases k <;> simp [Scheme.b, shu3]
  · refine ⟨fun _ k h1 hk => ?_, fun _ => rfl⟩
    simp only [rk4] at hk
    interval_cases k <;> simp [Scheme.b, rk4]
  · refine ⟨fun h => by simp [alexander2] at h, fun h => ?_⟩
    have := h 1 (le_refl _) (by simp [alexander2])
    simp [Scheme.b, alexander2] at this
    exact absurd (by linear_combination this) hr2
  · refine ⟨fun h => by simp [fractionalStep] at h, fun h => ?_⟩
    have := h 1 (le_refl _) (by simp [fractionalStep])
    simp [Scheme.b, fractionalStep] at this
    rcases this with h | h
    · exact absurd (by linear_combination h / 2) hr2
    · exact absurd (by linear_combination h) hr2
  · refine ⟨fun h => by simp [alexander3] at h, fun h => ?_⟩
    have := h 1 (le_refl _) (by simp [alexander3])
    simp [Scheme.b, alexander3] at this
    exact absurd this ha0

/-- **C22 (test equation).** Applied to `u' = lam * u` with `z = lam * dt`: the explicit schemes compute the Taylor polynomial of the
exponential of their order; the implicit ones the rational function given by their stages. -/
theorem C22_test_equation (theta r alpha lam t dt : K) (ha : alexanderPoly alpha = 0) (u : Nat → K) :
    (explicitEuler.Solves (fun _ x => lam * x) t dt u → u 1 = expPoly 1 (lam * dt) * u 0) ∧
    (heun.Solves (fun _ x => lam * x) t dt u → u 2 = expPoly 2 (lam * dt) * u 0) ∧
    (shu3.Solves (fun _ x => lam * x) t dt u → u 3 = expPoly 3 (lam * dt) * u 0) ∧
    (rk4.Solves (fun _ x => lam * x) t dt u → u 4 = expPoly 4 (lam * dt) * u 0) ∧
    ((oneStepTheta theta).Solves (fun _ x => lam * x) t dt u →
      (1 - theta * (lam * dt)) * u 1 = (1 + (1 - theta) * (lam * dt)) * u 0) ∧
    ((alexander2 r).Solves (fun _ x => lam * x) t dt u →
      (1 - (1 - 1/2 * r) * (lam * dt)) ^ 2 * u 2 = (1 + (1 - 2 * (1 - 1/2 * r)) * (lam * dt)) * u 0) ∧
    ((alexander3 alpha).Solves (fun _ x => lam * x) t dt u →
      (1 - alpha * (lam * dt)) ^ 3 * u 3
        = (1 + (1 - 3 * alpha) * (lam * dt) + (1/2 - 3 * alpha + 3 * alpha ^ 2) * (lam * dt) ^ 2) * u 0) := by
  have ef : (Nat.factorial 2 : K) = 2 ∧ (Nat.factorial 3 : K) = 6 ∧ (Nat.factorial 4 : K) = 24 := by
    refine ⟨?_, ?_, ?_⟩ <;> norm_num [Nat.factorial]
  obtain ⟨e2, e3, e4⟩ := ef
  refine ⟨fun h => ?_, fun h => ?_, fun h => ?_, fun h => ?_, fun h => ?_, fun h => ?_, fun h => ?_⟩
  · have h1 := h 1 (le_refl _) (le_refl _)
    simp [sum_range_succ, Scheme.a, Scheme.b, explicitEuler, oneStepTheta] at h1
    simp [expPoly, sum_range_succ]
    linear_combination h1
  · have h1 := h 1 (by simp) (by simp [heun])
    have h2 := h 2 (by simp) (by simp [heun])
    simp [sum_range_succ, Scheme.a, Scheme.b, heun] at h1 h2
    simp [expPoly, sum_range_succ, e2]
    linear_combination h2 + (1/2 + lam * dt / 2) * h1
  · have h1 := h 1 (by simp) (by simp [shu3])
    have h2 := h 2 (by simp) (by simp [shu3])
    have h3 := h 3 (by simp) (by simp [shu3])
    simp [sum_range_succ, Scheme.a, Scheme.b, shu3] at h1 h2 h3
    simp [expPoly, sum_range_succ, e2, e3]
    linear_combination h3 + (2/3 + 2/3 * (lam * dt)) * (h2 + (1/4 + lam * dt / 4) * h1)
  · have h1 := h 1 (by simp) (by simp [rk4])
    have h2 := h 2 (by simp) (by simp [rk4])
    have h3 := h 3 (by simp) (by simp [rk4])
    have h4 := h 4 (by simp) (by simp [rk4])
    simp [sum_range_succ, Scheme.a, Scheme.b, rk4] at h1 h2 h3 h4
    simp [expPoly, sum_range_succ, e2, e3, e4]
    linear_combination h4 + lam * dt / 6 * h3 + (lam * dt / 3 + (lam * dt) ^ 2 / 6) * h2
      + (lam * dt / 3 + (lam * dt / 3 + (lam * dt) ^ 2 / 6) * (lam * dt / 2)) * h1
  · have h1 := h 1 (le_refl _) (le_refl _)
    simp [sum_range_succ, Scheme.a, Scheme.b, oneStepTheta] at h1
    linear_combination h1
  · have h1 := h 1 (by simp) (by simp [alexander2])
    have h2 := h 2 (by simp) (by simp [alexander2])
    simp [sum_range_succ, Scheme.a, Scheme.b, alexander2] at h1 h2
    linear_combination (1 - (1 - 1/2 * r) * (lam * dt)) * h2 + (1/2 * r) * (lam * dt) * h1
  · have h1 := h 1 (by simp) (by simp [alexander3])
    have h2 := h 2 (by simp) (by simp [alexander3])
    have h3 := h 3 (by simp) (by simp [alexander3])
    simp [sum_range_succ, Scheme.a, Scheme.b, alexander3] at h1 h2 h3
    unfold alexanderPoly at ha
    linear_combination (1 - alpha * (lam * dt)) ^ 2 * h3
      + (1 - alpha * (lam * dt)) * ((6 * alpha * alpha - 20 * alpha + 5) / 4) * (lam * dt) * h2
      + ((1 - alpha * (lam * dt)) * (-(6 * alpha * alpha - 16 * alpha + 1) / 4) * (lam * dt)
        + (6 * alpha * alpha - 20 * alpha + 5) / 4 * (lam * dt) ^ 2 * ((1 + alpha) / 2 - alpha)) * h1
      + (-3/4) * (lam * dt) ^ 2 * u 0 * ha

/-- The hypotheses are met by real numbers. -/
example : ∃ r alpha : ℝ, r * r = 2 ∧ alexanderPoly alpha = 0 ∧ 43/100 ≤ alpha ∧ alpha ≤ 44/100 := by
  have hc : ContinuousOn (fun x : ℝ => -alexanderPoly x) (Set.Icc (43/100) (44/100)) := by
    unfold alexanderPoly; fun_prop
  have := intermediate_value_Icc (by norm_num : (43/100 : ℝ) ≤ 44/100) hc
  obtain ⟨x, hx, h0⟩ := this (show (0 : ℝ) ∈ Set.Icc _ _ by
    constructor <;> simp only [alexanderPoly] <;> norm_num)
  exact ⟨Real.sqrt 2, x, Real.mul_self_sqrt (by norm_num), neg_eq_zero.mp h0, hx.1, hx.2⟩

/-- The explicit schemes can always be carried out: a solution of the stage equations of Heun's scheme. -/
example : (heun : Scheme ℚ).Solves (fun t x => t + x) 0 1 (fun i => [1, 2, 3].getD i 0) := by
  intro r h1 hr
  simp only [heun] at hr
  interval_cases r <;> simp [sum_range_succ, Scheme.a, Scheme.b, Scheme.d, heun] <;> norm_num

end Verif
