import Verif.Proofs.Stability
import Verif.Props.OneStepMethod
/-
Theorems about the stability of time stepping (C228, C229).
-/
namespace Verif
open OneStep Finset

/-- C228 (A-stability): implicit Euler, the theta schemes with `theta ≥ 1/2`, Alexander's schemes and the fractional step scheme do not let
the solutions of decaying or oscillating test equations grow, for any step size. -/
theorem C228_a_stable (theta r alpha : ℝ) (hth : 1/2 ≤ theta) (hr : r * r = 2) (hr0 : 0 ≤ r) (ha : alexanderPoly alpha = 0)
    (h1 : 43/100 ≤ alpha) (h2 : alpha ≤ 44/100) :
    ∀ S ∈ [oneStepTheta theta, implicitEuler, alexander2 r, fractionalStep r, alexander3 alpha], S.AStable := by
  intro S hS
  simp only [List.mem_cons, List.not_mem_nil, or_false] at hS
  rcases hS with rfl | rfl | rfl | rfl | rfl
  · exact theta_stable theta hth
  · exact theta_stable 1 (by norm_num)
  · exact alexander2_stable r hr hr0
  · exact fractional_stable r hr hr0
  · exact alexander3_stable alpha ha h1 h2

/-- C228 (damping): implicit Euler and Alexander's schemes damp stiff components. -/
theorem C228_damping (r alpha : ℝ) (hr : r * r = 2) (hr0 : 0 ≤ r) (ha : alexanderPoly alpha = 0) (h1 : 43/100 ≤ alpha) :
    ∀ S ∈ [implicitEuler, alexander2 r, alexander3 alpha], S.Damping := by
  intro S hS
  simp only [List.mem_cons, List.not_mem_nil, or_false] at hS
  rcases hS with rfl | rfl | rfl
  · exact euler_damping
  · exact alexander2_damping r hr hr0
  · exact alexander3_damping alpha ha h1

/-- C228 (limits of the claim): explicit Euler is not A-stable, and the theta scheme with `theta = 1/2` does not damp. -/
theorem C228_limits : ¬ (explicitEuler : Scheme ℝ).AStable ∧ ¬ (oneStepTheta (1/2 : ℝ)).Damping := by
  constructor
  · intro h
    have := h (-3) (by simp) 0 1 zero_le_one (fun i => if i = 0 then 1 else -2) (by
      intro r h1 h2
      obtain rfl : r = 1 := by simp only [explicitEuler, oneStepTheta] at h2; omega
      simp [sum_range_succ, Scheme.a, Scheme.b, explicitEuler, oneStepTheta]; norm_num)
    simp [explicitEuler, oneStepTheta] at this
  · rintro ⟨C, h⟩
    have hC : 0 ≤ C := by
      have := h 0 (by simp) 0 0 le_rfl (fun _ => 1) (by
        intro r h1 h2
        obtain rfl : r = 1 := by simp only [oneStepTheta] at h2; omega
        simp [sum_range_succ, Scheme.a, Scheme.b, oneStepTheta])
      simpa using this
    -- `u 1 = (1 - y/2) / (1 + y/2)` for `lam dt = -y`
    have := h (-((C + 6 : ℝ) : ℂ)) (by simp; linarith) 0 1 zero_le_one
      (fun i => if i = 0 then ((1 + (C + 6) / 2 : ℝ) : ℂ) else ((1 - (C + 6) / 2 : ℝ) : ℂ)) (by
        intro r h1 h2
        obtain rfl : r = 1 := by simp only [oneStepTheta] at h2; omega
        simp [sum_range_succ, Scheme.a, Scheme.b, oneStepTheta]
        ring)
    simp only [oneStepTheta, if_true, one_ne_zero, if_false, Complex.ofReal_one, mul_one, norm_neg, Complex.norm_real, Real.norm_eq_abs] at this
    rw [abs_of_nonneg (by linarith), abs_of_nonpos (by linarith), abs_of_nonneg (by linarith)] at this
    nlinarith

section
variable {σ K X V T : Type} [Field K] [LinearOrder K] [IsStrictOrderedRing K] [AddCommGroup X] [Module K X] [AddCommGroup V] [Module K V]
  [AddCommMonoid T]

/-- C228 (energy): a successful step of `OneStepMethod` with a theta scheme, `theta ≥ 1/2` (implicit Euler, Crank-Nicolson), for a linear
problem with symmetric positive semidefinite temporal form `m` and positive semidefinite spatial form `a` does not increase the energy
`m(x, x)`, for any step size. -/
theorem C228_energy (m : OSM T) (theta time dt : K) (mode : DTMode) (R0 R1 : Op K X V) (trace : List (Kind × Nat)) (st0 : St K X V)
    (E : Env σ X T) (hs : E.s = 1) (hinit : ∀ r mem i, i ≠ r → E.initStage r mem i = mem i)
    (hsolve : ∀ st r xs guess, (E.solve st r xs guess).2.1 = true → ∀ x : Nat → X, (List.range r).map x = xs →
      x r = (E.solve st r xs guess).2.2.1 →
      residual ⟨oneStepTheta theta, time, dt, mode, r⟩ R0 R1 (preStage ⟨oneStepTheta theta, time, dt, mode, r⟩ true R0 R1 x trace st0).res0
        trace (x r) 0 = 0)
    (ht : NoTinyCoefficients (oneStepTheta theta) 1) (hp : NoPostSkeleton R1) (hth : 1/2 ≤ theta) (hdt : 0 < dt)
    (pair : V →ₗ[K] X →ₗ[K] K) (mass a : X →ₗ[K] V) (hm : MassForm pair R1 trace mass) (ha : ∀ t x, form R0 trace t x = a x)
    (hd : ∀ x, 0 ≤ pair (a x) x) (mem : Nat → X) (st : σ) (h : (m.apply E mem st).1 = .success) :
    energy pair mass ((m.apply E mem st).2.1.mem 1) ≤ energy pair mass (mem 0) := by
  have h1 := C69_step_satisfies_scheme m (oneStepTheta theta) time dt mode R0 R1 trace st0 E hs hinit hsolve
    (fun r h1 h2 => by obtain rfl : r = 1 := by { simp only [oneStepTheta] at h2; omega }
                       simp [Scheme.a, oneStepTheta])
    (fun r h1 h2 => by obtain rfl : r = 1 := by { simp only [oneStepTheta] at h2; omega }
                       exact ht) hp mem st h 1 le_rfl le_rfl
  rw [← (apply_success_mem m E hinit mem st h).1]
  exact theta_energy pair theta time dt mode R0 R1 trace mass a _ hth hdt hm ha hd h1

/-- C228 (contraction): two successful steps of implicit Euler from different states, for a nonlinear, time dependent problem with a monotone
spatial form, do not move the states apart. -/
theorem C228_contraction (m m' : OSM T) (time dt : K) (mode : DTMode) (R0 R1 : Op K X V) (trace : List (Kind × Nat)) (st0 : St K X V)
    (E : Env σ X T) (hs : E.s = 1) (hinit : ∀ r mem i, i ≠ r → E.initStage r mem i = mem i)
    (hsolve : ∀ st r xs guess, (E.solve st r xs guess).2.1 = true → ∀ x : Nat → X, (List.range r).map x = xs →
      x r = (E.solve st r xs guess).2.2.1 →
      residual ⟨implicitEuler, time, dt, mode, r⟩ R0 R1 (preStage ⟨implicitEuler, time, dt, mode, r⟩ true R0 R1 x trace st0).res0
        trace (x r) 0 = 0)
    (hp : NoPostSkeleton R1) (hdt : 0 < dt) (pair : V →ₗ[K] X →ₗ[K] K) (mass : X →ₗ[K] V) (hm : MassForm pair R1 trace mass)
    (hd : ∀ t x y, 0 ≤ pair (form R0 trace t x - form R0 trace t y) (x - y)) (mem mem' : Nat → X) (st st' : σ)
    (h : (m.apply E mem st).1 = .success) (h' : (m'.apply E mem' st').1 = .success) :
    energy pair mass ((m.apply E mem st).2.1.mem 1 - (m'.apply E mem' st').2.1.mem 1) ≤ energy pair mass (mem 0 - mem' 0) := by
  have hS : ∀ r, 1 ≤ r → r ≤ (implicitEuler : Scheme K).s → (implicitEuler : Scheme K).a r r = 1 ∧ NoTinyCoefficients (implicitEuler : Scheme K) r := by
    intro r h1 h2
    obtain rfl : r = 1 := by simp only [implicitEuler, oneStepTheta] at h2; omega
    refine ⟨by simp [Scheme.a, implicitEuler, oneStepTheta], ?_⟩
    intro s hs
    interval_cases s
    · refine ⟨Or.inr ?_, Or.inl ?_⟩ <;> simp [Scheme.a, Scheme.b, implicitEuler, oneStepTheta]; norm_num
    · refine ⟨Or.inr ?_, Or.inr ?_⟩ <;> simp [Scheme.a, Scheme.b, implicitEuler, oneStepTheta] <;> norm_num
  have h1 := C69_step_satisfies_scheme m implicitEuler time dt mode R0 R1 trace st0 E hs hinit hsolve
    (fun r h1 h2 => (hS r h1 h2).1) (fun r h1 h2 => (hS r h1 h2).2) hp mem st h 1 le_rfl le_rfl
  have h2 := C69_step_satisfies_scheme m' implicitEuler time dt mode R0 R1 trace st0 E hs hinit hsolve
    (fun r h1 h2 => (hS r h1 h2).1) (fun r h1 h2 => (hS r h1 h2).2) hp mem' st' h' 1 le_rfl le_rfl
  rw [← (apply_success_mem m E hinit mem st h).1, ← (apply_success_mem m' E hinit mem' st' h').1]
  exact euler_contraction pair time dt mode R0 R1 trace mass _ _ hdt hm hd h1 h2

end

section
variable {K X V M : Type} [Field K] [LinearOrder K] [IsStrictOrderedRing K] [AddCommGroup X] [Module K X] [AddCommGroup V] [Module K V]
  [AddCommGroup M] [Module K M]

/-- C229 (strong stability): if steps of explicit Euler of the selected size do not leave a convex set, then all stages and the result of
`ExplicitOneStepMethod` with the schemes of Heun and Shu lie in it, too. -/
theorem C229_convex_sets (S : Scheme K) (hS : S = explicitEuler ∨ S = heun ∨ S = shu3) (time dt suggested : K) (R0 R1 : Op K X V) (J1 : Op K X M)
    (act : M →+ (X → V)) (ls : M → V → X → X) (trace : List (Kind × Nat)) (st : St K X V) (x : Nat → X)
    (hls : ∀ t y b g, act (-form J1 trace t y) (ls (-form J1 trace t y) b g) = b)
    (hlin : ∀ k e t y z, act (J1 k e t y) z = R1 k e t z)
    (hv : ∀ k e t x, k ≠ .uvVolume → k ≠ .vVolume → J1 k e t x = 0)
    (hdt : (explicitApply S time dt suggested R0 R1 J1 ls trace st x).2 = dt ∨ (Autonomous R0 ∧ Autonomous R1))
    (m : X →ₗ[K] V) (hm : ∀ t x, form R1 trace t x = m x) (hinj : ∀ x, m x = 0 → x = 0) (C : X → Prop) (hC : ConvexSet (K := K) C)
    (hE : EulerPreserves m (form R0 trace) (explicitApply S time dt suggested R0 R1 J1 ls trace st x).2 C) (h0 : C (x 0)) :
    ∀ r, r ≤ S.s → C ((explicitApply S time dt suggested R0 R1 J1 ls trace st x).1 r) := by
  have hB := C23_builtin_schemes (0 : K) (1415/1000) (435/1000) (Or.inl rfl) (Or.inr (by norm_num)) (by norm_num) (by norm_num)
    (by norm_num) (by norm_num) S (by rcases hS with rfl | rfl | rfl <;> simp)
  have hx0 : (explicitApply S time dt suggested R0 R1 J1 ls trace st x).1 0 = x 0 :=
    (explicit_fold ⟨S, time, dt, .doNotAssembleDT, 0⟩ R0 R1 J1 ls trace (chooseDt suggested dt) st S.s 1 x (by simp only; omega)).1 0 (by omega)
  have hres := C70_explicit_step_partial S time dt suggested R0 R1 J1 act ls trace st x hls hlin hv hdt (fun r h1 h2 => (hB r h1 h2).1)
    (fun r h1 h2 => by
      rcases hS with rfl | rfl | rfl <;> simp only [explicitEuler, oneStepTheta, heun, shu3] at h2 <;> interval_cases r <;>
        simp [Scheme.b, explicitEuler, oneStepTheta, heun, shu3]) (fun r h1 h2 => (hB r h1 h2).2)
  rw [← hx0] at h0
  generalize (explicitApply S time dt suggested R0 R1 J1 ls trace st x).2 = nd at *
  generalize (explicitApply S time dt suggested R0 R1 J1 ls trace st x).1 = z at *
  rcases hS with rfl | rfl | rfl
  · have h1 := hres 1 le_rfl le_rfl
    simp [schemeResidual, sum_range_succ, factors, Scheme.a, Scheme.b, Scheme.d, explicitEuler, oneStepTheta, hm] at h1
    have c1 : C (z 1) := by
      refine convex_stage m hinj (form R0 trace) nd C hC hE time (z 0) (z 0) (z 1) h0 h0 0 1 le_rfl zero_le_one (zero_add 1) ?_
      rw [← sub_eq_zero, ← h1]; module
    intro r hr
    simp only [explicitEuler, oneStepTheta] at hr
    interval_cases r
    · exact h0
    · exact c1
  · obtain ⟨c1, c2⟩ := heun_convex time nd R0 R1 trace m z hm hinj C hC hE h0 hres
    intro r hr
    simp only [heun] at hr
    interval_cases r
    · exact h0
    · exact c1
    · exact c2
  · obtain ⟨c1, c2, c3⟩ := shu3_convex time nd R0 R1 trace m z hm hinj C hC hE h0 hres
    intro r hr
    simp only [shu3] at hr
    interval_cases r
    · exact h0
    · exact c1
    · exact c2
    · exact c3

omit [IsStrictOrderedRing K] [Module K X] [Module K V] [Module K M] in
/-- C229 (limits of the claim): it does not hold for the classical fourth order scheme. There is a problem `u' = f(u)` for which explicit Euler
with step 1 keeps the numbers nonnegative, but the scheme does not. -/
theorem C229_limits : ∃ (f : ℚ → ℚ) (u : Nat → ℚ), (∀ x, 0 ≤ x → 0 ≤ x + f x) ∧ u 0 = 1 ∧
    (rk4 : Scheme ℚ).Solves (fun _ => f) 0 1 u ∧ u 4 < 0 := by
  refine ⟨fun x => if x = 3 then -3 else if x = 1 then 2 else if x = 2 then 4 else if x = -2 then -100 else 0,
    fun i => [1, 2, 3, -2, -15].getD i 0, ?_, rfl, ?_, by decide +kernel⟩
  · intro x hx; dsimp only; split_ifs <;> linarith
  · intro r h1 h2
    simp only [rk4] at h2
    interval_cases r <;> decide +kernel

/-- The hypotheses of C229 are met by Heun's scheme for `u' = -u` with the selected step 1/2, and the nonnegative numbers. -/
example (st : St ℚ ℚ ℚ) (x : Nat → ℚ) (h0 : 0 ≤ x 0) : ∀ r, r ≤ 2 →
    0 ≤ (explicitApply (heun : Scheme ℚ) 0 1 (1/2) demoReaction demoMass demoMassJ (fun A b _ => b / A) [(.uvVolume, 0)] st x).1 r := by
  refine C229_convex_sets (heun : Scheme ℚ) (Or.inr (Or.inl rfl)) 0 1 (1/2) demoReaction demoMass demoMassJ demoAct _ [(.uvVolume, 0)] st x
    ?_ ?_ ?_ (Or.inr ⟨fun _ _ _ _ _ => rfl, fun _ _ _ _ _ => rfl⟩) LinearMap.id ?_ (fun x hx => hx) (fun y => 0 ≤ y) ?_ ?_ h0
  · intro t y b g; simp [form, demoMassJ, demoAct, div_neg]
  · intro k e t y z; simp only [demoAct, demoMassJ, demoMass]; split <;> simp
  · intro k e t x h1 _; simp [demoMassJ, h1]
  · intro t x; simp [form, demoMass]
  · intro y z hy hz a b ha hb _; simp only [smul_eq_mul]; positivity
  · intro t y hy
    refine ⟨y / 2, by linarith, ?_⟩
    simp [form, demoReaction, explicitApply, chooseDt]
    norm_num
    ring

end

/-- The hypotheses of C228 are met by implicit Euler for `u' = -u` with step 1: from 4 to 2. -/
example : energy (K := ℚ) (LinearMap.mul ℚ ℚ) LinearMap.id (((OSM.init : OSM Nat).apply eulerEnv (fun _ => 4) ()).2.1.mem 1) ≤
    energy (K := ℚ) (LinearMap.mul ℚ ℚ) LinearMap.id 4 := by
  have hp : NoPostSkeleton demoMass := by intro k e t x h; rcases h with rfl | rfl <;> simp [demoMass]
  have hS := C23_builtin_schemes (0 : ℚ) (1415/1000) (435/1000) (Or.inl rfl) (Or.inr (by norm_num)) (by norm_num) (by norm_num)
    (by norm_num) (by norm_num) implicitEuler (by simp)
  refine C228_energy (OSM.init : OSM Nat) (1 : ℚ) 0 1 .multiplyOperator0ByDT demoReaction demoMass [(.uvVolume, 0)] ⟨⟨0, 0, 0⟩, ⟨0, 0, 0⟩, 0, 0⟩
    eulerEnv rfl (fun r mem i hi => initPlain_other 1 r mem i hi) ?_ (hS 1 le_rfl le_rfl).2 hp (by norm_num) one_pos _ _ LinearMap.id ?_ ?_ ?_ _ _
    (by decide)
  · intro st r xs guess hok x hxs hxr
    have hr : r = 1 := by simpa [eulerEnv, plainEnv] using hok
    subst hr
    rw [C23_residual_is_scheme_formula_partial ⟨oneStepTheta 1, 0, 1, .multiplyOperator0ByDT, 1⟩ _ _ x _ _ 0
      (hS 1 (le_refl _) (le_refl _)).1 (hS 1 (le_refl _) (le_refl _)).2 hp]
    have hx : x 1 = x 0 / 2 := by rw [hxr, ← hxs]; simp [eulerEnv, plainEnv]
    simp [schemeResidual, sum_range_succ, form, demoMass, demoReaction, factors, Scheme.a, Scheme.b, implicitEuler, oneStepTheta, hx]
  · exact ⟨fun t x => by simp [form, demoMass], fun x y => by simp [mul_comm], fun x => by simp [energy]; exact mul_self_nonneg x⟩
  · intro t x; simp [form, demoReaction]
  · intro x; simp; exact mul_self_nonneg x

end Verif
