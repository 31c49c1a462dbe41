import Verif.Spec.Stability
import Mathlib.Tactic.Ring
import Mathlib.Tactic.Linarith
import Mathlib.Tactic.LinearCombination
import Mathlib.Tactic.Positivity
import Mathlib.Tactic.Module
/-
Lemmas about the stability of time stepping schemes.
-/
namespace Verif.OneStep
open Finset

/-- A comparison of norms from a quotient. -/
theorem norm_le_of_mul (D P v w : ℂ) (h : D * v = P * w) (hD : D ≠ 0) (hle : Complex.normSq P ≤ Complex.normSq D) : ‖v‖ ≤ ‖w‖ := by
  have h1 : ‖P‖ ≤ ‖D‖ := by
    rw [← sq_le_sq₀ (norm_nonneg _) (norm_nonneg _), ← Complex.normSq_eq_norm_sq, ← Complex.normSq_eq_norm_sq]
    exact hle
  have h2 : 0 < ‖D‖ := norm_pos_iff.2 hD
  have h3 : ‖D‖ * ‖v‖ = ‖P‖ * ‖w‖ := by rw [← norm_mul, h, norm_mul]
  have h4 : ‖D‖ * ‖v‖ ≤ ‖D‖ * ‖w‖ := by rw [h3]; exact mul_le_mul_of_nonneg_right h1 (norm_nonneg _)
  exact le_of_mul_le_mul_left h4 h2

/-- `|1 - g z|` for `z` in the left half plane. -/
theorem denominator (g : ℝ) (hg : 0 ≤ g) (z : ℂ) (hz : z.re ≤ 0) : 1 ≤ ‖1 - (g : ℂ) * z‖ ∧ g * ‖z‖ ≤ ‖1 - (g : ℂ) * z‖ := by
  have e : Complex.normSq (1 - (g : ℂ) * z) = (1 - g * z.re) ^ 2 + (g * z.im) ^ 2 := by
    simp [Complex.normSq_apply]; ring
  have h0 : 0 ≤ -(g * z.re) := by have := mul_nonpos_of_nonneg_of_nonpos hg hz; linarith
  have e2 : ‖1 - (g : ℂ) * z‖ ^ 2 = (1 - g * z.re) ^ 2 + (g * z.im) ^ 2 := by rw [← Complex.normSq_eq_norm_sq, e]
  have e3 : ‖z‖ ^ 2 = z.re ^ 2 + z.im ^ 2 := by rw [← Complex.normSq_eq_norm_sq, Complex.normSq_apply]; ring
  constructor
  · rw [← sq_le_sq₀ zero_le_one (norm_nonneg _), e2]
    nlinarith [sq_nonneg (g * z.re), sq_nonneg (g * z.im)]
  · rw [← sq_le_sq₀ (mul_nonneg hg (norm_nonneg _)) (norm_nonneg _), e2, mul_pow, e3]
    nlinarith [sq_nonneg (g * z.re), sq_nonneg (g * z.im)]

theorem denominator_ne (g : ℝ) (hg : 0 ≤ g) (z : ℂ) (hz : z.re ≤ 0) : 1 - (g : ℂ) * z ≠ 0 := by
  intro h
  have := (denominator g hg z hz).1
  rw [h, norm_zero] at this
  linarith

theorem re_scaled (lam : ℂ) (dt : ℝ) (h : lam.re ≤ 0) (hdt : 0 ≤ dt) : (lam * dt).re ≤ 0 := by
  rw [Complex.re_mul_ofReal]
  exact mul_nonpos_of_nonpos_of_nonneg h hdt

/-! ### The amplification of each scheme -/

theorem theta_test (theta : ℝ) (lam : ℂ) (t dt : ℝ) (u : Nat → ℂ) (h : (oneStepTheta theta).Solves (fun _ x => lam * x) t dt u) :
    (1 - (theta : ℂ) * (lam * dt)) * u 1 = (1 + ((1 - theta : ℝ) : ℂ) * (lam * dt)) * u 0 := by
  have h1 := h 1 (le_refl _) (le_refl _)
  simp [sum_range_succ, Scheme.a, Scheme.b, oneStepTheta] at h1
  push_cast
  linear_combination h1

theorem alexander2_test (r : ℝ) (lam : ℂ) (t dt : ℝ) (u : Nat → ℂ) (h : (alexander2 r).Solves (fun _ x => lam * x) t dt u) :
    (1 - ((1 - 1/2 * r : ℝ) : ℂ) * (lam * dt)) ^ 2 * u 2 = (1 + ((r - 1 : ℝ) : ℂ) * (lam * dt)) * u 0 := by
  have h1 := h 1 (by simp) (by simp [alexander2])
  have h2 := h 2 (by simp) (by simp [alexander2])
  simp [sum_range_succ, Scheme.a, Scheme.b, alexander2] at h1 h2
  push_cast
  linear_combination (1 - (1 - 1/2 * (r : ℂ)) * (lam * dt)) * h2 + (1/2 * (r : ℂ)) * (lam * dt) * h1

theorem alexander3_test (alpha : ℝ) (ha : alexanderPoly alpha = 0) (lam : ℂ) (t dt : ℝ) (u : Nat → ℂ)
    (h : (alexander3 alpha).Solves (fun _ x => lam * x) t dt u) :
    (1 - (alpha : ℂ) * (lam * dt)) ^ 3 * u 3
      = (1 + ((1 - 3 * alpha : ℝ) : ℂ) * (lam * dt) + ((1/2 - 3 * alpha + 3 * alpha ^ 2 : ℝ) : ℂ) * (lam * dt) ^ 2) * u 0 := by
  have h1 := h 1 (by simp) (by simp [alexander3])
  have h2 := h 2 (by simp) (by simp [alexander3])
  have h3 := h 3 (by simp) (by simp [alexander3])
  simp [sum_range_succ, Scheme.a, Scheme.b, alexander3] at h1 h2 h3
  unfold alexanderPoly at ha
  have ha' : (alpha : ℂ) ^ 3 - 3 * (alpha : ℂ) ^ 2 + 3/2 * alpha - 1/6 = 0 := by
    have := congrArg (fun x : ℝ => (x : ℂ)) ha
    push_cast at this
    exact this
  push_cast
  linear_combination (1 - (alpha : ℂ) * (lam * dt)) ^ 2 * h3
    + (1 - (alpha : ℂ) * (lam * dt)) * ((6 * (alpha : ℂ) * alpha - 20 * alpha + 5) / 4) * (lam * dt) * h2
    + ((1 - (alpha : ℂ) * (lam * dt)) * (-(6 * (alpha : ℂ) * alpha - 16 * alpha + 1) / 4) * (lam * dt)
      + (6 * (alpha : ℂ) * alpha - 20 * alpha + 5) / 4 * (lam * dt) ^ 2 * ((1 + (alpha : ℂ)) / 2 - alpha)) * h1
    + (-3/4) * (lam * dt) ^ 2 * u 0 * ha'

theorem fractional_test (r : ℝ) (lam : ℂ) (t dt : ℝ) (u : Nat → ℂ) (h : (fractionalStep r).Solves (fun _ x => lam * x) t dt u) :
    (1 - (((2 - r) * (1 - 1/2 * r) : ℝ) : ℂ) * (lam * dt)) ^ 3 * u 3
      = ((1 + (((1 - (2 - r)) * (1 - 1/2 * r) : ℝ) : ℂ) * (lam * dt)) ^ 2 *
          (1 + (((2 - r) * (1 - 2 * (1 - 1/2 * r)) : ℝ) : ℂ) * (lam * dt))) * u 0 := by
  have h1 := h 1 (by simp) (by simp [fractionalStep])
  have h2 := h 2 (by simp) (by simp [fractionalStep])
  have h3 := h 3 (by simp) (by simp [fractionalStep])
  simp [sum_range_succ, Scheme.a, Scheme.b, fractionalStep] at h1 h2 h3
  push_cast
  linear_combination (1 - ((2 - (r : ℂ)) * (1 - 1/2 * r)) * (lam * dt)) ^ 2 * h3
    + (1 - ((2 - (r : ℂ)) * (1 - 1/2 * r)) * (lam * dt)) * (1 + ((1 - (2 - (r : ℂ))) * (1 - 1/2 * r)) * (lam * dt)) * h2
    + (1 + ((1 - (2 - (r : ℂ))) * (1 - 1/2 * r)) * (lam * dt)) * (1 + ((2 - (r : ℂ)) * (1 - 2 * (1 - 1/2 * r))) * (lam * dt)) * h1

/-! ### Polynomial inequalities (`p = -Re z`, `q = (Im z)^2`) -/

theorem alexander2_poly (p q g : ℝ) (hp : 0 ≤ p) (hq : 0 ≤ q) (hg : 0 ≤ g) (h : 2 * g ^ 2 - 4 * g + 1 = 0) :
    (1 - (1 - 2 * g) * p) ^ 2 + (1 - 2 * g) ^ 2 * q ≤ ((1 + g * p) ^ 2 + g ^ 2 * q) ^ 2 := by
  have e : ((1 + g * p) ^ 2 + g ^ 2 * q) ^ 2 - ((1 - (1 - 2 * g) * p) ^ 2 + (1 - 2 * g) ^ 2 * q)
      = 2 * p + 4 * g ^ 2 * p ^ 2 + 4 * g ^ 3 * p ^ 3 + g ^ 4 * p ^ 4 + 4 * g ^ 3 * (p * q) + 2 * g ^ 4 * (p ^ 2 * q) + g ^ 4 * q ^ 2 := by
    linear_combination (-p ^ 2 - q) * h
  have : 0 ≤ 2 * p + 4 * g ^ 2 * p ^ 2 + 4 * g ^ 3 * p ^ 3 + g ^ 4 * p ^ 4 + 4 * g ^ 3 * (p * q) + 2 * g ^ 4 * (p ^ 2 * q) + g ^ 4 * q ^ 2 := by
    positivity
  linarith

theorem alexander3_poly (p q g a b : ℝ) (hp : 0 ≤ p) (hq : 0 ≤ q) (hg : 43/100 ≤ g) (hg' : g ≤ 44/100) (ha : a = 1 - 3 * g)
    (hb : b = 1/2 - 3 * g + 3 * g ^ 2) :
    (1 - a * p + b * (p ^ 2 - q)) ^ 2 + q * (a - 2 * b * p) ^ 2 ≤ ((1 + g * p) ^ 2 + g ^ 2 * q) ^ 3 := by
  have hg0 : 0 ≤ g := by linarith
  have a0 : a ≤ 0 := by rw [ha]; linarith
  have b0 : b ≤ 0 := by rw [hb]; nlinarith
  have b1 : -(1/4) ≤ b := by rw [hb]; nlinarith
  have ab : 0 ≤ a * b := mul_nonneg_of_nonpos_of_nonpos a0 b0
  have bb : b ^ 2 ≤ 1/16 := by nlinarith
  have g2 : (43/100) ^ 2 ≤ g ^ 2 := by nlinarith
  have g4 : (43/100) ^ 4 ≤ g ^ 4 := by
    have := mul_le_mul g2 g2 (by norm_num) (by positivity)
    calc (43/100 : ℝ) ^ 4 = (43/100) ^ 2 * (43/100) ^ 2 := by norm_num
      _ ≤ g ^ 2 * g ^ 2 := this
      _ = g ^ 4 := by ring
  have e : ((1 + g * p) ^ 2 + g ^ 2 * q) ^ 3 - ((1 - a * p + b * (p ^ 2 - q)) ^ 2 + q * (a - 2 * b * p) ^ 2)
      = 2 * p + (12 * g ^ 2 - 4 * b) * p ^ 2 + (20 * g ^ 3 + 2 * (a * b)) * p ^ 3 + (15 * g ^ 4 - b ^ 2) * p ^ 4 + 6 * g ^ 5 * p ^ 5 + g ^ 6 * p ^ 6
        + (12 * g ^ 3 + 2 * (a * b)) * (p * q) + (18 * g ^ 4 - 2 * b ^ 2) * (p ^ 2 * q) + 12 * g ^ 5 * (p ^ 3 * q) + 3 * g ^ 6 * (p ^ 4 * q)
        + (3 * g ^ 4 - b ^ 2) * q ^ 2 + 6 * g ^ 5 * (p * q ^ 2) + 3 * g ^ 6 * (p ^ 2 * q ^ 2) + g ^ 6 * q ^ 3 := by
    rw [ha, hb]; ring
  have k1 : 0 ≤ 12 * g ^ 2 - 4 * b := by nlinarith
  have k2 : 0 ≤ 15 * g ^ 4 - b ^ 2 := by nlinarith
  have k3 : 0 ≤ 18 * g ^ 4 - 2 * b ^ 2 := by nlinarith
  have k4 : 0 ≤ 3 * g ^ 4 - b ^ 2 := by nlinarith
  generalize 12 * g ^ 2 - 4 * b = c1 at *
  generalize 15 * g ^ 4 - b ^ 2 = c2 at *
  generalize 18 * g ^ 4 - 2 * b ^ 2 = c3 at *
  generalize 3 * g ^ 4 - b ^ 2 = c4 at *
  generalize a * b = c5 at *
  have : 0 ≤ 2 * p + c1 * p ^ 2 + (20 * g ^ 3 + 2 * c5) * p ^ 3 + c2 * p ^ 4 + 6 * g ^ 5 * p ^ 5 + g ^ 6 * p ^ 6
        + (12 * g ^ 3 + 2 * c5) * (p * q) + c3 * (p ^ 2 * q) + 12 * g ^ 5 * (p ^ 3 * q) + 3 * g ^ 6 * (p ^ 4 * q)
        + c4 * q ^ 2 + 6 * g ^ 5 * (p * q ^ 2) + 3 * g ^ 6 * (p ^ 2 * q ^ 2) + g ^ 6 * q ^ 3 := by
    positivity
  linarith

theorem fractional_poly (p q g b : ℝ) (hp : 0 ≤ p) (hq : 0 ≤ q) (hg : 0 ≤ g) (hb : 0 ≤ b) (h1 : 3 * g + 4 * b = 1) (h2 : g ^ 2 = 2 * b ^ 2) :
    ((1 - b * p) ^ 2 + b ^ 2 * q) ^ 2 * ((1 - 2 * b * p) ^ 2 + (2 * b) ^ 2 * q) ≤ ((1 + g * p) ^ 2 + g ^ 2 * q) ^ 3 := by
  have g3 : g ^ 3 = 2 * b ^ 2 * g := by rw [← h2]; ring
  have g4 : g ^ 4 = 4 * b ^ 4 := by rw [show g ^ 4 = (g ^ 2) ^ 2 by ring, h2]; ring
  have g6 : g ^ 6 = 8 * b ^ 6 := by rw [show g ^ 6 = (g ^ 2) ^ 3 by ring, h2]; ring
  have e : ((1 + g * p) ^ 2 + g ^ 2 * q) ^ 3 - ((1 - b * p) ^ 2 + b ^ 2 * q) ^ 2 * ((1 - 2 * b * p) ^ 2 + (2 * b) ^ 2 * q)
      = 2 * (3 * g + 4 * b) * p + (15 * g ^ 2 - 26 * b ^ 2) * p ^ 2 + (20 * g ^ 3 + 44 * b ^ 3) * p ^ 3 + (15 * g ^ 4 - 41 * b ^ 4) * p ^ 4
        + (6 * g ^ 5 + 20 * b ^ 5) * p ^ 5 + (g ^ 6 - 4 * b ^ 6) * p ^ 6
        + (3 * g ^ 2 - 6 * b ^ 2) * q + (12 * g ^ 3 + 28 * b ^ 3) * (p * q) + (18 * g ^ 4 - 50 * b ^ 4) * (p ^ 2 * q)
        + (12 * g ^ 5 + 40 * b ^ 5) * (p ^ 3 * q) + (3 * g ^ 6 - 12 * b ^ 6) * (p ^ 4 * q)
        + (3 * g ^ 4 - 9 * b ^ 4) * q ^ 2 + (6 * g ^ 5 + 20 * b ^ 5) * (p * q ^ 2) + (3 * g ^ 6 - 12 * b ^ 6) * (p ^ 2 * q ^ 2)
        + (g ^ 6 - 4 * b ^ 6) * q ^ 3 := by ring
  have : 0 ≤ 2 * 1 * p + (4 * b ^ 2) * p ^ 2 + (20 * g ^ 3 + 44 * b ^ 3) * p ^ 3 + (19 * b ^ 4) * p ^ 4
        + (6 * g ^ 5 + 20 * b ^ 5) * p ^ 5 + (4 * b ^ 6) * p ^ 6
        + (12 * g ^ 3 + 28 * b ^ 3) * (p * q) + (22 * b ^ 4) * (p ^ 2 * q)
        + (12 * g ^ 5 + 40 * b ^ 5) * (p ^ 3 * q) + (12 * b ^ 6) * (p ^ 4 * q)
        + (3 * b ^ 4) * q ^ 2 + (6 * g ^ 5 + 20 * b ^ 5) * (p * q ^ 2) + (12 * b ^ 6) * (p ^ 2 * q ^ 2)
        + (4 * b ^ 6) * q ^ 3 := by positivity
  have e2 : ((1 + g * p) ^ 2 + g ^ 2 * q) ^ 3 - ((1 - b * p) ^ 2 + b ^ 2 * q) ^ 2 * ((1 - 2 * b * p) ^ 2 + (2 * b) ^ 2 * q)
      = 2 * 1 * p + (4 * b ^ 2) * p ^ 2 + (20 * g ^ 3 + 44 * b ^ 3) * p ^ 3 + (19 * b ^ 4) * p ^ 4
        + (6 * g ^ 5 + 20 * b ^ 5) * p ^ 5 + (4 * b ^ 6) * p ^ 6
        + (12 * g ^ 3 + 28 * b ^ 3) * (p * q) + (22 * b ^ 4) * (p ^ 2 * q)
        + (12 * g ^ 5 + 40 * b ^ 5) * (p ^ 3 * q) + (12 * b ^ 6) * (p ^ 4 * q)
        + (3 * b ^ 4) * q ^ 2 + (6 * g ^ 5 + 20 * b ^ 5) * (p * q ^ 2) + (12 * b ^ 6) * (p ^ 2 * q ^ 2)
        + (4 * b ^ 6) * q ^ 3 := by
    linear_combination e + 2 * p * h1 + (15 * p ^ 2 + 3 * q) * h2 + (15 * p ^ 4 + 18 * p ^ 2 * q + 3 * q ^ 2) * g4
      + (p ^ 6 + 3 * p ^ 4 * q + 3 * p ^ 2 * q ^ 2 + q ^ 3) * g6
  linarith

/-! ### A-stability -/

theorem normSq_lin (c : ℝ) (z : ℂ) : Complex.normSq (1 + (c : ℂ) * z) = (1 - c * (-z.re)) ^ 2 + c ^ 2 * z.im ^ 2 := by
  simp [Complex.normSq_apply]; ring

theorem normSq_den (c : ℝ) (z : ℂ) : Complex.normSq (1 - (c : ℂ) * z) = (1 + c * (-z.re)) ^ 2 + c ^ 2 * z.im ^ 2 := by
  simp [Complex.normSq_apply]; ring

theorem theta_stable (theta : ℝ) (h : 1/2 ≤ theta) : (oneStepTheta theta).AStable := by
  intro lam hl t dt hdt u hu
  have hz := re_scaled lam dt hl hdt
  have h0 : 0 ≤ theta := by linarith
  refine norm_le_of_mul _ _ _ _ (theta_test theta lam t dt u hu) (denominator_ne theta h0 _ hz) ?_
  rw [normSq_lin, normSq_den]
  have hp : 0 ≤ -(lam * dt).re := by linarith
  have hq : 0 ≤ (lam * dt).im ^ 2 := sq_nonneg _
  generalize -(lam * dt).re = p at *
  generalize (lam * dt).im ^ 2 = q at *
  have e : (1 + theta * p) ^ 2 + theta ^ 2 * q - ((1 - (1 - theta) * p) ^ 2 + (1 - theta) ^ 2 * q)
      = 2 * p + (2 * theta - 1) * (p ^ 2 + q) := by ring
  have : 0 ≤ 2 * p + (2 * theta - 1) * (p ^ 2 + q) := by
    have : 0 ≤ (2 * theta - 1) := by linarith
    positivity
  linarith

theorem sqrt2_bounds (r : ℝ) (hr : r * r = 2) (hr0 : 0 ≤ r) : 14/10 ≤ r ∧ r ≤ 142/100 := by
  constructor <;> nlinarith

theorem alexander2_stable (r : ℝ) (hr : r * r = 2) (hr0 : 0 ≤ r) : (alexander2 r).AStable := by
  intro lam hl t dt hdt u hu
  have hz := re_scaled lam dt hl hdt
  obtain ⟨r1, r2⟩ := sqrt2_bounds r hr hr0
  have hg : 0 ≤ 1 - 1/2 * r := by linarith
  refine norm_le_of_mul _ _ _ _ (alexander2_test r lam t dt u hu) (pow_ne_zero _ (denominator_ne _ hg _ hz)) ?_
  rw [map_pow, normSq_lin, normSq_den]
  have hp : 0 ≤ -(lam * dt).re := by linarith
  have := alexander2_poly _ _ (1 - 1/2 * r) hp (sq_nonneg (lam * dt).im) hg (by linear_combination (1/2) * hr)
  rw [show 1 - 2 * (1 - 1/2 * r) = r - 1 by ring] at this
  exact this

theorem alexander3_stable (alpha : ℝ) (ha : alexanderPoly alpha = 0) (h1 : 43/100 ≤ alpha) (h2 : alpha ≤ 44/100) :
    (alexander3 alpha).AStable := by
  intro lam hl t dt hdt u hu
  have hz := re_scaled lam dt hl hdt
  have hg : 0 ≤ alpha := by linarith
  refine norm_le_of_mul _ _ _ _ (alexander3_test alpha ha lam t dt u hu) (pow_ne_zero _ (denominator_ne _ hg _ hz)) ?_
  rw [map_pow, normSq_den]
  have hp : 0 ≤ -(lam * dt).re := by linarith
  have := alexander3_poly _ _ alpha _ _ hp (sq_nonneg (lam * dt).im) h1 h2 rfl rfl
  refine le_trans (le_of_eq ?_) this
  generalize 1 - 3 * alpha = a
  generalize 1/2 - 3 * alpha + 3 * alpha ^ 2 = b
  generalize lam * dt = z
  simp [Complex.normSq_apply, pow_two]
  ring

theorem fractional_stable (r : ℝ) (hr : r * r = 2) (hr0 : 0 ≤ r) : (fractionalStep r).AStable := by
  intro lam hl t dt hdt u hu
  have hz := re_scaled lam dt hl hdt
  obtain ⟨r1, r2⟩ := sqrt2_bounds r hr hr0
  have e1 : (2 - r) * (1 - 1/2 * r) = 3 - 2 * r := by linear_combination (1/2) * hr
  have e2 : (1 - (2 - r)) * (1 - 1/2 * r) = 3/2 * r - 2 := by linear_combination (-1/2) * hr
  have e3 : (2 - r) * (1 - 2 * (1 - 1/2 * r)) = 2 * (3/2 * r - 2) := by linear_combination (-1) * hr
  have hg : 0 ≤ 3 - 2 * r := by linarith
  have hb : 0 ≤ 3/2 * r - 2 := by linarith
  have ht := fractional_test r lam t dt u hu
  rw [e1, e2, e3] at ht
  refine norm_le_of_mul _ _ _ _ ht (pow_ne_zero _ (denominator_ne _ hg _ hz)) ?_
  rw [map_pow, map_mul, map_pow, normSq_lin, normSq_lin, normSq_den]
  have hp : 0 ≤ -(lam * dt).re := by linarith
  exact fractional_poly _ _ (3 - 2 * r) (3/2 * r - 2) hp (sq_nonneg (lam * dt).im) hg hb (by ring) (by linear_combination (-1/2) * hr)

/-! ### Damping -/

theorem euler_damping : (implicitEuler : Scheme ℝ).Damping := by
  refine ⟨1, fun lam hl t dt hdt u hu => ?_⟩
  have hz := re_scaled lam dt hl hdt
  have ht := theta_test 1 lam t dt u hu
  have h2 := (denominator 1 zero_le_one _ hz).2
  have h3 := congrArg norm ht
  simp only [sub_self, Complex.ofReal_zero, zero_mul, add_zero, one_mul, norm_mul (1 - ((1 : ℝ) : ℂ) * (lam * dt))] at h3
  rw [one_mul] at h2
  calc ‖lam * dt‖ * ‖u 1‖ ≤ ‖1 - ((1 : ℝ) : ℂ) * (lam * dt)‖ * ‖u 1‖ := mul_le_mul_of_nonneg_right h2 (norm_nonneg _)
    _ = ‖u 0‖ := h3
    _ = 1 * ‖u 0‖ := (one_mul _).symm

/-- If `(1 - g z)^(k+1) v = P(z) w` with `|P(z)| ≤ c |1 - g z|^k`, then `|z| |v| ≤ (c/g) |w|`. -/
theorem damping_of (g : ℝ) (hg : 0 < g) (k : Nat) (c : ℝ) (z P v w : ℂ) (hz : z.re ≤ 0) (h : (1 - (g : ℂ) * z) ^ (k + 1) * v = P * w)
    (hP : ‖P‖ ≤ c * ‖1 - (g : ℂ) * z‖ ^ k) : ‖z‖ * ‖v‖ ≤ c / g * ‖w‖ := by
  obtain ⟨d1, d2⟩ := denominator g hg.le z hz
  have h3 := congrArg norm h
  rw [norm_mul, norm_mul, norm_pow] at h3
  generalize ‖1 - (g : ℂ) * z‖ = d at *
  have hd : 0 < d ^ k := pow_pos (by linarith) _
  have h4 : d ^ k * (d * ‖v‖) ≤ d ^ k * (c * ‖w‖) := by
    calc d ^ k * (d * ‖v‖) = d ^ (k + 1) * ‖v‖ := by ring
      _ = ‖P‖ * ‖w‖ := h3
      _ ≤ c * d ^ k * ‖w‖ := mul_le_mul_of_nonneg_right hP (norm_nonneg _)
      _ = d ^ k * (c * ‖w‖) := by ring
  have h5 := le_of_mul_le_mul_left h4 hd
  have h6 : g * (‖z‖ * ‖v‖) ≤ c * ‖w‖ := by
    calc g * (‖z‖ * ‖v‖) = g * ‖z‖ * ‖v‖ := by ring
      _ ≤ d * ‖v‖ := mul_le_mul_of_nonneg_right d2 (norm_nonneg _)
      _ ≤ c * ‖w‖ := h5
  rw [div_mul_eq_mul_div, le_div_iff₀ hg]
  linarith

theorem alexander2_damping (r : ℝ) (hr : r * r = 2) (hr0 : 0 ≤ r) : (alexander2 r).Damping := by
  obtain ⟨r1, r2⟩ := sqrt2_bounds r hr hr0
  have hg : 0 < 1 - 1/2 * r := by linarith
  refine ⟨(1 + (r - 1) / (1 - 1/2 * r)) / (1 - 1/2 * r), fun lam hl t dt hdt u hu => ?_⟩
  have hz := re_scaled lam dt hl hdt
  refine damping_of _ hg 1 _ _ _ _ _ hz (alexander2_test r lam t dt u hu) ?_
  obtain ⟨d1, d2⟩ := denominator _ hg.le _ hz
  rw [pow_one]
  refine (norm_add_le _ _).trans ?_
  rw [norm_one, norm_mul, Complex.norm_real, Real.norm_of_nonneg (by linarith)]
  have h3 : (r - 1) * ‖lam * dt‖ ≤ (r - 1) / (1 - 1/2 * r) * ‖1 - ((1 - 1/2 * r : ℝ) : ℂ) * (lam * dt)‖ := by
    rw [div_mul_eq_mul_div, le_div_iff₀ hg]
    have := mul_le_mul_of_nonneg_left d2 (show 0 ≤ r - 1 by linarith)
    linarith
  rw [add_mul, one_mul]
  linarith

theorem alexander3_damping (alpha : ℝ) (ha : alexanderPoly alpha = 0) (h1 : 43/100 ≤ alpha) : (alexander3 alpha).Damping := by
  have hg : 0 < alpha := by linarith
  refine ⟨(1 + |1 - 3 * alpha| / alpha + |1/2 - 3 * alpha + 3 * alpha ^ 2| / alpha ^ 2) / alpha, fun lam hl t dt hdt u hu => ?_⟩
  have hz := re_scaled lam dt hl hdt
  refine damping_of _ hg 2 _ _ _ _ _ hz (alexander3_test alpha ha lam t dt u hu) ?_
  obtain ⟨d1, d2⟩ := denominator _ hg.le _ hz
  generalize lam * dt = z at *
  refine (norm_add_le _ _).trans ?_
  have h2 : ‖(1 : ℂ) + ((1 - 3 * alpha : ℝ) : ℂ) * z‖ ≤ 1 + |1 - 3 * alpha| * ‖z‖ := by
    refine (norm_add_le _ _).trans ?_
    rw [norm_one, norm_mul, Complex.norm_real, Real.norm_eq_abs]
  have h3 : ‖((1/2 - 3 * alpha + 3 * alpha ^ 2 : ℝ) : ℂ) * z ^ 2‖ = |1/2 - 3 * alpha + 3 * alpha ^ 2| * ‖z‖ ^ 2 := by
    rw [norm_mul, norm_pow, Complex.norm_real, Real.norm_eq_abs]
  rw [h3]
  have hB := abs_nonneg (1/2 - 3 * alpha + 3 * alpha ^ 2)
  have hA := abs_nonneg (1 - 3 * alpha)
  generalize |1/2 - 3 * alpha + 3 * alpha ^ 2| = b at *
  generalize |1 - 3 * alpha| = a at *
  generalize ‖1 - (alpha : ℂ) * z‖ = d at *
  have hz0 := norm_nonneg z
  generalize ‖z‖ = y at *
  have dd : d ≤ d ^ 2 := by nlinarith
  have k1 : a * y ≤ a / alpha * d ^ 2 := by
    rw [div_mul_eq_mul_div, le_div_iff₀ hg]
    have := mul_le_mul_of_nonneg_left (d2.trans dd) hA
    linarith
  have k2 : b * y ^ 2 ≤ b / alpha ^ 2 * d ^ 2 := by
    rw [div_mul_eq_mul_div, le_div_iff₀ (by positivity)]
    have h5 : (alpha * y) ^ 2 ≤ d ^ 2 := pow_le_pow_left₀ (by positivity) d2 2
    have := mul_le_mul_of_nonneg_left h5 hB
    calc b * y ^ 2 * alpha ^ 2 = b * (alpha * y) ^ 2 := by ring
      _ ≤ b * d ^ 2 := this
  have k3 : (1 + a / alpha + b / alpha ^ 2) * d ^ 2 = d ^ 2 + a / alpha * d ^ 2 + b / alpha ^ 2 * d ^ 2 := by ring
  rw [k3]
  linarith

/-! ### Energy -/

section
variable {K X V : Type} [Field K] [LinearOrder K] [IsStrictOrderedRing K] [AddCommGroup X] [Module K X] [AddCommGroup V] [Module K V]

theorem factors_pos (mode : DTMode) (dt : K) (h : 0 < dt) : 0 < (factors mode dt).1 ∧ 0 < (factors mode dt).2 := by
  cases mode <;> simp [factors, h]

/-- The stage equation of a one-step theta scheme. -/
theorem theta_stage (theta time dt : K) (mode : DTMode) (R0 R1 : Op K X V) (trace : List (Kind × Nat)) (m : X →ₗ[K] V) (x : Nat → X)
    (hm : ∀ t x, form R1 trace t x = m x) (h : schemeResidual ⟨oneStepTheta theta, time, dt, mode, 1⟩ R0 R1 trace x = 0) :
    (factors mode dt).2 • m (x 1 - x 0) + (factors mode dt).1 • (theta • form R0 trace (time + dt) (x 1) + (1 - theta) • form R0 trace time (x 0)) = 0 := by
  unfold schemeResidual at h
  simp only [sum_range_succ, range_zero, sum_empty, zero_add, Scheme.a, Scheme.b, Scheme.d, oneStepTheta, Nat.sub_self, List.getD_cons_zero,
    List.getD_cons_succ, hm, zero_mul, add_zero, one_mul, neg_mul] at h
  rw [map_sub, ← h]
  module

/-- A growth of the energy by a theta step with linear dissipative spatial form is impossible. -/
theorem theta_energy (pair : V →ₗ[K] X →ₗ[K] K) (theta time dt : K) (mode : DTMode) (R0 R1 : Op K X V) (trace : List (Kind × Nat))
    (m a : X →ₗ[K] V) (x : Nat → X) (hth : 1/2 ≤ theta) (hdt : 0 < dt) (hm : MassForm pair R1 trace m)
    (ha : ∀ t x, form R0 trace t x = a x) (hd : ∀ x, 0 ≤ pair (a x) x)
    (h : schemeResidual ⟨oneStepTheta theta, time, dt, mode, 1⟩ R0 R1 trace x = 0) : energy pair m (x 1) ≤ energy pair m (x 0) := by
  have hs := theta_stage theta time dt mode R0 R1 trace m x hm.1 h
  obtain ⟨f0, f1⟩ := factors_pos mode dt hdt
  generalize (factors mode dt).1 = p at *
  generalize (factors mode dt).2 = q at *
  rw [ha, ha] at hs
  generalize x 0 = u at *
  generalize x 1 = v at *
  have hs' : q • m (v - u) + p • a (theta • v + (1 - theta) • u) = 0 := by rw [map_add, map_smul, map_smul]; exact hs
  have h1 := congrArg (fun w => pair w (theta • v + (1 - theta) • u)) hs'
  have h2 := hd (theta • v + (1 - theta) • u)
  simp only [map_add pair, map_smul pair, LinearMap.add_apply, LinearMap.smul_apply, map_zero, LinearMap.zero_apply, smul_eq_mul] at h1
  generalize pair (a (theta • v + (1 - theta) • u)) (theta • v + (1 - theta) • u) = w at *
  have h1' : pair (m (v - u)) (theta • v + (1 - theta) • u) ≤ 0 := by
    by_contra hc
    have := mul_pos f1 (not_le.1 hc)
    have := mul_nonneg f0.le h2
    linarith
  have h3 := hm.2.1 u v
  have h4 := hm.2.2 (v - u)
  unfold energy at h4 ⊢
  simp only [map_sub, LinearMap.sub_apply] at h4
  simp only [map_sub, LinearMap.sub_apply, map_add, map_smul, smul_eq_mul] at h1'
  rw [h3] at h1' h4
  generalize pair (m v) v = vv at *
  generalize pair (m v) u = vu at *
  generalize pair (m u) u = uu at *
  nlinarith [mul_nonneg (show 0 ≤ theta - 1/2 by linarith) h4]

/-- Two steps of implicit Euler with a monotone spatial form do not move apart. -/
theorem euler_contraction (pair : V →ₗ[K] X →ₗ[K] K) (time dt : K) (mode : DTMode) (R0 R1 : Op K X V) (trace : List (Kind × Nat))
    (m : X →ₗ[K] V) (x y : Nat → X) (hdt : 0 < dt) (hm : MassForm pair R1 trace m)
    (hd : ∀ t x y, 0 ≤ pair (form R0 trace t x - form R0 trace t y) (x - y))
    (hx : schemeResidual ⟨implicitEuler, time, dt, mode, 1⟩ R0 R1 trace x = 0)
    (hy : schemeResidual ⟨implicitEuler, time, dt, mode, 1⟩ R0 R1 trace y = 0) : energy pair m (x 1 - y 1) ≤ energy pair m (x 0 - y 0) := by
  have h1 := theta_stage 1 time dt mode R0 R1 trace m x hm.1 hx
  have h2 := theta_stage 1 time dt mode R0 R1 trace m y hm.1 hy
  obtain ⟨f0, f1⟩ := factors_pos mode dt hdt
  generalize (factors mode dt).1 = p at *
  generalize (factors mode dt).2 = q at *
  have h3 := hd (time + dt) (x 1) (y 1)
  have e : q • m (x 1 - y 1 - (x 0 - y 0)) + p • (form R0 trace (time + dt) (x 1) - form R0 trace (time + dt) (y 1)) = 0 := by
    rw [sub_self, zero_smul, add_zero, one_smul] at h1 h2
    have := congrArg₂ (· - ·) h1 h2
    simp only [map_sub, sub_self] at this ⊢
    rw [← this]
    module
  generalize form R0 trace (time + dt) (x 1) - form R0 trace (time + dt) (y 1) = w at *
  generalize x 1 - y 1 = v at *
  generalize x 0 - y 0 = u at *
  have h1 := congrArg (fun w => pair w v) e
  simp only [map_add pair, map_smul pair, LinearMap.add_apply, LinearMap.smul_apply, map_zero, LinearMap.zero_apply, smul_eq_mul] at h1
  have h1' : pair (m (v - u)) v ≤ 0 := by
    by_contra hc
    have := mul_pos f1 (not_le.1 hc)
    have := mul_nonneg f0.le h3
    linarith
  have h3 := hm.2.1 u v
  have h4 := hm.2.2 (v - u)
  unfold energy at h4 ⊢
  simp only [map_sub, LinearMap.sub_apply] at h4 h1'
  rw [h3] at h1' h4
  linarith

end

end Verif.OneStep

namespace Verif.OneStep
open Finset

/-! ### Strong stability preserving schemes -/

section
variable {K X V : Type} [Field K] [LinearOrder K] [IsStrictOrderedRing K] [AddCommGroup X] [Module K X] [AddCommGroup V] [Module K V]

/-- A stage that is a convex combination of the old value and an Euler step. -/
theorem convex_stage (m : X →ₗ[K] V) (hinj : ∀ x, m x = 0 → x = 0) (r : K → X → V) (dt : K) (C : X → Prop) (hC : ConvexSet (K := K) C)
    (hE : EulerPreserves m r dt C) (t : K) (u v w : X) (hu : C u) (hv : C v) (a b : K) (ha : 0 ≤ a) (hb : 0 ≤ b) (hab : a + b = 1)
    (h : m w = a • m u + b • (m v - dt • r t v)) : C w := by
  obtain ⟨y, hy, e⟩ := hE t v hv
  have : w = a • u + b • y := by
    refine sub_eq_zero.1 (hinj _ ?_)
    rw [map_sub, map_add, map_smul, map_smul, h, e, sub_self]
  rw [this]
  exact hC u y hu hy a b ha hb hab

theorem heun_convex (time dt : K) (R0 R1 : Op K X V) (trace : List (Kind × Nat)) (m : X →ₗ[K] V) (x : Nat → X)
    (hm : ∀ t x, form R1 trace t x = m x) (hinj : ∀ x, m x = 0 → x = 0) (C : X → Prop) (hC : ConvexSet (K := K) C)
    (hE : EulerPreserves m (form R0 trace) dt C) (h0 : C (x 0))
    (h : ∀ r, 1 ≤ r → r ≤ 2 → schemeResidual ⟨heun, time, dt, .multiplyOperator0ByDT, r⟩ R0 R1 trace x = 0) : C (x 1) ∧ C (x 2) := by
  have h1 := h 1 (by omega) (by omega)
  have h2 := h 2 (by omega) (by omega)
  simp [schemeResidual, sum_range_succ, factors, Scheme.a, Scheme.b, Scheme.d, heun, hm] at h1 h2
  have c1 : C (x 1) := by
    refine convex_stage m hinj (form R0 trace) dt C hC hE time (x 0) (x 0) (x 1) h0 h0 0 1 le_rfl zero_le_one (zero_add 1) ?_
    rw [← sub_eq_zero, ← h1]; module
  refine ⟨c1, ?_⟩
  refine convex_stage m hinj (form R0 trace) dt C hC hE (time + dt) (x 0) (x 1) (x 2) h0 c1 (1/2) (1/2) (by norm_num) (by norm_num) (by norm_num) ?_
  rw [← sub_eq_zero, ← h2]; module

theorem shu3_convex (time dt : K) (R0 R1 : Op K X V) (trace : List (Kind × Nat)) (m : X →ₗ[K] V) (x : Nat → X)
    (hm : ∀ t x, form R1 trace t x = m x) (hinj : ∀ x, m x = 0 → x = 0) (C : X → Prop) (hC : ConvexSet (K := K) C)
    (hE : EulerPreserves m (form R0 trace) dt C) (h0 : C (x 0))
    (h : ∀ r, 1 ≤ r → r ≤ 3 → schemeResidual ⟨shu3, time, dt, .multiplyOperator0ByDT, r⟩ R0 R1 trace x = 0) :
    C (x 1) ∧ C (x 2) ∧ C (x 3) := by
  have h1 := h 1 (by omega) (by omega)
  have h2 := h 2 (by omega) (by omega)
  have h3 := h 3 (by omega) (by omega)
  simp [schemeResidual, sum_range_succ, factors, Scheme.a, Scheme.b, Scheme.d, shu3, hm] at h1 h2 h3
  have c1 : C (x 1) := by
    refine convex_stage m hinj (form R0 trace) dt C hC hE time (x 0) (x 0) (x 1) h0 h0 0 1 le_rfl zero_le_one (zero_add 1) ?_
    rw [← sub_eq_zero, ← h1]; module
  have c2 : C (x 2) := by
    refine convex_stage m hinj (form R0 trace) dt C hC hE (time + dt) (x 0) (x 1) (x 2) h0 c1 (3/4) (1/4) (by norm_num) (by norm_num) (by norm_num) ?_
    rw [← sub_eq_zero, ← h2]; module
  refine ⟨c1, c2, ?_⟩
  refine convex_stage m hinj (form R0 trace) dt C hC hE (time + 2⁻¹ * dt) (x 0) (x 2) (x 3) h0 c2 (1/3) (2/3) (by norm_num) (by norm_num) (by norm_num) ?_
  rw [← sub_eq_zero, ← h3]; module

end

end Verif.OneStep
