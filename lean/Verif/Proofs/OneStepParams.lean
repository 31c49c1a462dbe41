import Verif.Spec.OneStepParams
import Mathlib.Algebra.Order.Field.Basic
import Mathlib.Algebra.BigOperators.Ring.Finset
import Mathlib.Algebra.Module.BigOperators
import Mathlib.Tactic.Ring
import Mathlib.Tactic.LinearCombination
import Mathlib.Tactic.Linarith
import Mathlib.Tactic.FieldSimp
import Mathlib.Tactic.NormNum
import Mathlib.Tactic.IntervalCases
import Mathlib.Tactic.Module
namespace Verif.OneStep
open Finset

variable {K : Type} [Field K] [LinearOrder K]

/-- Coefficients of the equivalent Runge–Kutta method. -/
def butcher (S : Scheme K) : Nat → Nat → K
  | 0, _ => 0
  | r + 1, j => (if j ≤ r + 1 then S.b (r + 1) j else 0) - ∑ i : Fin (r + 1), S.a (r + 1) i.1 * butcher S i.1 j
termination_by r => r
decreasing_by exact i.2

theorem butcher_zero (S : Scheme K) (j : Nat) : butcher S 0 j = 0 := by rw [butcher]

theorem butcher_succ (S : Scheme K) (r j : Nat) : butcher S (r + 1) j
    = (if j ≤ r + 1 then S.b (r + 1) j else 0) - ∑ i ∈ range (r + 1), S.a (r + 1) i * butcher S i j := by
  rw [butcher, Finset.sum_range]

theorem butcher_eq (S : Scheme K) (r j : Nat) (hr : 1 ≤ r) (ha : S.a r r = 1) :
    ∑ i ∈ range (r + 1), S.a r i * butcher S i j = if j ≤ r then S.b r j else 0 := by
  obtain ⟨r, rfl⟩ : ∃ r', r = r' + 1 := ⟨r - 1, by omega⟩
  rw [sum_range_succ, ha, one_mul, butcher_succ S r j]
  ring

/-- Triangular systems with unit diagonal have only the trivial solution. -/
theorem triangular (S : Scheme K) (hc : S.Consistent) {V : Type} [AddCommGroup V] [Module K V] (E : Nat → V)
    (h0 : E 0 = 0) :
    (∀ r, 1 ≤ r → r ≤ S.s → ∑ i ∈ range (r + 1), S.a r i • E i = 0) ↔ ∀ r, r ≤ S.s → E r = 0 := by
  constructor
  · intro h r
    induction r using Nat.strong_induction_on with
    | _ r ih =>
      intro hr
      rcases Nat.eq_zero_or_pos r with rfl | hp
      · exact h0
      · have := h r hp hr
        rw [sum_range_succ, (hc.2.2 r hp hr).1, one_smul] at this
        rw [sum_eq_zero] at this
        · simpa using this
        · intro i hi
          rw [ih i (mem_range.mp hi) (by have := mem_range.mp hi; omega), smul_zero]
  · intro h r _ hr
    apply sum_eq_zero
    intro i hi
    rw [h i (by have := mem_range.mp hi; omega), smul_zero]

theorem sum_if_le {V : Type} [AddCommGroup V] (r s : Nat) (hr : r ≤ s) (g : Nat → V) :
    ∑ k ∈ range (s + 1), (if k ≤ r then g k else 0) = ∑ k ∈ range (r + 1), g k := by
  rw [← sum_filter]
  apply sum_congr _ (fun _ _ => rfl)
  ext k; simp only [mem_filter, mem_range]; omega

theorem solves_iff (S : Scheme K) (hc : S.Consistent) (V : Type) [AddCommGroup V] [Module K V] (f : K → V → V) (t dt : K)
    (u : Nat → V) : S.Solves f t dt u ↔ RungeKutta S.s (butcher S) S.d f t dt u := by
  set F : Nat → V := fun j => f (t + S.d j * dt) (u j) with hF
  set E : Nat → V := fun i => u i - (u 0 + dt • ∑ j ∈ range (S.s + 1), butcher S i j • F j) with hE
  have h0 : E 0 = 0 := by simp [hE, butcher_zero]
  have key : ∀ r, 1 ≤ r → r ≤ S.s → (∑ i ∈ range (r + 1), (S.a r i • u i + (S.b r i * dt) • (-(F i))))
      = ∑ i ∈ range (r + 1), S.a r i • E i := by
    intro r h1 hr
    obtain ⟨ha, hs, -⟩ := hc.2.2 r h1 hr
    have e1 : ∑ i ∈ range (r + 1), S.a r i • E i = ∑ i ∈ range (r + 1), S.a r i • u i
        - dt • ∑ j ∈ range (S.s + 1), (∑ i ∈ range (r + 1), S.a r i * butcher S i j) • F j := by
      simp only [hE, smul_sub, smul_add, sum_sub_distrib, sum_add_distrib]
      rw [← sum_smul, hs, zero_smul, zero_add]
      congr 1
      simp only [sum_smul, smul_sum]
      rw [sum_comm]
      refine sum_congr rfl fun j _ => sum_congr rfl fun i _ => ?_
      module
    rw [e1]
    have e2 : ∑ j ∈ range (S.s + 1), (∑ i ∈ range (r + 1), S.a r i * butcher S i j) • F j
        = ∑ j ∈ range (r + 1), S.b r j • F j := by
      rw [← sum_if_le r S.s hr]
      refine sum_congr rfl fun j _ => ?_
      rw [butcher_eq S r j h1 ha, ite_smul, zero_smul]
    rw [e2, sum_add_distrib, smul_sum, sub_eq_add_neg, ← sum_neg_distrib]
    congr 1
    refine sum_congr rfl fun j _ => ?_
    module
  have h2 : RungeKutta S.s (butcher S) S.d f t dt u ↔ ∀ r, r ≤ S.s → E r = 0 := by
    unfold RungeKutta
    refine forall_congr' fun i => imp_congr_right fun _ => ?_
    simp only [hE, hF]
    rw [sub_eq_zero]
  rw [h2, ← triangular S hc E h0]
  unfold Scheme.Solves
  refine forall_congr' fun r => forall_congr' fun h1 => forall_congr' fun hr => ?_
  rw [← key r h1 hr]

theorem butcher_rowSum (S : Scheme K) (hc : S.Consistent) (i : Nat) (hi : i ≤ S.s) :
    ∑ j ∈ range (S.s + 1), butcher S i j = S.d i := by
  set E : Nat → K := fun i => ∑ j ∈ range (S.s + 1), butcher S i j - S.d i with hE
  have h0 : E 0 = 0 := by simp [hE, butcher_zero, hc.1]
  have := (triangular S hc E h0).mp ?_ i hi
  · rw [hE] at this; exact sub_eq_zero.mp this
  · intro r h1 hr
    obtain ⟨ha, -, hd⟩ := hc.2.2 r h1 hr
    simp only [hE, smul_eq_mul, mul_sub, sum_sub_distrib, hd, mul_sum]
    rw [sum_comm]
    have : ∑ j ∈ range (S.s + 1), ∑ i ∈ range (r + 1), S.a r i * butcher S i j = ∑ j ∈ range (r + 1), S.b r j := by
      rw [← sum_if_le r S.s hr]
      exact sum_congr rfl fun j _ => butcher_eq S r j h1 ha
    rw [this, sub_self]

theorem hasOrder_of (S : Scheme K) (hc : S.Consistent) (p : Nat) (h : OrderConditions S.s (butcher S) S.d p) :
    S.HasOrder p :=
  ⟨butcher S, butcher_rowSum S hc, h, solves_iff S hc⟩

variable [IsStrictOrderedRing K]

theorem order_oneStepTheta (theta : K) : OrderConditions (oneStepTheta theta).s (butcher (oneStepTheta theta))
    (oneStepTheta theta).d 1 := by
  refine ⟨fun _ => ?_, by omega, by omega, by omega⟩
  simp [oneStepTheta, sum_range_succ, butcher_succ, butcher_zero, Scheme.a, Scheme.b]

theorem order_crankNicolson : OrderConditions (oneStepTheta (1/2 : K)).s (butcher (oneStepTheta (1/2 : K)))
    (oneStepTheta (1/2 : K)).d 2 := by
  refine ⟨fun _ => ?_, fun _ => ?_, by omega, by omega⟩ <;>
  simp [oneStepTheta, sum_range_succ, butcher_succ, butcher_zero, Scheme.a, Scheme.b, Scheme.d]

theorem order_heun : OrderConditions (heun : Scheme K).s (butcher (heun : Scheme K)) (heun : Scheme K).d 2 := by
  refine ⟨fun _ => ?_, fun _ => ?_, by omega, by omega⟩ <;>
  simp [heun, sum_range_succ, butcher_succ, butcher_zero, Scheme.a, Scheme.b, Scheme.d] <;> norm_num

theorem order_shu3 : OrderConditions (shu3 : Scheme K).s (butcher (shu3 : Scheme K)) (shu3 : Scheme K).d 3 := by
  refine ⟨fun _ => ?_, fun _ => ?_, fun _ => ⟨?_, ?_⟩, by omega⟩ <;>
  simp [shu3, sum_range_succ, butcher_succ, butcher_zero, Scheme.a, Scheme.b, Scheme.d] <;> norm_num

theorem order_rk4 : OrderConditions (rk4 : Scheme K).s (butcher (rk4 : Scheme K)) (rk4 : Scheme K).d 4 := by
  refine ⟨fun _ => ?_, fun _ => ?_, fun _ => ⟨?_, ?_⟩, fun _ => ⟨?_, ?_, ?_, ?_⟩⟩ <;>
  simp [rk4, sum_range_succ, butcher_succ, butcher_zero, Scheme.a, Scheme.b, Scheme.d] <;> norm_num

theorem order_alexander2 (r : K) (hr : r * r = 2) :
    OrderConditions (alexander2 r).s (butcher (alexander2 r)) (alexander2 r).d 2 := by
  refine ⟨fun _ => ?_, fun _ => ?_, by omega, by omega⟩ <;>
  simp [alexander2, sum_range_succ, butcher_succ, butcher_zero, Scheme.a, Scheme.b, Scheme.d] <;>
  linear_combination (-1/4 : K) * hr

theorem order_fractionalStep (r : K) (hr : r * r = 2) :
    OrderConditions (fractionalStep r).s (butcher (fractionalStep r)) (fractionalStep r).d 2 := by
  refine ⟨fun _ => ?_, fun _ => ?_, by omega, by omega⟩ <;>
  simp [fractionalStep, sum_range_succ, butcher_succ, butcher_zero, Scheme.a, Scheme.b, Scheme.d] 
  · linear_combination (-1/2 : K) * hr
  · linear_combination (r / 4 - 3/4) * hr

theorem order_alexander3 (alpha : K) (h : alexanderPoly alpha = 0) :
    OrderConditions (alexander3 alpha).s (butcher (alexander3 alpha)) (alexander3 alpha).d 3 := by
  unfold alexanderPoly at h
  refine ⟨fun _ => ?_, fun _ => ?_, fun _ => ⟨?_, ?_⟩, by omega⟩ <;>
  simp [alexander3, sum_range_succ, butcher_succ, butcher_zero, Scheme.a, Scheme.b, Scheme.d]
  · ring
  · linear_combination (-3/4 : K) * h
  · linear_combination (1 - 9 * alpha) / 8 * h
  · linear_combination (1 - 9/4 * alpha) * h

/-! Newton iteration of Alexander's scheme -/

theorem newton_poly (x : K) (hd : 3 * x * (x - 2) + 3/2 ≠ 0) :
    alexanderPoly (alexander3Newton x)
      = (alexanderPoly x / (3 * x * (x - 2) + 3/2)) ^ 2
        * (3 * x - 3 - alexanderPoly x / (3 * x * (x - 2) + 3/2)) := by
  set q := 3 * x * (x - 2) + 3/2 with hq
  set h := alexanderPoly x / q with hh
  have e : alexander3Newton x = x - h := by
    unfold alexander3Newton; rw [hh]; unfold alexanderPoly
    rw [← hq]; congr 2; ring
  have hp : alexanderPoly x = h * q := by rw [hh]; field_simp
  rw [e]
  have : alexanderPoly (x - h) = alexanderPoly x - h * q + h ^ 2 * (3 * x - 3 - h) := by
    rw [hq]; unfold alexanderPoly; ring
  rw [this, hp]; ring

/-- One Newton step near the root squares the defect. -/
theorem newton_step (x e : K) (h1 : 43/100 ≤ x) (h2 : x ≤ 44/100) (he : |alexanderPoly x| ≤ e) (hs : e ≤ 1/100) :
    |alexanderPoly (alexander3Newton x)| ≤ 8 * e ^ 2 ∧ |alexander3Newton x - x| ≤ 2 * e := by
  have hq : 3 * x * (x - 2) + 3/2 ≤ -(1/2) := by nlinarith
  have hq0 : 3 * x * (x - 2) + 3/2 ≠ 0 := by intro h; rw [h] at hq; norm_num at hq
  have he0 : 0 ≤ e := le_trans (abs_nonneg _) he
  set q := 3 * x * (x - 2) + 3/2 with hqd
  have hh : |alexanderPoly x / q| ≤ 2 * e := by
    rw [abs_div, div_le_iff₀ (abs_pos.mpr hq0)]
    have : 1/2 ≤ |q| := by rw [abs_of_neg (by linarith)]; linarith
    nlinarith [abs_nonneg q]
  constructor
  · rw [newton_poly x hq0, abs_mul, abs_pow]
    have h3 : |3 * x - 3 - alexanderPoly x / q| ≤ 2 := by
      rw [abs_le] at hh ⊢
      constructor <;> linarith [hh.1, hh.2]
    have h4 : |alexanderPoly x / q| ^ 2 ≤ (2 * e) ^ 2 := pow_le_pow_left₀ (abs_nonneg _) hh 2
    calc |alexanderPoly x / q| ^ 2 * |3 * x - 3 - alexanderPoly x / q| ≤ (2 * e) ^ 2 * 2 := by
            apply mul_le_mul h4 h3 (abs_nonneg _) (by positivity)
      _ = 8 * e ^ 2 := by ring
  · have : alexander3Newton x - x = -(alexanderPoly x / q) := by
      unfold alexander3Newton alexanderPoly; rw [← hqd]
      have : x * (x * x - 3 * (x - 1 / 2)) - 1 / 6 = x ^ 3 - 3 * x ^ 2 + 3 / 2 * x - 1 / 6 := by ring
      rw [this]; ring
    rw [this, abs_neg]; exact hh

/-- After `n` steps. -/
theorem newton_iterate (x : K) (h1 : 435/1000 ≤ x) (h2 : x ≤ 437/1000) (he : |alexanderPoly x| ≤ 1/10^10) (n : Nat) (hn : n ≤ 10) :
    |alexanderPoly (Nat.iterate alexander3Newton n x)| ≤ (1/10^9 : K) ^ (2 ^ n) / 8 ∧
    |Nat.iterate alexander3Newton n x - x| ≤ n * (1/10^8) := by
  induction n with
  | zero =>
    simp only [Function.iterate_zero, id]
    refine ⟨le_trans he (by norm_num), by simp⟩
  | succ n ih =>
    obtain ⟨i1, i2⟩ := ih (by omega)
    rw [Function.iterate_succ_apply']
    set y := Nat.iterate alexander3Newton n x
    have hsmall : (1/10^9 : K) ^ (2 ^ n) / 8 ≤ (1/10^9 : K) / 8 := by
      have : (1/10^9 : K) ^ (2 ^ n) ≤ (1/10^9 : K) ^ 1 :=
        pow_le_pow_of_le_one (by positivity) (by norm_num) Nat.one_le_two_pow
      rw [pow_one] at this; linarith
    have hnk : (n : K) ≤ 10 := by exact_mod_cast (by omega : n ≤ 10)
    have hy := abs_le.mp i2
    have hy1 : 43/100 ≤ y := by
      have : (n : K) * (1/10^8) ≤ 10 * (1/10^8) := by apply mul_le_mul_of_nonneg_right hnk; positivity
      norm_num at this hy ⊢; linarith [hy.1]
    have hy2 : y ≤ 44/100 := by
      have : (n : K) * (1/10^8) ≤ 10 * (1/10^8) := by apply mul_le_mul_of_nonneg_right hnk; positivity
      norm_num at this hy ⊢; linarith [hy.2]
    obtain ⟨s1, s2⟩ := newton_step y _ hy1 hy2 i1 (le_trans hsmall (by norm_num))
    constructor
    · refine le_trans s1 (le_of_eq ?_)
      rw [pow_succ 2 n, pow_mul]; ring
    · have : alexander3Newton y - x = (alexander3Newton y - y) + (y - x) := by ring
      rw [this]
      refine le_trans (abs_add_le _ _) ?_
      push_cast
      have : 2 * ((1/10^9 : K) ^ (2 ^ n) / 8) ≤ 1/10^8 := le_trans (mul_le_mul_of_nonneg_left hsmall (by norm_num)) (by norm_num)
      linarith

end Verif.OneStep
