import Verif.Proofs.FiniteElements
import Mathlib.Analysis.Calculus.Deriv.Polynomial
import Mathlib.MeasureTheory.Integral.IntervalIntegral.FundThmCalculus
import Mathlib.Analysis.SpecialFunctions.Integrals.Basic
import Mathlib.Tactic.Linarith
import Mathlib.Topology.Algebra.Polynomial
namespace Verif.FE
open Polynomial Spec

section Field
variable {K : Type} [Field K]

/-- The Legendre polynomials on the unit interval. -/
noncomputable def legendrePoly : Nat → K[X]
  | 0 => 1
  | 1 => 2 * X - 1
  | n + 2 => C (1 / ((n + 2 : Nat) : K)) * (C (2 * ((n + 2 : Nat) : K) - 1) * (2 * X - 1) * legendrePoly (n + 1)
      - C (((n + 2 : Nat) : K) - 1) * legendrePoly n)

theorem legendreLoop (x : K) (m : Nat) :
    (List.range' 2 m).foldl (fun v (n : Nat) =>
      v ++ [((2 * (n : K) - 1) * (2 * x - 1) * v.getD (n - 1) 0 - ((n : K) - 1) * v.getD (n - 2) 0) / (n : K)]) [1, 2 * x - 1]
    = (List.range (m + 2)).map fun n => (legendrePoly n).eval x := by
  induction m with
  | zero => simp [List.range_succ, legendrePoly]
  | succ m ih =>
    rw [List.range'_1_concat, List.foldl_append, ih]
    rw [List.range_succ (n := m + 2), List.map_append]
    simp only [List.foldl_cons, List.foldl_nil, List.map_cons, List.map_nil]
    congr 2
    have h1 : 2 + m - 1 = m + 1 := by omega
    have h2 : 2 + m - 2 = m := by omega
    rw [h1, h2, List.getD_eq_getElem _ _ (by simp), List.getD_eq_getElem _ _ (by simp)]
    simp only [List.getElem_map, List.getElem_range, legendrePoly, eval_mul, eval_sub, eval_C, eval_X, eval_ofNat, eval_one]
    have h3 : ((2 + m : Nat) : K) = ((m + 2 : Nat) : K) := by rw [Nat.add_comm]
    rw [h3]
    ring

theorem legendreValues_eq (x : K) (k : Nat) :
    legendreValues x k = (List.range (k + 1)).map fun n => (legendrePoly n).eval x := by
  cases k with
  | zero => simp [legendreValues, legendrePoly]
  | succ k => exact legendreLoop x k

theorem legendreValues_getD (x : K) (k a : Nat) (h : a ≤ k) :
    (legendreValues x k).getD a 0 = (legendrePoly a).eval x := by
  rw [legendreValues_eq, List.getD_eq_getElem _ _ (by simpa using Nat.lt_succ_of_le h)]
  simp

variable [CharZero K]

/-- The three term recurrence. -/
theorem legendre_rec (n : Nat) : ((n : K[X]) + 2) * legendrePoly (n + 2) =
    (2 * (n : K[X]) + 3) * (2 * X - 1) * legendrePoly (n + 1) - ((n : K[X]) + 1) * legendrePoly n := by
  have h : ((n : K[X]) + 2) * C (1 / ((n + 2 : Nat) : K)) = 1 := by
    have : ((n : K[X]) + 2) = C ((n + 2 : Nat) : K) := by rw [C_eq_natCast]; push_cast; rfl
    rw [this, ← C_mul, mul_one_div_cancel (Nat.cast_ne_zero.2 (by omega)), C_1]
  rw [legendrePoly, ← mul_assoc, h, one_mul]
  have h1 : C (2 * ((n + 2 : Nat) : K) - 1) = (2 * (n : K[X]) + 3) := by
    simp only [Nat.cast_add, Nat.cast_ofNat, C_sub, C_mul, C_add, map_natCast, C_ofNat, C_1]; ring
  have h2 : C (((n + 2 : Nat) : K) - 1) = ((n : K[X]) + 1) := by
    simp only [Nat.cast_add, Nat.cast_ofNat, C_sub, C_add, map_natCast, C_ofNat, C_1]; ring
  rw [h1, h2]

theorem natCast_poly_ne_zero (n : Nat) (h : n ≠ 0) : (n : K[X]) ≠ 0 := by
  rw [← map_natCast (C : K →+* K[X]), Ne, C_eq_zero]
  exact Nat.cast_ne_zero.2 h

theorem legendre_derivatives (n : Nat) :
    derivative (legendrePoly (n + 1) : K[X]) =
      (2 * X - 1) * derivative (legendrePoly n) + 2 * ((n : K[X]) + 1) * legendrePoly n ∧
    (2 * X - 1) * derivative (legendrePoly (n + 1) : K[X]) - derivative (legendrePoly n) =
      2 * ((n : K[X]) + 1) * legendrePoly (n + 1) := by
  induction n with
  | zero =>
    have h1 : derivative (legendrePoly 1 : K[X]) = 2 := by simp [legendrePoly]
    have h0 : derivative (legendrePoly 0 : K[X]) = 0 := by simp [legendrePoly]
    rw [h1, h0]
    simp only [legendrePoly]
    constructor <;> simp <;> ring
  | succ n ih =>
    obtain ⟨ha, hc⟩ := ih
    have hr := legendre_rec (K := K) n
    have hd := congrArg derivative hr
    simp only [derivative_mul, derivative_sub, derivative_add, derivative_natCast, derivative_ofNat, derivative_X, derivative_one,
      mul_zero, zero_mul, add_zero, zero_add, mul_one, sub_zero] at hd
    have hn : ((n : K[X]) + 2) ≠ 0 := by
      have := natCast_poly_ne_zero (K := K) (n + 2) (by omega)
      simpa using this
    have ha' : derivative (legendrePoly (n + 2) : K[X]) =
        (2 * X - 1) * derivative (legendrePoly (n + 1)) + 2 * ((n : K[X]) + 1 + 1) * legendrePoly (n + 1) := by
      apply mul_left_cancel₀ hn
      linear_combination hd + ((n : K[X]) + 1) * hc
    refine ⟨by push_cast; exact ha', ?_⟩
    push_cast
    rw [show n + 1 + 1 = n + 2 from rfl]
    linear_combination (2 * X - 1) * ha' + (2 * X - 1) * hc - ha - 2 * hr

theorem legendreLoopD (x : K) (m : Nat) :
    (List.range' 2 m).foldl (fun vd (n : Nat) =>
      (vd.1 ++ [((2 * (n : K) - 1) * (2 * x - 1) * vd.1.getD (n - 1) 0 - ((n : K) - 1) * vd.1.getD (n - 2) 0) / (n : K)],
       vd.2 ++ [(2 * x - 1) * vd.2.getD (n - 1) 0 + 2 * (n : K) * vd.1.getD (n - 1) 0])) ([1, 2 * x - 1], [0, 2])
    = ((List.range (m + 2)).map fun n => (legendrePoly n).eval x,
       (List.range (m + 2)).map fun n => (derivative (legendrePoly n)).eval x) := by
  induction m with
  | zero => simp [List.range_succ, legendrePoly]
  | succ m ih =>
    rw [List.range'_1_concat, List.foldl_append, ih]
    rw [List.range_succ (n := m + 2), List.map_append, List.map_append]
    simp only [List.foldl_cons, List.foldl_nil, List.map_cons, List.map_nil]
    have h1 : 2 + m - 1 = m + 1 := by omega
    have h2 : 2 + m - 2 = m := by omega
    have h3 : ((2 + m : Nat) : K) = ((m + 2 : Nat) : K) := by rw [Nat.add_comm]
    have e1 : ((List.range (m + 2)).map fun n => (legendrePoly n).eval x).getD (m + 1) 0 = (legendrePoly (m + 1)).eval x := by
      rw [List.getD_eq_getElem _ _ (by simp)]; simp
    have e2 : ((List.range (m + 2)).map fun n => (legendrePoly n).eval x).getD m 0 = (legendrePoly m).eval x := by
      rw [List.getD_eq_getElem _ _ (by simp)]; simp
    have e3 : ((List.range (m + 2)).map fun n => (derivative (legendrePoly n)).eval x).getD (m + 1) 0 =
        (derivative (legendrePoly (m + 1))).eval x := by
      rw [List.getD_eq_getElem _ _ (by simp)]; simp
    rw [h1, h2, e1, e2, e3]
    congr 2
    · congr 1
      simp only [legendrePoly, eval_mul, eval_sub, eval_C, eval_X, eval_ofNat, eval_one]
      rw [h3]
      ring
    · congr 1
      have := congrArg (eval x) (legendre_derivatives (K := K) (m + 1)).1
      simp only [eval_mul, eval_sub, eval_add, eval_X, eval_ofNat, eval_one, eval_natCast] at this
      rw [this]
      push_cast
      ring

theorem legendreValuesDerivatives_eq (x : K) (k : Nat) :
    legendreValuesDerivatives x k = ((List.range (k + 1)).map fun n => (legendrePoly n).eval x,
      (List.range (k + 1)).map fun n => (derivative (legendrePoly n)).eval x) := by
  cases k with
  | zero => simp [legendreValuesDerivatives, legendrePoly]
  | succ k => exact legendreLoopD x k

theorem legendre_degree (n : Nat) : (legendrePoly n : K[X]).natDegree ≤ n := by
  induction n using Nat.twoStepInduction with
  | zero => simp [legendrePoly]
  | one =>
    rw [legendrePoly]
    refine (natDegree_sub_le _ _).trans ?_
    have h2 : (2 * X : K[X]).natDegree ≤ 1 := by
      refine natDegree_mul_le.trans ?_
      rw [show (2 : K[X]) = C 2 from (C_ofNat 2).symm, natDegree_C, natDegree_X]
    simp only [natDegree_one]
    omega
  | more n h1 h2 =>
    rw [legendrePoly]
    refine (natDegree_C_mul_le _ _).trans ((natDegree_sub_le _ _).trans ?_)
    refine max_le ?_ ?_
    · rw [mul_assoc]
      refine (natDegree_C_mul_le _ _).trans (natDegree_mul_le.trans ?_)
      have h3 : (2 * X - 1 : K[X]).natDegree ≤ 1 := by
        refine (natDegree_sub_le _ _).trans ?_
        have h2 : (2 * X : K[X]).natDegree ≤ 1 := by
          refine natDegree_mul_le.trans ?_
          rw [show (2 : K[X]) = C 2 from (C_ofNat 2).symm, natDegree_C, natDegree_X]
        simp only [natDegree_one]
        omega
      omega
    · exact (natDegree_C_mul_le _ _).trans (by omega)

/-- The recurrence with the first step. -/
theorem legendre_rec' (n : Nat) : ((n : K[X]) + 1) * legendrePoly (n + 1) =
    (2 * (n : K[X]) + 1) * (2 * X - 1) * legendrePoly n - (n : K[X]) * legendrePoly (n - 1) := by
  cases n with
  | zero => simp [legendrePoly]
  | succ n =>
    have := legendre_rec (K := K) n
    push_cast
    rw [show n + 1 + 1 = n + 2 from rfl]
    linear_combination this

/-- Combinations of the first `n` Legendre polynomials. -/
def LegendreSpan (n : Nat) (g : K[X]) : Prop := ∃ b : Nat → K, g = ∑ a ∈ Finset.range (n + 1), C (b a) * legendrePoly a

theorem legendreSpan_mono {n m : Nat} (h : n ≤ m) {g : K[X]} (hg : LegendreSpan n g) : LegendreSpan m g := by
  obtain ⟨b, rfl⟩ := hg
  refine ⟨fun a => if a < n + 1 then b a else 0, ?_⟩
  obtain ⟨c, rfl⟩ := Nat.exists_eq_add_of_le h
  induction c with
  | zero => 
    refine Finset.sum_congr rfl fun a ha => ?_
    rw [show (fun a => if a < n + 1 then b a else 0) a = b a from if_pos (Finset.mem_range.1 ha)]
  | succ c ih =>
    rw [show n + (c + 1) + 1 = (n + c + 1) + 1 by omega, Finset.sum_range_succ _ (n + c + 1), ← ih (by omega),
      show (fun a => if a < n + 1 then b a else 0) (n + c + 1) = 0 from if_neg (by omega)]
    simp

theorem legendreSpan_add {n : Nat} {f g : K[X]} (hf : LegendreSpan n f) (hg : LegendreSpan n g) : LegendreSpan n (f + g) := by
  obtain ⟨b, rfl⟩ := hf
  obtain ⟨b', rfl⟩ := hg
  exact ⟨fun a => b a + b' a, by rw [← Finset.sum_add_distrib]; exact Finset.sum_congr rfl fun a _ => by rw [C_add]; ring⟩

theorem legendreSpan_smul {n : Nat} (c : K) {f : K[X]} (hf : LegendreSpan n f) : LegendreSpan n (C c * f) := by
  obtain ⟨b, rfl⟩ := hf
  exact ⟨fun a => c * b a, by rw [Finset.mul_sum]; exact Finset.sum_congr rfl fun a _ => by rw [C_mul]; ring⟩

theorem legendreSpan_self (n : Nat) : LegendreSpan n (legendrePoly n : K[X]) := by
  refine ⟨fun a => if a = n then 1 else 0, ?_⟩
  rw [Finset.sum_eq_single n]
  · simp
  · intro a _ h; simp [h]
  · intro h; simp at h

theorem legendreSpan_sum {ι : Type} {n : Nat} (s : Finset ι) (f : ι → K[X]) (hf : ∀ i ∈ s, LegendreSpan n (f i)) :
    LegendreSpan n (∑ i ∈ s, f i) := by
  classical
  induction s using Finset.induction_on with
  | empty => exact ⟨fun _ => 0, by simp⟩
  | insert i s hi ih =>
    rw [Finset.sum_insert hi]
    exact legendreSpan_add (hf i (by simp)) (ih fun j hj => hf j (by simp [hj]))

theorem legendreSpan_mul_X {n : Nat} {g : K[X]} (hg : LegendreSpan n g) : LegendreSpan (n + 1) (X * g) := by
  obtain ⟨b, rfl⟩ := hg
  rw [Finset.mul_sum]
  refine legendreSpan_sum _ _ fun a ha => ?_
  have ha' : a ≤ n := Nat.le_of_lt_succ (Finset.mem_range.1 ha)
  have key : (X * (C (b a) * legendrePoly a) : K[X]) = C (b a / 2) * legendrePoly a
      + (C (b a / 2 * ((a + 1 : Nat) : K) / ((2 * a + 1 : Nat) : K)) * legendrePoly (a + 1)
        + C (b a / 2 * ((a : Nat) : K) / ((2 * a + 1 : Nat) : K)) * legendrePoly (a - 1)) := by
    have hr := legendre_rec' (K := K) a
    have hne : ((2 * a + 1 : Nat) : K) ≠ 0 := Nat.cast_ne_zero.2 (by omega)
    have h2 : (2 : K) ≠ 0 := two_ne_zero
    have e1 : (C (b a / 2 * ((a + 1 : Nat) : K) / ((2 * a + 1 : Nat) : K)) : K[X]) =
        C (b a / 2 / ((2 * a + 1 : Nat) : K)) * ((a : K[X]) + 1) := by
      rw [show ((a : K[X]) + 1) = C ((a + 1 : Nat) : K) by simp, ← C_mul]; congr 1; ring
    have e2 : (C (b a / 2 * ((a : Nat) : K) / ((2 * a + 1 : Nat) : K)) : K[X]) =
        C (b a / 2 / ((2 * a + 1 : Nat) : K)) * (a : K[X]) := by
      rw [show (a : K[X]) = C (a : K) by simp, ← C_mul]; congr 1; ring
    have e3 : (C (b a / 2 / ((2 * a + 1 : Nat) : K)) : K[X]) * (2 * (a : K[X]) + 1) = C (b a / 2) := by
      rw [show (2 * (a : K[X]) + 1) = C ((2 * a + 1 : Nat) : K) by rw [C_eq_natCast]; push_cast; rfl, ← C_mul]; congr 1; field_simp
    have e4 : (C (b a / 2) : K[X]) * 2 = C (b a) := by
      rw [show (2 : K[X]) = C (2 : K) from (C_ofNat 2).symm, ← C_mul]; congr 1; field_simp
    rw [e1, e2]
    linear_combination (-(C (b a / 2 / ((2 * a + 1 : Nat) : K)))) * hr - X * legendrePoly a * e4 - (2 * X - 1) * legendrePoly a * e3
  rw [key]
  refine legendreSpan_add (legendreSpan_smul _ (legendreSpan_mono (by omega) (legendreSpan_self a)))
    (legendreSpan_add (legendreSpan_smul _ (legendreSpan_mono (by omega) (legendreSpan_self _)))
      (legendreSpan_smul _ (legendreSpan_mono (by omega) (legendreSpan_self _))))

theorem legendreSpan_pow (n : Nat) : LegendreSpan n (X ^ n : K[X]) := by
  induction n with
  | zero => exact ⟨fun _ => 1, by simp [legendrePoly]⟩
  | succ n ih => rw [pow_succ']; exact legendreSpan_mul_X ih

theorem legendreSpan_of_degree (k : Nat) (g : K[X]) (hg : g.natDegree ≤ k) : LegendreSpan k g := by
  rw [g.as_sum_range' (k + 1) (Nat.lt_succ_of_le hg)]
  refine legendreSpan_sum _ _ fun a ha => ?_
  rw [← C_mul_X_pow_eq_monomial]
  exact legendreSpan_smul _ (legendreSpan_mono (Nat.le_of_lt_succ (Finset.mem_range.1 ha)) (legendreSpan_pow a))

end Field

/-! ### Integrals -/

/-- The integral over the unit interval. -/
noncomputable def integral01 (q : ℝ[X]) : ℝ := ∫ x in (0:ℝ)..1, q.eval x

theorem intervalIntegrable_poly (q : ℝ[X]) : IntervalIntegrable (fun x => q.eval x) MeasureTheory.volume 0 1 :=
  q.continuous.intervalIntegrable 0 1

theorem integral01_add (p q : ℝ[X]) : integral01 (p + q) = integral01 p + integral01 q := by
  unfold integral01
  simp only [eval_add]
  exact intervalIntegral.integral_add (intervalIntegrable_poly p) (intervalIntegrable_poly q)

theorem integral01_sub (p q : ℝ[X]) : integral01 (p - q) = integral01 p - integral01 q := by
  unfold integral01
  simp only [eval_sub]
  exact intervalIntegral.integral_sub (intervalIntegrable_poly p) (intervalIntegrable_poly q)

theorem integral01_C_mul (c : ℝ) (p : ℝ[X]) : integral01 (C c * p) = c * integral01 p := by
  unfold integral01
  simp only [eval_mul, eval_C]
  exact intervalIntegral.integral_const_mul c _

theorem integral01_derivative (q : ℝ[X]) : integral01 (derivative q) = q.eval 1 - q.eval 0 := by
  unfold integral01
  exact intervalIntegral.integral_eq_sub_of_hasDerivAt (fun x _ => q.hasDerivAt x)
    ((derivative q).continuous.intervalIntegrable 0 1)

theorem legendre_ode (n : Nat) : derivative (((2 * X - 1) ^ 2 - 1) * derivative (legendrePoly n) : ℝ[X]) =
    C (4 * (n : ℝ) * ((n : ℝ) + 1)) * legendrePoly n := by
  cases n with
  | zero => simp [legendrePoly]
  | succ n =>
    obtain ⟨ha, hc⟩ := legendre_derivatives (K := ℝ) n
    have hb : ((2 * X - 1) ^ 2 - 1) * derivative (legendrePoly (n + 1) : ℝ[X]) =
        2 * ((n : ℝ[X]) + 1) * ((2 * X - 1) * legendrePoly (n + 1) - legendrePoly n) := by
      linear_combination (2 * X - 1) * hc - ha
    rw [hb]
    simp only [derivative_mul, derivative_sub, derivative_add, derivative_natCast, derivative_ofNat, derivative_X, derivative_one,
      mul_zero, zero_mul, add_zero, zero_add, mul_one, sub_zero]
    have hC : (C (4 * ((n + 1 : Nat) : ℝ) * (((n + 1 : Nat) : ℝ) + 1)) : ℝ[X]) = 4 * ((n : ℝ[X]) + 1) * ((n : ℝ[X]) + 1 + 1) := by
      rw [C_mul, C_mul, C_add, C_eq_natCast, C_1, C_ofNat]; push_cast; rfl
    rw [hC]
    linear_combination 2 * ((n : ℝ[X]) + 1) * hc

theorem legendre_orthogonal (m n : Nat) (h : m ≠ n) : integral01 (legendrePoly m * legendrePoly n) = 0 := by
  have hF := integral01_derivative (((2 * X - 1) ^ 2 - 1) * derivative (legendrePoly m) * legendrePoly n -
    ((2 * X - 1) ^ 2 - 1) * derivative (legendrePoly n) * legendrePoly m)
  have hD : derivative (((2 * X - 1) ^ 2 - 1) * derivative (legendrePoly m) * legendrePoly n -
      ((2 * X - 1) ^ 2 - 1) * derivative (legendrePoly n) * legendrePoly m : ℝ[X]) =
      C (4 * (m : ℝ) * ((m : ℝ) + 1) - 4 * (n : ℝ) * ((n : ℝ) + 1)) * (legendrePoly m * legendrePoly n) := by
    rw [derivative_sub, derivative_mul (f := ((2 * X - 1) ^ 2 - 1) * derivative (legendrePoly m)),
      derivative_mul (f := ((2 * X - 1) ^ 2 - 1) * derivative (legendrePoly n)), legendre_ode, legendre_ode, C_sub]
    ring
  rw [hD, integral01_C_mul] at hF
  have h0 : ∀ q r : ℝ[X], (((2 * X - 1) ^ 2 - 1) * q * r : ℝ[X]).eval 1 = 0 ∧ (((2 * X - 1) ^ 2 - 1) * q * r : ℝ[X]).eval 0 = 0 := by
    intro q r
    constructor
    · simp only [eval_mul, eval_sub, eval_pow, eval_X, eval_ofNat, eval_one]; norm_num
    · simp only [eval_mul, eval_sub, eval_pow, eval_X, eval_ofNat, eval_one]; norm_num
  rw [eval_sub, eval_sub, (h0 _ _).1, (h0 _ _).1, (h0 _ _).2, (h0 _ _).2, sub_zero, sub_zero] at hF
  rcases mul_eq_zero.1 hF with h1 | h1
  · exfalso
    have h2 : ((m : ℝ) - n) * ((m : ℝ) + n + 1) = 0 := by linear_combination h1 / 4
    rcases mul_eq_zero.1 h2 with h3 | h3
    · exact h (by exact_mod_cast sub_eq_zero.1 h3)
    · have : (0:ℝ) ≤ (m : ℝ) + n := by positivity
      linarith
  · exact h1

theorem legendre_norm (n : Nat) : integral01 (legendrePoly n * legendrePoly n) = 1 / (2 * (n : ℝ) + 1) := by
  induction n with
  | zero => simp [legendrePoly, integral01]
  | succ n ih =>
    have h1 := legendre_rec' (K := ℝ) n
    have h2 := legendre_rec (K := ℝ) n
    -- multiply by P_{n+1} and P_n
    have g1 : C ((n : ℝ) + 1) * (legendrePoly (n + 1) * legendrePoly (n + 1)) =
        C (2 * (n : ℝ) + 1) * ((2 * X - 1) * legendrePoly n * legendrePoly (n + 1))
          - C (n : ℝ) * (legendrePoly (n - 1) * legendrePoly (n + 1)) := by
      simp only [C_add, C_mul, map_natCast, C_1, C_ofNat]
      linear_combination legendrePoly (n + 1) * h1
    have g2 : C ((n : ℝ) + 2) * (legendrePoly (n + 2) * legendrePoly n) =
        C (2 * (n : ℝ) + 3) * ((2 * X - 1) * legendrePoly n * legendrePoly (n + 1))
          - C ((n : ℝ) + 1) * (legendrePoly n * legendrePoly n) := by
      simp only [C_add, C_mul, map_natCast, C_1, C_ofNat]
      linear_combination legendrePoly n * h2
    have i1 := congrArg integral01 g1
    have i2 := congrArg integral01 g2
    rw [integral01_sub, integral01_C_mul, integral01_C_mul, integral01_C_mul, legendre_orthogonal (n - 1) (n + 1) (by omega)] at i1
    rw [integral01_sub, integral01_C_mul, integral01_C_mul, integral01_C_mul, legendre_orthogonal (n + 2) n (by omega), ih] at i2
    have p1 : (0:ℝ) < (n : ℝ) + 1 := by positivity
    have p2 : (0:ℝ) < 2 * (n : ℝ) + 1 := by positivity
    have p3 : (0:ℝ) < 2 * (n : ℝ) + 3 := by positivity
    set J := integral01 ((2 * X - 1) * legendrePoly n * legendrePoly (n + 1))
    have hJ : J = ((n : ℝ) + 1) / ((2 * (n : ℝ) + 3) * (2 * (n : ℝ) + 1)) := by
      rw [eq_div_iff (by positivity)]
      field_simp at i2
      linarith
    have : integral01 (legendrePoly (n + 1) * legendrePoly (n + 1)) = (2 * (n : ℝ) + 1) * J / ((n : ℝ) + 1) := by
      rw [eq_div_iff p1.ne']
      linarith
    rw [this, hJ]
    push_cast
    field_simp
    ring

theorem legendre_orthonormality (m n : Nat) :
    integral01 (legendrePoly m * legendrePoly n) = if m = n then 1 / (2 * (n : ℝ) + 1) else 0 := by
  by_cases h : m = n
  · subst h; rw [if_pos rfl]; exact legendre_norm m
  · rw [if_neg h]; exact legendre_orthogonal m n h

end Verif.FE
