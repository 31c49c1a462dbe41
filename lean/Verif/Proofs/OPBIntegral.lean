import Verif.Proofs.OPBMultiindex
import Mathlib.Analysis.SpecialFunctions.Integrals.Basic
import Mathlib.MeasureTheory.Integral.Prod
import Mathlib.MeasureTheory.Constructions.Pi
import Mathlib.Algebra.MvPolynomial.Funext
namespace Verif.OPB
open MeasureTheory

/-! ### The binomial coefficients -/

theorem range'_prod (a m : Nat) : (List.range' (a + 1) m).foldl (· * ·) 1 = (a + 1).ascFactorial m := by
  induction m with
  | zero => rfl
  | succ m ih =>
    rw [List.range'_1_concat, List.foldl_append, ih, Nat.ascFactorial_succ]
    simp only [List.foldl_cons, List.foldl_nil]
    rw [mul_comm]

theorem range'_factorial (m : Nat) : (List.range' 2 (m - 1)).foldl (· * ·) 1 = m.factorial := by
  match m with
  | 0 => rfl
  | m + 1 =>
    rw [Nat.add_sub_cancel, range'_prod 1 m]
    have := Nat.factorial_mul_ascFactorial 1 m
    rw [Nat.factorial_one, one_mul, Nat.add_comm 1 m] at this
    exact this

theorem binomial_eq (n k : Nat) (h : k ≤ n) : binomial n k = n.choose k := by
  unfold binomial
  split
  · rw [range'_prod, range'_factorial, ← Nat.choose_eq_asc_factorial_div_factorial, Nat.add_sub_cancel' h, Nat.choose_symm h]
  · rw [range'_prod, range'_factorial, ← Nat.choose_eq_asc_factorial_div_factorial, Nat.sub_add_cancel h]

theorem alternatingSum_eq {K : Type} [Field K] (a m : Nat) : (alternatingSum a m : K) =
    ∑ k ∈ Finset.range (m + 1), (-1) ^ k * (m.choose k : K) / ((a : K) + (k : K) + 1) := by
  unfold alternatingSum
  have key : ∀ n, n ≤ m + 1 → (List.range n).foldl (fun (sum : K) k =>
      sum + (((if k % 2 = 1 then (-1 : Int) else 1) * (binomial m k : Int) : Int) : K) / ((a : K) + (k : K) + 1)) 0 =
      ∑ k ∈ Finset.range n, (-1) ^ k * (m.choose k : K) / ((a : K) + (k : K) + 1) := by
    intro n
    induction n with
    | zero => intro _; simp
    | succ n ih =>
      intro hn
      rw [List.range_succ, List.foldl_append, ih (by omega), Finset.sum_range_succ]
      simp only [List.foldl_cons, List.foldl_nil]
      congr 2
      rw [binomial_eq m n (by omega)]
      push_cast
      congr 1
      split
      · rename_i h
        have : Odd n := Nat.odd_iff.2 h
        rw [this.neg_one_pow]
      · rename_i h
        have : Even n := Nat.even_iff.2 (by omega)
        rw [this.neg_one_pow]
  exact key _ le_rfl

theorem beta_integral (a m : Nat) (s : ℝ) :
    ∫ t in (0:ℝ)..s, t ^ a * (s - t) ^ m = s ^ (a + m + 1) * alternatingSum a m := by
  have h1 : ∀ t : ℝ, t ^ a * (s - t) ^ m =
      ∑ k ∈ Finset.range (m + 1), ((-1) ^ k * (m.choose k : ℝ) * s ^ (m - k)) * t ^ (a + k) := by
    intro t
    rw [show s - t = -t + s by ring, add_pow, Finset.mul_sum]
    refine Finset.sum_congr rfl fun k _ => ?_
    rw [neg_pow, pow_add]
    ring
  simp only [h1]
  rw [intervalIntegral.integral_finsetSum
    (fun k _ => (Continuous.intervalIntegrable (by fun_prop) _ _))]
  rw [alternatingSum_eq, Finset.mul_sum]
  refine Finset.sum_congr rfl fun k hk => ?_
  rw [intervalIntegral.integral_const_mul, integral_pow]
  have hk' : k ≤ m := Nat.lt_succ_iff.1 (Finset.mem_range.1 hk)
  have hp : s ^ (a + m + 1) = s ^ (m - k) * s ^ (a + k + 1) := by
    rw [← pow_add]; congr 1; omega
  rw [hp]
  push_cast
  rw [zero_pow (by omega)]
  ring

/-! ### The reference simplex -/

/-- The simplex with edges of length `s`. -/
def simplexSet (d : Nat) (s : ℝ) : Set (Fin d → ℝ) := {x | (∀ i, 0 ≤ x i) ∧ ∑ i, x i ≤ s}

theorem simplexSet_closed (d : Nat) (s : ℝ) : IsClosed (simplexSet d s) := by
  unfold simplexSet
  rw [Set.ofPred_and]
  refine IsClosed.inter ?_ ?_
  · rw [Set.ofPred_forall]
    exact isClosed_iInter fun i => isClosed_le continuous_const (continuous_apply i)
  · exact isClosed_le (by fun_prop) continuous_const

theorem simplexSet_compact (d : Nat) (s : ℝ) : IsCompact (simplexSet d s) := by
  refine IsCompact.of_isClosed_subset (isCompact_Icc (a := (0 : Fin d → ℝ)) (b := fun _ => s)) (simplexSet_closed d s) ?_
  intro x hx
  refine ⟨fun i => hx.1 i, fun i => ?_⟩
  exact (Finset.single_le_sum (fun j _ => hx.1 j) (Finset.mem_univ i)).trans hx.2

theorem simplexSet_cons (d : Nat) (s t : ℝ) (y : Fin d → ℝ) :
    (Fin.cons t y : Fin (d + 1) → ℝ) ∈ simplexSet (d + 1) s ↔ 0 ≤ t ∧ y ∈ simplexSet d (s - t) := by
  unfold simplexSet
  simp only [Set.mem_ofPred_eq, Fin.forall_fin_succ, Fin.cons_zero, Fin.cons_succ, Fin.sum_univ_succ]
  constructor
  · rintro ⟨⟨h1, h2⟩, h3⟩; exact ⟨h1, h2, by linarith⟩
  · rintro ⟨h1, h2, h3⟩; exact ⟨⟨h1, h2⟩, by linarith⟩

/-- Integration over the simplex one coordinate after the other. -/
theorem simplex_fubini (d : Nat) (s : ℝ) (hs : 0 ≤ s) (f : (Fin (d + 1) → ℝ) → ℝ) (hf : Continuous f) :
    ∫ x in simplexSet (d + 1) s, f x = ∫ t in (0:ℝ)..s, ∫ y in simplexSet d (s - t), f (Fin.cons t y) := by
  have hm : MeasurableSet (simplexSet (d + 1) s) := (simplexSet_closed _ _).measurableSet
  have hint : Integrable ((simplexSet (d + 1) s).indicator f) := by
    rw [integrable_indicator_iff hm]
    exact hf.continuousOn.integrableOn_compact (simplexSet_compact _ _)
  have e := (volume_preserving_piFinSuccAbove (fun _ : Fin (d + 1) => ℝ) 0).symm
  rw [← integral_indicator hm, ← e.integral_comp (MeasurableEquiv.measurableEmbedding _)]
  have hint2 : Integrable (fun p => (simplexSet (d + 1) s).indicator f
      ((MeasurableEquiv.piFinSuccAbove (fun _ : Fin (d + 1) => ℝ) 0).symm p)) (volume.prod volume) := by
    exact (e.integrable_comp_emb (MeasurableEquiv.measurableEmbedding _)).2 hint
  rw [Measure.volume_eq_prod, integral_prod _ hint2, intervalIntegral.integral_of_le hs,
    ← integral_Icc_eq_integral_Ioc, ← integral_indicator measurableSet_Icc]
  refine integral_congr_ae (Filter.Eventually.of_forall fun t => ?_)
  have hc : ∀ y : Fin d → ℝ, (MeasurableEquiv.piFinSuccAbove (fun _ : Fin (d + 1) => ℝ) 0).symm (t, y) = Fin.cons t y := by
    intro y
    simp [MeasurableEquiv.piFinSuccAbove, Fin.insertNthEquiv]
  dsimp only
  simp only [hc]
  by_cases ht : t ∈ Set.Icc 0 s
  · rw [Set.indicator_of_mem ht, ← integral_indicator (simplexSet_closed _ _).measurableSet]
    refine integral_congr_ae (Filter.Eventually.of_forall fun y => ?_)
    dsimp only
    by_cases hy : y ∈ simplexSet d (s - t)
    · rw [Set.indicator_of_mem hy, Set.indicator_of_mem ((simplexSet_cons d s t y).2 ⟨ht.1, hy⟩)]
    · rw [Set.indicator_of_notMem hy, Set.indicator_of_notMem fun h => hy ((simplexSet_cons d s t y).1 h).2]
  · rw [Set.indicator_of_notMem ht]
    have : ∀ y : Fin d → ℝ, (simplexSet (d + 1) s).indicator f (Fin.cons t y) = 0 := by
      intro y
      refine Set.indicator_of_notMem (fun h => ht ?_) _
      obtain ⟨h1, h2⟩ := (simplexSet_cons d s t y).1 h
      refine ⟨h1, ?_⟩
      have := Finset.sum_nonneg fun i (_ : i ∈ Finset.univ) => h2.1 i
      have := h2.2
      linarith
    simp [this]

/-- The integrals of monomials. -/
noncomputable def moment (d : Nat) (s : ℝ) (a : Nat → Nat) : ℝ := ∫ x in simplexSet d s, ∏ j : Fin d, x j ^ a j

theorem moment_zero (s : ℝ) (hs : 0 ≤ s) (a : Nat → Nat) : moment 0 s a = 1 := by
  unfold moment
  have : simplexSet 0 s = Set.univ := by
    ext x; simp [simplexSet, hs]
  rw [this]
  simp [Measure.real, volume_pi, Measure.pi_univ]

theorem moment_succ (d : Nat) (s : ℝ) (hs : 0 ≤ s) (a : Nat → Nat) :
    moment (d + 1) s a = ∫ t in (0:ℝ)..s, t ^ a 0 * moment d (s - t) (fun j => a (j + 1)) := by
  unfold moment
  rw [simplex_fubini d s hs _ (by fun_prop)]
  refine intervalIntegral.integral_congr fun t _ => ?_
  dsimp only
  rw [← integral_const_mul]
  refine integral_congr_ae (Filter.Eventually.of_forall fun y => ?_)
  dsimp only
  rw [Fin.prod_univ_succ]
  simp

theorem moment_one (s : ℝ) (hs : 0 ≤ s) (a : Nat → Nat) : moment 1 s a = s ^ (a 0 + 1) / ((a 0 : ℝ) + 1) := by
  rw [moment_succ 0 s hs]
  have : ∫ t in (0:ℝ)..s, t ^ a 0 * moment 0 (s - t) (fun j => a (j + 1)) = ∫ t in (0:ℝ)..s, t ^ a 0 := by
    refine intervalIntegral.integral_congr fun t ht => ?_
    rw [Set.uIcc_of_le hs] at ht
    rw [moment_zero _ (by linarith [ht.2]), mul_one]
  rw [this, integral_pow]
  simp

theorem moment_two (s : ℝ) (hs : 0 ≤ s) (a : Nat → Nat) :
    moment 2 s a = s ^ (a 0 + a 1 + 2) * (alternatingSum (a 0) (a 1 + 1) / ((a 1 : ℝ) + 1)) := by
  rw [moment_succ 1 s hs]
  have : ∫ t in (0:ℝ)..s, t ^ a 0 * moment 1 (s - t) (fun j => a (j + 1)) =
      ∫ t in (0:ℝ)..s, t ^ a 0 * (s - t) ^ (a 1 + 1) * (1 / ((a 1 : ℝ) + 1)) := by
    refine intervalIntegral.integral_congr fun t ht => ?_
    rw [Set.uIcc_of_le hs] at ht
    rw [moment_one _ (by linarith [ht.2])]
    ring
  rw [this, intervalIntegral.integral_mul_const, beta_integral]
  have : a 0 + (a 1 + 1) + 1 = a 0 + a 1 + 2 := by omega
  rw [this]
  ring

theorem moment_three (s : ℝ) (hs : 0 ≤ s) (a : Nat → Nat) :
    moment 3 s a = s ^ (a 0 + a 1 + a 2 + 3) *
      (alternatingSum (a 1) (a 2 + 1) * alternatingSum (a 0) (a 1 + a 2 + 2) / ((a 2 : ℝ) + 1)) := by
  rw [moment_succ 2 s hs]
  have : ∫ t in (0:ℝ)..s, t ^ a 0 * moment 2 (s - t) (fun j => a (j + 1)) =
      ∫ t in (0:ℝ)..s, t ^ a 0 * (s - t) ^ (a 1 + a 2 + 2) * (alternatingSum (a 1) (a 2 + 1) / ((a 2 : ℝ) + 1)) := by
    refine intervalIntegral.integral_congr fun t ht => ?_
    rw [Set.uIcc_of_le hs] at ht
    rw [moment_two _ (by linarith [ht.2])]
    ring
  rw [this, intervalIntegral.integral_mul_const, beta_integral]
  have : a 0 + (a 1 + a 2 + 2) + 1 = a 0 + a 1 + a 2 + 3 := by omega
  rw [this]
  ring

end Verif.OPB
