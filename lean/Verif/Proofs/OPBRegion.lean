import Verif.Proofs.OPBIntegral
import Verif.Proofs.FiniteElementsTensor
namespace Verif.OPB
open MeasureTheory FE.Spec

/-! ### Monomials -/

theorem foldl_mul_const {K : Type} [Field K] (y : K) (n : Nat) (r : K) :
    (List.range n).foldl (fun prod _ => prod * y) r = r * y ^ n := by
  induction n with
  | zero => simp
  | succ n ih => rw [List.range_succ, List.foldl_append, ih, pow_succ]; simp [mul_assoc]

theorem monomialEvaluate_eq {K : Type} [Field K] (x : Nat → K) (a : List Nat) :
    ∀ d, monomialEvaluate x a d = ∏ j ∈ Finset.range d, x j ^ a.getD j 0
  | 0 => by simp [monomialEvaluate]
  | 1 => by unfold monomialEvaluate; rw [foldl_mul_const]; simp
  | d + 2 => by
    unfold monomialEvaluate
    rw [foldl_mul_const, monomialEvaluate_eq x a (d + 1), Finset.prod_range_succ _ (d + 1), one_mul, mul_comm]

/-- A monomial. -/
def mono {K : Type} [Field K] (d : Nat) (a : List Nat) (x : Nat → K) : K := ∏ j ∈ Finset.range d, x j ^ a.getD j 0

theorem addIndex_getD (a b : List Nat) (h : a.length = b.length) (j : Nat) :
    (addIndex a b).getD j 0 = a.getD j 0 + b.getD j 0 := by
  unfold addIndex
  by_cases hj : j < a.length
  · rw [List.getD_eq_getElem _ _ (by simp; omega), List.getD_eq_getElem _ _ hj, List.getD_eq_getElem _ _ (by omega)]
    simp
  · rw [List.getD_eq_default _ _ (by simp; omega), List.getD_eq_default _ _ (by omega), List.getD_eq_default _ _ (by omega)]

theorem mono_add {K : Type} [Field K] (d : Nat) (a b : List Nat) (h : a.length = b.length) (x : Nat → K) :
    mono d (addIndex a b) x = mono d a x * mono d b x := by
  unfold mono
  rw [← Finset.prod_mul_distrib]
  exact Finset.prod_congr rfl fun j _ => by rw [addIndex_getD a b h, pow_add]

theorem mono_point (d : Nat) (a : List Nat) (x : Fin d → ℝ) : mono d a (point x) = ∏ j : Fin d, x j ^ a.getD j 0 := by
  unfold mono
  rw [Finset.prod_range]
  refine Finset.prod_congr rfl fun j _ => ?_
  simp [point]

theorem mono_point_continuous (d : Nat) (a : List Nat) : Continuous fun x : Fin d → ℝ => mono d a (point x) := by
  simp only [mono_point]
  fun_prop

/-! ### Regions -/

/-- A compact set with a box in a corner. -/
structure Region {d : Nat} (S : Set (Fin d → ℝ)) : Prop where
  compact : IsCompact S
  box : ∃ e : ℝ, 0 < e ∧ Set.pi Set.univ (fun _ => Set.Ioo 0 e) ⊆ S

theorem region_cube (d : Nat) : Region (Set.Icc (0 : Fin d → ℝ) 1) := by
  refine ⟨isCompact_Icc, 1, one_pos, ?_⟩
  intro x hx
  exact ⟨fun j => (hx j (Set.mem_univ j)).1.le, fun j => (hx j (Set.mem_univ j)).2.le⟩

theorem region_simplex (d : Nat) : Region (simplexSet d 1) := by
  refine ⟨simplexSet_compact d 1, 1 / ((d : ℝ) + 1), by positivity, ?_⟩
  intro x hx
  refine ⟨fun j => (hx j (Set.mem_univ j)).1.le, ?_⟩
  have h1 : ∑ j, x j ≤ ∑ _j : Fin d, 1 / ((d : ℝ) + 1) := Finset.sum_le_sum fun j _ => (hx j (Set.mem_univ j)).2.le
  refine h1.trans ?_
  rw [Finset.sum_const, Finset.card_univ, Fintype.card_fin, nsmul_eq_mul, mul_one_div, div_le_one (by positivity)]
  linarith

/-- A combination of monomials. -/
def poly {K : Type} [Field K] (d n : Nat) (alpha : Nat → List Nat) (u : Nat → K) (x : Nat → K) : K :=
  ∑ i ∈ Finset.range n, u i * mono d (alpha i) x

theorem poly_point_continuous (d n : Nat) (alpha : Nat → List Nat) (u : Nat → ℝ) :
    Continuous fun x : Fin d → ℝ => poly d n alpha u (point x) := by
  unfold poly
  exact continuous_finsetSum _ fun i _ => (mono_point_continuous d (alpha i)).const_mul (u i)

/-- A combination of different monomials that vanishes on a box has no coefficients. -/
theorem poly_nonzero (d n : Nat) (alpha : Nat → List Nat) (u : Nat → ℝ) (hl : ∀ i < n, (alpha i).length = d)
    (hinj : ∀ i < n, ∀ j < n, alpha i = alpha j → i = j) (i0 : Nat) (hi0 : i0 < n) (hu : u i0 ≠ 0) (e : ℝ) (he : 0 < e) :
    ∃ x : Fin d → ℝ, x ∈ Set.pi Set.univ (fun _ => Set.Ioo 0 e) ∧ poly d n alpha u (point x) ≠ 0 := by
  by_contra hcon
  push Not at hcon
  let ex : Nat → (Fin d →₀ ℕ) := fun i => Finsupp.equivFunOnFinite.symm fun j => (alpha i).getD j 0
  let p : MvPolynomial (Fin d) ℝ := ∑ i ∈ Finset.range n, MvPolynomial.monomial (ex i) (u i)
  have hev : ∀ x : Fin d → ℝ, MvPolynomial.eval x p = poly d n alpha u (point x) := by
    intro x
    simp only [p, map_sum, MvPolynomial.eval_monomial, poly, mono_point]
    refine Finset.sum_congr rfl fun i _ => ?_
    congr 1
    rw [Finsupp.prod_fintype _ _ (by simp)]
    simp [ex]
  have hp : p = 0 := by
    refine MvPolynomial.funext_set (fun _ => Set.Ioo 0 e) (fun _ => Set.Ioo_infinite he) fun x hx => ?_
    rw [hev, hcon x hx, map_zero]
  have hc := congrArg (MvPolynomial.coeff (ex i0)) hp
  simp only [p, MvPolynomial.coeff_sum, MvPolynomial.coeff_monomial, MvPolynomial.coeff_zero] at hc
  rw [Finset.sum_eq_single i0] at hc
  · simp at hc; exact hu hc
  · intro i hi hne
    rw [if_neg]
    intro h
    refine hne (hinj i (Finset.mem_range.1 hi) i0 hi0 ?_)
    refine List.ext_getElem ((hl i (Finset.mem_range.1 hi)).trans (hl i0 hi0).symm) fun j h1 h2 => ?_
    have := congrArg (fun f => f ⟨j, by rw [← hl i0 hi0]; exact h2⟩) h
    simp only [ex, Finsupp.equivFunOnFinite_symm_apply_apply] at this
    rw [List.getD_eq_getElem _ _ h1, List.getD_eq_getElem _ _ h2] at this
    exact this
  · intro h; exact absurd (Finset.mem_range.2 hi0) h

/-- The integral of the square of a combination of different monomials. -/
theorem poly_square_pos {d : Nat} {S : Set (Fin d → ℝ)} (hS : Region S) (n : Nat) (alpha : Nat → List Nat) (u : Nat → ℝ)
    (hl : ∀ i < n, (alpha i).length = d) (hinj : ∀ i < n, ∀ j < n, alpha i = alpha j → i = j) (i0 : Nat) (hi0 : i0 < n)
    (hu : u i0 ≠ 0) : 0 < ∫ x in S, poly d n alpha u (point x) * poly d n alpha u (point x) := by
  obtain ⟨e, he, hbox⟩ := hS.box
  obtain ⟨x0, hx0, hne⟩ := poly_nonzero d n alpha u hl hinj i0 hi0 hu e he
  have hcont := poly_point_continuous d n alpha u
  rw [setIntegral_pos_iff_support_of_nonneg_ae]
  · have hopen : IsOpen (Function.support (fun x : Fin d → ℝ => poly d n alpha u (point x) * poly d n alpha u (point x)) ∩
        Set.pi Set.univ (fun _ => Set.Ioo 0 e)) := by
      refine IsOpen.inter ((hcont.mul hcont).isOpen_support) ?_
      exact isOpen_set_pi Set.finite_univ fun _ _ => isOpen_Ioo
    have hpos := hopen.measure_pos volume ⟨x0, by simpa using hne, hx0⟩
    exact hpos.trans_le (measure_mono (Set.inter_subset_inter_right _ hbox))
  · exact Filter.Eventually.of_forall fun x => mul_self_nonneg _
  · exact (hcont.mul hcont).continuousOn.integrableOn_compact hS.compact

/-- The integral of a product of combinations of monomials. -/
theorem poly_product {d : Nat} {S : Set (Fin d → ℝ)} (hS : Region S) (n : Nat) (alpha : Nat → List Nat) (u v : Nat → ℝ)
    (hl : ∀ i < n, (alpha i).length = d) :
    ∫ x in S, poly d n alpha u (point x) * poly d n alpha v (point x) =
      ∑ i ∈ Finset.range n, ∑ j ∈ Finset.range n, u i * v j * ∫ x in S, mono d (addIndex (alpha i) (alpha j)) (point x) := by
  have h1 : ∀ x : Fin d → ℝ, poly d n alpha u (point x) * poly d n alpha v (point x) =
      ∑ i ∈ Finset.range n, ∑ j ∈ Finset.range n, u i * v j * mono d (addIndex (alpha i) (alpha j)) (point x) := by
    intro x
    unfold poly
    rw [Finset.sum_mul_sum]
    refine Finset.sum_congr rfl fun i hi => Finset.sum_congr rfl fun j hj => ?_
    rw [mono_add d _ _ ((hl i (Finset.mem_range.1 hi)).trans (hl j (Finset.mem_range.1 hj)).symm)]
    ring
  simp only [h1]
  rw [integral_finsetSum]
  · refine Finset.sum_congr rfl fun i _ => ?_
    rw [integral_finsetSum]
    · exact Finset.sum_congr rfl fun j _ => integral_const_mul _ _
    · intro j _
      exact ((mono_point_continuous d _).const_mul _).continuousOn.integrableOn_compact hS.compact
  · intro i _
    exact (continuous_finsetSum _ fun j _ => (mono_point_continuous d _).const_mul _).continuousOn.integrableOn_compact hS.compact

/-! ### The integrator -/

/-- The reference element as a set. -/
def refSet : Shape → (d : Nat) → Set (Fin d → ℝ)
  | .cube, _ => Set.Icc 0 1
  | .simplex, d => simplexSet d 1
  | .other, _ => ∅

theorem integral_eq (shape : Shape) (d : Nat) (f : (Nat → ℝ) → ℝ) : Spec.integral shape d f = ∫ x in refSet shape d, f (point x) := by
  cases shape with
  | cube => rfl
  | simplex => rfl
  | other => simp [Spec.integral, refSet]

theorem refSet_region (shape : Shape) (d : Nat) (h : Spec.supported shape d) : Region (refSet shape d) := by
  cases shape with
  | cube => exact region_cube d
  | simplex => exact region_simplex d
  | other => exact absurd h (by simp [Spec.supported])

theorem foldl_div_range {K : Type} [Field K] (f : Nat → K) (n : Nat) (r : K) :
    (List.range n).foldl (fun r i => r / f i) r = r * ∏ i ∈ Finset.range n, 1 / f i := by
  induction n with
  | zero => simp
  | succ n ih =>
    rw [List.range_succ, List.foldl_append, ih, Finset.prod_range_succ]
    simp only [List.foldl_cons, List.foldl_nil]
    ring

theorem integrator_supported (shape : Shape) (d : Nat) (h : Spec.supported shape d) :
    ∃ integ, integrator (K := ℝ) shape d = some integ ∧
      ∀ a : List Nat, integ a = ∫ x in refSet shape d, mono d a (point x) := by
  cases shape with
  | cube =>
    refine ⟨_, rfl, fun a => ?_⟩
    rw [foldl_div_range, one_mul]
    have := FE.cubeIntegral_prod d fun j => Polynomial.X ^ a.getD j 0
    simp only [Polynomial.eval_pow, Polynomial.eval_X] at this
    refine Eq.trans ?_ this.symm
    refine Finset.prod_congr rfl fun j _ => ?_
    unfold FE.integral01
    simp
  | simplex =>
    have hm : ∀ a : List Nat, ∫ x in refSet .simplex d, mono d a (point x) = moment d 1 (fun j => a.getD j 0) := by
      intro a; unfold moment; simp only [mono_point]; rfl
    simp only [hm]
    obtain ⟨h1, h2⟩ := h
    interval_cases d
    · exact ⟨_, rfl, fun a => by rw [moment_one 1 zero_le_one]; simp⟩
    · exact ⟨_, rfl, fun a => by rw [moment_two 1 zero_le_one]; simp⟩
    · exact ⟨_, rfl, fun a => by rw [moment_three 1 zero_le_one]; simp⟩
  | other => exact absurd h (by simp [Spec.supported])

end Verif.OPB
