import Verif.Proofs.OPBConstruct
import Mathlib.Algebra.Order.Ring.Rat
/-
Properties of the L2-orthonormal polynomial bases.
-/
namespace Verif
open OPB OPB.Spec
open FE.Spec (combination quadrature moved)

/-! ## C122: the multiindices of P_k -/

/-- `pk_size(k,d)` is the binomial coefficient. `pk_multiindex` gives, for the numbers below `pk_size(24,d)`, each multiindex of
degree at most 24 once, and the multiindices of degree at most k have the numbers below `pk_size(k,d)`. It throws for all other
numbers. -/
theorem C122_multiindex (d : Nat) (hd : 0 < d) :
    (∀ k, pkSize d k = (k + d).choose d) ∧
    (∀ i, pkSize d 24 ≤ i → pkMultiindex d i = none) ∧
    (∀ i < pkSize d 24, ∃ a, pkMultiindex d i = some a ∧ a.length = d ∧ ∀ k ≤ 24, a.sum ≤ k ↔ i < pkSize d k) ∧
    (∀ a : List Nat, a.length = d → a.sum ≤ 24 → ∃ i, pkMultiindex d i = some a ∧ ∀ i', pkMultiindex d i' = some a → i' = i) := by
  refine ⟨pkSize_eq d, pkMultiindex_none d, ?_, ?_⟩
  · intro i hi
    obtain ⟨a, h1, h2, h3, h4, h5⟩ := pkMultiindex_spec d i 24 hd le_rfl hi
    refine ⟨a, h1, h2, fun k _ => ⟨fun h => h4.trans_le (pkSize_mono d h), fun h => ?_⟩⟩
    by_contra hn
    have := h5 (by omega)
    have := pkSize_mono d (show k ≤ a.sum - 1 by omega)
    omega
  · intro a hl hs
    obtain ⟨i, _, he⟩ := pkMultiindex_surjective d a hd hl hs
    exact ⟨i, he, fun i' he' => pkMultiindex_injective d i' i hd a he' he⟩

/-- `pk_size_exact(k,d)` is the number of multiindices of degree exactly k. -/
theorem C122_size_exact (d k : Nat) (hd : 0 < d) :
    ∃ l : List (List Nat), l.Nodup ∧ l.length = pkSizeExact d k ∧ ∀ a : List Nat, a ∈ l ↔ a.length = d ∧ a.sum = k := by
  by_cases hk : k = 0
  · subst hk
    refine ⟨[List.replicate d 0], by simp, by simp [pkSizeExact], fun a => ?_⟩
    rw [List.mem_singleton, List.eq_replicate_iff, List.sum_eq_zero_iff]
  · refine ⟨pkList d k, pkList_nodup d k, ?_, fun a => ⟨mem_pkList d k a, fun h => pkList_complete d k a (by omega) h.1 h.2⟩⟩
    rw [pkSizeExact, if_neg hk]
    have := pkList_length' d k hd (by omega)
    omega

example : (List.range 10).map (pkMultiindex 2) = [some [0, 0], some [1, 0], some [0, 1], some [2, 0], some [1, 1], some [0, 2],
    some [3, 0], some [2, 1], some [1, 2], some [0, 3]] := by decide +kernel
example : (List.range 5).map (pkMultiindex 3) = [some [0, 0, 0], some [1, 0, 0], some [0, 1, 0], some [0, 0, 1], some [2, 0, 0]] := by
  decide +kernel

/-! ## C123: the integrals of monomials -/

/-- `MonomialIntegrator::integrate` is the integral of the monomial over the cube, the interval, the triangle or the tetrahedron;
it throws for all other reference elements. -/
theorem C123_monomials (shape : Shape) (d : Nat) (hd : 0 < d) :
    (supported shape d → ∃ integ, integrator (K := ℝ) shape d = some integ ∧
      ∀ a : List Nat, integ a = integral shape d fun x => ∏ j ∈ Finset.range d, x j ^ a.getD j 0) ∧
    (¬ supported shape d → integrator (K := ℝ) shape d = none) := by
  refine ⟨fun h => ?_, integrator_none shape d hd⟩
  obtain ⟨integ, h1, h2⟩ := integrator_supported shape d h
  refine ⟨integ, h1, fun a => ?_⟩
  rw [integral_eq, h2]
  rfl

/-- `binomial(n,k)`. -/
theorem C123_binomial (n k : Nat) (h : k ≤ n) : binomial n k = n.choose k := binomial_eq n k h

instance (shape : Shape) (d : Nat) : Decidable (supported shape d) := by
  cases shape <;> simp only [supported] <;> infer_instance

-- x y² on the triangle and x y z² on the tetrahedron.
example : (integrator (K := ℚ) .simplex 2).map (fun f => f [1, 2]) = some (1 / 60) ∧
    (integrator (K := ℚ) .simplex 3).map (fun f => f [1, 1, 2]) = some (1 / 2520) := by decide +kernel
example : supported .simplex 3 ∧ ¬ supported .simplex 4 ∧ supported .cube 7 := by decide

/-! ## C124: the basis is orthonormal -/

/-- The constructor of `OrthonormalPolynomialBasis` succeeds for all cubes and for simplices up to dimension 3, for P_k with k at
most 24 and for Q_k. Then there are as many functions as the dimension of the space; they are in the space and orthonormal with
respect to the integral over the reference element; every function of the space is the combination of the basis functions with its
integrals against them as coefficients. The constructor throws in all other cases. -/
theorem C124_orthonormal (shape : Shape) (type : BasisType) (d k : Nat) (hd : 0 < d) (garbage : Nat → Nat → Nat → ℝ) :
    (supported shape d → (type = .Pk → k ≤ 24) → ∃ b, construct Real.sqrt shape type d k garbage = some b ∧
      (∀ x, (evaluateFunction b x).length = match type with | .Pk => (k + d).choose d | .Qk => (k + 1) ^ d) ∧
      (∀ i < b.n, space type k d fun x => (evaluateFunction b x).getD i 0) ∧
      (∀ i < b.n, ∀ j < b.n,
        integral shape d (fun x => (evaluateFunction b x).getD i 0 * (evaluateFunction b x).getD j 0) = if i = j then 1 else 0) ∧
      ∀ f, space type k d f → ∀ x, f x = combination
        ((List.range b.n).map fun i => integral shape d fun x => f x * (evaluateFunction b x).getD i 0) (evaluateFunction b x)) ∧
    ((¬ supported shape d ∨ (type = .Pk ∧ 24 < k)) → construct Real.sqrt shape type d k garbage = none) := by
  constructor
  · intro hs hk
    obtain ⟨b, hb, B⟩ := construct_built shape type d k hs hk garbage
    refine ⟨b, hb, ?_, phi_space B hd hk, fun i hi j hj => phi_orthonormal B hs i j hi hj, ?_⟩
    · intro x
      rw [evaluateFunction_eq, List.length_map, List.length_range, B.hn]
      cases type with
      | Pk => exact pkSize_eq d k
      | Qk => exact OPB.qkSize_eq d k
    · intro f hf x
      obtain ⟨u, hu, rfl⟩ := space_poly B hd hk f hf
      rw [expansion B hs b.n le_rfl u hu x]
      conv_rhs => rw [evaluateFunction_eq]
      rw [FE.combination_range _ _ _ (by simp)]
      refine Finset.sum_congr rfl fun i hi => ?_
      have hi' := Finset.mem_range.1 hi
      congr 1
      · rw [List.getD_eq_getElem _ _ (by simpa using hi')]
        simp
      · rw [phi_eq B i hi', B.hd, phi_sum B i hi']
  · rintro (h | ⟨rfl, h⟩)
    · exact construct_throws_shape shape type d k hd h _ garbage
    · exact construct_throws_degree shape d k hd h _ garbage

-- The polynomials of degree at most 3 on a tetrahedron.
example : ∃ b, construct Real.sqrt .simplex .Pk 3 3 (fun _ _ _ => 17) = some b ∧ ∀ x, (evaluateFunction b x).length = 20 := by
  obtain ⟨b, hb, h, _⟩ := (C124_orthonormal .simplex .Pk 3 3 (by omega) fun _ _ _ => 17).1 (by decide) (by intro _; omega)
  exact ⟨b, hb, h⟩

/-! ## C125: the Jacobian -/

/-- `evaluateJacobian` gives the partial derivatives of the functions given by `evaluateFunction`. -/
theorem C125_jacobian (shape : Shape) (type : BasisType) (d k : Nat) (garbage : Nat → Nat → Nat → ℝ) (b : Basis ℝ)
    (hs : supported shape d) (hk : type = .Pk → k ≤ 24) (hb : construct Real.sqrt shape type d k garbage = some b)
    (x : Nat → ℝ) (i s : Nat) (hi : i < b.n) (hsd : s < d) :
    ∃ v, (evaluateJacobian b x)[i]?.bind (·[s]?) = some v ∧
      HasDerivAt (fun t => (evaluateFunction b (moved x s t)).getD i 0) v (x s) := by
  obtain ⟨b', hb', B⟩ := construct_built shape type d k hs hk garbage
  rw [hb] at hb'
  cases hb'
  refine ⟨_, ?_, phi_hasDerivAt B i s hi hsd x⟩
  rw [evaluateJacobian_eq, List.getElem?_map, List.getElem?_range hi, Option.map_some, Option.bind_some, List.getElem?_map,
    List.getElem?_range (by rw [B.hd]; exact hsd), Option.map_some, B.hd]

-- The number of functions is not 0.
example : ∃ b, construct Real.sqrt .cube .Qk 2 1 (fun _ _ _ => 0) = some b ∧ b.n = 4 := by
  obtain ⟨b, hb, B⟩ := construct_built .cube .Qk 2 1 (by decide) (by intro h; cases h) fun _ _ _ => 0
  exact ⟨b, hb, B.hn⟩

/-! ## C126: polynomials of lower degree -/

/-- For P_k: the variants with an order l evaluate the first functions, and these are the basis of P_l; they throw for l greater than
k. -/
theorem C126_order_partial (shape : Shape) (d k : Nat) (garbage : Nat → Nat → Nat → ℝ) (b : Basis ℝ)
    (hs : supported shape d) (hk : k ≤ 24) (hd : 0 < d) (hb : construct Real.sqrt shape .Pk d k garbage = some b) (l : Nat) :
    (l ≤ k → ∀ x, evaluateFunctionOrder b l x = some ((evaluateFunction b x).take ((l + d).choose d)) ∧
      evaluateJacobianOrder b l x = some ((evaluateJacobian b x).take ((l + d).choose d))) ∧
    (l ≤ k → (∀ i < (l + d).choose d, Pk l d fun x => (evaluateFunction b x).getD i 0) ∧
      ∀ f, Pk l d f → ∀ x, f x = ∑ i ∈ Finset.range ((l + d).choose d),
        integral shape d (fun x => f x * (evaluateFunction b x).getD i 0) * (evaluateFunction b x).getD i 0) ∧
    (k < l → ∀ x, evaluateFunctionOrder b l x = none ∧ evaluateJacobianOrder b l x = none) := by
  obtain ⟨b', hb', B⟩ := construct_built shape .Pk d k hs (fun _ => hk) garbage
  rw [hb] at hb'
  cases hb'
  rw [← pkSize_eq]
  have htake : ∀ {α : Type} (F : Nat → α), l ≤ k →
      (List.range (pkSize d l)).map F = ((List.range b.n).map F).take (pkSize d l) := by
    intro α F hl
    rw [← List.map_take, List.take_range, min_eq_left]
    rw [B.hn]; exact pkSize_mono d hl
  refine ⟨fun hl x => ⟨?_, ?_⟩, fun hl => ⟨fun i hi => phi_Pk B hd hk l hl i hi, fun f hf x => ?_⟩, fun hl x => ⟨?_, ?_⟩⟩
  · rw [evaluateFunctionOrder_eq, if_neg (by rw [B.hk]; omega), evaluateFunction_eq, B.htype, B.hd, ← htake _ hl]
    rfl
  · rw [evaluateJacobianOrder_eq, if_neg (by rw [B.hk]; omega), evaluateJacobian_eq, B.htype, B.hd, ← htake _ hl]
    rfl
  · obtain ⟨u, hu, rfl⟩ := Pk_poly B hd hk l hl f hf
    exact expansion B hs _ (by rw [B.hn]; exact pkSize_mono d hl) u hu x
  · rw [evaluateFunctionOrder_eq, if_pos (by rw [B.hk]; exact hl)]
  · rw [evaluateJacobianOrder_eq, if_pos (by rw [B.hk]; exact hl)]

/-- For Q_k the functions that are evaluated for an order l are not all in Q_l. -/
theorem C126_order_false : ¬ ∀ (shape : Shape) (d k l : Nat) (garbage : Nat → Nat → Nat → ℝ) (b : Basis ℝ), supported shape d → l ≤ k →
    construct Real.sqrt shape .Qk d k garbage = some b →
    ∀ i < qkSize d l, FE.Spec.Qk l d fun x => ((evaluateFunctionOrder b l x).getD []).getD i 0 := by
  intro h
  obtain ⟨b, hb, B⟩ := construct_built .cube .Qk 2 2 (by decide) (by intro h; cases h) fun _ _ _ => 0
  have h2 := h .cube 2 2 1 (fun _ _ _ => 0) b (by decide) (by omega) hb 2 (by decide)
  have hn : b.n = 9 := B.hn
  have hq : ∀ f : (Nat → ℝ) → ℝ, FE.Spec.Qk 1 2 f →
      f (fun j => if j = 0 then 0 else 0) - 2 * f (fun j => if j = 0 then 1 else 0) + f (fun j => if j = 0 then 2 else 0) = 0 := by
    intro f hf
    induction hf with
    | product g hg =>
      have h0 := hg 0 (by omega)
      simp only [Finset.prod_range_succ, Finset.prod_range_zero, one_mul]
      rw [Polynomial.eq_X_add_C_of_natDegree_le_one h0]
      simp
      ring
    | add f g _ _ hf hg => linear_combination hf + hg
    | smul c f _ hf => linear_combination c * hf
  have h3 := hq _ h2
  have hphi : ∀ t : ℝ, ((evaluateFunctionOrder b 1 (fun j => if j = 0 then t else 0)).getD []).getD 2 0 =
      b.coeffs 2 0 + b.coeffs 2 1 * t + b.coeffs 2 2 * t ^ 2 := by
    intro t
    rw [evaluateFunctionOrder_eq, if_neg (by rw [B.hk]; omega), B.htype, B.hd, Option.getD_some,
      List.getD_eq_getElem _ _ (by rw [List.length_map, List.length_range]; decide)]
    simp only [List.getElem_map, List.getElem_range, Finset.sum_range_succ, Finset.sum_range_zero]
    rw [alpha_Qk B 0 (by omega), alpha_Qk B 1 (by omega), alpha_Qk B 2 (by omega)]
    simp [mono, FE.multiindex, Finset.prod_range_succ]
  rw [hphi, hphi, hphi] at h3
  have hpos := B.ortho.diag 2 (by omega)
  nlinarith

-- The first three of the polynomials of degree at most 2 on a triangle.
example : ∃ b, construct Real.sqrt .simplex .Pk 2 2 (fun _ _ _ => 0) = some b ∧
    ∀ x, ∃ r, evaluateFunctionOrder b 1 x = some r ∧ r.length = 3 := by
  obtain ⟨b, hb, B⟩ := construct_built .simplex .Pk 2 2 (by decide) (by intro _; omega) fun _ _ _ => 0
  refine ⟨b, hb, fun x => ⟨_, ((C126_order_partial .simplex 2 2 _ b (by decide) (by omega) (by omega) hb 1).1 (by omega) x).1, ?_⟩⟩
  rw [evaluateFunction_eq, B.hn]
  rfl

/-! ## C127: interpolation -/

/-- `OPBLocalInterpolation::interpolate` with a quadrature rule that is exact for the polynomials of order 2k: interpolating a finite
element function gives its coefficients, and every function of the space is the finite element function of its interpolation. -/
theorem C127_interpolation (shape : Shape) (type : BasisType) (d k : Nat) (garbage : Nat → Nat → Nat → ℝ) (b : Basis ℝ)
    (hs : supported shape d) (hk : type = .Pk → k ≤ 24) (hd : 0 < d) (hb : construct Real.sqrt shape type d k garbage = some b)
    (rule : List ((Nat → ℝ) × ℝ)) (hr : ∀ g, space type (2 * k) d g → quadrature rule g = integral shape d g) :
    (∀ f, space type k d f → ∀ x, combination (interpolate b rule f) (evaluateFunction b x) = f x) ∧
    (∀ c : List ℝ, c.length = b.n → interpolate b rule (fun x => combination c (evaluateFunction b x)) = c) := by
  obtain ⟨b', hb', B⟩ := construct_built shape type d k hs hk garbage
  rw [hb] at hb'
  cases hb'
  have hphi := phi_space B hd hk
  constructor
  · intro f hf x
    obtain ⟨b', hb', _, _, _, hexp⟩ := (C124_orthonormal shape type d k hd garbage).1 hs hk
    rw [hb] at hb'
    cases hb'
    rw [interpolate_eq]
    conv_rhs => rw [hexp f hf x]
    congr 1
    refine List.map_congr_left fun i hi => ?_
    exact hr _ (space_mul type k d f _ hf (hphi i (List.mem_range.1 hi)))
  · intro c hc
    rw [interpolate_eq]
    refine List.ext_getElem (by simp [hc]) fun i h1 h2 => ?_
    simp only [List.length_map, List.length_range] at h1
    rw [List.getElem_map, List.getElem_range]
    have he : (fun x => combination c (evaluateFunction b x) * (evaluateFunction b x).getD i 0) = fun x =>
        ∑ j ∈ Finset.range b.n, c.getD j 0 * ((evaluateFunction b x).getD j 0 * (evaluateFunction b x).getD i 0) := by
      funext x
      conv_lhs => arg 1; rw [evaluateFunction_eq]
      rw [FE.combination_range c _ _ hc, Finset.sum_mul]
      refine Finset.sum_congr rfl fun j hj => ?_
      rw [phi_eq B j (Finset.mem_range.1 hj), B.hd, phi_sum B j (Finset.mem_range.1 hj)]
      ring
    rw [he, FE.quadrature_sum]
    rw [Finset.sum_congr rfl fun j hj => by
      rw [FE.quadrature_const_mul, hr _ (space_mul type k d _ _ (hphi j (Finset.mem_range.1 hj)) (hphi i h1)),
        phi_orthonormal B hs j i (Finset.mem_range.1 hj) h1]]
    rw [FE.sum_delta_mul c _ i h1, List.getD_eq_getElem _ _ h2]

-- Simpson's rule is exact for the polynomials of degree 2 on the interval.
example : ∀ g : (Nat → ℝ) → ℝ, space .Pk (2 * 1) 1 g →
    quadrature [(fun _ => 0, 1 / 6), (fun _ => 1 / 2, 2 / 3), (fun _ => 1, 1 / 6)] g = integral .cube 1 g := by
  intro g hg
  have h : ∃ c0 c1 c2 : ℝ, g = fun x => c0 + c1 * x 0 + c2 * x 0 ^ 2 := by
    replace hg : Pk 2 1 g := hg
    induction hg with
    | monomial a h =>
      simp only [Finset.sum_range_succ, Finset.sum_range_zero, zero_add] at h
      simp only [Finset.prod_range_succ, Finset.prod_range_zero, one_mul]
      interval_cases h0 : a 0
      · exact ⟨1, 0, 0, by funext x; ring⟩
      · exact ⟨0, 1, 0, by funext x; ring⟩
      · exact ⟨0, 0, 1, by funext x; ring⟩
    | add f g _ _ hf hg =>
      obtain ⟨a0, a1, a2, rfl⟩ := hf
      obtain ⟨c0, c1, c2, rfl⟩ := hg
      exact ⟨a0 + c0, a1 + c1, a2 + c2, by funext x; ring⟩
    | smul r f _ hf =>
      obtain ⟨a0, a1, a2, rfl⟩ := hf
      exact ⟨r * a0, r * a1, r * a2, by funext x; ring⟩
  obtain ⟨c0, c1, c2, rfl⟩ := h
  have h1 := FE.cubeIntegral_prod 1 fun _ => Polynomial.C c0 + Polynomial.C c1 * Polynomial.X + Polynomial.C c2 * Polynomial.X ^ 2
  simp only [Finset.prod_range_succ, Finset.prod_range_zero, one_mul, Polynomial.eval_add, Polynomial.eval_mul, Polynomial.eval_C,
    Polynomial.eval_X, Polynomial.eval_pow] at h1
  rw [integral, h1, FE.integral01_add, FE.integral01_add, FE.integral01_C_mul, FE.integral01_C_mul]
  simp [FE.integral01, quadrature]
  ring

end Verif
