import Verif.Proofs.FiniteElementsTensor
import Verif.Proofs.LocalBasisCache
/-
Properties of the finite elements on cubes and of the cache of basis functions.
-/
namespace Verif
open FE FE.Spec

/-! ## C117: the Lagrange bases -/

section C117
variable {K : Type} [Field K] [CharZero K]

/-- `QkDGLagrangeLocalFiniteElement`: there are (k+1)^d basis functions, all in Q_k; interpolating a finite element function gives
its coefficients back; every function of Q_k is the finite element function of its interpolation. -/
theorem C117_lagrange (k d : Nat) :
    (∀ x : Nat → K, (lagrangeFunction k d x).length = (k + 1) ^ d) ∧
    (∀ i < (k + 1) ^ d, Qk k d fun x : Nat → K => (lagrangeFunction k d x).getD i 0) ∧
    (∀ c : List K, c.length = (k + 1) ^ d → lagrangeInterpolate k d (fun x => combination c (lagrangeFunction k d x)) = c) ∧
    (∀ f : (Nat → K) → K, Qk k d f → ∀ x, combination (lagrangeInterpolate k d f) (lagrangeFunction k d x) = f x) := by
  refine ⟨fun x => tensorFunction_length k d _, ?_, ?_, ?_⟩
  · intro i hi
    simp only [lagrangeFunction_eq]
    exact lobatto_in_Qk _ k d i hi
  · intro c hc
    simp only [lagrangeFunction_eq]
    rw [lagrangeInterpolate_eq]
    exact lobattoInterpolate_combination _ k d (equidistant_injective' k) c hc
  · intro f hf x
    rw [lagrangeFunction_eq, lagrangeInterpolate_eq]
    exact lobatto_reproduces_Qk _ k d (equidistant_injective' k) f hf x

/-- `QkDGGLLocalFiniteElement`: the same, for any distinct points of the rule. -/
theorem C117_lobatto (xi : Nat → K) (k d : Nat) (hxi : ∀ i ≤ k, ∀ j ≤ k, xi i = xi j → i = j) :
    (∀ x : Nat → K, (lobattoFunction xi k d x).length = (k + 1) ^ d) ∧
    (∀ i < (k + 1) ^ d, Qk k d fun x : Nat → K => (lobattoFunction xi k d x).getD i 0) ∧
    (∀ c : List K, c.length = (k + 1) ^ d → lobattoInterpolate xi k d (fun x => combination c (lobattoFunction xi k d x)) = c) ∧
    (∀ f : (Nat → K) → K, Qk k d f → ∀ x, combination (lobattoInterpolate xi k d f) (lobattoFunction xi k d x) = f x) :=
  ⟨fun x => tensorFunction_length k d _, fun i hi => lobatto_in_Qk xi k d i hi,
    fun c hc => lobattoInterpolate_combination xi k d hxi c hc, fun f hf x => lobatto_reproduces_Qk xi k d hxi f hf x⟩

/-- The numbers of the basis functions are the multiindices with entries at most k, without gaps or repetitions. -/
theorem C117_multiindex (k d : Nat) :
    (∀ i, (multiindex k d i).length = d ∧ ∀ a ∈ multiindex k d i, a ≤ k) ∧
    (∀ alpha : List Nat, alpha.length = d → (∀ a ∈ alpha, a ≤ k) → ∃ i, i < (k + 1) ^ d ∧ multiindex k d i = alpha ∧
      ∀ i' < (k + 1) ^ d, multiindex k d i' = alpha → i' = i) := by
  refine ⟨fun i => ⟨multiindex_length k d i, multiindex_le k d i⟩, fun alpha hl hk => ?_⟩
  obtain ⟨i, hi, he⟩ := multiindex_surjective k d alpha hl hk
  exact ⟨i, hi, he, fun i' hi' he' => multiindex_injective k d i' i hi' hi (he'.trans he.symm)⟩

omit [CharZero K] in
/-- `EquidistantLagrangePolynomials::p`, `dp` are the Lagrange polynomials to the points `i/k`. -/
theorem C117_equidistant_partial [CharZero K] (k : Nat) (hk : k ≠ 0) (i j : Nat) (hi : i ≤ k) (hj : j ≤ k) :
    lagrangeP k i ((j : K) / (k : K)) = if i = j then 1 else 0 := by
  rw [lagrangeP_eq k i _ hk]
  exact lobattoP_nodal _ k (equidistant_injective k hk) i j hi hj

/-- But the points returned by `EquidistantLagrangePolynomials::x` are others: the polynomials do not have the values 0 and 1
there. -/
theorem C117_equidistant_false : ¬ ∀ (k i j : Nat), i ≤ k → j ≤ k →
    lagrangeP k i (equidistantX k j : ℚ) = if i = j then 1 else 0 := by
  intro h
  have := h 1 1 1 (by omega) (by omega)
  revert this
  decide +kernel

-- Q_2 in two dimensions: x²y² + 3 x is in the space.
example : Qk 2 2 fun x : Nat → ℚ => x 0 * x 0 * (x 1 * x 1) + 3 * x 0 := by
  have h1 : Qk 2 2 fun x : Nat → ℚ => x 0 * x 0 * (x 1 * x 1) := by
    have := Qk.product (K := ℚ) (k := 2) (d := 2) (fun _ => Polynomial.X ^ 2) (by intro j _; simp)
    have he : (fun x : Nat → ℚ => ∏ j ∈ Finset.range 2, (Polynomial.X ^ 2 : Polynomial ℚ).eval (x j)) =
        fun x => x 0 * x 0 * (x 1 * x 1) := by
      funext x; simp [Finset.prod_range_succ]; ring
    rwa [he] at this
  have h2 : Qk 2 2 fun x : Nat → ℚ => x 0 := by
    have := Qk.product (K := ℚ) (k := 2) (d := 2) (fun j => if j = 0 then Polynomial.X else 1)
      (by intro j _; split <;> simp)
    have he : (fun x : Nat → ℚ => ∏ j ∈ Finset.range 2, ((if j = 0 then Polynomial.X else 1) : Polynomial ℚ).eval (x j)) =
        fun x => x 0 := by
      funext x; simp [Finset.prod_range_succ]
    rwa [he] at this
  exact Qk.add _ _ h1 (Qk.smul 3 _ h2)

example : lagrangeInterpolate 1 2 (fun x : Nat → ℚ => 1 + 2 * x 0 + 3 * x 1) = [1, 3, 4, 6] := by decide +kernel
example : lagrangeFunction 1 2 (fun j => if j = 0 then (1 : ℚ) / 4 else 1 / 2) = [3 / 8, 1 / 8, 3 / 8, 1 / 8] := by decide +kernel
example : ∀ i ≤ 2, ∀ j ≤ 2, ([0, 1 / 2, 1] : List ℚ).getD i 0 = ([0, 1 / 2, 1] : List ℚ).getD j 0 → i = j := by decide +kernel

end C117

/-! ## C118: the Jacobians are the derivatives of the functions -/

/-- `evaluateJacobian` of the finite elements on cubes: entry `j` of the gradient of the basis function `i` is the derivative of
what `evaluateFunction` returns for it, in the direction of the coordinate `j`. -/
theorem C118_lagrange (k d i j : Nat) (hi : i < (k + 1) ^ d) (hj : j < d) (x : Nat → ℝ) :
    ∃ dv, (lagrangeJacobian k d x)[i]?.bind (·[j]?) = some dv ∧
      HasDerivAt (fun t => (lagrangeFunction k d (moved x j t)).getD i 0) dv (x j) :=
  tensor_hasDerivAt k d i j hi hj (lagrangeP k) (lagrangeDp k) x fun a ha => lagrangeP_hasDerivAt k a ha (x j)

theorem C118_lobatto (xi : Nat → ℝ) (k d i j : Nat) (hi : i < (k + 1) ^ d) (hj : j < d) (x : Nat → ℝ) :
    ∃ dv, (lobattoJacobian xi k d x)[i]?.bind (·[j]?) = some dv ∧
      HasDerivAt (fun t => (lobattoFunction xi k d (moved x j t)).getD i 0) dv (x j) :=
  tensor_hasDerivAt k d i j hi hj (lobattoP xi k) (lobattoDp xi k) x fun a _ => lobattoP_hasDerivAt xi k a (x j)

theorem C118_legendre (k d i j : Nat) (hi : i < (k + 1) ^ d) (hj : j < d) (x : Nat → ℝ) :
    ∃ dv, (legendreJacobian k d x)[i]?.bind (·[j]?) = some dv ∧
      HasDerivAt (fun t => (legendreFunction k d (moved x j t)).getD i 0) dv (x j) := by
  have h1 : ∀ (y : ℝ) (a : Nat), (legendreValuesDerivatives y k).1.getD a 0 = (legendreValues y k).getD a 0 := by
    intro y a
    rw [legendreValuesDerivatives_eq, legendreValues_eq]
  unfold legendreJacobian
  simp only [h1]
  exact tensor_hasDerivAt k d i j hi hj (fun a y => (legendreValues y k).getD a 0)
    (fun a y => (legendreValuesDerivatives y k).2.getD a 0) x fun a ha => legendre_hasDerivAt k a ha (x j)

example : (lagrangeJacobian 2 2 (fun j => if j = 0 then (1 : ℚ) / 2 else 0))[2]?.bind (·[0]?) = some 1 := by decide +kernel
example : (legendreJacobian 2 2 (fun _ => (1 : ℚ)))[2]?.bind (·[0]?) = some 6 := by decide +kernel

/-! ## C119: the Legendre basis -/

/-- The one-dimensional functions `p` of `LegendrePolynomials1d`, value by value or all at once, have the value 1 at 1 and are
orthogonal on the unit interval, with square norm 1/(2n+1). (These two facts and the degrees determine them.) -/
theorem C119_legendre_1d (k : Nat) :
    (∀ a ≤ k, ∀ x : ℝ, legendreP k a x = (legendreValues x k).getD a 0) ∧
    (∀ a ≤ k, ∀ x : ℝ, HasDerivAt (legendreP k a) (legendreDp k a x) x) ∧
    (∀ a ≤ k, ∃ q : Polynomial ℝ, q.natDegree ≤ a ∧ ∀ x, legendreP k a x = q.eval x) ∧
    (∀ a ≤ k, legendreP k a (1 : ℝ) = 1) ∧
    (∀ a ≤ k, ∀ b ≤ k, ∫ x in (0:ℝ)..1, legendreP k a x * legendreP k b x = if a = b then 1 / (2 * (b : ℝ) + 1) else 0) := by
  have hv : ∀ a ≤ k, ∀ x : ℝ, legendreP k a x = (legendrePoly a).eval x := fun a ha x => by
    rw [legendreP_eq k a ha, legendreValues_getD x k a ha]
  refine ⟨fun a ha x => legendreP_eq k a ha x, ?_, fun a ha => ⟨legendrePoly a, legendre_degree a, hv a ha⟩, ?_, ?_⟩
  · intro a ha x
    rw [legendreDp_eq k a ha]
    have : (legendreP k a : ℝ → ℝ) = fun y => (legendreValues y k).getD a 0 := funext fun y => legendreP_eq k a ha y
    rw [this]
    exact legendre_hasDerivAt k a ha x
  · intro a ha
    rw [hv a ha, legendrePoly_one]
  · intro a ha b hb
    have := legendre_orthonormality a b
    unfold integral01 at this
    simp only [Polynomial.eval_mul] at this
    simp only [hv a ha, hv b hb]
    exact this

/-- `QkDGLegendreLocalFiniteElement`: (k+1)^d basis functions of Q_k, orthogonal on the cube. -/
theorem C119_legendre_basis (k d : Nat) :
    (∀ x : Nat → ℝ, (legendreFunction k d x).length = (k + 1) ^ d) ∧
    (∀ i < (k + 1) ^ d, Qk k d fun x : Nat → ℝ => (legendreFunction k d x).getD i 0) ∧
    (∀ i < (k + 1) ^ d, ∀ i' < (k + 1) ^ d,
      cubeIntegral d (fun x => (legendreFunction k d x).getD i 0 * (legendreFunction k d x).getD i' 0) =
        if i = i' then ∏ j ∈ Finset.range d, 1 / (2 * ((multiindex k d i).getD j 0 : ℝ) + 1) else 0) :=
  ⟨fun x => tensorFunction_length k d _, fun i hi => legendre_in_Qk k d i hi,
    fun i hi i' hi' => legendre_cube_orthogonal k d i i' hi hi'⟩

/-- Interpolation with a rule that is exact for Q_{2k} gives the coefficients of a finite element function back, reproduces the
functions of Q_k, and for any function is the projection: the error is orthogonal to the basis functions under the rule. -/
theorem C119_legendre_interpolation (k d : Nat) (rule : List ((Nat → ℝ) × ℝ))
    (hexact : ∀ f, Qk (2 * k) d f → quadrature rule f = cubeIntegral d f) :
    (∀ c : List ℝ, c.length = (k + 1) ^ d → legendreInterpolate k d rule (fun x => combination c (legendreFunction k d x)) = c) ∧
    (∀ f, Qk k d f → ∀ x, combination (legendreInterpolate k d rule f) (legendreFunction k d x) = f x) ∧
    (∀ f, ∀ i < (k + 1) ^ d, quadrature rule (fun x =>
      (f x - combination (legendreInterpolate k d rule f) (legendreFunction k d x)) * (legendreFunction k d x).getD i 0) = 0) :=
  ⟨fun c hc => legendreInterpolate_combination k d rule hexact c hc, fun f hf x => legendre_reproduces_Qk k d rule hexact f hf x,
    fun f i hi => legendre_projection k d rule hexact f i hi⟩

-- Simpson's rule is exact for Q_2 in one dimension.
example : ∀ f, Qk (2 * 1) 1 f → quadrature [((fun _ => 0 : Nat → ℝ), 1 / 6), (fun _ => 1 / 2, 4 / 6), (fun _ => 1, 1 / 6)] f =
    cubeIntegral 1 f := by
  intro f hf
  have hint : ∀ f, Qk (2 * 1) 1 f → MeasureTheory.IntegrableOn (fun x : Fin 1 → ℝ => f (point x)) (Set.Icc 0 1) := by
    intro f hf
    refine ContinuousOn.integrableOn_compact isCompact_Icc ?_
    refine Continuous.continuousOn ?_
    induction hf with
    | product g hg =>
      refine continuous_finsetProd _ fun j _ => (g j).continuous.comp ?_
      unfold point
      split
      · exact continuous_apply _
      · exact continuous_const
    | add f g _ _ hf hg => exact hf.add hg
    | smul c f _ hf => exact hf.const_mul c
  induction hf with
  | product g hg =>
    rw [cubeIntegral_prod]
    have hd := hg 0 (by omega)
    simp only [quadrature, Finset.prod_range_succ, Finset.prod_range_zero, one_mul, integral01]
    rw [(g 0).as_sum_range' 3 (by omega)]
    simp [Finset.sum_range_succ]
    rw [intervalIntegral.integral_add, intervalIntegral.integral_add]
    · rw [intervalIntegral.integral_const_mul, intervalIntegral.integral_const_mul]
      simp
      ring
    all_goals exact Continuous.intervalIntegrable (by fun_prop) _ _
  | add f g hf hg ihf ihg =>
    have h := MeasureTheory.integral_add (hint f hf) (hint g hg)
    unfold cubeIntegral at *
    rw [h, ← ihf, ← ihg]
    simp [quadrature]
    ring
  | smul c f hf ihf =>
    unfold cubeIntegral at *
    rw [MeasureTheory.integral_const_mul, ← ihf]
    simp [quadrature]
    ring

example : legendreFunction 2 1 (fun _ => (1 : ℚ) / 2) = [1, 0, -1 / 2] := by decide +kernel

/-! ## C120: the Gauss-Lobatto points -/

section C120
variable {K : Type} [Field K]

/-- The constructor of `GaussLobattoLagrangePolynomials` keeps the points of the first rule with k+1 points, each with its weight;
it throws exactly if none of the rules up to order 40 has that many. If the rule lists mirror images side by side, and exactly the
points in the right half satisfy the comparison, the points are in the left half first and a point and its mirror image have the
numbers j and k-j. -/
theorem C120_lobatto_points (k : Nat) (rules : Nat → List (K × K)) (half : K → Bool) (a₀ : Nat → K × K) :
    (lobattoPoints k rules half a₀ = none ↔ ∀ order, 1 ≤ order → order ≤ 40 → (rules order).length ≠ k + 1) ∧
    ∀ a, lobattoPoints k rules half a₀ = some a → ∃ order, 1 ≤ order ∧ order ≤ 40 ∧ (rules order).length = k + 1 ∧
      (∀ o, 1 ≤ o → o < order → (rules o).length ≠ k + 1) ∧ ((List.range (k + 1)).map a).Perm (rules order) ∧
      ((∀ m, 2 * m + 1 ≤ k → ∀ p q, (rules order)[2 * m]? = some p → (rules order)[2 * m + 1]? = some q →
          q.1 = 1 - p.1 ∧ half q.1 = !half p.1) →
        ∀ j < (k + 1) / 2, half (a j).1 = false ∧ half (a (k - j)).1 = true ∧ (a (k - j)).1 = 1 - (a j).1) := by
  unfold lobattoPoints
  cases h : (List.range' 1 40).find? fun order => (rules order).length = k + 1 with
  | none =>
    rw [List.find?_eq_none] at h
    refine ⟨⟨fun _ order h1 h2 => ?_, fun _ => rfl⟩, fun a ha => by simp at ha⟩
    simpa using h order (by rw [List.mem_range'_1]; omega)
  | some order =>
    have hm := List.mem_of_find?_eq_some h
    rw [List.mem_range'_1] at hm
    have hl := List.find?_some h
    simp only [decide_eq_true_eq] at hl
    refine ⟨⟨fun h => by simp at h, fun h => absurd hl (h order (by omega) (by omega))⟩, ?_⟩
    intro a ha
    simp only [Option.some.injEq] at ha
    subst ha
    refine ⟨order, by omega, by omega, hl, ?_, (lobattoSwap_perm k (k + 1) half (Nat.le_refl _) _).trans (lobattoPlace_perm k _ hl a₀), ?_⟩
    · intro o h1 h2 h3
      have key : ∀ s n, (List.range' s n).find? (fun order => decide ((rules order).length = k + 1)) = some order → s ≤ o → o < order → False := by
        intro s n
        induction n generalizing s with
        | zero => intro h; simp at h
        | succ n ih =>
          intro h hs ho
          rw [List.range'_succ, List.find?_cons] at h
          split at h
          · simp only [Option.some.injEq] at h; omega
          · rename_i hne
            by_cases hso : s = o
            · subst hso; simp [h3] at hne
            · exact ih (s + 1) h (by omega) ho
      exact key 1 40 h h1 h2
    · intro hpair j hj
      have hs := lobattoSwap_at k (k + 1) half (lobattoPlace k 0 (rules order) a₀) j hj (Nat.le_refl _)
      have p0 := lobattoPlace_at k (rules order) 0 a₀ (2 * j) (by omega) (by omega)
      have p1 := lobattoPlace_at k (rules order) 0 a₀ (2 * j + 1) (by omega) (by omega)
      rw [Nat.zero_add, lobattoIndex, if_neg (by omega), show 2 * j / 2 = j by omega] at p0
      rw [Nat.zero_add, lobattoIndex, if_pos (by omega), show (2 * j + 1) / 2 = j by omega] at p1
      have hp := hpair j (by omega) _ _ (List.getElem?_eq_getElem (by omega)) (List.getElem?_eq_getElem (by omega))
      rw [← p0, ← p1] at hp
      rw [hs.1, hs.2]
      split
      · rename_i hh
        rw [hh] at hp
        simp only [Bool.eq_not] at hp
        refine ⟨by simpa using hp.2.symm, hh, hp.1⟩
      · rename_i hh
        rw [Bool.not_eq_true] at hh
        rw [hh] at hp
        refine ⟨hh, by simpa using hp.2, ?_⟩
        rw [hp.1]
        ring

-- The rule with three points in the order of dune-geometry.
example : (lobattoPoints 2 (fun _ => [((0 : ℚ), (1 : ℚ) / 6), (1, 1 / 6), (1 / 2, 2 / 3)]) (fun x => decide (x > 1 / 2)) fun _ => (0, 0)).map
    (fun a => [a 0, a 1, a 2]) = some [(0, 1 / 6), (1 / 2, 2 / 3), (1, 1 / 6)] := by decide +kernel

end C120

/-! ## C121: the cache of basis functions -/

section C121
variable {K : Type} [Field K] [LinearOrder K] [IsStrictOrderedRing K] {V J : Type}

/-- Whatever has been asked for before, a cache that is always given the same local basis answers with the values of the basis at a
position asked for before, or now, that differs from the one asked for by at most 1e-5 in each coordinate; with exactly the values
asked for if no two different positions are that close. -/
theorem C121_cache_partial (eps : K) (heps : 0 ≤ eps) (d : Nat) (bf : List K → V) (bj : List K → J) (calls : List (CacheCall K V J))
    (hbf : ∀ p b, CacheCall.function p b ∈ calls → b = bf ∧ p.length = d)
    (hbj : ∀ p b, CacheCall.jacobian p b ∈ calls → b = bj ∧ p.length = d) (i : Nat) :
    (∀ p b, calls[i]? = some (.function p b) →
      (∃ q, (∃ i' ≤ i, ∃ b', calls[i']? = some (.function q b')) ∧ List.Forall₂ (fun x y => |x - y| ≤ eps) q p ∧
        (cacheRun eps ⟨[], []⟩ calls)[i]? = some (.inl (bf q))) ∧
      ((∀ q b', CacheCall.function q b' ∈ calls → List.Forall₂ (fun x y => |x - y| ≤ eps) q p → q = p) →
        (cacheRun eps ⟨[], []⟩ calls)[i]? = some (.inl (bf p)))) ∧
    (∀ p b, calls[i]? = some (.jacobian p b) →
      (∃ q, (∃ i' ≤ i, ∃ b', calls[i']? = some (.jacobian q b')) ∧ List.Forall₂ (fun x y => |x - y| ≤ eps) q p ∧
        (cacheRun eps ⟨[], []⟩ calls)[i]? = some (.inr (bj q))) ∧
      ((∀ q b', CacheCall.jacobian q b' ∈ calls → List.Forall₂ (fun x y => |x - y| ≤ eps) q p → q = p) →
        (cacheRun eps ⟨[], []⟩ calls)[i]? = some (.inr (bj p)))) := by
  have hs := cacheRun_spec eps bf bj calls ⟨[], []⟩ (fun _ => False) (fun _ => False) (by intro e he; simp at he)
    (by intro e he; simp at he) (fun p b h => (hbf p b h).1) (fun p b h => (hbj p b h).1) i
  have hrefl : ∀ p : List K, List.Forall₂ (fun x y => |x - y| ≤ eps) p p := fun p =>
    List.forall₂_same.2 fun x _ => by simpa using heps
  constructor
  · intro p b h
    obtain ⟨q, hq, hqp, hv⟩ := hs.1 p b h
    simp only [false_or] at hq
    have hclose : List.Forall₂ (fun x y => |x - y| ≤ eps) q p := by
      rcases hqp with hqp | rfl
      · obtain ⟨i', _, b', hq⟩ := hq
        refine (equivalent_iff eps heps q p ?_).1 hqp
        rw [(hbf q b' (List.mem_of_getElem? hq)).2, (hbf p b (List.mem_of_getElem? h)).2]
      · exact hrefl q
    refine ⟨⟨q, hq, hclose, hv⟩, fun hsep => ?_⟩
    obtain ⟨i', _, b', hq⟩ := hq
    rw [hv, hsep q b' (List.mem_of_getElem? hq) hclose]
  · intro p b h
    obtain ⟨q, hq, hqp, hv⟩ := hs.2 p b h
    simp only [false_or] at hq
    have hclose : List.Forall₂ (fun x y => |x - y| ≤ eps) q p := by
      rcases hqp with hqp | rfl
      · obtain ⟨i', _, b', hq⟩ := hq
        refine (equivalent_iff eps heps q p ?_).1 hqp
        rw [(hbj q b' (List.mem_of_getElem? hq)).2, (hbj p b (List.mem_of_getElem? h)).2]
      · exact hrefl q
    refine ⟨⟨q, hq, hclose, hv⟩, fun hsep => ?_⟩
    obtain ⟨i', _, b', hq⟩ := hq
    rw [hv, hsep q b' (List.mem_of_getElem? hq) hclose]

/-- Of two different positions that close the second is answered with the values of the first. -/
theorem C121_cache_false : ¬ ∀ (calls : List (CacheCall ℚ (List ℚ) Unit)) (i : Nat) (p : List ℚ) (b : List ℚ → List ℚ),
    (∀ q c, CacheCall.function q c ∈ calls → c = id) → calls[i]? = some (.function p b) →
    (cacheRun (1 / 100000) ⟨[], []⟩ calls)[i]? = some (.inl (b p)) := by
  intro h
  have := h [.function [0] id, .function [1 / 1000000] id] 1 [1 / 1000000] id (by
    intro q c hc
    simp only [List.mem_cons, CacheCall.function.injEq, List.not_mem_nil, or_false] at hc
    rcases hc with ⟨_, rfl⟩ | ⟨_, rfl⟩ <;> rfl) rfl
  revert this
  decide +kernel

/-- The comparison of the maps is a strict order, with incomparable positions equal, on every set of positions whose coordinates are
equal or differ by more than 1e-5. -/
theorem C121_comparison_partial (eps : K) (heps : 0 ≤ eps) (S : List K → Prop)
    (hS : ∀ p q, S p → S q → List.Forall₂ (fun x y => x = y ∨ eps < |x - y|) p q) :
    (∀ p, S p → lessThan eps p p = false) ∧
    (∀ p q, S p → S q → lessThan eps p q = true → lessThan eps q p = false) ∧
    (∀ p q r, S p → S q → S r → lessThan eps p q = true → lessThan eps q r = true → lessThan eps p r = true) ∧
    (∀ p q, S p → S q → lessThan eps p q = false → lessThan eps q p = false → p = q) := by
  have iff : ∀ p q, S p → S q → (lessThan eps p q = true ↔ p < q) := fun p q hp hq => lessThan_iff eps heps p q (hS p q hp hq)
  have iff' : ∀ p q, S p → S q → (lessThan eps p q = false ↔ ¬ p < q) := fun p q hp hq => by
    rw [← iff p q hp hq, Bool.not_eq_true]
  refine ⟨fun p hp => (iff' p p hp hp).2 (lt_irrefl p), ?_, ?_, ?_⟩
  · intro p q hp hq h
    exact (iff' q p hq hp).2 (lt_asymm ((iff p q hp hq).1 h))
  · intro p q r hp hq hr h1 h2
    exact (iff p r hp hr).2 (lt_trans ((iff p q hp hq).1 h1) ((iff q r hq hr).1 h2))
  · intro p q hp hq h1 h2
    exact le_antisymm (not_lt.1 ((iff' q p hq hp).1 h2)) (not_lt.1 ((iff' p q hp hq).1 h1))

/-- On all positions it is not: two positions may both be incomparable to a third one but not to each other. (`std::map` requires
that this does not happen.) -/
theorem C121_comparison_false : ¬ ∀ p q r : List ℚ, lessThan (1 / 100000) p q = false → lessThan (1 / 100000) q p = false →
    lessThan (1 / 100000) q r = false → lessThan (1 / 100000) r q = false →
    lessThan (1 / 100000) p r = false ∧ lessThan (1 / 100000) r p = false := by
  intro h
  have := h [0] [8 / 1000000] [16 / 1000000] (by decide +kernel) (by decide +kernel) (by decide +kernel) (by decide +kernel)
  revert this
  decide +kernel

-- The midpoints of the edges of the unit square.
example : ∀ p q : List ℚ, p ∈ [[1 / 2, 0], [0, 1 / 2], [1, 1 / 2], [1 / 2, 1]] → q ∈ [[1 / 2, 0], [0, 1 / 2], [1, 1 / 2], [1 / 2, 1]] →
    List.Forall₂ (fun x y : ℚ => x = y ∨ 1 / 100000 < |x - y|) p q := by
  intro p q hp hq
  simp only [List.mem_cons, List.not_mem_nil, or_false] at hp hq
  rcases hp with rfl | rfl | rfl | rfl <;> rcases hq with rfl | rfl | rfl | rfl <;>
    (refine .cons ?_ (.cons ?_ .nil) <;> norm_num [abs_of_nonneg, abs_of_neg])

/-- A cache that is given two local bases answers with the values of the first one. -/
theorem C121_other_basis_false : ¬ ∀ (calls : List (CacheCall ℚ (List ℚ) Unit)) (i : Nat) (p : List ℚ) (b : List ℚ → List ℚ),
    (∀ q c, CacheCall.function q c ∈ calls → q = p) → calls[i]? = some (.function p b) →
    (cacheRun (1 / 100000) ⟨[], []⟩ calls)[i]? = some (.inl (b p)) := by
  intro h
  have := h [.function [1] id, .function [1] fun _ => [0]] 1 [1] (fun _ => [0]) (by
    intro q c hc
    simp only [List.mem_cons, CacheCall.function.injEq, List.not_mem_nil, or_false] at hc
    rcases hc with ⟨rfl, _⟩ | ⟨rfl, _⟩ <;> rfl) rfl
  revert this
  decide +kernel

example : cacheRun (1 / 100000) ⟨[], []⟩ [.function [0, 1] fun v => v, .jacobian [0, 1] fun v => v ++ v, .function [0, (1 : ℚ) / 2] fun v => v,
    .function [0, 1] fun v => v] = [.inl [0, 1], .inr [0, 1, 0, 1], .inl [0, 1 / 2], .inl [0, 1]] := by decide +kernel

end C121
end Verif
