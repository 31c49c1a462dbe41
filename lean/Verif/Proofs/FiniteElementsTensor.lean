import Verif.Proofs.Legendre
import Mathlib.MeasureTheory.Integral.Pi
namespace Verif.FE
open Polynomial Spec

section Field
variable {K : Type} [Field K]

theorem tensor_reproduces (xi : Nat → K) (k d : Nat) (hxi : ∀ i ≤ k, ∀ j ≤ k, xi i = xi j → i = j) (f : (Nat → K) → K)
    (hf : Qk k d f) (node : Nat → Nat → K) (hnode : ∀ i, ∀ j < d, node i j = xi ((multiindex k d i).getD j 0)) (x : Nat → K) :
    ∑ i ∈ Finset.range ((k + 1) ^ d), f (node i) *
      ∏ j ∈ Finset.range d, lobattoP xi k ((multiindex k d i).getD j 0) (x j) = f x := by
  induction hf with
  | product g hg =>
    dsimp only
    rw [← Finset.prod_congr rfl fun j hj => lagrange_reproduces xi k hxi (g j) (hg j (Finset.mem_range.1 hj)) (x j),
      ← sum_tensor k d fun j a => (g j).eval (xi a) * lobattoP xi k a (x j)]
    refine Finset.sum_congr rfl fun i _ => ?_
    rw [← Finset.prod_mul_distrib]
    exact Finset.prod_congr rfl fun j hj => by rw [hnode i j (Finset.mem_range.1 hj)]
  | add f g _ _ hf hg =>
    simp only [add_mul, Finset.sum_add_distrib]
    rw [hf, hg]
  | smul c f _ hf =>
    simp only [mul_assoc]
    rw [← Finset.mul_sum, hf]

theorem prod_delta (d : Nat) (a b : Nat → Nat) : (∏ j ∈ Finset.range d, if a j = b j then (1 : K) else 0) =
    if ∀ j < d, a j = b j then 1 else 0 := by
  split
  · rename_i h
    exact Finset.prod_eq_one fun j hj => if_pos (h j (Finset.mem_range.1 hj))
  · rename_i h
    push Not at h
    obtain ⟨j, hj, hne⟩ := h
    exact Finset.prod_eq_zero (Finset.mem_range.2 hj) (if_neg hne)

theorem tensor_nodal (xi : Nat → K) (k d : Nat) (hxi : ∀ i ≤ k, ∀ j ≤ k, xi i = xi j → i = j) (i i' : Nat)
    (hi : i < (k + 1) ^ d) (hi' : i' < (k + 1) ^ d) :
    ∏ j ∈ Finset.range d, lobattoP xi k ((multiindex k d i).getD j 0) (xi ((multiindex k d i').getD j 0)) =
      if i = i' then 1 else 0 := by
  rw [Finset.prod_congr rfl fun j _ => lobattoP_nodal xi k hxi _ _ (multiindex_getD_le k d i j) (multiindex_getD_le k d i' j),
    prod_delta]
  refine if_congr ⟨fun h => multiindex_ext k d i i' hi hi' h, ?_⟩ rfl rfl
  rintro rfl j _
  rfl

theorem sum_delta_mul (c : List K) (n i : Nat) (h : i < n) :
    ∑ i' ∈ Finset.range n, c.getD i' 0 * (if i' = i then 1 else 0) = c.getD i 0 := by
  rw [Finset.sum_eq_single i]
  · simp
  · intro b _ hb; simp [hb]
  · intro hn; exact absurd (Finset.mem_range.2 h) hn

theorem qk_zero_const (d : Nat) (f : (Nat → K) → K) (hf : Qk 0 d f) (x y : Nat → K) : f x = f y := by
  induction hf with
  | product g hg =>
    refine Finset.prod_congr rfl fun j hj => ?_
    rw [eq_C_of_natDegree_le_zero (hg j (Finset.mem_range.1 hj))]
    simp
  | add f g _ _ hf hg => simp only [hf, hg]
  | smul c f _ hf => simp only [hf]

theorem lobattoP_zero (xi : Nat → K) (x : K) : lobattoP xi 0 0 x = 1 := by
  rw [lobattoP_eq]; simp

theorem multiindex_zero (d i j : Nat) : (multiindex 0 d i).getD j 0 = 0 := Nat.le_zero.1 (multiindex_getD_le 0 d i j)

theorem lobattoFunction_zero (xi : Nat → K) (d : Nat) (x : Nat → K) : lobattoFunction xi 0 d x = [1] := by
  unfold lobattoFunction
  rw [tensorFunction_eq]
  simp only [multiindex_zero, lobattoP_zero, Finset.prod_const_one]
  simp

theorem lobattoFunction_eq (xi : Nat → K) (k d : Nat) (x : Nat → K) : lobattoFunction xi k d x =
    (List.range ((k + 1) ^ d)).map fun i => ∏ j ∈ Finset.range d, lobattoP xi k ((multiindex k d i).getD j 0) (x j) := by
  unfold lobattoFunction
  rw [tensorFunction_eq]

theorem lobattoInterpolate_combination (xi : Nat → K) (k d : Nat) (hxi : ∀ i ≤ k, ∀ j ≤ k, xi i = xi j → i = j) (c : List K)
    (hc : c.length = (k + 1) ^ d) :
    lobattoInterpolate xi k d (fun x => combination c (lobattoFunction xi k d x)) = c := by
  unfold lobattoInterpolate
  split
  · rename_i hk
    subst hk
    dsimp only
    rw [lobattoFunction_zero]
    match c, hc with
    | [c], _ => simp [combination]
    | [], h => simp at h
    | _ :: _ :: _, h => simp at h
  · rw [qkSize_eq]
    refine List.ext_getElem (by simp [hc]) ?_
    intro i h1 h2
    rw [List.getElem_map, List.getElem_range]
    dsimp only
    simp only [List.length_map, List.length_range] at h1
    rw [lobattoFunction_eq, combination_range c _ _ hc,
      Finset.sum_congr rfl fun i' hi' => by rw [tensor_nodal xi k d hxi i' i (Finset.mem_range.1 hi') h1],
      sum_delta_mul c _ i h1, List.getD_eq_getElem _ _ h2]

theorem lobatto_reproduces_Qk (xi : Nat → K) (k d : Nat) (hxi : ∀ i ≤ k, ∀ j ≤ k, xi i = xi j → i = j) (f : (Nat → K) → K)
    (hf : Qk k d f) (x : Nat → K) : combination (lobattoInterpolate xi k d f) (lobattoFunction xi k d x) = f x := by
  unfold lobattoInterpolate
  split
  · rename_i hk
    subst hk
    rw [lobattoFunction_zero]
    simp [combination, qk_zero_const d f hf _ x]
  · rw [qkSize_eq, lobattoFunction_eq, combination_range _ _ _ (by simp),
      ← tensor_reproduces xi k d hxi f hf (fun i j => xi ((multiindex k d i).getD j 0)) (fun _ _ _ => rfl) x]
    refine Finset.sum_congr rfl fun i hi => ?_
    rw [List.getD_eq_getElem _ _ (by simpa using hi)]
    simp

theorem lobatto_in_Qk (xi : Nat → K) (k d i : Nat) (hi : i < (k + 1) ^ d) :
    Qk k d fun x => (lobattoFunction xi k d x).getD i 0 := by
  have : (fun x => (lobattoFunction xi k d x).getD i 0) = fun x => ∏ j ∈ Finset.range d,
      (lagrangePoly xi k ((multiindex k d i).getD j 0)).eval (x j) := by
    funext x
    rw [lobattoFunction_eq, List.getD_eq_getElem _ _ (by simpa using hi)]
    simp only [List.getElem_map, List.getElem_range, lagrangePoly_eval]
  rw [this]
  exact Qk.product _ fun j _ => lagrangePoly_degree xi k _ (multiindex_getD_le k d i j)

theorem lagrangeFunction_eq [CharZero K] (k d : Nat) (x : Nat → K) :
    lagrangeFunction k d x = lobattoFunction (fun j => (j : K) / (k : K)) k d x := by
  by_cases hk : k = 0
  · subst hk
    rw [lobattoFunction_zero]
    unfold lagrangeFunction
    rw [tensorFunction_eq]
    simp only [multiindex_zero]
    have : ∀ y : K, lagrangeP 0 0 y = 1 := by intro y; simp [lagrangeP]
    simp [this]
  · unfold lagrangeFunction lobattoFunction
    congr 1
    funext j a
    exact lagrangeP_eq k a (x j) hk

theorem lagrangeInterpolate_eq (k d : Nat) (f : (Nat → K) → K) :
    lagrangeInterpolate k d f = lobattoInterpolate (fun j => (j : K) / (k : K)) k d f := rfl

theorem equidistant_injective' [CharZero K] (k : Nat) :
    ∀ i ≤ k, ∀ j ≤ k, (i : K) / (k : K) = (j : K) / (k : K) → i = j := by
  by_cases hk : k = 0
  · intro i hi j hj _; omega
  · exact equidistant_injective k hk

end Field

/-! ### Derivatives -/

theorem tensor_hasDerivAt (k d i j : Nat) (hi : i < (k + 1) ^ d) (hj : j < d) (p : Nat → ℝ → ℝ) (dp : Nat → ℝ → ℝ) (x : Nat → ℝ)
    (hp : ∀ a ≤ k, HasDerivAt (p a) (dp a (x j)) (x j)) :
    ∃ dv, (tensorJacobian k d (fun l a => p a (x l)) (fun l a => dp a (x l)))[i]?.bind (·[j]?) = some dv ∧
      HasDerivAt (fun t => (tensorFunction k d fun l a => p a (moved x j t l)).getD i 0) dv (x j) := by
  obtain ⟨g, hg, _, hgj⟩ := tensorJacobian_getElem? k d (fun l a => p a (x l)) (fun l a => dp a (x l)) i j hi hj
  refine ⟨_, by rw [hg]; exact hgj, ?_⟩
  have he : (fun t => (tensorFunction k d fun l a => p a (moved x j t l)).getD i 0) = fun t =>
      p ((multiindex k d i).getD j 0) t * ∏ l ∈ Finset.range d, if l ≠ j then p ((multiindex k d i).getD l 0) (x l) else 1 := by
    funext t
    have := tensorFunction_getElem? k d (fun l a => p a (moved x j t l)) i hi
    rw [List.getD_eq_getElem?_getD, this, Option.getD_some, ← Finset.mul_prod_erase _ _ (Finset.mem_range.2 hj)]
    congr 1
    · rw [moved, if_pos rfl]
    · rw [← Finset.mul_prod_erase (Finset.range d) (fun l => if l ≠ j then p ((multiindex k d i).getD l 0) (x l) else 1)
        (Finset.mem_range.2 hj)]
      simp only [ne_eq, not_true_eq_false, if_false, one_mul]
      refine Finset.prod_congr rfl fun l hl => ?_
      rw [if_pos (Finset.ne_of_mem_erase hl), moved, if_neg (Finset.ne_of_mem_erase hl)]
  rw [he]
  exact (hp _ (multiindex_getD_le k d i j)).mul_const _

theorem lobattoP_hasDerivAt (xi : Nat → ℝ) (k a : Nat) (x : ℝ) : HasDerivAt (lobattoP xi k a) (lobattoDp xi k a x) x := by
  have := (lagrangePoly xi k a).hasDerivAt x
  rw [lagrangePoly_derivative] at this
  refine this.congr_of_eventuallyEq (Filter.Eventually.of_forall fun y => ?_)
  exact (lagrangePoly_eval xi k a y).symm

theorem lagrangeP_hasDerivAt (k a : Nat) (ha : a ≤ k) (x : ℝ) : HasDerivAt (lagrangeP k a) (lagrangeDp k a x) x := by
  by_cases hk : k = 0
  · subst hk
    have ha0 : a = 0 := by omega
    subst ha0
    have h1 : (lagrangeP 0 0 : ℝ → ℝ) = fun _ => 1 := by funext y; simp [lagrangeP]
    have h2 : lagrangeDp 0 0 x = 0 := by simp [lagrangeDp]
    rw [h1, h2]
    exact hasDerivAt_const x 1
  · rw [lagrangeDp_eq k a x hk]
    have h1 : (lagrangeP k a : ℝ → ℝ) = lobattoP (fun j => (j : ℝ) / (k : ℝ)) k a := by
      funext y; exact lagrangeP_eq k a y hk
    rw [h1]
    exact lobattoP_hasDerivAt _ k a x

theorem legendre_hasDerivAt (k a : Nat) (ha : a ≤ k) (x : ℝ) :
    HasDerivAt (fun y => (legendreValues y k).getD a 0) ((legendreValuesDerivatives x k).2.getD a 0) x := by
  have h1 : (fun y : ℝ => (legendreValues y k).getD a 0) = fun y => (legendrePoly a).eval y := by
    funext y; exact legendreValues_getD y k a ha
  have h2 : (legendreValuesDerivatives x k).2.getD a 0 = (derivative (legendrePoly a)).eval x := by
    rw [legendreValuesDerivatives_eq, List.getD_eq_getElem _ _ (by simpa using Nat.lt_succ_of_le ha)]
    simp
  rw [h1, h2]
  exact (legendrePoly a).hasDerivAt x

/-! ### Legendre tensor products -/

theorem legendreFunction_eq (k d : Nat) (x : Nat → ℝ) : legendreFunction k d x =
    (List.range ((k + 1) ^ d)).map fun i => ∏ j ∈ Finset.range d, (legendrePoly ((multiindex k d i).getD j 0)).eval (x j) := by
  unfold legendreFunction
  rw [tensorFunction_eq]
  refine List.map_congr_left fun i _ => Finset.prod_congr rfl fun j _ => ?_
  exact legendreValues_getD (x j) k _ (multiindex_getD_le k d i j)

theorem legendreFunction_getD (k d : Nat) (x : Nat → ℝ) (i : Nat) (hi : i < (k + 1) ^ d) : (legendreFunction k d x).getD i 0 =
    ∏ j ∈ Finset.range d, (legendrePoly ((multiindex k d i).getD j 0)).eval (x j) := by
  rw [legendreFunction_eq, List.getD_eq_getElem _ _ (by simpa using hi)]
  simp

theorem cubeIntegral_prod (d : Nat) (g : Nat → ℝ[X]) :
    cubeIntegral d (fun x => ∏ j ∈ Finset.range d, (g j).eval (x j)) = ∏ j ∈ Finset.range d, integral01 (g j) := by
  unfold cubeIntegral
  have h1 : ∀ x : Fin d → ℝ, (∏ j ∈ Finset.range d, (g j).eval (point x j)) = ∏ j : Fin d, (g j).eval (x j) := by
    intro x
    rw [Finset.prod_range]
    refine Finset.prod_congr rfl fun j _ => ?_
    simp [point]
  simp only [h1]
  have h2 : (Set.Icc (0 : Fin d → ℝ) 1) = Set.pi Set.univ fun _ => Set.Icc (0 : ℝ) 1 := by
    rw [Set.pi_univ_Icc]; rfl
  rw [h2, MeasureTheory.volume_pi, MeasureTheory.Measure.restrict_pi_pi]
  rw [MeasureTheory.integral_fintype_prod_eq_prod (fun (j : Fin d) (t : ℝ) => (g j).eval t), Finset.prod_range]
  refine Finset.prod_congr rfl fun j _ => ?_
  unfold integral01
  rw [intervalIntegral.integral_of_le zero_le_one, MeasureTheory.integral_Icc_eq_integral_Ioc]

theorem legendre_cube_orthogonal (k d i i' : Nat) (hi : i < (k + 1) ^ d) (hi' : i' < (k + 1) ^ d) :
    cubeIntegral d (fun x => (legendreFunction k d x).getD i 0 * (legendreFunction k d x).getD i' 0) =
      if i = i' then ∏ j ∈ Finset.range d, 1 / (2 * ((multiindex k d i).getD j 0 : ℝ) + 1) else 0 := by
  have he : (fun x => (legendreFunction k d x).getD i 0 * (legendreFunction k d x).getD i' 0) = fun x =>
      ∏ j ∈ Finset.range d, (legendrePoly ((multiindex k d i).getD j 0) * legendrePoly ((multiindex k d i').getD j 0) : ℝ[X]).eval (x j) := by
    funext x
    rw [legendreFunction_getD k d x i hi, legendreFunction_getD k d x i' hi', ← Finset.prod_mul_distrib]
    exact Finset.prod_congr rfl fun j _ => by rw [eval_mul]
  rw [he, cubeIntegral_prod]
  split
  · rename_i h
    subst h
    exact Finset.prod_congr rfl fun j _ => legendre_norm _
  · rename_i h
    have : ¬ ∀ j < d, (multiindex k d i).getD j 0 = (multiindex k d i').getD j 0 := fun hh => h (multiindex_ext k d i i' hi hi' hh)
    push Not at this
    obtain ⟨j, hj, hne⟩ := this
    exact Finset.prod_eq_zero (Finset.mem_range.2 hj) (legendre_orthogonal _ _ hne)

theorem legendre_product_Qk (k d i i' : Nat) (hi : i < (k + 1) ^ d) (hi' : i' < (k + 1) ^ d) :
    Qk (2 * k) d fun x : Nat → ℝ => (legendreFunction k d x).getD i 0 * (legendreFunction k d x).getD i' 0 := by
  have he : (fun x => (legendreFunction k d x).getD i 0 * (legendreFunction k d x).getD i' 0) = fun x =>
      ∏ j ∈ Finset.range d, (legendrePoly ((multiindex k d i).getD j 0) * legendrePoly ((multiindex k d i').getD j 0) : ℝ[X]).eval (x j) := by
    funext x
    rw [legendreFunction_getD k d x i hi, legendreFunction_getD k d x i' hi', ← Finset.prod_mul_distrib]
    exact Finset.prod_congr rfl fun j _ => by rw [eval_mul]
  rw [he]
  refine Qk.product _ fun j _ => ?_
  refine natDegree_mul_le.trans ?_
  have h1 := (legendre_degree (K := ℝ) ((multiindex k d i).getD j 0)).trans (multiindex_getD_le k d i j)
  have h2 := (legendre_degree (K := ℝ) ((multiindex k d i').getD j 0)).trans (multiindex_getD_le k d i' j)
  omega

theorem legendre_in_Qk (k d i : Nat) (hi : i < (k + 1) ^ d) :
    Qk k d fun x : Nat → ℝ => (legendreFunction k d x).getD i 0 := by
  have he : (fun x => (legendreFunction k d x).getD i 0) = fun x =>
      ∏ j ∈ Finset.range d, (legendrePoly ((multiindex k d i).getD j 0) : ℝ[X]).eval (x j) := by
    funext x
    rw [legendreFunction_getD k d x i hi]
  rw [he]
  exact Qk.product _ fun j _ => (legendre_degree _).trans (multiindex_getD_le k d i j)

/-- The interpolation as quotients of sums. -/
theorem legendreInterpolate_eq {K : Type} [Field K] (k d : Nat) (rule : List ((Nat → K) × K)) (f : (Nat → K) → K) :
    legendreInterpolate k d rule f = (List.range ((k + 1) ^ d)).map fun i =>
      quadrature rule (fun x => f x * (legendreFunction k d x).getD i 0) /
        quadrature rule (fun x => (legendreFunction k d x).getD i 0 * (legendreFunction k d x).getD i 0) := by
  unfold legendreInterpolate
  dsimp only
  rw [qkSize_eq]
  have key : ∀ (rule : List ((Nat → K) × K)) (o dd : Nat → K),
      rule.foldl (fun (od : List K × List K) xw =>
        ((List.range ((k + 1) ^ d)).map fun i => od.1.getD i 0 + f xw.1 * (legendreFunction k d xw.1).getD i 0 * xw.2,
         (List.range ((k + 1) ^ d)).map fun i => od.2.getD i 0 +
          (legendreFunction k d xw.1).getD i 0 * (legendreFunction k d xw.1).getD i 0 * xw.2))
        ((List.range ((k + 1) ^ d)).map o, (List.range ((k + 1) ^ d)).map dd) =
      ((List.range ((k + 1) ^ d)).map fun i => o i + quadrature rule (fun x => f x * (legendreFunction k d x).getD i 0),
       (List.range ((k + 1) ^ d)).map fun i => dd i +
        quadrature rule (fun x => (legendreFunction k d x).getD i 0 * (legendreFunction k d x).getD i 0)) := by
    intro rule
    induction rule with
    | nil => intro o dd; simp [quadrature]
    | cons xw rule ih =>
      intro o dd
      rw [List.foldl_cons]
      have e : ∀ (h : Nat → K) (v : Nat → K), ((List.range ((k + 1) ^ d)).map fun i => ((List.range ((k + 1) ^ d)).map h).getD i 0 + v i) =
          (List.range ((k + 1) ^ d)).map fun i => h i + v i := by
        intro h v
        refine List.map_congr_left fun i hi => ?_
        rw [List.getD_eq_getElem _ _ (by simpa using hi)]
        simp
      rw [e o fun i => f xw.1 * (legendreFunction k d xw.1).getD i 0 * xw.2,
        e dd fun i => (legendreFunction k d xw.1).getD i 0 * (legendreFunction k d xw.1).getD i 0 * xw.2, ih]
      congr 1
      · refine List.map_congr_left fun i _ => ?_
        simp only [quadrature, List.map_cons, List.sum_cons]
        ring
      · refine List.map_congr_left fun i _ => ?_
        simp only [quadrature, List.map_cons, List.sum_cons]
        ring
  have hz : List.replicate ((k + 1) ^ d) (0 : K) = (List.range ((k + 1) ^ d)).map fun _ => 0 := by
    simp
  rw [hz, key]
  refine List.map_congr_left fun i hi => ?_
  rw [List.getD_eq_getElem _ _ (by simpa using hi), List.getD_eq_getElem _ _ (by simpa using hi)]
  simp

theorem quadrature_sum {K ι : Type} [Field K] (rule : List ((Nat → K) × K)) (s : Finset ι) (f : ι → (Nat → K) → K) :
    quadrature rule (fun x => ∑ i ∈ s, f i x) = ∑ i ∈ s, quadrature rule (f i) := by
  unfold quadrature
  induction rule with
  | nil => simp
  | cons xw rule ih =>
    rw [List.map_cons, List.sum_cons, ih]
    simp only [List.map_cons, List.sum_cons, Finset.sum_mul, Finset.sum_add_distrib]

theorem quadrature_const_mul {K : Type} [Field K] (rule : List ((Nat → K) × K)) (c : K) (f : (Nat → K) → K) :
    quadrature rule (fun x => c * f x) = c * quadrature rule f := by
  unfold quadrature
  induction rule with
  | nil => simp
  | cons xw rule ih =>
    rw [List.map_cons, List.sum_cons, ih]
    simp only [List.map_cons, List.sum_cons, mul_add, mul_assoc]

theorem quadrature_sub {K : Type} [Field K] (rule : List ((Nat → K) × K)) (f g : (Nat → K) → K) :
    quadrature rule (fun x => f x - g x) = quadrature rule f - quadrature rule g := by
  unfold quadrature
  induction rule with
  | nil => simp
  | cons xw rule ih =>
    rw [List.map_cons, List.sum_cons, ih]
    simp only [List.map_cons, List.sum_cons, sub_mul]
    ring

section Interp
variable (k d : Nat) (rule : List ((Nat → ℝ) × ℝ)) (hexact : ∀ f, Qk (2 * k) d f → quadrature rule f = cubeIntegral d f)
include hexact

theorem discrete_orthogonal (i i' : Nat) (hi : i < (k + 1) ^ d) (hi' : i' < (k + 1) ^ d) :
    quadrature rule (fun x => (legendreFunction k d x).getD i 0 * (legendreFunction k d x).getD i' 0) =
      if i = i' then ∏ j ∈ Finset.range d, 1 / (2 * ((multiindex k d i).getD j 0 : ℝ) + 1) else 0 := by
  rw [hexact _ (legendre_product_Qk k d i i' hi hi'), legendre_cube_orthogonal k d i i' hi hi']

theorem discrete_norm_pos (i : Nat) (hi : i < (k + 1) ^ d) :
    quadrature rule (fun x => (legendreFunction k d x).getD i 0 * (legendreFunction k d x).getD i 0) ≠ 0 := by
  rw [discrete_orthogonal k d rule hexact i i hi hi, if_pos rfl]
  refine Finset.prod_ne_zero_iff.2 fun j _ => ?_
  positivity

theorem legendreInterpolate_combination (c : List ℝ) (hc : c.length = (k + 1) ^ d) :
    legendreInterpolate k d rule (fun x => combination c (legendreFunction k d x)) = c := by
  rw [legendreInterpolate_eq]
  refine List.ext_getElem (by simp [hc]) ?_
  intro i h1 h2
  simp only [List.length_map, List.length_range] at h1
  rw [List.getElem_map, List.getElem_range]
  have hl : ∀ x, combination c (legendreFunction k d x) = ∑ i' ∈ Finset.range ((k + 1) ^ d), c.getD i' 0 * (legendreFunction k d x).getD i' 0 := by
    intro x
    rw [legendreFunction_eq, combination_range c _ _ hc]
    refine Finset.sum_congr rfl fun i' hi' => ?_
    rw [← legendreFunction_eq, legendreFunction_getD k d x i' (Finset.mem_range.1 hi')]
  simp only [hl, Finset.sum_mul]
  rw [quadrature_sum, Finset.sum_eq_single i]
  · simp only [mul_assoc]
    rw [quadrature_const_mul, mul_div_assoc, div_self (discrete_norm_pos k d rule hexact i h1), mul_one, List.getD_eq_getElem _ _ h2]
  · intro i' hi' hne
    simp only [mul_assoc]
    rw [quadrature_const_mul, discrete_orthogonal k d rule hexact i' i (Finset.mem_range.1 hi') h1, if_neg hne, mul_zero]
  · intro h; exact absurd (Finset.mem_range.2 h1) h

end Interp

theorem legendre_spans (k d : Nat) (f : (Nat → ℝ) → ℝ) (hf : Qk k d f) :
    ∃ c : List ℝ, c.length = (k + 1) ^ d ∧ ∀ x, combination c (legendreFunction k d x) = f x := by
  suffices h : ∃ c : Nat → ℝ, ∀ x, f x = ∑ i ∈ Finset.range ((k + 1) ^ d), c i *
      ∏ j ∈ Finset.range d, (legendrePoly ((multiindex k d i).getD j 0)).eval (x j) by
    obtain ⟨c, hc⟩ := h
    refine ⟨(List.range ((k + 1) ^ d)).map c, by simp, fun x => ?_⟩
    rw [legendreFunction_eq, combination_range _ _ _ (by simp), hc]
    refine Finset.sum_congr rfl fun i hi => ?_
    rw [List.getD_eq_getElem _ _ (by simpa using hi)]
    simp
  induction hf with
  | product g hg =>
    have hb : ∀ j, ∃ b : Nat → ℝ, j < d → g j = ∑ a ∈ Finset.range (k + 1), C (b a) * legendrePoly a := by
      intro j
      by_cases hj : j < d
      · obtain ⟨b, hb⟩ := legendreSpan_of_degree k (g j) (hg j hj)
        exact ⟨b, fun _ => hb⟩
      · exact ⟨fun _ => 0, fun h => absurd h hj⟩
    choose b hb using hb
    refine ⟨fun i => ∏ j ∈ Finset.range d, b j ((multiindex k d i).getD j 0), fun x => ?_⟩
    simp only [← Finset.prod_mul_distrib]
    rw [sum_tensor k d fun j a => b j a * (legendrePoly a).eval (x j)]
    refine Finset.prod_congr rfl fun j hj => ?_
    rw [hb j (Finset.mem_range.1 hj), eval_finsetSum]
    simp
  | add f g _ _ hf hg =>
    obtain ⟨c, hc⟩ := hf
    obtain ⟨c', hc'⟩ := hg
    exact ⟨fun i => c i + c' i, fun x => by simp only [hc x, hc' x, add_mul, Finset.sum_add_distrib]⟩
  | smul a f _ hf =>
    obtain ⟨c, hc⟩ := hf
    exact ⟨fun i => a * c i, fun x => by simp only [hc x, mul_assoc, Finset.mul_sum]⟩

theorem legendre_reproduces_Qk (k d : Nat) (rule : List ((Nat → ℝ) × ℝ))
    (hexact : ∀ f, Qk (2 * k) d f → quadrature rule f = cubeIntegral d f) (f : (Nat → ℝ) → ℝ) (hf : Qk k d f) (x : Nat → ℝ) :
    combination (legendreInterpolate k d rule f) (legendreFunction k d x) = f x := by
  obtain ⟨c, hc, h⟩ := legendre_spans k d f hf
  have : f = fun x => combination c (legendreFunction k d x) := funext fun x => (h x).symm
  rw [this, legendreInterpolate_combination k d rule hexact c hc]

theorem legendre_projection (k d : Nat) (rule : List ((Nat → ℝ) × ℝ))
    (hexact : ∀ f, Qk (2 * k) d f → quadrature rule f = cubeIntegral d f) (f : (Nat → ℝ) → ℝ) (i : Nat) (hi : i < (k + 1) ^ d) :
    quadrature rule (fun x => (f x - combination (legendreInterpolate k d rule f) (legendreFunction k d x)) *
      (legendreFunction k d x).getD i 0) = 0 := by
  have hl : ∀ x, combination (legendreInterpolate k d rule f) (legendreFunction k d x) =
      ∑ i' ∈ Finset.range ((k + 1) ^ d), (legendreInterpolate k d rule f).getD i' 0 * (legendreFunction k d x).getD i' 0 := by
    intro x
    rw [legendreFunction_eq, combination_range _ _ _ (by rw [legendreInterpolate_eq]; simp)]
    refine Finset.sum_congr rfl fun i' hi' => ?_
    rw [← legendreFunction_eq, legendreFunction_getD k d x i' (Finset.mem_range.1 hi')]
  simp only [hl, sub_mul, Finset.sum_mul]
  rw [quadrature_sub, quadrature_sum, Finset.sum_eq_single i]
  · simp only [mul_assoc]
    rw [quadrature_const_mul, legendreInterpolate_eq, List.getD_eq_getElem _ _ (by simpa using hi)]
    simp only [List.getElem_map, List.getElem_range]
    rw [div_mul_cancel₀ _ (discrete_norm_pos k d rule hexact i hi), sub_self]
  · intro i' hi' hne
    simp only [mul_assoc]
    rw [quadrature_const_mul, discrete_orthogonal k d rule hexact i' i (Finset.mem_range.1 hi') hi, if_neg hne, mul_zero]
  · intro h; exact absurd (Finset.mem_range.2 hi) h

theorem legendrePoly_one {K : Type} [Field K] [CharZero K] (n : Nat) : (legendrePoly n : K[X]).eval 1 = 1 := by
  induction n using Nat.twoStepInduction with
  | zero => simp [legendrePoly]
  | one => simp [legendrePoly]; ring
  | more n h1 h2 =>
    have hn : ((n : K) + 2) ≠ 0 := by
      have : ((n + 2 : Nat) : K) ≠ 0 := Nat.cast_ne_zero.2 (by omega)
      simpa using this
    have := congrArg (eval 1) (legendre_rec (K := K) n)
    simp only [eval_mul, eval_sub, eval_add, eval_X, eval_ofNat, eval_one, eval_natCast, h1, h2] at this
    apply mul_left_cancel₀ hn
    rw [this]
    ring

theorem legendreP_eq {K : Type} [Field K] (k a : Nat) (ha : a ≤ k) (x : K) : legendreP k a x = (legendreValues x k).getD a 0 := by
  match k with
  | 0 =>
    obtain rfl : a = 0 := by omega
    rfl
  | 1 =>
    rcases (by omega : a = 0 ∨ a = 1) with rfl | rfl
    · simp [legendreP, legendreValues]
    · simp [legendreP, legendreValues]
  | k + 2 => rfl

theorem legendreDp_eq {K : Type} [Field K] (k a : Nat) (ha : a ≤ k) (x : K) :
    legendreDp k a x = (legendreValuesDerivatives x k).2.getD a 0 := by
  match k with
  | 0 =>
    obtain rfl : a = 0 := by omega
    rfl
  | 1 =>
    rcases (by omega : a = 0 ∨ a = 1) with rfl | rfl
    · simp [legendreDp, legendreValuesDerivatives]
    · simp [legendreDp, legendreValuesDerivatives]
  | k + 2 => rfl

/-! ### The Gauss-Lobatto points -/

section Points
variable {K : Type} [Field K]

/-- The places of the points. -/
def lobattoIndex (k count : Nat) : Nat := if count % 2 = 1 then count / 2 else k - count / 2

theorem lobattoPlace_other (k : Nat) (rule : List (K × K)) : ∀ (count : Nat) (a : Nat → K × K) (j : Nat),
    (∀ m < rule.length, lobattoIndex k (count + m) ≠ j) → lobattoPlace k count rule a j = a j := by
  induction rule with
  | nil => intro count a j _; rfl
  | cons pw rule ih =>
    intro count a j h
    rw [lobattoPlace, ih]
    · have := h 0 (by simp)
      rw [Nat.add_zero, lobattoIndex] at this
      rw [setAt, if_neg fun h => this h.symm]
    · intro m hm
      have := h (m + 1) (by simpa using hm)
      rwa [show count + (m + 1) = count + 1 + m by omega] at this

theorem lobattoPlace_at (k : Nat) (rule : List (K × K)) : ∀ (count : Nat) (a : Nat → K × K) (m : Nat) (hm : m < rule.length),
    count + rule.length ≤ k + 1 → lobattoPlace k count rule a (lobattoIndex k (count + m)) = rule[m] := by
  induction rule with
  | nil => intro count a m hm _; simp at hm
  | cons pw rule ih =>
    intro count a m hm hc
    simp only [List.length_cons] at hm hc
    cases m with
    | zero =>
      rw [lobattoPlace, lobattoPlace_other]
      · simp [setAt, lobattoIndex]
      · intro m' hm'
        unfold lobattoIndex
        split <;> split <;> omega
    | succ m =>
      rw [lobattoPlace, show count + (m + 1) = count + 1 + m by omega, ih _ _ m (by omega) (by omega)]
      rfl

theorem map_index_perm (n : Nat) (f : Nat → Nat) (hlt : ∀ i < n, f i < n) (hinj : ∀ i < n, ∀ j < n, f i = f j → i = j) :
    ((List.range n).map f).Perm (List.range n) := by
  have hnd : ((List.range n).map f).Nodup := by
    refine List.Nodup.map_on ?_ List.nodup_range
    intro i hi j hj h
    exact hinj i (List.mem_range.1 hi) j (List.mem_range.1 hj) h
  have hsub : (List.range n).map f ⊆ List.range n := by
    intro i hi
    obtain ⟨j, hj, rfl⟩ := List.mem_map.1 hi
    exact List.mem_range.2 (hlt j (List.mem_range.1 hj))
  exact (hnd.subperm hsub).perm_of_length_le (by simp)

theorem lobattoPlace_perm (k : Nat) (rule : List (K × K)) (hr : rule.length = k + 1) (a : Nat → K × K) :
    ((List.range (k + 1)).map (lobattoPlace k 0 rule a)).Perm rule := by
  have h1 : ((List.range (k + 1)).map (lobattoIndex k)).Perm (List.range (k + 1)) := by
    refine map_index_perm _ _ ?_ ?_
    · intro i hi; unfold lobattoIndex; split <;> omega
    · intro i hi j hj h; unfold lobattoIndex at h; split at h <;> split at h <;> omega
  have h2 := h1.map (lobattoPlace k 0 rule a)
  refine h2.symm.trans (List.Perm.of_eq ?_)
  refine List.ext_getElem (by simp [hr]) ?_
  intro m h3 h4
  simp only [List.getElem_map, List.getElem_range]
  have := lobattoPlace_at k rule 0 a m h4 (by omega)
  rwa [Nat.zero_add] at this

theorem setAt_swap_perm (k j : Nat) (hj : j ≤ k) (a : Nat → K × K) :
    ((List.range (k + 1)).map (setAt (setAt a j (a (k - j))) (k - j) (a j))).Perm ((List.range (k + 1)).map a) := by
  let f : Nat → Nat := fun i => if i = k - j then j else if i = j then k - j else i
  have he : (setAt (setAt a j (a (k - j))) (k - j) (a j)) = fun i => a (f i) := by
    funext i
    simp only [setAt, f]
    split
    · rfl
    · split <;> rfl
  rw [he, show (fun i => a (f i)) = a ∘ f from rfl, ← List.map_map]
  refine (map_index_perm (k + 1) f ?_ ?_).map a
  · intro i hi; simp only [f]; split
    · omega
    · split <;> omega
  · intro i hi i' hi' h
    simp only [f] at h
    split at h
    · split at h
      · omega
      · split at h <;> omega
    · split at h
      · split at h
        · omega
        · split at h <;> omega
      · split at h
        · omega
        · split at h <;> omega

theorem lobattoSwap_perm (k size : Nat) (half : K → Bool) (hs : size ≤ k + 1) (a : Nat → K × K) :
    ((List.range (k + 1)).map (lobattoSwap k size half a)).Perm ((List.range (k + 1)).map a) := by
  unfold lobattoSwap
  have : ∀ n, n ≤ k + 1 → ((List.range (k + 1)).map ((List.range n).foldl (fun a j =>
      if half (a j).1 then setAt (setAt a j (a (k - j))) (k - j) (a j) else a) a)).Perm ((List.range (k + 1)).map a) := by
    intro n
    induction n with
    | zero => intro _; exact List.Perm.refl _
    | succ n ih =>
      intro hn
      rw [List.range_succ (n := n), List.foldl_append]
      simp only [List.foldl_cons, List.foldl_nil]
      split
      · exact (setAt_swap_perm k n (by omega) _).trans (ih (by omega))
      · exact ih (by omega)
  exact this _ (by omega)

/-- The swap only touches the pair at hand. -/
theorem lobattoSwap_at (k size : Nat) (half : K → Bool) (a : Nat → K × K) (j : Nat) (hj : j < size / 2) (hs : size ≤ k + 1) :
    (lobattoSwap k size half a j = if half (a j).1 then a (k - j) else a j) ∧
    (lobattoSwap k size half a (k - j) = if half (a j).1 then a j else a (k - j)) := by
  unfold lobattoSwap
  have hout : ∀ n, n ≤ size / 2 → ∀ i, n ≤ i → i ≤ k - n → ((List.range n).foldl (fun a j =>
      if half (a j).1 then setAt (setAt a j (a (k - j))) (k - j) (a j) else a) a) i = a i := by
    intro n
    induction n with
    | zero => intro _ i _ _; rfl
    | succ n ih =>
      intro hn i h1 h2
      rw [List.range_succ, List.foldl_append]
      simp only [List.foldl_cons, List.foldl_nil]
      split
      · rw [setAt, if_neg (by omega), setAt, if_neg (by omega)]
        exact ih (by omega) i (by omega) (by omega)
      · exact ih (by omega) i (by omega) (by omega)
  have : ∀ n, n ≤ size / 2 → j < n → (((List.range n).foldl (fun a j =>
      if half (a j).1 then setAt (setAt a j (a (k - j))) (k - j) (a j) else a) a) j = if half (a j).1 then a (k - j) else a j) ∧
      (((List.range n).foldl (fun a j =>
      if half (a j).1 then setAt (setAt a j (a (k - j))) (k - j) (a j) else a) a) (k - j) = if half (a j).1 then a j else a (k - j)) := by
    intro n
    induction n with
    | zero => intro _ h; omega
    | succ n ih =>
      intro hn hjn
      rw [List.range_succ, List.foldl_append]
      simp only [List.foldl_cons, List.foldl_nil]
      by_cases hlast : j = n
      · subst hlast
        rw [hout j (by omega) j (by omega) (by omega), hout j (by omega) (k - j) (by omega) (by omega)]
        split
        · constructor
          · rw [setAt, if_neg (by omega), setAt, if_pos rfl]
          · rw [setAt, if_pos rfl]
        · exact ⟨hout j (by omega) j (by omega) (by omega), hout j (by omega) (k - j) (by omega) (by omega)⟩
      · have ih' := ih (by omega) (by omega)
        have n1 : j ≠ k - n := by omega
        have n2 : k - j ≠ k - n := by omega
        have n3 : k - j ≠ n := by omega
        split
        · simp only [setAt, if_neg n1, if_neg n2, if_neg n3, if_neg hlast]
          exact ih'
        · exact ih'
  exact this _ (Nat.le_refl _) hj

end Points
end Verif.FE
