import Verif.Spec.DiscreteFunctions
import Mathlib.Analysis.Calculus.FDeriv.Add
import Mathlib.Analysis.Calculus.FDeriv.Mul
import Mathlib.Analysis.Calculus.FDeriv.Comp
import Mathlib.Tactic.Ring
import Mathlib.Tactic.Abel
import Mathlib.Tactic.FinCases
import Mathlib.Tactic.Linarith
import Mathlib.Tactic.FieldSimp
import Mathlib.Data.List.GetD
/-
Helpers for the properties of discrete functions.
-/
namespace Verif.DiscreteFunctions

open Matrix Topology

variable {I X V J K : Type} [Field K] {d : Nat}

theorem read_prefix (x : I → K) (e : Element I X V J K d) (l : List K) : ∀ n ≤ l.length,
    (List.range n).foldlM (fun l i => if i < l.length then some (l.set i (x (e.containerIndex i))) else none) l
      = some ((List.range n).map (fun i => x (e.containerIndex i)) ++ l.drop n) := by
  intro n
  induction n with
  | zero => intro _; simp
  | succ n ih =>
    intro h
    rw [List.range_succ, List.foldlM_append, ih (by omega)]
    have hlen : ((List.range n).map (fun i => x (e.containerIndex i)) ++ l.drop n).length = l.length := by simp; omega
    simp only [List.foldlM_cons, List.foldlM_nil, Option.bind_eq_bind, Option.bind_some, hlen, if_pos (show n < l.length by omega)]
    simp only [Option.pure_def, Option.bind_some, List.map_append, List.map_cons, List.map_nil, Option.some.injEq]
    rw [List.set_append_right _ _ (by simp)]
    simp only [List.length_map, List.length_range, Nat.sub_self, List.append_assoc, List.cons_append, List.nil_append]
    rw [List.drop_eq_getElem_cons (by omega : n < l.length)]
    rfl

theorem read_eq (x : I → K) (e : Element I X V J K d) (l : List K) (h : e.size ≤ l.length) :
    read x e l = some ((List.range e.size).map (fun i => x (e.containerIndex i)) ++ l.drop e.size) :=
  read_prefix x e l e.size h

theorem read_none (x : I → K) (e : Element I X V J K d) (l : List K) (h : l.length < e.size) : read x e l = none := by
  unfold read
  obtain ⟨k, hk⟩ : ∃ k, e.size = l.length + 1 + k := ⟨e.size - (l.length + 1), by omega⟩
  rw [hk, List.range_add, List.foldlM_append, List.range_succ, List.foldlM_append,
    read_prefix x e l l.length (Nat.le_refl _)]
  simp

theorem read_getElem (x : I → K) (e : Element I X V J K d) (l r : List K) (h : read x e l = some r) (i : Nat) (hi : i < e.size) :
    r[i]? = some (x (e.containerIndex i)) := by
  have hle : e.size ≤ l.length := by
    by_contra hc
    rw [read_none x e l (by omega)] at h
    cases h
  rw [read_eq x e l hle] at h
  cases h
  rw [List.getElem?_append_left (by simpa using hi)]
  simp [hi]

theorem read_length (x : I → K) (e : Element I X V J K d) (l r : List K) (h : read x e l = some r) : r.length = l.length := by
  have hle : e.size ≤ l.length := by
    by_contra hc
    rw [read_none x e l (by omega)] at h
    cases h
  rw [read_eq x e l hle] at h
  cases h
  simp; omega

theorem foldlM_sum {W : Type} [AddCommMonoid W] (f : W → Nat → Option W) (g : Nat → W) :
    ∀ (n : Nat) (y : W), (∀ i < n, ∀ y, f y i = some (y + g i)) →
      (List.range n).foldlM f y = some (y + ((List.range n).map g).sum) := by
  intro n
  induction n with
  | zero => intro y _; simp
  | succ n ih =>
    intro y h
    rw [List.range_succ, List.foldlM_append, ih y fun i hi => h i (by omega)]
    simp [h n (by omega), add_assoc]

theorem axpyLoop_eq {W : Type} [AddCommGroup W] [Module K W] (x : I → K) (e : Element I X V J K d) (l xl : List K)
    (h : read x e l = some xl) (index : Nat → Nat) (terms : List W) (n : Nat) (y : W) (hindex : ∀ i < n, index i < e.size)
    (hterms : n ≤ terms.length) :
    axpyLoop xl index terms n y
      = some (y + ((List.range n).map fun i => x (e.containerIndex (index i)) • terms.getD i 0).sum) := by
  unfold axpyLoop
  refine foldlM_sum _ _ n y ?_
  intro i hi y
  have h1 := read_getElem x e l xl h (index i) (hindex i hi)
  have h2 : terms[i]? = some (terms.getD i 0) := by
    rw [List.getD_eq_getElem _ _ (by omega)]
    exact List.getElem?_eq_getElem (by omega)
  show ((xl[index i]?).bind fun c => (terms[i]?).bind fun t => some (y + c • t)) = _
  rw [h1, h2]
  rfl

theorem axpyLoop_combination {W : Type} [AddCommGroup W] [Module K W] (x : I → K) (e : Element I X V J K d) (l xl : List K)
    (h : read x e l = some xl) (leaf : Leaf X V J) (terms : List W) (y : W) (hindex : ∀ i < leaf.size, leaf.localIndex i < e.size)
    (hterms : leaf.size ≤ terms.length) :
    axpyLoop xl leaf.localIndex terms leaf.size y = some (y + Spec.combination x e leaf terms) :=
  axpyLoop_eq x e l xl h leaf.localIndex terms leaf.size y hindex hterms

theorem read_some (x : I → K) (e : Element I X V J K d) (l : List K) (h : e.size ≤ l.length) :
    ∃ xl, read x e l = some xl ∧ xl.length = l.length :=
  ⟨_, read_eq x e l h, read_length x e l _ (read_eq x e l h)⟩

theorem mapM_option {A B : Type} (f : A → Option B) (g : A → B) : ∀ l : List A, (∀ a ∈ l, f a = some (g a)) → l.mapM f = some (l.map g) := by
  intro l
  induction l with
  | nil => intro _; simp
  | cons a l ih =>
    intro h
    rw [List.mapM_cons, h a (by simp), ih fun b hb => h b (by simp [hb])]
    simp

/-! ### Derivatives -/

theorem pairing_apply (y v : Fin d → ℝ) : Spec.pairing y v = y ⬝ᵥ v := by
  simp [Spec.pairing, Fintype.linearCombination_apply, dotProduct, mul_comm]

theorem linear_apply (A : Matrix (Fin d) (Fin d) ℝ) (v : Fin d → ℝ) : Spec.linear A v = A *ᵥ v := rfl

/-- The chain rule used by all the functions. -/
theorem hasFDerivAt_global (U : (Fin d → ℝ) → ℝ) (F : (Fin d → ℝ) → Fin d → ℝ) (u : (Fin d → ℝ) → ℝ) (p : Fin d → ℝ)
    (jit : Matrix (Fin d) (Fin d) ℝ) (hF : Spec.IsGeometry F p jit) (hU : ∀ᶠ q in 𝓝 p, U (F q) = u q) (g : Fin d → ℝ)
    (hu : HasFDerivAt u (Spec.pairing g) p) : HasFDerivAt U (Spec.pairing (jit *ᵥ g)) (F p) := by
  obtain ⟨A, hA, hinv⟩ := hF
  have hinv' : A * jitᵀ = 1 := mul_eq_one_comm.mp hinv
  let E : (Fin d → ℝ) ≃L[ℝ] (Fin d → ℝ) := ContinuousLinearEquiv.equivOfInverse (Spec.linear A) (Spec.linear jitᵀ)
    (fun v => by simp only [linear_apply, Matrix.mulVec_mulVec, hinv, Matrix.one_mulVec])
    (fun v => by simp only [linear_apply, Matrix.mulVec_mulVec, hinv', Matrix.one_mulVec])
  have hE : HasStrictFDerivAt F (E : (Fin d → ℝ) →L[ℝ] (Fin d → ℝ)) p := hA
  let G := hE.localInverse F E p
  have hG : HasStrictFDerivAt G (E.symm : (Fin d → ℝ) →L[ℝ] (Fin d → ℝ)) (F p) := hE.to_localInverse
  have hGp : G (F p) = p := hE.localInverse_apply_image
  have hFG : ∀ᶠ Y in 𝓝 (F p), F (G Y) = Y := hE.eventually_right_inverse
  have hcont : Filter.Tendsto G (𝓝 (F p)) (𝓝 p) := by
    have := hG.continuousAt.tendsto
    rwa [hGp] at this
  have heq : U =ᶠ[𝓝 (F p)] u ∘ G := by
    filter_upwards [hcont.eventually hU, hFG] with Y h1 h2
    rw [h2] at h1
    exact h1
  have hu' : HasFDerivAt u (Spec.pairing g) (G (F p)) := by rw [hGp]; exact hu
  refine HasFDerivAt.congr_of_eventuallyEq ?_ heq
  refine (hu'.comp (F p) hG.hasFDerivAt).congr_fderiv ?_
  ext1 i
  simp only [ContinuousLinearMap.coe_comp, Function.comp_apply]
  show Spec.pairing g (Spec.linear jitᵀ _) = Spec.pairing (jit *ᵥ g) _
  rw [pairing_apply, pairing_apply, linear_apply, Matrix.dotProduct_mulVec, Matrix.vecMul_transpose]

theorem hasFDerivAt_listSum (f : Nat → (Fin d → ℝ) → ℝ) (f' : Nat → (Fin d → ℝ)) (c : Nat → ℝ) (p : Fin d → ℝ) :
    ∀ n, (∀ i < n, HasFDerivAt (f i) (Spec.pairing (f' i)) p) →
      HasFDerivAt (fun q => ((List.range n).map fun i => c i • f i q).sum)
        (Spec.pairing ((List.range n).map fun i => c i • f' i).sum) p := by
  intro n
  induction n with
  | zero =>
    intro _
    have h0 : Spec.pairing (0 : Fin d → ℝ) = 0 := by ext1 i; simp [pairing_apply]
    simp only [List.range_zero, List.map_nil, List.sum_nil, h0]
    exact hasFDerivAt_const _ _
  | succ n ih =>
    intro h
    have hsum := (ih fun i hi => h i (by omega)).add ((h n (by omega)).const_smul (c n))
    simp only [List.range_succ, List.map_append, List.map_cons, List.map_nil, List.sum_append, List.sum_cons, List.sum_nil, add_zero]
    refine hsum.congr_fderiv ?_
    ext1 i
    simp [pairing_apply, add_dotProduct, smul_dotProduct]

theorem combination_map (x : I → ℝ) (e : Element I (Fin d → ℝ) V (Fin d → ℝ) ℝ d) (leaf : Leaf (Fin d → ℝ) V (Fin d → ℝ))
    (jit : Matrix (Fin d) (Fin d) ℝ) (js : List (Fin d → ℝ)) (hl : leaf.size ≤ js.length) :
    Spec.combination x e leaf (js.map fun j => jit *ᵥ j) = jit *ᵥ Spec.combination x e leaf js := by
  unfold Spec.combination
  have hall : ∀ n ≤ js.length,
      ((List.range n).map fun i => x (e.containerIndex (leaf.localIndex i)) • (js.map fun j => jit *ᵥ j).getD i 0).sum
        = jit *ᵥ ((List.range n).map fun i => x (e.containerIndex (leaf.localIndex i)) • js.getD i 0).sum := by
    intro n
    induction n with
    | zero => intro _; simp
    | succ n ih =>
      intro hn
      simp only [List.range_succ, List.map_append, List.map_cons, List.map_nil, List.sum_append, List.sum_cons, List.sum_nil, add_zero]
      rw [ih (by omega), Matrix.mulVec_add, Matrix.mulVec_smul]
      congr 2
      rw [List.getD_eq_getElem _ _ (by simpa using hn), List.getD_eq_getElem _ _ hn]
      simp
  exact hall leaf.size hl

theorem combination_deriv (U : (Fin d → ℝ) → ℝ) (F : (Fin d → ℝ) → Fin d → ℝ) (x : I → ℝ)
    (e : Element I (Fin d → ℝ) ℝ (Fin d → ℝ) ℝ d) (leaf : Leaf (Fin d → ℝ) ℝ (Fin d → ℝ)) (p : Fin d → ℝ)
    (jit : Matrix (Fin d) (Fin d) ℝ) (hF : Spec.IsGeometry F p jit) (hJ : Spec.IsJacobian leaf p) (hU : Spec.Represents U F x e leaf p) :
    HasFDerivAt U (Spec.pairing (jit *ᵥ Spec.combination x e leaf (leaf.jacobian p))) (F p) := by
  refine hasFDerivAt_global U F _ p jit hF hU _ ?_
  exact hasFDerivAt_listSum _ _ _ p leaf.size hJ

theorem pderiv_of_hasFDerivAt (u : (Fin d → ℝ) → ℝ) (y X : Fin d → ℝ) (h : HasFDerivAt u (Spec.pairing y) X) (k : Fin d) :
    Spec.pderiv k u X = y k := by
  unfold Spec.pderiv
  rw [h.fderiv, pairing_apply]
  simp

theorem computeDerivative_eq (mat : GeometryMatrix K d) (t : Fin d → K) (k : Fin d) :
    computeDerivative mat t k = (mat.toMatrix *ᵥ t) k := by
  cases mat with
  | field m => rfl
  | other m => rfl
  | diagonal v => simp [computeDerivative, GeometryMatrix.toMatrix, Matrix.mulVec_diagonal]

theorem combination_apply (x : I → K) (e : Element I X V (Fin d → K) K d) (leaf : Leaf X V (Fin d → K))
    (mat : GeometryMatrix K d) (js : List (Fin d → K)) (hl : leaf.size ≤ js.length) (k : Fin d) :
    Spec.combination x e leaf (js.map fun j => computeDerivative mat j k)
      = (mat.toMatrix *ᵥ Spec.combination x e leaf js) k := by
  unfold Spec.combination
  have hall : ∀ n ≤ js.length,
      ((List.range n).map fun i => x (e.containerIndex (leaf.localIndex i)) • (js.map fun j => computeDerivative mat j k).getD i 0).sum
        = (mat.toMatrix *ᵥ ((List.range n).map fun i => x (e.containerIndex (leaf.localIndex i)) • js.getD i 0).sum) k := by
    intro n
    induction n with
    | zero => intro _; simp
    | succ n ih =>
      intro hn
      simp only [List.range_succ, List.map_append, List.map_cons, List.map_nil, List.sum_append, List.sum_cons, List.sum_nil, add_zero]
      rw [ih (by omega), Matrix.mulVec_add, Matrix.mulVec_smul, Pi.add_apply, Pi.smul_apply]
      congr 2
      rw [List.getD_eq_getElem _ _ (by simpa using hn), List.getD_eq_getElem _ _ hn]
      simp [computeDerivative_eq]
  exact hall leaf.size hl

theorem foldlM_list_sum {W A : Type} [AddCommMonoid W] (f : W → A → Option W) (g : A → W) :
    ∀ (l : List A) (y : W), (∀ a ∈ l, ∀ y, f y a = some (y + g a)) → l.foldlM f y = some (y + (l.map g).sum) := by
  intro l
  induction l with
  | nil => intro y _; simp
  | cons a l ih =>
    intro y h
    rw [List.foldlM_cons, h a (by simp) y]
    simp only [Option.bind_eq_bind, Option.bind_some]
    rw [ih _ fun b hb => h b (by simp [hb])]
    simp [add_assoc]

theorem combination_component {m : Nat} (x : I → K) (e : Element I X V J K d) (leaf : Leaf X V J) (js : List (Fin m → K)) (j : Fin m) :
    Spec.combination x e leaf js j
      = ((List.range leaf.size).map fun i => x (e.containerIndex (leaf.localIndex i)) • js.getD i 0 j).sum := by
  unfold Spec.combination
  generalize leaf.size = n
  induction n with
  | zero => simp
  | succ n ih =>
    simp only [List.range_succ, List.map_append, List.map_cons, List.map_nil, List.sum_append, List.sum_cons, List.sum_nil, add_zero,
      Pi.add_apply, ih, Pi.smul_apply]

theorem combination_rows {m : Nat} (x : I → K) (e : Element I X V (Matrix (Fin m) (Fin d) K) K d) (leaf : Leaf X V (Matrix (Fin m) (Fin d) K))
    (jit : Matrix (Fin d) (Fin d) K) (js : List (Matrix (Fin m) (Fin d) K)) (hl : leaf.size ≤ js.length) (j : Fin m) :
    Spec.combination x e leaf (js.map fun y => (fun j => jit *ᵥ y j : Matrix (Fin m) (Fin d) K)) j
      = jit *ᵥ ((List.range leaf.size).map fun i => x (e.containerIndex (leaf.localIndex i)) • js.getD i 0 j).sum := by
  unfold Spec.combination
  have hall : ∀ n ≤ js.length,
      ((List.range n).map fun i => x (e.containerIndex (leaf.localIndex i)) •
          (js.map fun y => (fun j => jit *ᵥ y j : Matrix (Fin m) (Fin d) K)).getD i 0).sum j
        = jit *ᵥ ((List.range n).map fun i => x (e.containerIndex (leaf.localIndex i)) • js.getD i 0 j).sum := by
    intro n
    induction n with
    | zero => intro _; simp
    | succ n ih =>
      intro hn
      simp only [List.range_succ, List.map_append, List.map_cons, List.map_nil, List.sum_append, List.sum_cons, List.sum_nil, add_zero]
      rw [Matrix.mulVec_add, Matrix.mulVec_smul, ← ih (by omega), Pi.add_apply]
      congr 1
      rw [List.getD_eq_getElem _ _ (by simpa using hn), List.getD_eq_getElem _ _ hn]
      rw [List.getElem_map]
      rfl
  exact hall leaf.size hl

theorem sum_single_sub {m : Nat} (a b : Fin m) (f g : Nat → K) (n : Nat) :
    ((List.range n).map fun i => (Pi.single a (f i) - Pi.single b (g i) : Fin m → K)).sum
      = Pi.single a ((List.range n).map f).sum - Pi.single b ((List.range n).map g).sum := by
  induction n with
  | zero => simp
  | succ n ih =>
    simp only [List.range_succ, List.map_append, List.map_cons, List.map_nil, List.sum_append, List.sum_cons, List.sum_nil, add_zero, ih,
      Pi.single_add]
    abel

theorem update_update_single (y : Fin 3 → K) (k : Fin 3) (a b : K) :
    Function.update (Function.update y (k + 1) (y (k + 1) + a)) (k + 2) (Function.update y (k + 1) (y (k + 1) + a) (k + 2) - b)
      = y + (Pi.single (k + 1) a - Pi.single (k + 2) b) := by
  funext i
  fin_cases k <;> fin_cases i <;> simp [Function.update, Pi.single, sub_eq_add_neg]

theorem sum_curl3 (P : Fin 3 → Fin 3 → K) :
    0 + ((List.finRange 3).map fun k => (Pi.single (k + 1) (P k (k + 2)) - Pi.single (k + 2) (P k (k + 1)) : Fin 3 → K)).sum
      = ![P 2 1 - P 1 2, P 0 2 - P 2 0, P 1 0 - P 0 1] := by
  have hlist : List.finRange 3 = [0, 1, 2] := by decide
  rw [hlist]
  funext i
  fin_cases i <;> simp [Pi.single, Function.update] <;> ring

theorem globalCurlAdd3 (y : Fin 3 → K) (c : K) (A : Matrix (Fin 3) (Fin 3) K) :
    globalCurlAdd 3 (List.ofFn y) c (Spec.rows A) = some (List.ofFn (y + c • jacobianToCurl33 A)) := by
  simp [globalCurlAdd, Spec.rows, entry, addAt, List.ofFn_succ, jacobianToCurl33]

theorem unitNormal (a b c s : Fin 2 → ℝ) (hs : s = b - a) (hne : s ⬝ᵥ s ≠ 0) :
    let nu := (Spec.euclidean ![s 1, -s 0])⁻¹ • ![s 1, -s 0]
    0 < Spec.euclidean ![s 1, -s 0] ∧ nu ⬝ᵥ nu = 1 ∧ nu ⬝ᵥ (b - a) = 0 ∧
      nu ⬝ᵥ (c - a) = -((Spec.euclidean ![s 1, -s 0])⁻¹ * ((b 0 - a 0) * (c 1 - a 1) - (b 1 - a 1) * (c 0 - a 0))) := by
  have h2 : (![s 1, -s 0] : Fin 2 → ℝ) ⬝ᵥ ![s 1, -s 0] = s ⬝ᵥ s := by
    simp [dotProduct, Fin.sum_univ_two]; ring
  have hnn : 0 ≤ s ⬝ᵥ s := by
    simp only [dotProduct, Fin.sum_univ_two]
    exact add_nonneg (mul_self_nonneg _) (mul_self_nonneg _)
  have hpos : 0 < s ⬝ᵥ s := lt_of_le_of_ne hnn (Ne.symm hne)
  have hE : 0 < Spec.euclidean ![s 1, -s 0] := by
    unfold Spec.euclidean
    rw [h2]
    exact Real.sqrt_pos.mpr hpos
  have hEE : Spec.euclidean ![s 1, -s 0] * Spec.euclidean ![s 1, -s 0] = s ⬝ᵥ s := by
    unfold Spec.euclidean
    rw [h2]
    exact Real.mul_self_sqrt hnn
  refine ⟨hE, ?_, ?_, ?_⟩
  · rw [smul_dotProduct, dotProduct_smul, h2, ← hEE, smul_eq_mul, smul_eq_mul]
    field_simp
  · rw [smul_dotProduct, ← hs]
    simp [dotProduct, Fin.sum_univ_two]
    right; ring
  · subst hs
    rw [smul_dotProduct]
    simp [dotProduct, Fin.sum_univ_two]
    ring

theorem edge_ne_zero (corner : Fin 3 → Fin 2 → ℝ) (a b c : Fin 3)
    (h : (corner b 0 - corner a 0) * (corner c 1 - corner a 1) - (corner b 1 - corner a 1) * (corner c 0 - corner a 0) ≠ 0) :
    (corner b - corner a) ⬝ᵥ (corner b - corner a) ≠ 0 := by
  intro h0
  simp only [dotProduct, Fin.sum_univ_two, Pi.sub_apply] at h0
  have h1 : corner b 0 - corner a 0 = 0 := by nlinarith [mul_self_nonneg (corner b 0 - corner a 0), mul_self_nonneg (corner b 1 - corner a 1)]
  have h2 : corner b 1 - corner a 1 = 0 := by nlinarith [mul_self_nonneg (corner b 0 - corner a 0), mul_self_nonneg (corner b 1 - corner a 1)]
  exact h (by rw [h1, h2]; ring)

theorem unitOuterNormal (corner : Fin 3 → Fin 2 → ℝ) (a b c : Fin 3)
    (h : 0 < (corner b 0 - corner a 0) * (corner c 1 - corner a 1) - (corner b 1 - corner a 1) * (corner c 0 - corner a 0)) :
    Spec.IsUnitOuterNormal corner a b c ((Spec.euclidean ![(corner b - corner a) 1, -(corner b - corner a) 0])⁻¹ •
        ![(corner b - corner a) 1, -(corner b - corner a) 0]) := by
  obtain ⟨h0, h1, h2, h3⟩ := unitNormal (corner a) (corner b) (corner c) (corner b - corner a) rfl (edge_ne_zero corner a b c h.ne')
  refine ⟨h1, h2, ?_⟩
  rw [h3]
  exact neg_neg_of_pos (mul_pos (inv_pos.mpr h0) h)

theorem unitInnerNormal (corner : Fin 3 → Fin 2 → ℝ) (a b c : Fin 3)
    (h : (corner b 0 - corner a 0) * (corner c 1 - corner a 1) - (corner b 1 - corner a 1) * (corner c 0 - corner a 0) < 0) :
    Spec.IsUnitOuterNormal corner a b c (-((Spec.euclidean ![(corner b - corner a) 1, -(corner b - corner a) 0])⁻¹ •
        ![(corner b - corner a) 1, -(corner b - corner a) 0])) := by
  obtain ⟨h0, h1, h2, h3⟩ := unitNormal (corner a) (corner b) (corner c) (corner b - corner a) rfl (edge_ne_zero corner a b c h.ne)
  refine ⟨by rw [neg_dotProduct_neg]; exact h1, by rw [neg_dotProduct, h2, neg_zero], ?_⟩
  rw [neg_dotProduct, h3, neg_neg]
  exact mul_neg_of_pos_of_neg (inv_pos.mpr h0) h

end Verif.DiscreteFunctions
