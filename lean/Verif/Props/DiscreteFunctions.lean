import Verif.Proofs.DiscreteFunctions
import Mathlib.LinearAlgebra.CrossProduct
import Mathlib.Analysis.SpecialFunctions.Pow.NNReal
import Mathlib.Analysis.Calculus.IteratedDeriv.Defs
import Mathlib.Analysis.Calculus.Deriv.Pow
import Mathlib.LinearAlgebra.Matrix.Trace
/-
Properties of the functions made of a grid function space and a vector of coefficients.
-/
namespace Verif

open Matrix Topology DiscreteFunctions DiscreteFunctions.Spec

variable {I X V J K : Type} [Field K] {d : Nat}

/-! ### C152: values and gradients -/

/-- C152. The function of a vector of coefficients has the value of the linear combination of the shape functions, whatever the buffer
contains from previous evaluations. -/
theorem C152_value [AddCommGroup V] [Module K V] (x : I → K) (xl : List K) (e : Element I X V J K d) (leaf : Leaf X V J) (p : X)
    (hs : SingleLeaf e leaf) (hc : Consistent e) (hsize : e.size ≤ xl.length) :
    ∃ xl', evaluate x xl e p = some (combination x e leaf (leaf.function p), xl') ∧ xl'.length = xl.length := by
  obtain ⟨r, hr, hlen⟩ := read_some x e xl hsize
  refine ⟨r, ?_, hlen⟩
  have hmem : leaf ∈ e.leaves := by rw [hs.leaves]; simp
  have hf := hc.function leaf hmem p
  have h := axpyLoop_combination x e xl r hr leaf (leaf.function p) 0 (hc.localIndex leaf hmem) (by omega)
  have hid : leaf.localIndex = id := by funext i; exact hs.localIndex i
  rw [hid, ← hf] at h
  unfold evaluate
  simp [hr, hs.leaves, h]

/-- C152. This holds in every sequence of evaluations, with different vectors, on different elements. -/
theorem C152_calls [AddCommGroup V] [Module K V] (maxLocalSize : Nat) :
    ∀ (cs : List ((I → K) × Element I X V J K d × Leaf X V J × X)) (xl : List K), maxLocalSize ≤ xl.length →
      (∀ c ∈ cs, SingleLeaf c.2.1 c.2.2.1 ∧ Consistent c.2.1 ∧ c.2.1.size ≤ maxLocalSize) →
      calls (fun xl (c : (I → K) × Element I X V J K d × Leaf X V J × X) => evaluate c.1 xl c.2.1 c.2.2.2) xl cs
        = some (cs.map fun c => combination c.1 c.2.1 c.2.2.1 (c.2.2.1.function c.2.2.2)) := by
  intro cs
  induction cs with
  | nil => intro xl _ _; rfl
  | cons c cs ih =>
    intro xl hxl h
    obtain ⟨hs, hc, hle⟩ := h c (by simp)
    obtain ⟨xl', h1, h2⟩ := C152_value c.1 xl c.2.1 c.2.2.1 c.2.2.2 hs hc (by omega)
    simp only [calls, h1, Option.bind_some, ih xl' (by omega) fun c hc => h c (by simp [hc]), Option.map_some, List.map_cons]

/-- C152. If the local spaces have become larger than they were when the function was created, evaluating it accesses the buffer out of
bounds. -/
theorem C152_undefined [AddCommGroup V] [Module K V] (x : I → K) (xl : List K) (e : Element I X V J K d) (p : X)
    (hsize : xl.length < e.size) : evaluate x xl e p = none := by
  unfold evaluate
  simp [read_none x e xl hsize]

/-- C152. The gradient is the gradient of the function in global coordinates; the buffer is adapted to the element. -/
theorem C152_gradient (U : (Fin d → ℝ) → ℝ) (F : (Fin d → ℝ) → Fin d → ℝ) (x : I → ℝ) (xl : List ℝ)
    (e : Element I (Fin d → ℝ) ℝ (Fin d → ℝ) ℝ d) (leaf : Leaf (Fin d → ℝ) ℝ (Fin d → ℝ)) (p : Fin d → ℝ)
    (hs : SingleLeaf e leaf) (hc : Consistent e) (hF : IsGeometry F p (e.jacobianInverseTransposed p).toMatrix)
    (hJ : IsJacobian leaf p) (hU : Represents U F x e leaf p) :
    ∃ y xl', evaluateGradient x xl e p = some (y, xl') ∧ HasFDerivAt U (pairing y) (F p) := by
  obtain ⟨r, hr, hlen⟩ := read_some x e (xl.take e.size ++ List.replicate (e.size - xl.length) 0) (by simp; omega)
  have hmem : leaf ∈ e.leaves := by rw [hs.leaves]; simp
  have hj := hc.jacobian leaf hmem p
  have h := axpyLoop_combination x e _ r hr leaf ((leaf.jacobian p).map fun j => (e.jacobianInverseTransposed p).toMatrix *ᵥ j) 0
    (hc.localIndex leaf hmem) (by simp; omega)
  have hid : leaf.localIndex = id := by funext i; exact hs.localIndex i
  rw [hid, combination_map x e leaf _ _ (by omega), zero_add, hs.size] at h
  refine ⟨_, r, ?_, combination_deriv U F x e leaf p _ hF hJ hU⟩
  unfold evaluateGradient
  simp [hr, hs.leaves, h]

/-- C152. The components of a vector-valued function are the discrete functions of the selected children. -/
theorem C152_vector (x : I → K) (remap : List Nat) (xl : List K) (e : Element I X K J K d) (p : X) (hc : Consistent e)
    (hsize : e.size ≤ xl.length) (hr : ∀ k ∈ remap, k < e.leaves.length) :
    ∃ y xl', evaluateVector x remap xl e p = some (y, xl') ∧ xl'.length = xl.length ∧ y.length = remap.length ∧
      ∀ (c k : Nat) (leaf : Leaf X K J), remap[c]? = some k → e.leaves[k]? = some leaf →
        y[c]? = some (combination x e leaf (leaf.function p)) := by
  obtain ⟨r, hread, hlen⟩ := read_some x e xl hsize
  have hm := mapM_option (fun k => do
      let child ← e.leaves[k]?
      let yb := child.function p
      axpyLoop r child.localIndex yb yb.length 0)
    (fun k => if h : k < e.leaves.length then combination x e e.leaves[k] (e.leaves[k].function p) else 0) remap (by
      intro k hk
      have hlt := hr k hk
      have hmem : e.leaves[k] ∈ e.leaves := List.getElem_mem hlt
      have hf := hc.function _ hmem p
      have h := axpyLoop_combination x e xl r hread e.leaves[k] (e.leaves[k].function p) 0 (hc.localIndex _ hmem) (by omega)
      simp only [List.getElem?_eq_getElem hlt, Option.bind_eq_bind, Option.bind_some, dif_pos hlt, hf, h, zero_add])
  refine ⟨remap.map fun k => if h : k < e.leaves.length then combination x e e.leaves[k] (e.leaves[k].function p) else 0,
    r, ?_, hlen, ?_, ?_⟩
  · unfold evaluateVector
    rw [hread]
    simp only [Option.bind_eq_bind, Option.bind_some] at hm ⊢
    rw [hm]
    rfl
  · simp
  · intro c k leaf h1 h2
    obtain ⟨hlt, he⟩ := List.getElem?_eq_some_iff.mp h2
    subst he
    simp [h1, hlt]

/-- C152. The selected children of the constructors with a first child. -/
theorem C152_remap (dimR start c : Nat) (h : c < dimR) : (remapFrom dimR start)[c]? = some (start + c) := by
  simp [remapFrom, h, Nat.add_comm]

/-- C152. The rows of the gradient of a vector-valued function are the gradients of the components. -/
theorem C152_vectorGradient (U : Nat → (Fin d → ℝ) → ℝ) (F : (Fin d → ℝ) → Fin d → ℝ) (x : I → ℝ) (xl : List ℝ)
    (e : Element I (Fin d → ℝ) ℝ (Fin d → ℝ) ℝ d) (p : Fin d → ℝ) (hc : Consistent e) (hsize : e.size ≤ xl.length)
    (hF : IsGeometry F p (e.jacobianInverseTransposed p).toMatrix)
    (hJ : ∀ leaf ∈ e.leaves, IsJacobian leaf p)
    (hU : ∀ (k : Nat) (leaf : Leaf (Fin d → ℝ) ℝ (Fin d → ℝ)), e.leaves[k]? = some leaf → Represents (U k) F x e leaf p) :
    ∃ y xl', evaluateVectorGradient x xl e p = some (y, xl') ∧ xl'.length = xl.length ∧ y.length = e.leaves.length ∧
      ∀ (k : Nat) (row : Fin d → ℝ), y[k]? = some row → HasFDerivAt (U k) (pairing row) (F p) := by
  obtain ⟨r, hread, hlen⟩ := read_some x e xl hsize
  have hm := mapM_option (fun child : Leaf (Fin d → ℝ) ℝ (Fin d → ℝ) =>
      axpyLoop r child.localIndex ((child.jacobian p).map fun j => (e.jacobianInverseTransposed p).toMatrix *ᵥ j) child.size 0)
    (fun child => (e.jacobianInverseTransposed p).toMatrix *ᵥ combination x e child (child.jacobian p)) e.leaves (by
      intro child hmem
      have hf := hc.jacobian _ hmem p
      rw [axpyLoop_combination x e xl r hread child _ 0 (hc.localIndex _ hmem) (by simp; omega),
        combination_map x e child _ _ (by omega), zero_add])
  refine ⟨e.leaves.map fun child => (e.jacobianInverseTransposed p).toMatrix *ᵥ combination x e child (child.jacobian p),
    r, ?_, hlen, ?_, ?_⟩
  · unfold evaluateVectorGradient
    rw [hread]
    simp only [Option.bind_eq_bind, Option.bind_some]
    rw [hm]
    rfl
  · simp
  · intro k row hrow
    rw [List.getElem?_map] at hrow
    obtain ⟨leaf, h1, h2⟩ := Option.map_eq_some_iff.mp hrow
    subst h2
    exact combination_deriv (U k) F x e leaf p _ hF (hJ leaf (List.mem_of_getElem? h1)) (hU k leaf h1)

/-- C152. A local function that has been bound to an element, whatever it was bound to before, is the discrete function on the element;
its derivative is bound to the same element and yields the derivative in global coordinates. -/
theorem C152_local {m : Nat} (U : Fin m → (Fin d → ℝ) → ℝ) (F : (Fin d → ℝ) → Fin d → ℝ) (x : I → ℝ) (maxLocalSize : Nat)
    (f : LocalFunction I (Fin d → ℝ) (Fin m → ℝ) (Matrix (Fin m) (Fin d) ℝ) ℝ d)
    (e : Element I (Fin d → ℝ) (Fin m → ℝ) (Matrix (Fin m) (Fin d) ℝ) ℝ d)
    (leaf : Leaf (Fin d → ℝ) (Fin m → ℝ) (Matrix (Fin m) (Fin d) ℝ)) (p : Fin d → ℝ) (hs : SingleLeaf e leaf) (hc : Consistent e)
    (hsize : e.size ≤ maxLocalSize) (hf : f.xl.length = maxLocalSize)
    (hF : IsGeometry F p (e.jacobianInverseTransposed p).toMatrix)
    (hJ : ∀ i < leaf.size, ∀ j, HasFDerivAt (fun q => (leaf.function q).getD i 0 j) (pairing ((leaf.jacobian p).getD i 0 j)) p)
    (hU : ∀ j, ∀ᶠ q in 𝓝 p, U j (F q) = combination x e leaf (leaf.function q) j) :
    ∃ g g' y, f.bind x e = some g ∧ g.xl.length = maxLocalSize ∧ g.call p = some (combination x e leaf (leaf.function p)) ∧
      g.derivative x maxLocalSize = some g' ∧ g'.callDerivative p = some y ∧
      ∀ j, HasFDerivAt (U j) (pairing (y j)) (F p) := by
  obtain ⟨r, hread, hlen⟩ := read_some x e f.xl (by omega)
  obtain ⟨r', hread', hlen'⟩ := read_some x e (List.replicate maxLocalSize (0 : ℝ)) (by simpa using hsize)
  have hmem : leaf ∈ e.leaves := by rw [hs.leaves]; simp
  have hid : leaf.localIndex = id := by funext i; exact hs.localIndex i
  have hfun := hc.function leaf hmem p
  have hjac := hc.jacobian leaf hmem p
  have h := axpyLoop_combination x e _ r hread leaf (leaf.function p) 0 (hc.localIndex leaf hmem) (by omega)
  rw [hid, ← hfun, zero_add] at h
  have h' := axpyLoop_combination x e _ r' hread' leaf ((leaf.jacobian p).map fun y =>
    (fun j => (e.jacobianInverseTransposed p).toMatrix *ᵥ y j : Matrix (Fin m) (Fin d) ℝ)) 0 (hc.localIndex leaf hmem) (by simp; omega)
  rw [hid, ← hjac, zero_add] at h'
  refine ⟨⟨r, some e⟩, ⟨r', some e⟩, combination x e leaf ((leaf.jacobian p).map fun y =>
    (fun j => (e.jacobianInverseTransposed p).toMatrix *ᵥ y j : Matrix (Fin m) (Fin d) ℝ)), ?_, by simpa [hf] using hlen, ?_, ?_, ?_, ?_⟩
  · simp [LocalFunction.bind, hread]
  · simp [LocalFunction.call, hs.leaves, h]
  · simp [LocalFunction.derivative, LocalFunction.create, LocalFunction.bind, hread']
  · unfold LocalFunction.callDerivative
    simp only [Option.bind_eq_bind, Option.bind_some]
    rw [show e.leaves[0]? = some leaf by rw [hs.leaves]; rfl]
    exact h'
  · intro j
    have hfd := hasFDerivAt_listSum (fun i q => (leaf.function q).getD i 0 j) (fun i => (leaf.jacobian p).getD i 0 j)
      (fun i => x (e.containerIndex (leaf.localIndex i))) p leaf.size fun i hi => hJ i hi j
    have hg := hasFDerivAt_global (U j) F _ p _ hF (by
      filter_upwards [hU j] with q hq
      rw [hq]
      exact combination_component x e leaf (leaf.function q) j) _ hfd
    exact hg.congr_fderiv (congrArg pairing (combination_rows x e leaf _ (leaf.jacobian p) (by omega) j).symm)

/-! ### C153: divergence and curl -/

/-- C153. The divergence is that of the vector field in global coordinates, for all kinds of geometries. -/
theorem C153_divergence (U : Fin d → (Fin d → ℝ) → ℝ) (F : (Fin d → ℝ) → Fin d → ℝ) (x : I → ℝ) (xl : List ℝ)
    (e : Element I (Fin d → ℝ) ℝ (Fin d → ℝ) ℝ d) (p : Fin d → ℝ) (hc : Consistent e) (hsize : e.size ≤ xl.length)
    (hF : IsGeometry F p (e.jacobianInverseTransposed p).toMatrix) (hU : RepresentsField U F x e p) :
    ∃ xl', evaluateDiv x xl e p = some (divergence U (F p), xl') ∧ xl'.length = xl.length := by
  obtain ⟨r, hread, hlen⟩ := read_some x e xl hsize
  refine ⟨r, ?_, hlen⟩
  have hloop := foldlM_list_sum (fun (y : ℝ) (k : Fin d) => do
      let child ← e.leaves[k.val]?
      axpyLoop r child.localIndex ((child.jacobian p).map fun j => computeDerivative (e.jacobianInverseTransposed p) j k) child.size y)
    (fun k => pderiv k (U k) (F p)) (List.finRange d) (0 : ℝ) (by
      intro k _ y
      have hlt : k.val < e.leaves.length := by rw [hU.1]; exact k.isLt
      have hmem : e.leaves[k.val] ∈ e.leaves := List.getElem_mem hlt
      have hget := List.getElem?_eq_getElem hlt
      obtain ⟨hJ, hR⟩ := hU.2 k _ hget
      have hj := hc.jacobian _ hmem p
      simp only [hget, Option.bind_eq_bind, Option.bind_some]
      rw [axpyLoop_combination x e xl r hread _ _ y (hc.localIndex _ hmem) (by simp; omega), combination_apply x e _ _ _ (by omega),
        pderiv_of_hasFDerivAt _ _ _ (combination_deriv (U k) F x e _ p _ hF hJ hR)])
  have hsum : ((List.finRange d).map fun k => pderiv k (U k) (F p)).sum = divergence U (F p) := by
    unfold divergence
    rw [← List.sum_ofFn, List.ofFn_eq_map]
  rw [hsum, zero_add] at hloop
  unfold evaluateDiv
  rw [hread]
  simp only [Option.bind_eq_bind, Option.bind_some] at hloop ⊢
  rw [hloop]
  rfl

/-- C153. The curl in three dimensions is that of the vector field in global coordinates. -/
theorem C153_curl3 (U : Fin 3 → (Fin 3 → ℝ) → ℝ) (F : (Fin 3 → ℝ) → Fin 3 → ℝ) (x : I → ℝ) (xl : List ℝ)
    (e : Element I (Fin 3 → ℝ) ℝ (Fin 3 → ℝ) ℝ 3) (p : Fin 3 → ℝ) (hc : Consistent e) (hsize : e.size ≤ xl.length)
    (hF : IsGeometry F p (e.jacobianInverseTransposed p).toMatrix) (hU : RepresentsField U F x e p) :
    ∃ xl', evaluateCurl3 x xl e p = some (curl3 U (F p), xl') ∧ xl'.length = xl.length := by
  obtain ⟨r, hread, hlen⟩ := read_some x e xl hsize
  refine ⟨r, ?_, hlen⟩
  have hloop := foldlM_list_sum (fun (y : Fin 3 → ℝ) (k : Fin 3) => do
      let child ← e.leaves[k.val]?
      (List.range child.size).foldlM (fun (y : Fin 3 → ℝ) i => do
        let c ← r[child.localIndex i]?
        let j ← (child.jacobian p)[i]?
        pure (Function.update (Function.update y (k + 1) (y (k + 1) + c * computeDerivative (e.jacobianInverseTransposed p) j (k + 2)))
          (k + 2) (Function.update y (k + 1) (y (k + 1) + c * computeDerivative (e.jacobianInverseTransposed p) j (k + 2)) (k + 2)
            - c * computeDerivative (e.jacobianInverseTransposed p) j (k + 1)))) y)
    (fun k => Pi.single (k + 1) (pderiv (k + 2) (U k) (F p)) - Pi.single (k + 2) (pderiv (k + 1) (U k) (F p)))
    (List.finRange 3) (0 : Fin 3 → ℝ) (by
      intro k _ y
      have hlt : k.val < e.leaves.length := by rw [hU.1]; exact k.isLt
      have hmem : e.leaves[k.val] ∈ e.leaves := List.getElem_mem hlt
      have hget := List.getElem?_eq_getElem hlt
      obtain ⟨hJ, hR⟩ := hU.2 k _ hget
      have hj := hc.jacobian _ hmem p
      have hd := combination_deriv (U k) F x e _ p _ hF hJ hR
      rw [hget, Option.bind_eq_bind, Option.bind_some]
      rw [foldlM_sum _ (fun i => Pi.single (k + 1) (x (e.containerIndex (e.leaves[k.val].localIndex i)) *
            ((e.leaves[k.val].jacobian p).map fun j => computeDerivative (e.jacobianInverseTransposed p) j (k + 2)).getD i 0)
          - Pi.single (k + 2) (x (e.containerIndex (e.leaves[k.val].localIndex i)) *
            ((e.leaves[k.val].jacobian p).map fun j => computeDerivative (e.jacobianInverseTransposed p) j (k + 1)).getD i 0))
        e.leaves[k.val].size y]
      · rw [sum_single_sub, pderiv_of_hasFDerivAt _ _ _ hd, pderiv_of_hasFDerivAt _ _ _ hd,
          ← combination_apply x e _ _ _ (by omega), ← combination_apply x e _ _ _ (by omega)]
        rfl
      · intro i hi y
        have h1 := read_getElem x e xl r hread _ (hc.localIndex _ hmem i hi)
        have hi' : i < (e.leaves[k.val].jacobian p).length := by omega
        rw [h1, List.getElem?_eq_getElem hi', List.getD_eq_getElem _ _ (by simpa using hi'), List.getD_eq_getElem _ _ (by simpa using hi')]
        simp only [Option.bind_eq_bind, Option.bind_some, Option.pure_def, List.getElem_map, Option.some.injEq]
        exact update_update_single y k _ _)
  unfold evaluateCurl3
  rw [hread]
  simp only [Option.bind_eq_bind, Option.bind_some] at hloop ⊢
  rw [hloop]
  simp only [Option.bind_some, Option.pure_def, Option.some.injEq, Prod.mk.injEq, and_true]
  exact sum_curl3 fun k i => pderiv i (U k) (F p)

/-- C153. The curl in two dimensions is that of the vector field in global coordinates. -/
theorem C153_curl2 (U : Fin 2 → (Fin 2 → ℝ) → ℝ) (F : (Fin 2 → ℝ) → Fin 2 → ℝ) (x : I → ℝ) (xl : List ℝ)
    (e : Element I (Fin 2 → ℝ) ℝ (Fin 2 → ℝ) ℝ 2) (p : Fin 2 → ℝ) (hc : Consistent e) (hsize : e.size ≤ xl.length)
    (hF : IsGeometry F p (e.jacobianInverseTransposed p).toMatrix) (hU : RepresentsField U F x e p) :
    ∃ xl', evaluateCurl2 x xl e p = some (curl2 U (F p), xl') ∧ xl'.length = xl.length := by
  obtain ⟨r, hread, hlen⟩ := read_some x e xl hsize
  refine ⟨r, ?_, hlen⟩
  have hstep : ∀ (k : Fin 2) (s y : ℝ), ((e.leaves[k.val]?).bind fun child =>
      (List.range child.size).foldlM (fun (y : ℝ) i => do
        let c ← r[child.localIndex i]?
        let j ← (child.jacobian p)[i]?
        pure (y + s * c * computeDerivative (e.jacobianInverseTransposed p) j (1 - k))) y)
      = some (y + s * pderiv (1 - k) (U k) (F p)) := by
    intro k s y
    have hlt : k.val < e.leaves.length := by rw [hU.1]; exact k.isLt
    have hmem : e.leaves[k.val] ∈ e.leaves := List.getElem_mem hlt
    have hget := List.getElem?_eq_getElem hlt
    obtain ⟨hJ, hR⟩ := hU.2 k _ hget
    have hj := hc.jacobian _ hmem p
    have hd := combination_deriv (U k) F x e _ p _ hF hJ hR
    rw [hget, Option.bind_some]
    rw [foldlM_sum _ (fun i => s * (x (e.containerIndex (e.leaves[k.val].localIndex i)) •
            ((e.leaves[k.val].jacobian p).map fun j => computeDerivative (e.jacobianInverseTransposed p) j (1 - k)).getD i 0))
        e.leaves[k.val].size y]
    · rw [List.sum_map_mul_left, pderiv_of_hasFDerivAt _ _ _ hd, ← combination_apply x e _ _ _ (by omega)]
      rfl
    · intro i hi y
      have h1 := read_getElem x e xl r hread _ (hc.localIndex _ hmem i hi)
      have hi' : i < (e.leaves[k.val].jacobian p).length := by omega
      rw [h1, List.getElem?_eq_getElem hi', List.getD_eq_getElem _ _ (by simpa using hi')]
      simp only [Option.bind_eq_bind, Option.bind_some, Option.pure_def, List.getElem_map, Option.some.injEq, smul_eq_mul]
      ring
  have hlist : List.finRange 2 = [0, 1] := by decide
  have hpair : ∀ (k : Fin 2) (s y : ℝ), ((e.leaves[k.val]?).bind fun child =>
      ((List.range child.size).foldlM (fun (y : ℝ) i => do
        let c ← r[child.localIndex i]?
        let j ← (child.jacobian p)[i]?
        pure (y + s * c * computeDerivative (e.jacobianInverseTransposed p) j (1 - k))) y).bind fun y => some (y, s * -1))
      = some (y + s * pderiv (1 - k) (U k) (F p), s * -1) := by
    intro k s y
    have h := congrArg (fun o => Option.bind o fun y => some (y, s * -1)) (hstep k s y)
    simp only [Option.bind_assoc, Option.bind_some] at h
    exact h
  have h0 := hpair 0 (-1) 0
  have h1 := hpair 1 (-1 * -1) (0 + -1 * pderiv (1 - 0) (U 0) (F p))
  unfold evaluateCurl2
  rw [hread, hlist]
  simp only [Option.bind_eq_bind, Option.bind_some, List.foldlM_cons, List.foldlM_nil, Option.pure_def] at h0 h1 ⊢
  rw [h0]
  simp only [Option.bind_some]
  rw [h1]
  simp only [Option.bind_some, Option.some.injEq, Prod.mk.injEq, and_true]
  unfold curl2
  simp only [sub_self, sub_zero]
  ring

/-- C153, partial: the curl of vector-valued shape functions with three components is the linear combination of the curls of the shape
functions. It is false in two dimensions, see below. -/
theorem C153_globalCurl_partial (xl : List K) (J : List (Matrix (Fin 3) (Fin 3) K)) (h : J.length ≤ xl.length) :
    globalCurl 3 xl (J.map rows)
      = some (List.ofFn ((List.range J.length).map fun i => xl.getD i 0 • jacobianToCurl33 (J.getD i 0)).sum) := by
  unfold globalCurl curlDimRange
  simp only [Option.bind_eq_bind, Option.bind_some, List.length_map]
  have hall : ∀ n ≤ J.length, (List.range n).foldlM (fun y i => (xl[i]?).bind fun c => ((J.map rows)[i]?).bind fun j =>
        globalCurlAdd 3 y c j) (List.replicate 3 0)
      = some (List.ofFn ((List.range n).map fun i => xl.getD i 0 • jacobianToCurl33 (J.getD i 0)).sum) := by
    intro n
    induction n with
    | zero => intro _; simp [List.ofFn_succ, List.replicate]
    | succ n ih =>
      intro hn
      rw [List.range_succ, List.foldlM_append, ih (by omega)]
      simp only [Option.bind_eq_bind, Option.bind_some, List.foldlM_cons, List.foldlM_nil, Option.pure_def]
      rw [List.getElem?_map, List.getElem?_eq_getElem hn, List.getElem?_eq_getElem (show n < xl.length by omega)]
      simp only [Option.bind_some, Option.map_some]
      rw [globalCurlAdd3]
      simp only [Option.bind_some, List.map_append, List.map_cons, List.map_nil, List.sum_append, List.sum_cons, List.sum_nil, add_zero]
      rw [List.getD_eq_getElem _ _ hn, List.getD_eq_getElem _ _ (show n < xl.length by omega)]
  exact hall _ (Nat.le_refl _)

/-- C153 is false in two dimensions: the case is chosen with the number of components of the curl, not of the shape functions, so the
curl of a scalar and that of a plane vector field access entries that do not exist. -/
theorem C153_globalCurl_false (c : K) (xl : List K) (j : Matrix (Fin 1) (Fin 2) K) (J : List (Matrix (Fin 1) (Fin 2) K))
    (j' : Matrix (Fin 2) (Fin 2) K) (J' : List (Matrix (Fin 2) (Fin 2) K)) :
    globalCurl 1 (c :: xl) ((j :: J).map rows) = none ∧ globalCurl 2 (c :: xl) ((j' :: J').map rows) = none := by
  constructor
  · simp [globalCurl, curlDimRange, List.range_succ_eq_map, globalCurlAdd, rows, entry, List.ofFn_succ]
  · simp [globalCurl, curlDimRange, List.range_succ_eq_map, globalCurlAdd, rows, entry, List.ofFn_succ, addAt]

/-- C153. The functors that compute the curl from a Jacobian compute the curl of every field with the Jacobian, in space and in the
plane, and the vector curl of a scalar field in the plane, which is the curl of the field orthogonal to the plane. -/
theorem C153_jacobianToCurl :
    (∀ (U : Fin 3 → (Fin 3 → ℝ) → ℝ) (X : Fin 3 → ℝ), jacobianToCurl33 (fun k i => pderiv i (U k) X) = curl3 U X) ∧
    (∀ (U : Fin 2 → (Fin 2 → ℝ) → ℝ) (X : Fin 2 → ℝ), jacobianToCurl22 (fun k i => pderiv i (U k) X) 0 = curl2 U X) ∧
    ∀ (A : Matrix (Fin 2) (Fin 2) K) (B : Matrix (Fin 1) (Fin 2) K),
      jacobianToCurl33 !![A 0 0, A 0 1, 0; A 1 0, A 1 1, 0; 0, 0, 0] = upright (jacobianToCurl22 A) ∧
      jacobianToCurl33 !![0, 0, 0; 0, 0, 0; B 0 0, B 0 1, 0] = inPlane (jacobianToCurl12 B) := by
  refine ⟨?_, ?_, ?_⟩
  · intro U X
    funext i
    fin_cases i <;> rfl
  · intro U X
    rfl
  · intro A B
    constructor
    · funext i
      fin_cases i <;> simp [jacobianToCurl33, jacobianToCurl22, upright]
    · funext i
      fin_cases i <;> simp [jacobianToCurl33, jacobianToCurl12, inPlane]

/-- C153. The cross products are the cross product in space, of vectors in the plane and of vectors orthogonal to it. -/
theorem C153_crossProduct (b c : Fin 3 → K) (u v : Fin 2 → K) (s : Fin 1 → K) :
    crossProduct33 b c = crossProduct b c ∧
    upright (crossProduct22 u v) = crossProduct (inPlane u) (inPlane v) ∧
    inPlane (crossProduct21 u s) = crossProduct (inPlane u) (upright s) ∧
    inPlane (crossProduct12 s u) = crossProduct (upright s) (inPlane u) := by
  simp only [cross_apply]
  refine ⟨?_, ?_, ?_, ?_⟩ <;> funext i <;> fin_cases i <;>
    simp [crossProduct33, crossProduct22, crossProduct21, crossProduct12, inPlane, upright]

/-! ### C154: second derivatives -/

/-- C154 is false: on an element with affine geometry, in two or more dimensions, evaluating a second derivative always ends in a failed
assertion or an access outside the container, whatever the basis and the coefficients are. -/
theorem C154_hessian_false (dim : Nat) (h : 2 ≤ dim) (jit : Nat → Nat → K) (xl : List K) (partials : (Nat → Nat) → List K)
    (directions : Nat → Nat) : hessian dim true jit xl partials directions = .undefined := by
  obtain ⟨k, rfl⟩ : ∃ k, dim = k + 2 := ⟨dim - 2, by omega⟩
  have hloop : hessianLoop (k + 2) xl partials directions = none := by
    unfold hessianLoop
    rw [List.range_succ_eq_map, List.foldlM_cons, show k + 2 - (0 + 1) = k + 1 by omega, List.range'_succ]
    have hin : ∀ s : (Nat → Nat) × (Nat → Nat → K), hessianInner xl partials 0 s (0 + 1) = none := by
      intro s
      unfold hessianInner
      by_cases h1 : (partials (assign s.1 (0 + 1) 1)).length = 1
      · have h2 : (partials (assign s.1 (0 + 1) 1))[0 + 1]? = none := by
          rw [List.getElem?_eq_none_iff]; omega
        simp only [Option.bind_eq_bind]
        rw [h1, h2]
        cases xl[0]? <;> simp
      · simp [h1]
    simp [List.foldlM_cons, hin]
  unfold hessian
  simp [hloop]

/-- C154, partial: on an element whose geometry is not affine evaluating a second derivative throws `NotImplemented`; in one dimension the
result is zero whatever the basis and the coefficients are, so it is the second derivative of `u` exactly if that vanishes. -/
theorem C154_hessian_partial (jit : Nat → Nat → ℝ) (xl : List ℝ) (partials : (Nat → Nat) → List ℝ) (directions : Nat → Nat) :
    (∀ dim, hessian dim false jit xl partials directions = .notImplemented) ∧
    ∃ r, hessian 1 true jit xl partials directions = .value r ∧
      ∀ (u : ℝ → ℝ) (X : ℝ), r 0 0 = iteratedDeriv 2 u X ↔ iteratedDeriv 2 u X = 0 := by
  refine ⟨fun dim => by simp [hessian], ?_⟩
  refine ⟨_, rfl, ?_⟩
  intro u X
  have h : ((List.range 1).foldl (fun (r : Nat → Nat → ℝ) i =>
      (List.range' i (1 - i)).foldl (fun r j => assign2 r i j (r i j * (jit i j * jit i j))) r) (fun _ _ => 0)) 0 0 = 0 := by
    simp [assign2, assign]
  show ((List.range 1).foldl (fun (r : Nat → Nat → ℝ) i =>
      (List.range' i (1 - i)).foldl (fun r j => assign2 r i j (r i j * (jit i j * jit i j))) r) (fun _ _ => 0)) 0 0 = _ ↔ _
  rw [h]
  exact eq_comm

/-! ### C155: vector fields -/

/-- C155. The Piola transformation of a vector field: if the geometry has the Jacobian `A` at the point, the value is `A yhat / det A`. -/
theorem C155_forward (A jit : Matrix (Fin d) (Fin d) K) (h : jitᵀ * A = 1) (yhat : Fin d → K) :
    piolaForward jit yhat = A.det⁻¹ • (A *ᵥ yhat) := by
  have hinv : jit⁻¹ = Aᵀ := by
    apply Matrix.inv_eq_left_inv
    rw [← Matrix.transpose_transpose jit, ← Matrix.transpose_mul, h, Matrix.transpose_one]
  unfold piolaForward
  simp only [hinv, Matrix.transpose_transpose, Matrix.det_transpose]

/-- C155. The discrete function is the Piola transformed of the linear combination of the shape functions. -/
theorem C155_evaluate (x : I → K) (xl : List K) (e : Element I X (Fin d → K) J K d) (leaf : Leaf X (Fin d → K) J) (p : X)
    (A : Matrix (Fin d) (Fin d) K) (hs : SingleLeaf e leaf) (hc : Consistent e) (hsize : e.size ≤ xl.length)
    (hA : (e.jacobianInverseTransposed p).toMatrixᵀ * A = 1) :
    ∃ xl', evaluatePiola x xl e p = some (A.det⁻¹ • (A *ᵥ combination x e leaf (leaf.function p)), xl') ∧ xl'.length = xl.length := by
  obtain ⟨xl', h1, h2⟩ := C152_value x xl e leaf p hs hc hsize
  refine ⟨xl', ?_, h2⟩
  unfold evaluatePiola
  simp only [h1, Option.bind_eq_bind, Option.bind_some, Option.pure_def, C155_forward A _ hA]

/-- C155. The transformation preserves the flux through a hyperplane: with the (unnormalised) outer normal `det A • A⁻ᵀ nuhat` of the
image, the flux is that on the reference element. -/
theorem C155_flux (A jit : Matrix (Fin d) (Fin d) K) (h : jitᵀ * A = 1) (yhat nuhat : Fin d → K) :
    piolaForward jit yhat ⬝ᵥ (A.det • (jit *ᵥ nuhat)) = yhat ⬝ᵥ nuhat := by
  have hdet : A.det ≠ 0 := by
    intro h0
    have := congrArg Matrix.det h
    rw [Matrix.det_mul, h0, mul_zero, Matrix.det_one] at this
    exact zero_ne_one this
  have h' : Aᵀ * jit = 1 := by
    rw [← Matrix.transpose_transpose jit, ← Matrix.transpose_mul, h, Matrix.transpose_one]
  rw [C155_forward A jit h, smul_dotProduct, dotProduct_smul, smul_smul, inv_mul_cancel₀ hdet, one_smul, Matrix.dotProduct_mulVec,
    ← Matrix.mulVec_transpose, Matrix.mulVec_mulVec]
  have h2 : jitᵀ * A = 1 := h
  rw [h2, Matrix.one_mulVec]

/-- C155. On an element with affine geometry, the divergence of the transformed field is that on the reference element divided by the
determinant of the Jacobian. -/
theorem C155_divergence (A jit : Matrix (Fin d) (Fin d) ℝ) (h : jitᵀ * A = 1) (b : Fin d → ℝ) (uhat U : Fin d → (Fin d → ℝ) → ℝ)
    (p : Fin d → ℝ) (hu : ∀ k, DifferentiableAt ℝ (uhat k) p)
    (hU : ∀ q k, U k (A *ᵥ q + b) = piolaForward jit (fun k => uhat k q) k) :
    divergence U (A *ᵥ p + b) = A.det⁻¹ * divergence uhat p := by
  set F : (Fin d → ℝ) → Fin d → ℝ := fun q => A *ᵥ q + b with hFdef
  have hF : IsGeometry F p jit := ⟨A, (linear A).hasStrictFDerivAt.add_const b, h⟩
  have hgrad : ∀ k, HasFDerivAt (uhat k) (pairing fun i => pderiv i (uhat k) p) p := by
    intro k
    refine (hu k).hasFDerivAt.congr_fderiv ?_
    refine ContinuousLinearMap.ext fun v => ?_
    rw [pairing_apply]
    conv_lhs => rw [pi_eq_sum_univ' v]
    simp [map_sum, pderiv, dotProduct, mul_comm]
  have hD : ∀ k, HasFDerivAt (fun q => A.det⁻¹ * ∑ l, A k l * uhat l q)
      (pairing (fun i => A.det⁻¹ * ∑ l, A k l * pderiv i (uhat l) p)) p := by
    intro k
    have hs := (HasFDerivAt.fun_sum fun l (_ : l ∈ Finset.univ) => (hgrad l).const_mul (A k l)).const_mul A.det⁻¹
    refine hs.congr_fderiv ?_
    refine ContinuousLinearMap.ext fun v => ?_
    simp only [pairing_apply, ContinuousLinearMap.smul_apply, ContinuousLinearMap.sum_apply, dotProduct, smul_eq_mul, Finset.mul_sum,
      Finset.sum_mul]
    rw [Finset.sum_comm]
    refine Finset.sum_congr rfl fun i _ => Finset.sum_congr rfl fun l _ => by ring
  have hUd : ∀ k i, pderiv i (U k) (F p) = (jit *ᵥ fun i => A.det⁻¹ * ∑ l, A k l * pderiv i (uhat l) p) i := by
    intro k i
    refine pderiv_of_hasFDerivAt _ _ _ (hasFDerivAt_global (U k) F _ p jit hF (Filter.Eventually.of_forall fun q => ?_) _ (hD k)) i
    rw [hFdef]
    show U k (A *ᵥ q + b) = _
    rw [hU q k, C155_forward A jit h]
    simp [Matrix.mulVec, dotProduct]
  have hAj : ∀ l i, ∑ k, jit k i * A k l = if i = l then 1 else 0 := by
    intro l i
    have := congrFun (congrFun h i) l
    rw [Matrix.mul_apply, Matrix.one_apply] at this
    exact this
  have e1 : divergence U (F p) = ∑ k, ∑ i, ∑ l, A.det⁻¹ * (jit k i * A k l * pderiv i (uhat l) p) := by
    unfold divergence
    refine Finset.sum_congr rfl fun k _ => ?_
    rw [hUd k k]
    simp only [Matrix.mulVec, dotProduct, Finset.mul_sum]
    refine Finset.sum_congr rfl fun i _ => Finset.sum_congr rfl fun l _ => by ring
  have e2 : ∑ k, ∑ i, ∑ l, A.det⁻¹ * (jit k i * A k l * pderiv i (uhat l) p)
      = ∑ i, ∑ l, A.det⁻¹ * ((∑ k, jit k i * A k l) * pderiv i (uhat l) p) := by
    rw [Finset.sum_comm]
    refine Finset.sum_congr rfl fun i _ => ?_
    rw [Finset.sum_comm]
    refine Finset.sum_congr rfl fun l _ => ?_
    rw [Finset.sum_mul, Finset.mul_sum]
  show divergence U (F p) = _
  rw [e1, e2]
  unfold divergence
  rw [Finset.mul_sum]
  refine Finset.sum_congr rfl fun i _ => ?_
  simp [hAj]

/-- C155, partial: the adapter for the transformation back inverts it on elements with a positively oriented geometry. -/
theorem C155_backward_partial (A jit : Matrix (Fin d) (Fin d) ℝ) (h : jitᵀ * A = 1) (hpos : 0 < A.det) (yhat v : Fin d → ℝ) :
    piolaBackward jit |A.det| (piolaForward jit yhat) = yhat ∧ piolaForward jit (piolaBackward jit |A.det| v) = v := by
  have h' : A * jitᵀ = 1 := mul_eq_one_comm.mp h
  rw [C155_forward A jit h, C155_forward A jit h, abs_of_pos hpos]
  unfold piolaBackward
  constructor
  · rw [Matrix.mulVec_smul, Matrix.mulVec_mulVec, h, Matrix.one_mulVec, smul_smul, mul_inv_cancel₀ hpos.ne', one_smul]
  · rw [Matrix.mulVec_smul, Matrix.mulVec_mulVec, h', Matrix.one_mulVec, smul_smul, inv_mul_cancel₀ hpos.ne', one_smul]

/-- C155 is false on elements with a negatively oriented geometry: the adapter uses the integration element `|det A|`, the transformation
the determinant, so that going forth and back changes the sign of every vector. -/
theorem C155_backward_false (A jit : Matrix (Fin d) (Fin d) ℝ) (h : jitᵀ * A = 1) (hneg : A.det < 0) (yhat : Fin d → ℝ) :
    piolaBackward jit |A.det| (piolaForward jit yhat) = -yhat := by
  rw [C155_forward A jit h, abs_of_neg hneg]
  unfold piolaBackward
  rw [Matrix.mulVec_smul, Matrix.mulVec_mulVec, h, Matrix.one_mulVec, smul_smul, neg_mul, mul_inv_cancel₀ hneg.ne, neg_smul, one_smul]

/-- C155, partial: on a triangle whose corners are numbered counterclockwise, the adapter for the normal flux returns, at every point of
the boundary, the product of the vector with the unit outer normal of an edge that contains the point. -/
theorem C155_normalFlux_partial (corner : Fin 3 → Fin 2 → ℝ) (horient : 0 < orientation corner) (v x : Fin 2 → ℝ)
    (hx : ∃ c, barycentric x c = 0) :
    ∃ a b c nu, a ≠ b ∧ b ≠ c ∧ a ≠ c ∧ |barycentric x c| < 1 / 10 ^ 10 ∧ IsUnitOuterNormal corner a b c nu ∧
      normalFlux euclidean true corner v x = .value (v ⬝ᵥ nu) := by
  have hb : |x 0 + x 1 - 1| = |barycentric x 0| := by
    rw [← abs_neg]
    congr 1
    simp [barycentric]; ring
  have key : ∀ a b c : Fin 3, (corner b 0 - corner a 0) * (corner c 1 - corner a 1) - (corner b 1 - corner a 1) * (corner c 0 - corner a 0)
      = orientation corner →
      IsUnitOuterNormal corner a b c ((euclidean ![(corner b - corner a) 1, -(corner b - corner a) 0])⁻¹ •
        ![(corner b - corner a) 1, -(corner b - corner a) 0]) := fun a b c habc => unitOuterNormal corner a b c (by rw [habc]; exact horient)
  have hdot : ∀ nu : Fin 2 → ℝ, v ⬝ᵥ nu = v 0 * nu 0 + v 1 * nu 1 := fun nu => by simp [dotProduct, Fin.sum_univ_two]
  unfold normalFlux
  simp only [Bool.not_true, Bool.false_eq_true, if_false]
  by_cases h0 : |x 0| < 1 / 10 ^ 10
  · refine ⟨2, 0, 1, _, by decide, by decide, by decide, by simpa [barycentric] using h0, key 2 0 1 (by unfold orientation; ring), ?_⟩
    rw [if_pos h0, hdot]
  · by_cases h1 : |x 1| < 1 / 10 ^ 10
    · refine ⟨0, 1, 2, _, by decide, by decide, by decide, by simpa [barycentric] using h1, key 0 1 2 (by unfold orientation; ring), ?_⟩
      rw [if_neg h0, if_pos h1, hdot]
    · by_cases h2 : |x 0 + x 1 - 1| < 1 / 10 ^ 10
      · refine ⟨1, 2, 0, _, by decide, by decide, by decide, by rw [← hb]; exact h2, key 1 2 0 (by unfold orientation; ring), ?_⟩
        rw [if_neg h0, if_neg h1, if_pos h2, hdot]
      · exfalso
        obtain ⟨c, hc⟩ := hx
        fin_cases c
        · exact h2 (by rw [hb]; rw [show barycentric x 0 = 0 from hc]; norm_num)
        · exact h0 (by rw [show x 0 = 0 from hc]; norm_num)
        · exact h1 (by rw [show x 1 = 0 from hc]; norm_num)

/-- C155 is false on triangles whose corners are numbered clockwise: the adapter uses the inner normal. -/
theorem C155_normalFlux_false (corner : Fin 3 → Fin 2 → ℝ) (horient : orientation corner < 0) (v x : Fin 2 → ℝ)
    (hx : ∃ c, barycentric x c = 0) :
    ∃ a b c nu, a ≠ b ∧ b ≠ c ∧ a ≠ c ∧ |barycentric x c| < 1 / 10 ^ 10 ∧ IsUnitOuterNormal corner a b c nu ∧
      normalFlux euclidean true corner v x = .value (-(v ⬝ᵥ nu)) := by
  have hb : |x 0 + x 1 - 1| = |barycentric x 0| := by
    rw [← abs_neg]
    congr 1
    simp [barycentric]; ring
  have key : ∀ a b c : Fin 3, (corner b 0 - corner a 0) * (corner c 1 - corner a 1) - (corner b 1 - corner a 1) * (corner c 0 - corner a 0)
      = orientation corner →
      IsUnitOuterNormal corner a b c (-((euclidean ![(corner b - corner a) 1, -(corner b - corner a) 0])⁻¹ •
        ![(corner b - corner a) 1, -(corner b - corner a) 0])) := fun a b c habc => unitInnerNormal corner a b c (by rw [habc]; exact horient)
  have hdot : ∀ nu : Fin 2 → ℝ, -(v ⬝ᵥ -nu) = v 0 * nu 0 + v 1 * nu 1 := fun nu => by simp [dotProduct, Fin.sum_univ_two]
  unfold normalFlux
  simp only [Bool.not_true, Bool.false_eq_true, if_false]
  by_cases h0 : |x 0| < 1 / 10 ^ 10
  · refine ⟨2, 0, 1, _, by decide, by decide, by decide, by simpa [barycentric] using h0, key 2 0 1 (by unfold orientation; ring), ?_⟩
    rw [if_pos h0, hdot]
  · by_cases h1 : |x 1| < 1 / 10 ^ 10
    · refine ⟨0, 1, 2, _, by decide, by decide, by decide, by simpa [barycentric] using h1, key 0 1 2 (by unfold orientation; ring), ?_⟩
      rw [if_neg h0, if_pos h1, hdot]
    · by_cases h2 : |x 0 + x 1 - 1| < 1 / 10 ^ 10
      · refine ⟨1, 2, 0, _, by decide, by decide, by decide, by rw [← hb]; exact h2, key 1 2 0 (by unfold orientation; ring), ?_⟩
        rw [if_neg h0, if_neg h1, if_pos h2, hdot]
      · exfalso
        obtain ⟨c, hc⟩ := hx
        fin_cases c
        · exact h2 (by rw [hb]; rw [show barycentric x 0 = 0 from hc]; norm_num)
        · exact h0 (by rw [show x 0 = 0 from hc]; norm_num)
        · exact h1 (by rw [show x 1 = 0 from hc]; norm_num)

/-- C155. The adapter throws for elements that are not triangles, and for points that are not on the boundary. -/
theorem C155_normalFlux_throws (corner : Fin 3 → Fin 2 → ℝ) (v x : Fin 2 → ℝ) :
    normalFlux euclidean false corner v x = .notImplemented ∧
    ((∀ c, 1 / 10 ^ 10 ≤ |barycentric x c|) → normalFlux euclidean true corner v x = .notOnEdge) := by
  refine ⟨by simp [normalFlux], ?_⟩
  intro h
  have h0 : ¬ |x 0| < 1 / 10 ^ 10 := not_lt.mpr (h 1)
  have h1 : ¬ |x 1| < 1 / 10 ^ 10 := not_lt.mpr (h 2)
  have h2 : ¬ |x 0 + x 1 - 1| < 1 / 10 ^ 10 := by
    rw [← abs_neg, show -(x 0 + x 1 - 1) = barycentric x 0 by simp [barycentric]; ring]
    exact not_lt.mpr (h 0)
  unfold normalFlux
  simp only [Bool.not_true, Bool.false_eq_true, if_false]
  rw [if_neg h0, if_neg h1, if_neg h2]

/-! ### A concrete space: continuous piecewise linear functions on a simplex -/

/-- The linear Lagrange element on the `d`-dimensional simplex, as the child number `k` of a space. -/
def p1 (d k : Nat) : Leaf (Fin d → ℝ) ℝ (Fin d → ℝ) where
  size := d + 1
  localIndex i := (d + 1) * k + i
  function q := (1 - ∑ i, q i) :: List.ofFn q
  jacobian _ := (fun _ => -1) :: List.ofFn fun i => Pi.single i 1

/-- An element with `n` such children. -/
def p1Element (d n : Nat) (jit : GeometryMatrix ℝ d) : Element Nat (Fin d → ℝ) ℝ (Fin d → ℝ) ℝ d where
  size := (d + 1) * n
  containerIndex i := 10 + i
  leaves := (List.range n).map (p1 d)
  jacobianInverseTransposed _ := jit

theorem p1Element_consistent (d n : Nat) (jit : GeometryMatrix ℝ d) : Consistent (p1Element d n jit) := by
  refine ⟨?_, ?_, ?_⟩
  · intro leaf hl i hi
    obtain ⟨k, hk, rfl⟩ := List.mem_map.mp hl
    have hk' : k + 1 ≤ n := by simpa using hk
    have hi' : i < d + 1 := hi
    show (d + 1) * k + i < (d + 1) * n
    calc (d + 1) * k + i < (d + 1) * k + (d + 1) := by omega
      _ = (d + 1) * (k + 1) := by ring
      _ ≤ (d + 1) * n := Nat.mul_le_mul_left _ hk'
  · intro leaf hl p
    obtain ⟨k, _, rfl⟩ := List.mem_map.mp hl
    simp [p1]
  · intro leaf hl p
    obtain ⟨k, _, rfl⟩ := List.mem_map.mp hl
    simp [p1]

theorem p1Element_singleLeaf (d : Nat) (jit : GeometryMatrix ℝ d) : SingleLeaf (p1Element d 1 jit) (p1 d 0) :=
  ⟨by simp [p1Element], by simp [p1, p1Element], fun i => by simp [p1]⟩

theorem p1_isJacobian (d k : Nat) (p : Fin d → ℝ) : IsJacobian (p1 d k) p := by
  intro i hi
  have hlin : ∀ (c : ℝ) (g : Fin d → ℝ), HasFDerivAt (fun q => c + g ⬝ᵥ q) (pairing g) p := by
    intro c g
    have h := ((pairing g).hasFDerivAt (x := p)).const_add c
    refine h.congr_of_eventuallyEq (Filter.Eventually.of_forall fun q => ?_)
    show c + g ⬝ᵥ q = c + pairing g q
    rw [pairing_apply]
  cases i with
  | zero =>
    refine (hlin 1 fun _ => -1).congr_of_eventuallyEq (Filter.Eventually.of_forall fun q => ?_)
    simp [p1, dotProduct, sub_eq_add_neg]
  | succ i =>
    have hi' : i < d := by simpa [p1] using hi
    have h1 : (List.ofFn fun i : Fin d => (Pi.single i 1 : Fin d → ℝ)).getD i 0 = Pi.single (⟨i, hi'⟩ : Fin d) 1 := by
      rw [List.getD_eq_getElem _ _ (by simpa using hi')]
      simp
    have h2 : ∀ q : Fin d → ℝ, (List.ofFn q).getD i 0 = q ⟨i, hi'⟩ := by
      intro q
      rw [List.getD_eq_getElem _ _ (by simpa using hi')]
      simp
    simp only [p1, List.getD_cons_succ, h1, h2]
    refine (hlin 0 (Pi.single ⟨i, hi'⟩ 1)).congr_of_eventuallyEq (Filter.Eventually.of_forall fun q => ?_)
    simp

/-- On every element with affine geometry the hypotheses about the geometry and the functions in global coordinates are met. -/
theorem p1Element_meets (d n : Nat) (jit : GeometryMatrix ℝ d) (A : Matrix (Fin d) (Fin d) ℝ) (hA : jit.toMatrixᵀ * A = 1)
    (x : Nat → ℝ) (p : Fin d → ℝ) :
    ∃ (U : Nat → (Fin d → ℝ) → ℝ) (F : (Fin d → ℝ) → Fin d → ℝ), IsGeometry F p jit.toMatrix ∧ (∀ q, F q = A *ᵥ q) ∧
      ∀ k, Represents (U k) F x (p1Element d n jit) (p1 d k) p := by
  refine ⟨fun k Y => combination x (p1Element d n jit) (p1 d k) ((p1 d k).function (jit.toMatrixᵀ *ᵥ Y)), fun q => A *ᵥ q,
    ⟨A, (linear A).hasStrictFDerivAt, hA⟩, fun q => rfl, ?_⟩
  intro k
  refine Filter.Eventually.of_forall fun q => ?_
  show combination x (p1Element d n jit) (p1 d k) ((p1 d k).function (jit.toMatrixᵀ *ᵥ (A *ᵥ q))) = _
  rw [Matrix.mulVec_mulVec, hA, Matrix.one_mulVec]

/-- A sheared triangle: the hypotheses of the gradient are met. -/
example (x : Nat → ℝ) (p : Fin 2 → ℝ) : ∃ U F, ∃ e : Element Nat (Fin 2 → ℝ) ℝ (Fin 2 → ℝ) ℝ 2, ∃ leaf,
    SingleLeaf e leaf ∧ Consistent e ∧ IsGeometry F p (e.jacobianInverseTransposed p).toMatrix ∧ IsJacobian leaf p ∧
      Represents U F x e leaf p ∧ F ![1, 1] = ![3, 1] := by
  obtain ⟨U, F, h1, h2, h3⟩ := p1Element_meets 2 1 (.field !![1/2, 0; -1/2, 1]) !![2, 1; 0, 1] (by
    ext i j; fin_cases i <;> fin_cases j <;> simp [GeometryMatrix.toMatrix, Matrix.mul_apply, Fin.sum_univ_two] <;> norm_num) x p
  refine ⟨U 0, F, p1Element 2 1 (.field !![1/2, 0; -1/2, 1]), p1 2 0, p1Element_singleLeaf 2 _, p1Element_consistent 2 1 _, h1,
    p1_isJacobian 2 0 p, h3 0, ?_⟩
  rw [h2]
  funext i
  fin_cases i <;> simp [Matrix.mulVec, dotProduct, Fin.sum_univ_two] <;> norm_num

/-- A mirrored tetrahedron with diagonal geometry: the hypotheses of the divergence and the curl are met. -/
example (x : Nat → ℝ) (p : Fin 3 → ℝ) : ∃ (U : Nat → (Fin 3 → ℝ) → ℝ) (F : (Fin 3 → ℝ) → Fin 3 → ℝ),
    ∃ e : Element Nat (Fin 3 → ℝ) ℝ (Fin 3 → ℝ) ℝ 3, Consistent e ∧ e.size ≤ (List.replicate 12 (0 : ℝ)).length ∧
      IsGeometry F p (e.jacobianInverseTransposed p).toMatrix ∧ RepresentsField (fun k => U k.val) F x e p := by
  obtain ⟨U, F, h1, _, h3⟩ := p1Element_meets 3 3 (.diagonal ![1/2, -1/3, 1]) !![2, 0, 0; 0, -3, 0; 0, 0, 1] (by
    ext i j; fin_cases i <;> fin_cases j <;> simp [GeometryMatrix.toMatrix, Matrix.mul_apply, Fin.sum_univ_three]) x p
  refine ⟨U, F, p1Element 3 3 (.diagonal ![1/2, -1/3, 1]), p1Element_consistent 3 3 _, by simp [p1Element], h1, by simp [p1Element], ?_⟩
  intro k leaf hk
  have hleaf : leaf = p1 3 k.val := by
    simpa [p1Element] using hk.symm
  subst hleaf
  exact ⟨p1_isJacobian 3 _ p, h3 k.val⟩

/-- The function with the coefficients 1, 4, 6 at the centre of gravity. -/
example : ∃ xl, evaluate (fun i => [1, 4, 6].getD (i - 10) (0 : ℝ)) [7, 7, 7, 7] (p1Element 2 1 (.diagonal ![1, 1])) ![1/3, 1/3]
    = some (11/3, xl) := by
  obtain ⟨xl, h, _⟩ := C152_value (fun i => [1, 4, 6].getD (i - 10) (0 : ℝ)) [7, 7, 7, 7] (p1Element 2 1 (.diagonal ![1, 1])) (p1 2 0)
    ![1/3, 1/3] (p1Element_singleLeaf 2 _) (p1Element_consistent 2 1 _) (by simp [p1Element])
  refine ⟨xl, ?_⟩
  rw [h]
  simp [combination, p1, p1Element, List.range_succ, Fin.sum_univ_two, List.ofFn_succ]
  norm_num

/-- A triangle with counterclockwise corners and one with clockwise corners. -/
example : 0 < orientation (![![0, 0], ![2, 0], ![1, 3]] : Fin 3 → Fin 2 → ℝ) ∧
    orientation (![![0, 0], ![1, 3], ![2, 0]] : Fin 3 → Fin 2 → ℝ) < 0 ∧ barycentric ![1/4, 3/4] 0 = 0 := by
  refine ⟨?_, ?_, ?_⟩ <;> simp [orientation, barycentric] <;> norm_num

/-- A mirrored geometry. -/
example : (!![1/2, 0; 0, -1] : Matrix (Fin 2) (Fin 2) ℝ)ᵀ * !![2, 0; 0, -1] = 1 ∧ (!![2, 0; 0, -1] : Matrix (Fin 2) (Fin 2) ℝ).det < 0 := by
  constructor
  · ext i j; fin_cases i <;> fin_cases j <;> simp [Matrix.mul_apply, Fin.sum_univ_two]
  · rw [Matrix.det_fin_two_of]; norm_num

end Verif
