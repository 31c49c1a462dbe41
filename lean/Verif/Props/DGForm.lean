import Verif.Proofs.DGForm
import Verif.Props.ConvectionDiffusion
/-
C97-C100: the discontinuous Galerkin operator assembles the weighted interior penalty method; it is conservative, its
symmetric variant yields symmetric matrices and its nonsymmetric variant positive semidefinite ones.
-/
namespace Verif
open LocalOp LocalOp.Spec Matrix

section
variable {K P Q : Type} [Field K] [LinearOrder K] {d n ns nn : Nat}

/-- **C97 (volume).** -/
theorem C97_dg_volume_form (op : DG.Op K) (geo : CellGeo K P d) (par : CellParam K P d) (lfs : Basis K P d n)
    (x y : Fin n → K) :
    tested (DG.alphaVolume op geo par lfs lfs x) y = volumeForm geo par lfs (op.intorder lfs.order) x y :=
  volume_form op geo par lfs x y

/-- **C97 (inner faces).** -/
theorem C97_dg_skeleton_form (op : DG.Op K) (geo : FaceGeo K P Q d) (geoIn geoOut : CellGeo K P d)
    (parIn parOut : CellParam K P d) (lfsS : Basis K P d ns) (lfsN : Basis K P d nn) (x y : Fin ns ⊕ Fin nn → K) :
    tested (DG.alphaSkeleton op geo geoIn geoOut parIn parOut lfsS lfsN lfsS lfsN x) y
      = skeletonForm op geo geoIn geoOut parIn parOut lfsS lfsN (op.intorder (max lfsS.order lfsN.order)) x y :=
  skeleton_form op geo geoIn geoOut parIn parOut lfsS lfsN x y

/-- **C97 (boundary).** Whenever the operator does not throw. -/
theorem C97_dg_boundary_form (op : DG.Op K) (geo : FaceGeo K P Q d) (geoIn : CellGeo K P d) (par : CellParam K P d)
    (fpar : FaceParam K Q) (lfs : Basis K P d n) (x y : Fin n → K) (r : Calls (Fin n) K)
    (hr : DG.alphaBoundary op geo geoIn par fpar lfs lfs x = some r) :
    tested r y = boundaryForm op geo geoIn par fpar lfs (op.intorder lfs.order) x y :=
  boundary_form op geo geoIn par fpar lfs x y r hr

/-- **C98.** If constants are in the spaces of both cells, what the face contributes to the balance of the inside cell (the
residual tested with the constant one) is the numerical flux, and what it contributes to the outside cell is its negative. -/
theorem C98_dg_conservative (op : DG.Op K) (geo : FaceGeo K P Q d) (geoIn geoOut : CellGeo K P d)
    (parIn parOut : CellParam K P d) (lfsS : Basis K P d ns) (lfsN : Basis K P d nn) (hS : HasConstants lfsS)
    (hN : HasConstants lfsN) (x : Fin ns ⊕ Fin nn → K) :
    tested (DG.alphaSkeleton op geo geoIn geoOut parIn parOut lfsS lfsN lfsS lfsN x) (Sum.elim (fun _ => 1) fun _ => 0)
      = numericalFlux op geo geoIn geoOut parIn parOut lfsS lfsN (op.intorder (max lfsS.order lfsN.order)) x ∧
    tested (DG.alphaSkeleton op geo geoIn geoOut parIn parOut lfsS lfsN lfsS lfsN x) (Sum.elim (fun _ => 0) fun _ => 1)
      = -numericalFlux op geo geoIn geoOut parIn parOut lfsS lfsN (op.intorder (max lfsS.order lfsN.order)) x := by
  rw [skeleton_form, skeleton_form]
  unfold skeletonForm numericalFlux
  rw [← integrateFace_neg]
  constructor
  · refine integrateFace_congr _ _ _ _ fun q _ => ?_
    simp only [Sum.elim_inl, Sum.elim_inr, value_const _ hS, value_zero, gradient_const _ _ hS, gradient_zero,
      dotProduct_zero]
    ring
  · refine integrateFace_congr _ _ _ _ fun q _ => ?_
    simp only [Sum.elim_inl, Sum.elim_inr, value_const _ hN, value_zero, gradient_const _ _ hN, gradient_zero,
      dotProduct_zero]
    ring

/-- **C99 (finite elements).** Without convection and with a symmetric diffusion tensor the matrix is symmetric. -/
theorem C99_fem_symmetric (intorderadd : Int) (geo : CellGeo K P d) (par : CellParam K P d) (lfs : Basis K P d n)
    (hb : NoVelocity geo par (intorderadd + 2 * lfs.order)) (hA : ∀ p, (par.A p).transpose = par.A p) :
    Symmetric (total (FEM.jacobianVolume intorderadd geo par lfs)) := by
  intro i j
  unfold FEM.jacobianVolume
  dsimp only
  rw [total_flatMap, total_flatMap]
  congr 1
  refine List.map_congr_left fun q hq => ?_
  simp only [total_forEach₂, hb q hq, zero_dotProduct]
  have ht : (FEM.tensorAt geo par q.1).transpose = FEM.tensorAt geo par q.1 := by
    unfold FEM.tensorAt
    split <;> exact hA _
  have : ∀ v w : Fin d → K, (FEM.tensorAt geo par q.1 *ᵥ v) ⬝ᵥ w = (FEM.tensorAt geo par q.1 *ᵥ w) ⬝ᵥ v := by
    intro v w
    rw [dotProduct_comm, Matrix.dotProduct_mulVec, ← Matrix.mulVec_transpose, ht]
  rw [this]
  ring

/-- **C99 (volume terms of the discontinuous Galerkin method).** -/
theorem C99_dg_volume_symmetric (op : DG.Op K) (geo : CellGeo K P d) (par : CellParam K P d) (lfs : Basis K P d n)
    (hb : NoVelocity geo par (op.intorder lfs.order)) (hA : ∀ p, (par.A p).transpose = par.A p) :
    Symmetric (total (DG.jacobianVolume op geo par lfs lfs)) := by
  intro i j
  rw [entry_eq (dg_volume op geo par lfs), entry_eq (dg_volume op geo par lfs), volume_form, volume_form]
  unfold volumeForm
  refine integrate_congr _ _ _ _ fun q hq => ?_
  have ht : (tensor geo par q.1).transpose = tensor geo par q.1 := by
    unfold tensor
    split <;> exact hA _
  have : ∀ v w : Fin d → K, (tensor geo par q.1 *ᵥ v) ⬝ᵥ w = (tensor geo par q.1 *ᵥ w) ⬝ᵥ v := by
    intro v w
    rw [dotProduct_comm, Matrix.dotProduct_mulVec, ← Matrix.mulVec_transpose, ht]
  rw [this]
  simp only [hb q hq, zero_dotProduct]
  ring

/-- **C99 (inner faces).** The symmetric interior penalty method yields a symmetric matrix if nothing flows through the
face. -/
theorem C99_sipg_skeleton_symmetric (op : DG.Op K) (hm : op.method = .SIPG) (geo : FaceGeo K P Q d)
    (geoIn geoOut : CellGeo K P d) (parIn parOut : CellParam K P d) (lfsS : Basis K P d ns) (lfsN : Basis K P d nn)
    (hb : NoNormalVelocity geo parIn (op.intorder (max lfsS.order lfsN.order))) :
    Symmetric (total (DG.jacobianSkeleton op geo geoIn geoOut parIn parOut lfsS lfsN lfsS lfsN)) := by
  intro i j
  rw [entry_eq (dg_skeleton op geo geoIn geoOut parIn parOut lfsS lfsN),
    entry_eq (dg_skeleton op geo geoIn geoOut parIn parOut lfsS lfsN), skeleton_form, skeleton_form]
  unfold skeletonForm
  refine integrateFace_congr _ _ _ _ fun q hq => ?_
  simp only [hb q hq, hm, sign]
  ring

/-- **C99 (boundary).** -/
theorem C99_sipg_boundary_symmetric (op : DG.Op K) (hm : op.method = .SIPG) (geo : FaceGeo K P Q d) (geoIn : CellGeo K P d)
    (par : CellParam K P d) (fpar : FaceParam K Q) (lfs : Basis K P d n)
    (J : Calls (Fin n × Fin n) K) (hJ : DG.jacobianBoundary op geo geoIn par fpar lfs lfs = some J) :
    Symmetric (total J) := by
  have hok : ∀ q ∈ geo.quadratureRule (op.intorder lfs.order), ¬ OutflowOnInflow geo par fpar q.1 := by
    intro q hq ho
    have := (C94_dg_outflow_on_inflow_is_rejected op geo geoIn par fpar lfs).1.mp ⟨q, hq, ho⟩
    rw [this] at hJ
    cases hJ
  obtain ⟨J', r, y, hj, ha, -, haff, -⟩ := C94_dg_boundary op geo geoIn par fpar lfs hok
  rw [hj] at hJ
  cases hJ
  have key : ∀ i j, total J (i, j) = boundaryForm op geo geoIn par fpar lfs (op.intorder lfs.order)
        (fun k => if k = j then 1 else 0) (fun k => if k = i then 1 else 0)
      - boundaryForm op geo geoIn par fpar lfs (op.intorder lfs.order) (fun _ => 0) (fun k => if k = i then 1 else 0) := by
    intro i j
    rw [← boundary_form op geo geoIn par fpar lfs _ _ _ (ha _), ← boundary_form op geo geoIn par fpar lfs _ _ _ (ha _)]
    have h := haff 0 (fun k => if k = j then 1 else 0) i
    simp only [zero_add, applyMatrix, mul_ite, mul_one, mul_zero, Finset.sum_ite_eq', Finset.mem_univ, if_true] at h
    unfold tested
    simp only [ite_mul, one_mul, zero_mul, Finset.sum_ite_eq', Finset.mem_univ, if_true, h]
    have : (0 : Fin n → K) = fun _ => 0 := rfl
    rw [this]
    ring
  intro i j
  rw [key, key]
  unfold boundaryForm
  rw [integrateFace_sub, integrateFace_sub]
  refine integrateFace_congr _ _ _ _ fun q hq => ?_
  dsimp only
  cases fpar.bctype q.1 with
  | none => simp
  | neumann => simp
  | outflow =>
    simp only [value_zero]
    ring
  | dirichlet =>
    simp only [value_zero, gradient_zero, dotProduct_zero, hm, sign]
    split <;> ring

variable [IsStrictOrderedRing K]

/-- **C100 (volume).** Without convection, with a positive semidefinite diffusion tensor and a nonnegative reaction
coefficient the volume terms are positive semidefinite. -/
theorem C100_dg_volume_nonneg (op : DG.Op K) (geo : CellGeo K P d) (par : CellParam K P d) (lfs : Basis K P d n)
    (hw : NonnegWeights geo (op.intorder lfs.order)) (hb : NoVelocity geo par (op.intorder lfs.order))
    (hA : ∀ p v, 0 ≤ (par.A p *ᵥ v) ⬝ᵥ v) (hc : ∀ p, 0 ≤ par.c p) (x : Fin n → K) :
    0 ≤ quadForm (total (DG.jacobianVolume op geo par lfs lfs)) x := by
  rw [quadForm_eq (dg_volume op geo par lfs), volume_form]
  unfold volumeForm
  refine integrate_nonneg _ _ hw _ fun q hq => ?_
  rw [hb q hq]
  simp only [zero_dotProduct, mul_zero, sub_zero]
  have h1 : 0 ≤ (tensor geo par q.1 *ᵥ gradient geo lfs x q.1) ⬝ᵥ gradient geo lfs x q.1 := by
    unfold tensor
    split <;> exact hA _ _
  have h2 : 0 ≤ par.c q.1 * value lfs x q.1 * value lfs x q.1 := by
    rw [mul_assoc]
    exact mul_nonneg (hc _) (mul_self_nonneg _)
  linarith

/-- **C100 (inner faces).** The nonsymmetric interior penalty method yields a positive semidefinite matrix, for every
nonnegative penalty: the terms with the fluxes cancel. -/
theorem C100_nipg_skeleton_nonneg (op : DG.Op K) (hm : op.method = .NIPG) (halpha : 0 ≤ op.alpha) (geo : FaceGeo K P Q d)
    (geoIn geoOut : CellGeo K P d) (parIn parOut : CellParam K P d) (lfsS : Basis K P d ns) (lfsN : Basis K P d nn)
    (hw : NonnegFaceWeights geo (op.intorder (max lfsS.order lfsN.order)))
    (hvol : 0 ≤ geoIn.volume ∧ 0 ≤ geoOut.volume ∧ 0 ≤ geo.volume)
    (hA : ∀ p v, 0 ≤ (parIn.A p *ᵥ v) ⬝ᵥ v ∧ 0 ≤ (parOut.A p *ᵥ v) ⬝ᵥ v)
    (hb : NoNormalVelocity geo parIn (op.intorder (max lfsS.order lfsN.order))) (x : Fin ns ⊕ Fin nn → K) :
    0 ≤ quadForm (total (DG.jacobianSkeleton op geo geoIn geoOut parIn parOut lfsS lfsN lfsS lfsN)) x := by
  rw [quadForm_eq (dg_skeleton op geo geoIn geoOut parIn parOut lfsS lfsN), skeleton_form]
  unfold skeletonForm
  refine integrateFace_nonneg _ _ hw _ fun q hq => ?_
  simp only [hb q hq, hm, sign]
  have hS : 0 ≤ conormalS geo geoIn parIn q.1 ⬝ᵥ faceNormal geo parIn q.1 := by
    unfold conormalS tensor
    split <;> exact (hA _ _).1
  have hN : 0 ≤ conormalN geo geoOut parIn parOut q.1 ⬝ᵥ faceNormal geo parIn q.1 := by
    unfold conormalN
    split <;> exact (hA _ _).2
  have hp := penalty_nonneg op.weightsOn op.alpha (min geoIn.volume geoOut.volume / geo.volume) _ _
    (max lfsS.order lfsN.order) d halpha (div_nonneg (le_min hvol.1 hvol.2.1) hvol.2.2) hS hN
  generalize penalty op.weightsOn op.alpha (min geoIn.volume geoOut.volume / geo.volume) _ _
    (max lfsS.order lfsN.order) d = γ at hp ⊢
  have h2 := mul_nonneg hp (mul_self_nonneg (value lfsS (fun i => x (.inl i)) (geo.inInside q.1)
    - value lfsN (fun i => x (.inr i)) (geo.inOutside q.1)))
  refine le_of_le_of_eq h2 ?_
  ring

/-- **C100 (boundary).** -/
theorem C100_nipg_boundary_nonneg (op : DG.Op K) (hm : op.method = .NIPG) (halpha : 0 ≤ op.alpha) (geo : FaceGeo K P Q d)
    (geoIn : CellGeo K P d) (par : CellParam K P d) (fpar : FaceParam K Q) (lfs : Basis K P d n)
    (hw : NonnegFaceWeights geo (op.intorder lfs.order)) (hvol : 0 ≤ geoIn.volume ∧ 0 ≤ geo.volume)
    (hA : ∀ p v, 0 ≤ (par.A p *ᵥ v) ⬝ᵥ v)
    (hb : ∀ q ∈ geo.quadratureRule (op.intorder lfs.order), fpar.bctype q.1 = .outflow →
      0 ≤ par.b (geo.inInside q.1) ⬝ᵥ geo.unitOuterNormal q.1)
    (J : Calls (Fin n × Fin n) K) (hJ : DG.jacobianBoundary op geo geoIn par fpar lfs lfs = some J) (x : Fin n → K) :
    0 ≤ quadForm (total J) x := by
  have hok : ∀ q ∈ geo.quadratureRule (op.intorder lfs.order), ¬ OutflowOnInflow geo par fpar q.1 := by
    intro q hq ho
    have := (C94_dg_outflow_on_inflow_is_rejected op geo geoIn par fpar lfs).1.mp ⟨q, hq, ho⟩
    rw [this] at hJ
    cases hJ
  obtain ⟨J', r, y, hj, ha, -, haff, -⟩ := C94_dg_boundary op geo geoIn par fpar lfs hok
  rw [hj] at hJ
  cases hJ
  have key : quadForm (total J) x = boundaryForm op geo geoIn par fpar lfs (op.intorder lfs.order) x x
      - boundaryForm op geo geoIn par fpar lfs (op.intorder lfs.order) (fun _ => 0) x := by
    rw [← boundary_form op geo geoIn par fpar lfs _ _ _ (ha _), ← boundary_form op geo geoIn par fpar lfs _ _ _ (ha _)]
    unfold quadForm tested
    rw [← Finset.sum_sub_distrib]
    refine Finset.sum_congr rfl fun i _ => ?_
    have h := haff 0 x i
    simp only [zero_add] at h
    rw [h]
    have : (0 : Fin n → K) = fun _ => 0 := rfl
    rw [this]
    ring
  rw [key]
  unfold boundaryForm
  rw [integrateFace_sub]
  refine integrateFace_nonneg _ _ hw _ fun q hq => ?_
  dsimp only
  cases hbc : fpar.bctype q.1 with
  | none => simp
  | neumann => simp
  | outflow =>
    simp only [value_zero]
    have := mul_nonneg (hb q hq hbc) (mul_self_nonneg (value lfs x (geo.inInside q.1)))
    refine le_of_le_of_eq this ?_
    ring
  | dirichlet =>
    simp only [value_zero, gradient_zero, dotProduct_zero, hm, sign]
    have hS : 0 ≤ if op.weightsOn then conormalS geo geoIn par q.1 ⬝ᵥ faceNormal geo par q.1 else 1 := by
      split
      · unfold conormalS tensor
        split <;> exact hA _ _
      · exact zero_le_one
    have hγ : 0 ≤ op.alpha / (geoIn.volume / geo.volume) *
        (if op.weightsOn then conormalS geo geoIn par q.1 ⬝ᵥ faceNormal geo par q.1 else 1) *
        ((lfs.order * (lfs.order + d - 1) : Nat) : K) :=
      mul_nonneg (mul_nonneg (div_nonneg halpha (div_nonneg hvol.1 hvol.2)) hS) (Nat.cast_nonneg _)
    generalize (op.alpha / (geoIn.volume / geo.volume) *
        (if op.weightsOn then conormalS geo geoIn par q.1 ⬝ᵥ faceNormal geo par q.1 else 1) *
        ((lfs.order * (lfs.order + d - 1) : Nat) : K)) = γ at hγ
    have h1 := mul_nonneg hγ (mul_self_nonneg (value lfs x (geo.inInside q.1)))
    by_cases hbn : par.b (geo.inInside q.1) ⬝ᵥ geo.unitOuterNormal q.1 ≥ 0
    · simp only [hbn, if_true]
      have h2 := mul_nonneg hbn (mul_self_nonneg (value lfs x (geo.inInside q.1)))
      refine le_of_le_of_eq (add_nonneg h1 h2) ?_
      ring
    · simp only [hbn, if_false]
      refine le_of_le_of_eq h1 ?_
      ring

end

/-! Concrete cases: two cells of the one-dimensional grid with linear shape functions and the face between them. -/

example : HasConstants cdBasis := by
  intro p
  constructor
  · simp [cdBasis, Fin.sum_univ_two]
  · funext k
    simp [cdBasis, Fin.sum_univ_two]

/-- Diffusion and reaction without convection. -/
def cdParDiffusion : CellParam ℚ ℚ 1 := { cdPar with b := fun _ _ => 0 }

def cdOp (m : DG.Method) : DG.Op ℚ := ⟨m, true, 2, 0⟩

example : NoVelocity cdGeo cdParDiffusion ((cdOp .SIPG).intorder cdBasis.order) := fun _ _ => rfl
example : NoNormalVelocity cdFace cdParDiffusion ((cdOp .SIPG).intorder (max cdBasis.order cdBasis.order)) := by
  intro q _
  simp [cdParDiffusion]
example : ∀ p, (cdParDiffusion.A p).transpose = cdParDiffusion.A p := fun _ => rfl
example : NonnegWeights cdGeo ((cdOp .NIPG).intorder cdBasis.order) := by
  intro q hq
  revert q
  decide +kernel
example : NonnegFaceWeights cdFace ((cdOp .NIPG).intorder cdBasis.order) := by
  intro q hq
  revert q
  decide +kernel
example : ∀ p v, 0 ≤ (cdParDiffusion.A p *ᵥ v) ⬝ᵥ v := by
  intro p v
  have : (cdParDiffusion.A p *ᵥ v) ⬝ᵥ v = 3 * (v 0 * v 0) := by
    simp [cdParDiffusion, cdPar, Matrix.mulVec, dotProduct]
    ring
  rw [this]
  exact mul_nonneg (by norm_num) (mul_self_nonneg _)
example : (DG.jacobianBoundary (cdOp .NIPG) cdFace cdGeo cdPar (cdFacePar .outflow) cdBasis cdBasis).map
    (fun J => total J (1, 1)) = some 1 := by decide +kernel

/-- The matrices are not zero, and the symmetry is not shared by the other variants. -/
example : total (DG.jacobianSkeleton (cdOp .SIPG) cdFace cdGeo cdGeo cdParDiffusion cdParDiffusion cdBasis cdBasis cdBasis cdBasis)
      (.inl 0, .inr 0)
    = total (DG.jacobianSkeleton (cdOp .SIPG) cdFace cdGeo cdGeo cdParDiffusion cdParDiffusion cdBasis cdBasis cdBasis cdBasis)
      (.inr 0, .inl 0) ∧
    total (DG.jacobianSkeleton (cdOp .SIPG) cdFace cdGeo cdGeo cdParDiffusion cdParDiffusion cdBasis cdBasis cdBasis cdBasis)
      (.inl 0, .inr 0) ≠ 0 ∧
    total (DG.jacobianSkeleton (cdOp .NIPG) cdFace cdGeo cdGeo cdParDiffusion cdParDiffusion cdBasis cdBasis cdBasis cdBasis)
      (.inl 0, .inr 0)
    ≠ total (DG.jacobianSkeleton (cdOp .NIPG) cdFace cdGeo cdGeo cdParDiffusion cdParDiffusion cdBasis cdBasis cdBasis cdBasis)
      (.inr 0, .inl 0) := by decide +kernel

end Verif
