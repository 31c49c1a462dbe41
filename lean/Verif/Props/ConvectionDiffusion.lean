import Verif.Proofs.ConvectionDiffusion
import Mathlib.Algebra.Field.Rat
import Mathlib.Algebra.Order.Ring.Rat
import Mathlib.Tactic.NormNum
/-
C92-C94: the matrices assembled by the local operators for the convection-diffusion equation are the derivatives of the
residuals assembled by them, and applying the Jacobian is multiplying by these matrices.
-/
namespace Verif
open LocalOp LocalOp.Spec Matrix

section
variable {K P Q : Type} [Field K] [LinearOrder K] {d n : Nat}

/-- **C92 (volume).** Every row of the assembled matrix is the derivative of the residual, and `jacobian_apply_volume` applies
the matrix. -/
theorem C92_ccfv_volume (geo : CellGeo K P d) (par : CellParam K P d) :
    IsAffineWith (fun x => total (CCFV.alphaVolume geo par x)) (total (CCFV.jacobianVolume geo par)) ∧
    ∀ z, total (CCFV.jacobianApplyVolume geo par z) = applyMatrix (total (CCFV.jacobianVolume geo par)) z := by
  constructor
  · intro x z i
    fin_cases i
    simp [CCFV.alphaVolume, CCFV.jacobianVolume, total_cons, total_nil, applyMatrix]
    ring
  · intro z; funext i
    fin_cases i
    simp [CCFV.jacobianApplyVolume, CCFV.alphaVolume, CCFV.jacobianVolume, total_cons, total_nil, applyMatrix]
    ring

/-- **C92 (inner faces).** The four blocks are the derivatives of the residuals of the two cells by the two unknowns, and
`jacobian_apply_skeleton` applies them. -/
theorem C92_ccfv_skeleton (twoNorm : (Fin d → K) → K) (geo : FaceGeo K P Q d) (geoIn geoOut : CellGeo K P d)
    (parIn parOut : CellParam K P d) :
    IsAffineWith (fun x => total (CCFV.alphaSkeleton twoNorm geo geoIn geoOut parIn parOut x))
      (total (CCFV.jacobianSkeleton twoNorm geo geoIn geoOut parIn parOut)) ∧
    ∀ z, total (CCFV.jacobianApplySkeleton twoNorm geo geoIn geoOut parIn parOut z)
      = applyMatrix (total (CCFV.jacobianSkeleton twoNorm geo geoIn geoOut parIn parOut)) z := by
  constructor
  · intro x z i
    by_cases h : parIn.b (geo.inInside geo.center) ⬝ᵥ geo.centerUnitOuterNormal ≥ 0
    all_goals
      rcases i with i | i <;> fin_cases i <;>
      simp [CCFV.alphaSkeleton, CCFV.jacobianSkeleton, h, total_cons, total_nil, applyMatrix] <;> ring
  · intro z; funext i
    by_cases h : parIn.b (geo.inInside geo.center) ⬝ᵥ geo.centerUnitOuterNormal ≥ 0
    all_goals
      rcases i with i | i <;> fin_cases i <;>
      simp [CCFV.jacobianApplySkeleton, CCFV.alphaSkeleton, CCFV.jacobianSkeleton, h, total_cons, total_nil, applyMatrix] <;> ring

/-- **C92 (boundary).** For every type of boundary condition. -/
theorem C92_ccfv_boundary (twoNorm : (Fin d → K) → K) (geo : FaceGeo K P Q d) (geoIn : CellGeo K P d)
    (par : CellParam K P d) (fpar : FaceParam K Q) :
    IsAffineWith (fun x => total (CCFV.alphaBoundary twoNorm geo geoIn par fpar x))
      (total (CCFV.jacobianBoundary twoNorm geo geoIn par fpar)) := by
  intro x z i
  fin_cases i
  cases h : fpar.bctype geo.center <;>
    simp [CCFV.alphaBoundary, CCFV.jacobianBoundary, h, total_cons, total_nil, applyMatrix] <;> ring

/-- **C92 (temporal operator).** -/
theorem C92_ccfv_temporal (geo : CellGeo K P d) (capacity : P → K) :
    IsAffineWith (fun x => total (CCFV.temporalAlphaVolume geo capacity x)) (total (CCFV.temporalJacobianVolume geo capacity)) ∧
    ∀ z, total (CCFV.temporalJacobianApplyVolume geo capacity z)
      = applyMatrix (total (CCFV.temporalJacobianVolume geo capacity)) z := by
  constructor
  · intro x z i
    fin_cases i
    simp [CCFV.temporalAlphaVolume, CCFV.temporalJacobianVolume, total_cons, total_nil, applyMatrix]
    ring
  · intro z; funext i
    fin_cases i
    simp [CCFV.temporalJacobianApplyVolume, CCFV.temporalAlphaVolume, CCFV.temporalJacobianVolume, total_cons, total_nil,
      applyMatrix]
    ring

/-- **C93 (volume).** For every quadrature rule, basis and coefficients. -/
theorem C93_fem_volume (intorderadd : Int) (geo : CellGeo K P d) (par : CellParam K P d) (lfs : Basis K P d n) :
    IsAffineWith (fun x => total (FEM.alphaVolume intorderadd geo par lfs x))
      (total (FEM.jacobianVolume intorderadd geo par lfs)) :=
  (fem_volume intorderadd geo par lfs).affine

/-- **C93 (boundary).** For all boundary condition types but `None`; `C93_fem_boundary_false` shows that this is necessary. -/
theorem C93_fem_boundary_partial (intorderadd : Int) (geo : FaceGeo K P Q d) (par : CellParam K P d) (fpar : FaceParam K Q)
    (lfs : Basis K P d n) (h : fpar.bctype geo.center ≠ .none) :
    IsAffineWith (fun x => total (FEM.alphaBoundary intorderadd geo par fpar lfs x))
      (total (FEM.jacobianBoundary intorderadd geo par fpar lfs)) :=
  fem_boundary intorderadd geo par fpar lfs h

/-- **C94 (volume).** The test space is the trial space, as the Jacobian assumes. -/
theorem C94_dg_volume (op : DG.Op K) (geo : CellGeo K P d) (par : CellParam K P d) (lfs : Basis K P d n) :
    IsAffineWith (fun x => total (DG.alphaVolume op geo par lfs lfs x)) (total (DG.jacobianVolume op geo par lfs lfs)) ∧
    ∀ z, total (DG.jacobianApplyVolume op geo par lfs lfs z) = applyMatrix (total (DG.jacobianVolume op geo par lfs lfs)) z :=
  ⟨(dg_volume op geo par lfs).affine, (dg_volume op geo par lfs).apply⟩

/-- **C94 (inner faces).** For all variants of the method, the spaces of the two cells may differ (p-adaptivity). -/
theorem C94_dg_skeleton {ns nn : Nat} (op : DG.Op K) (geo : FaceGeo K P Q d) (geoIn geoOut : CellGeo K P d)
    (parIn parOut : CellParam K P d) (lfsS : Basis K P d ns) (lfsN : Basis K P d nn) :
    IsAffineWith (fun x => total (DG.alphaSkeleton op geo geoIn geoOut parIn parOut lfsS lfsN lfsS lfsN x))
      (total (DG.jacobianSkeleton op geo geoIn geoOut parIn parOut lfsS lfsN lfsS lfsN)) ∧
    ∀ z, total (DG.jacobianApplySkeleton op geo geoIn geoOut parIn parOut lfsS lfsN lfsS lfsN z)
      = applyMatrix (total (DG.jacobianSkeleton op geo geoIn geoOut parIn parOut lfsS lfsN lfsS lfsN)) z :=
  ⟨(dg_skeleton op geo geoIn geoOut parIn parOut lfsS lfsN).affine,
    (dg_skeleton op geo geoIn geoOut parIn parOut lfsS lfsN).apply⟩

/-- **C94 (boundary).** Unless an outflow condition is prescribed on the inflow boundary, no method throws, the matrix is the
derivative of the residual, and `jacobian_apply_boundary` applies the matrix (without the boundary values). -/
theorem C94_dg_boundary (op : DG.Op K) (geo : FaceGeo K P Q d) (geoIn : CellGeo K P d) (par : CellParam K P d)
    (fpar : FaceParam K Q) (lfs : Basis K P d n)
    (h : ∀ q ∈ geo.quadratureRule (op.intorder lfs.order), ¬ OutflowOnInflow geo par fpar q.1) :
    ∃ (J : Calls (Fin n × Fin n) K) (r y : (Fin n → K) → Calls (Fin n) K),
      DG.jacobianBoundary op geo geoIn par fpar lfs lfs = some J ∧
      (∀ x, DG.alphaBoundary op geo geoIn par fpar lfs lfs x = some (r x)) ∧
      (∀ z, DG.jacobianApplyBoundary op geo geoIn par fpar lfs lfs z = some (y z)) ∧
      IsAffineWith (fun x => total (r x)) (total J) ∧ ∀ z, total (y z) = applyMatrix (total J) z := by
  refine ⟨(geo.quadratureRule (op.intorder lfs.order)).flatMap fun q =>
      (DG.jacobianBoundaryPoint op geo geoIn par fpar lfs q.1 q.2).getD [],
    fun x => (geo.quadratureRule (op.intorder lfs.order)).flatMap fun q =>
      (DG.residualBoundaryPoint op geo geoIn par fpar lfs lfs x false q.1 q.2).getD [],
    fun x => (geo.quadratureRule (op.intorder lfs.order)).flatMap fun q =>
      (DG.residualBoundaryPoint op geo geoIn par fpar lfs lfs x true q.1 q.2).getD [], ?_, ?_, ?_, ?_, ?_⟩
  · unfold DG.jacobianBoundary
    dsimp only
    rw [Nat.max_self]
    refine loop_some _ _ _ fun q hq => ?_
    rcases hs : DG.jacobianBoundaryPoint op geo geoIn par fpar lfs q.1 q.2 with _ | c
    · exact absurd ((jacobianBoundaryPoint_none ..).mp hs) (h q hq)
    · rfl
  · intro x
    unfold DG.alphaBoundary DG.residualBoundaryIntegral
    dsimp only
    rw [Nat.max_self]
    refine loop_some _ _ _ fun q hq => ?_
    rcases hs : DG.residualBoundaryPoint op geo geoIn par fpar lfs lfs x false q.1 q.2 with _ | c
    · exact absurd ((residualBoundaryPoint_none ..).mp hs) (h q hq)
    · rfl
  · intro x
    unfold DG.jacobianApplyBoundary DG.residualBoundaryIntegral
    dsimp only
    rw [Nat.max_self]
    refine loop_some _ _ _ fun q hq => ?_
    rcases hs : DG.residualBoundaryPoint op geo geoIn par fpar lfs lfs x true q.1 q.2 with _ | c
    · exact absurd ((residualBoundaryPoint_none ..).mp hs) (h q hq)
    · rfl
  · exact (linearPlus_flatMap _ _ _ _ fun q hq => dg_boundary_point op geo geoIn par fpar lfs false q.1 q.2 (h q hq)).affine
  · exact (linearPlus_flatMap_zero _ _ _ fun q hq => dg_boundary_point op geo geoIn par fpar lfs true q.1 q.2 (h q hq)).apply

/-- **C94 (rejection).** If an outflow condition is prescribed at a quadrature point where the velocity points inwards, all three
methods throw, and otherwise none does. -/
theorem C94_dg_outflow_on_inflow_is_rejected (op : DG.Op K) (geo : FaceGeo K P Q d) (geoIn : CellGeo K P d)
    (par : CellParam K P d) (fpar : FaceParam K Q) (lfs : Basis K P d n) :
    ((∃ q ∈ geo.quadratureRule (op.intorder lfs.order), OutflowOnInflow geo par fpar q.1) ↔
      DG.jacobianBoundary op geo geoIn par fpar lfs lfs = none) ∧
    ∀ x, (DG.alphaBoundary op geo geoIn par fpar lfs lfs x = none ↔
        DG.jacobianBoundary op geo geoIn par fpar lfs lfs = none) ∧
      (DG.jacobianApplyBoundary op geo geoIn par fpar lfs lfs x = none ↔
        DG.jacobianBoundary op geo geoIn par fpar lfs lfs = none) := by
  by_cases hq : ∃ q ∈ geo.quadratureRule (op.intorder lfs.order), OutflowOnInflow geo par fpar q.1
  · have hj : DG.jacobianBoundary op geo geoIn par fpar lfs lfs = none := by
      unfold DG.jacobianBoundary
      dsimp only
      rw [Nat.max_self]
      exact loop_none _ _ (hq.imp fun q h => ⟨h.1, (jacobianBoundaryPoint_none ..).mpr h.2⟩)
    have ha : ∀ x, DG.alphaBoundary op geo geoIn par fpar lfs lfs x = none := by
      intro x
      unfold DG.alphaBoundary DG.residualBoundaryIntegral
      dsimp only
      rw [Nat.max_self]
      exact loop_none _ _ (hq.imp fun q h => ⟨h.1, (residualBoundaryPoint_none ..).mpr h.2⟩)
    have hy : ∀ x, DG.jacobianApplyBoundary op geo geoIn par fpar lfs lfs x = none := by
      intro x
      unfold DG.jacobianApplyBoundary DG.residualBoundaryIntegral
      dsimp only
      rw [Nat.max_self]
      exact loop_none _ _ (hq.imp fun q h => ⟨h.1, (residualBoundaryPoint_none ..).mpr h.2⟩)
    exact ⟨⟨fun _ => hj, fun _ => hq⟩, fun x => ⟨⟨fun _ => hj, fun _ => ha x⟩, ⟨fun _ => hj, fun _ => hy x⟩⟩⟩
  · have h : ∀ q ∈ geo.quadratureRule (op.intorder lfs.order), ¬ OutflowOnInflow geo par fpar q.1 :=
      fun q hm ho => hq ⟨q, hm, ho⟩
    obtain ⟨J, r, y, hj, ha, hy, -⟩ := C94_dg_boundary op geo geoIn par fpar lfs h
    refine ⟨⟨fun hq' => absurd hq' hq, fun hn => ?_⟩, fun x => ⟨?_, ?_⟩⟩
    · rw [hj] at hn; cases hn
    · rw [hj, ha]; simp
    · rw [hj, hy]; simp

end

/-- The cell [0,1/2] of a one-dimensional grid with a two-point quadrature rule. -/
def cdGeo : CellGeo ℚ ℚ 1 where
  center := 1 / 2
  volume := 1 / 2
  global p := fun _ => p / 2
  integrationElement _ := 1 / 2
  jacobianInverseTransposed _ := fun _ _ => 2
  quadratureRule _ := [(1 / 4, 1 / 2), (3 / 4, 1 / 2)]

/-- Linear shape functions. -/
def cdBasis : Basis ℚ ℚ 1 2 where
  order := 1
  phi p := ![1 - p, p]
  js _ := ![fun _ => -1, fun _ => 1]

def cdPar : CellParam ℚ ℚ 1 where
  permeabilityIsConstantPerCell := true
  A _ := fun _ _ => 3
  b _ := fun _ => 1
  c _ := 2
  f _ := 5
  g _ := 7

/-- The right end of the cell. -/
def cdFace : FaceGeo ℚ ℚ Unit 1 where
  center := ()
  refVolume := 1
  volume := 1
  global _ := fun _ => 1 / 2
  integrationElement _ := 1
  inInside _ := 1
  inOutside _ := 0
  centerUnitOuterNormal := fun _ => 1
  unitOuterNormal _ := fun _ => 1
  quadratureRule _ := [((), 1)]

def cdFacePar (t : BC) : FaceParam ℚ Unit where
  bctype _ := t
  j _ := 1
  o _ := 4

example : total (FEM.jacobianVolume 0 cdGeo cdPar cdBasis) (0, 1) = -85 / 16 := by decide +kernel
example : total (FEM.alphaVolume 0 cdGeo cdPar cdBasis ![1, 2]) 1 = 65 / 16 := by decide +kernel

example : total (CCFV.jacobianSkeleton (fun x => x 0 * x 0) cdFace cdGeo { cdGeo with global := fun p _ => p / 2 + 1 / 2 } cdPar
    cdPar) (.inr 0, .inl 0) ≠ 0 := by decide +kernel
example : total (CCFV.alphaBoundary (fun x => x 0 * x 0) cdFace cdGeo cdPar (cdFacePar .dirichlet) fun _ => 1) 0 = -281 := by
  decide +kernel

/-- The hypothesis of `C94_dg_boundary` holds on the right end of the interval, where the velocity points outwards, and fails
on the left end. -/
example : ∀ q ∈ cdFace.quadratureRule ((⟨.SIPG, true, 2, 0⟩ : DG.Op ℚ).intorder cdBasis.order),
    ¬ OutflowOnInflow cdFace cdPar (cdFacePar .outflow) q.1 := by
  rintro q _ ⟨-, h⟩
  revert h
  simp [cdPar, cdFace, dotProduct]
  norm_num
example : OutflowOnInflow { cdFace with unitOuterNormal := fun _ _ => -1 } cdPar (cdFacePar .outflow) () := by
  refine ⟨rfl, ?_⟩
  simp [cdPar, dotProduct]
  norm_num

/-- **C93 (counterexample).** With the boundary condition type `None` the matrix contains an outflow term that the residual
does not contain. -/
theorem C93_fem_boundary_false :
    ¬ IsAffineWith (fun x => total (FEM.alphaBoundary 0 cdFace cdPar (cdFacePar .none) cdBasis x))
      (total (FEM.jacobianBoundary 0 cdFace cdPar (cdFacePar .none) cdBasis)) := by
  intro h
  have := h (fun _ => 0) (fun _ => 1) 1
  revert this
  decide +kernel

end Verif
