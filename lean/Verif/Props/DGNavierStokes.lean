import Verif.Proofs.DGFlowForm
import Mathlib.Algebra.Order.Ring.Rat
import Mathlib.Algebra.Field.Rat
import Mathlib.Tactic.NormNum
import Mathlib.Algebra.BigOperators.Field
import Mathlib.Logic.Equiv.Fin.Basic
/-
C176: the discontinuous Galerkin method for the Navier-Stokes equations with one scalar basis per component of the velocity.
C177: the same with vector valued shape functions. C178: interior penalty factors and the clock of the operators.
-/
set_option linter.unusedSectionVars false
namespace Verif
open Verif.LocalOp Verif.LocalOp.Spec Verif.Tested Matrix
open TaylorHood (Dof)
open DGFlow (FaceDof)

variable {K P Q : Type} [Field K] {d n m : Nat}

/-! ### C176 -/

/-- The orders of the quadrature rules. The data on the boundary are integrated with the same rule as the terms that they are
subtracted from. -/
theorem C176_orders (d k : Nat) (s : Int) :
    DGFlow.volumeOrder d k true s = 3 * k - 1 + s ∧ DGFlow.volumeOrder d k false s = 3 * k - 1 + d + s ∧
    DGFlow.skeletonOrder d k true s = 2 * k + s ∧ DGFlow.skeletonOrder d k false s = 2 * k + (d - 2) + s ∧
    DGFlow.boundaryOrder d k true s = 2 * k + s ∧ DGFlow.boundaryOrder d k false s = 2 * k + (d - 1) + s ∧
    (∀ simplex, DGFlow.lambdaBoundaryOrder d k simplex s = DGFlow.boundaryOrder d k simplex s) := by
  refine ⟨?_, ?_, ?_, ?_, ?_, ?_, fun simplex => ?_⟩
  all_goals try (simp [DGFlow.volumeOrder, DGFlow.skeletonOrder, DGFlow.boundaryOrder] <;> ring)
  cases simplex <;> simp [DGFlow.lambdaBoundaryOrder, DGFlow.boundaryOrder] <;> ring

/-- In a cell, the residual of (u,p) tested with (v,q) is the quadrature of σ(u):∇v - p div v + ρ(u·∇)u·v - s q div u (without the
convective term for the Stokes equations), where s is the scaling of the incompressibility condition, and the source is the quadrature
of g₂q - f·v. -/
theorem C176_cell (isSimplex : Bool) (o : Int) (dt : K) (par : DGFlow.Param K P Q d) (geo : CellGeo K P d)
    (v : Basis K P d n) (p : Basis K P d m) (x y : Dof d n m → K) :
    tested (DGFlow.alphaVolume isSimplex o dt par geo v p x) y =
      quadrature (geo.quadratureRule (DGFlow.volumeOrder d v.order isSimplex o)) geo.integrationElement (fun pt =>
        let u := flowTrace (fun p i => geo.jacobianInverseTransposed p *ᵥ v.js p i) v.phi p.phi x pt
        let w := flowTrace (fun p i => geo.jacobianInverseTransposed p *ᵥ v.js p i) v.phi p.phi y pt
        flowDensity par.navier par.fullTensor (par.mu pt) (par.rho pt) u.grad u.vel u.pres w.grad w.vel
          (par.incompressibilityScaling dt * w.pres)) ∧
    tested (DGFlow.lambdaVolume isSimplex o par geo v p) y =
      quadrature (geo.quadratureRule (DGFlow.boundaryOrder d v.order isSimplex o)) geo.integrationElement (fun pt =>
        let w := flowTrace (fun p i => geo.jacobianInverseTransposed p *ᵥ v.js p i) v.phi p.phi y pt
        par.g2 pt * w.pres - par.f pt ⬝ᵥ w.vel) :=
  ⟨dgflow_volume isSimplex o dt par geo v p x y, dgflow_source isSimplex o par geo v p y⟩

/-- On a face between two cells the residual, tested on both sides, is the quadrature of the interior penalty terms
-{σ(u)}n·[v] + ε{σ(v)}n·[u] + μγ[u]·[v] + {p}[v]·n + s{q}[u]·n. -/
theorem C176_face (isSimplex : Bool) (o : Int) (dt : K) (par : DGFlow.Param K P Q d) (geo : FaceGeo K P Q d)
    (geoIn geoOut : CellGeo K P d) (vS vN : Basis K P d n) (pS pN : Basis K P d m) (xS xN : Dof d n m → K)
    (y : FaceDof d n m → K) :
    tested (DGFlow.alphaSkeleton isSimplex o dt par geo geoIn geoOut vS vN pS pN xS xN) y =
      quadrature (geo.quadratureRule (DGFlow.skeletonOrder d vS.order isSimplex o)) geo.integrationElement (fun q =>
        let traceS := flowTrace (fun p i => geoIn.jacobianInverseTransposed p *ᵥ vS.js p i) vS.phi pS.phi
        let traceN := flowTrace (fun p i => geoOut.jacobianInverseTransposed p *ᵥ vN.js p i) vN.phi pN.phi
        flowFace par.fullTensor (par.muFace q) (par.faceIP geo.volume geoIn.volume geoOut.volume) par.epsilon
          (par.incompressibilityScaling dt) (geo.unitOuterNormal q)
          (traceS xS (geo.inInside q)) (traceN xN (geo.inOutside q))
          (traceS (y ∘ Sum.inl) (geo.inInside q)) (traceN (y ∘ Sum.inr) (geo.inOutside q))) :=
  dgflow_skeleton isSimplex o dt par geo geoIn geoOut vS vN pS pN xS xN y

private theorem slip_eq (par : DGFlow.Param K P Q d) (q : Q) : par.slip q = (par.boundarySlip.map fun s => s q).getD 1 := by
  unfold DGFlow.Param.slip
  cases par.boundarySlip <;> rfl

/-- At the boundary, the residual and the data together are the quadrature of the weak form of the boundary condition: Nitsche's
method for the velocity g on Dirichlet boundaries, for u·n = 0 (and, by the proportion 1 - s, for u = 0) on slip boundaries, the
traction j on Neumann boundaries, and nothing elsewhere. The proportion s is `boundarySlip`, and 1 for classes without this function. -/
theorem C176_boundary (isSimplex : Bool) (o : Int) (dt : K) (par : DGFlow.Param K P Q d) (geo : FaceGeo K P Q d)
    (geoIn : CellGeo K P d) (v : Basis K P d n) (p : Basis K P d m) (x y : Dof d n m → K) :
    tested (DGFlow.alphaBoundary isSimplex o dt par geo geoIn v p x) y +
      tested (DGFlow.lambdaBoundary isSimplex o dt par geo geoIn v p) y =
      quadrature (geo.quadratureRule (DGFlow.boundaryOrder d v.order isSimplex o)) geo.integrationElement (fun q =>
        let penalty := par.boundaryIP geo.volume geoIn.volume
        let scale := par.incompressibilityScaling dt
        let u := flowTrace (fun p i => geoIn.jacobianInverseTransposed p *ᵥ v.js p i) v.phi p.phi x (geo.inInside q)
        let w := flowTrace (fun p i => geoIn.jacobianInverseTransposed p *ᵥ v.js p i) v.phi p.phi y (geo.inInside q)
        if par.bctype q = .velocityDirichlet then
          flowDirichlet par.fullTensor (par.muFace q) penalty par.epsilon scale (geo.unitOuterNormal q) (par.g (geo.inInside q)) u w
        else if par.bctype q = .slipVelocity then
          flowSlip par.fullTensor (par.muFace q) penalty par.epsilon scale ((par.boundarySlip.map fun s => s q).getD 1)
            (geo.unitOuterNormal q) u w
        else if par.bctype q = .stressNeumann then par.j q ⬝ᵥ w.vel
        else 0) := by
  rw [dgflow_boundary, dgflow_boundary_data, ← quadrature_add']
  refine quadrature_congr _ _ _ _ fun q _ => ?_
  rw [← slip_eq]
  unfold boundaryForm
  cases par.bctype q.1
  · simp
  · simp only [if_true]
    change _ = flowDirichlet par.fullTensor (par.muFace q.1) _ _ _ _ _ (traceAt geoIn v p x (geo.inInside q.1))
      (traceAt geoIn v p y (geo.inInside q.1))
    unfold flowDirichlet
    simp only [sub_dotProduct, dotProduct_sub, sub_zero]
    ring
  · simp; rfl
  · simp; rfl

private theorem add_eq_one_smul {ι : Type} (x z : ι → K) : x + z = x + (1 : K) • z := by rw [one_smul]

/-- The matrices are the derivatives of the residuals: in the cells, where the residual is quadratic, and on the faces and the
boundary, where it is affine. -/
theorem C176_jacobian (isSimplex : Bool) (o : Int) (dt : K) (par : DGFlow.Param K P Q d) (cell : CellGeo K P d)
    (face : FaceGeo K P Q d) (geoIn geoOut : CellGeo K P d) (v vS vN : Basis K P d n) (p pS pN : Basis K P d m) :
    IsDerivative (fun x => total (DGFlow.alphaVolume isSimplex o dt par cell v p x))
      (fun x => total (DGFlow.jacobianVolume isSimplex o dt par cell v p x)) ∧
    IsAffineWith
      (fun x : FaceDof d n m → K =>
        total (DGFlow.alphaSkeleton isSimplex o dt par face geoIn geoOut vS vN pS pN (x ∘ Sum.inl) (x ∘ Sum.inr)))
      (total (DGFlow.jacobianSkeleton isSimplex o dt par face geoIn geoOut vS vN pS pN)) ∧
    IsAffineWith (fun x => total (DGFlow.alphaBoundary isSimplex o dt par face geoIn v p x))
      (total (DGFlow.jacobianBoundary isSimplex o dt par face geoIn v p)) := by
  refine ⟨derivative_of_tested _ _ fun x z y => ?_, affine_of_tested _ _ fun x z y => ?_, affine_of_tested _ _ fun x z y => ?_⟩
  · refine ⟨quadrature (cell.quadratureRule (DGFlow.volumeOrder d v.order isSimplex o)) cell.integrationElement fun pt =>
      cellSecond par.navier (par.rho pt) (traceAt cell v p z pt) (traceAt cell v p y pt), fun t => ?_⟩
    rw [dgflow_volume, dgflow_volume, dgflow_volume_jacobian, ← quadrature_smul', ← quadrature_smul', ← quadrature_add',
      ← quadrature_add']
    refine quadrature_congr _ _ _ _ fun q _ => ?_
    unfold cellDensity cellLinearised traceAt
    rw [flowTrace_lin, flowDensity_lin]
  · rw [dgflow_skeleton, dgflow_skeleton, dgflow_skeleton_jacobian, ← quadrature_add']
    refine quadrature_congr _ _ _ _ fun q _ => ?_
    have e1 : (x + z) ∘ Sum.inl = x ∘ Sum.inl + (1 : K) • (z ∘ Sum.inl) := by rw [one_smul]; rfl
    have e2 : (x + z) ∘ Sum.inr = x ∘ Sum.inr + (1 : K) • (z ∘ Sum.inr) := by rw [one_smul]; rfl
    unfold traceAt
    rw [e1, e2, flowTrace_lin, flowTrace_lin, flowFace_lin, one_mul]
  · rw [dgflow_boundary, dgflow_boundary, dgflow_boundary_jacobian, ← quadrature_add']
    refine quadrature_congr _ _ _ _ fun q _ => ?_
    unfold traceAt boundaryForm
    rw [add_eq_one_smul, flowTrace_lin]
    cases par.bctype q.1
    · simp
    · simp only; rw [flowDirichlet_lin, one_mul]
    · simp
    · simp only; rw [flowSlip_lin, one_mul]

/-- With ε = -1 and an unscaled incompressibility condition the matrices on faces and boundary are symmetric, and so is that in the
cells for the Stokes equations. -/
theorem C176_symmetric (isSimplex : Bool) (o : Int) (dt : K) (par : DGFlow.Param K P Q d) (cell : CellGeo K P d)
    (face : FaceGeo K P Q d) (geoIn geoOut : CellGeo K P d) (v vS vN : Basis K P d n) (p pS pN : Basis K P d m)
    (he : par.epsilon = -1) (hs : par.incompressibilityScaling dt = 1) :
    Symmetric (total (DGFlow.jacobianSkeleton isSimplex o dt par face geoIn geoOut vS vN pS pN)) ∧
    Symmetric (total (DGFlow.jacobianBoundary isSimplex o dt par face geoIn v p)) ∧
    (par.navier = false → ∀ x, Symmetric (total (DGFlow.jacobianVolume isSimplex o dt par cell v p x))) := by
  refine ⟨symmetric_of_bilinear _ fun y z => ?_, symmetric_of_bilinear _ fun y z => ?_,
    fun hn x => symmetric_of_bilinear _ fun y z => ?_⟩
  · rw [dgflow_skeleton_jacobian, dgflow_skeleton_jacobian]
    refine quadrature_congr _ _ _ _ fun q _ => ?_
    rw [he, hs, show ((-1 : Int) : K) = -1 by simp, flowFace_symm]
  · rw [dgflow_boundary_jacobian, dgflow_boundary_jacobian]
    refine quadrature_congr _ _ _ _ fun q _ => ?_
    unfold boundaryForm
    rw [he, hs, show ((-1 : Int) : K) = -1 by simp]
    cases par.bctype q.1
    · rfl
    · exact flowDirichlet_symm _ _ _ _ _ _
    · rfl
    · exact flowSlip_symm _ _ _ _ _ _ _
  · rw [dgflow_volume_jacobian, dgflow_volume_jacobian]
    refine quadrature_congr _ _ _ _ fun q _ => ?_
    unfold cellLinearised
    rw [hs, hn, stokes_symm]
    simp

/-- The same face seen from the other cell. -/
def flippedFace (geo : FaceGeo K P Q d) : FaceGeo K P Q d :=
  { geo with inInside := geo.inOutside, inOutside := geo.inInside, centerUnitOuterNormal := -geo.centerUnitOuterNormal,
             unitOuterNormal := -geo.unitOuterNormal }

/-- It does not matter from which of its two cells a face is visited, if both have elements of the same order and the penalty does
not tell them apart. -/
theorem C176_orientation (isSimplex : Bool) (o : Int) (dt : K) (par : DGFlow.Param K P Q d) (geo : FaceGeo K P Q d)
    (geoIn geoOut : CellGeo K P d) (vS vN : Basis K P d n) (pS pN : Basis K P d m) (hk : vS.order = vN.order)
    (hip : par.faceIP geo.volume geoIn.volume geoOut.volume = par.faceIP geo.volume geoOut.volume geoIn.volume)
    (x : FaceDof d n m → K) (i : FaceDof d n m) :
    total (DGFlow.alphaSkeleton isSimplex o dt par (flippedFace geo) geoOut geoIn vN vS pN pS (x ∘ Sum.inr) (x ∘ Sum.inl)) i.swap =
      total (DGFlow.alphaSkeleton isSimplex o dt par geo geoIn geoOut vS vN pS pN (x ∘ Sum.inl) (x ∘ Sum.inr)) i := by
  rw [← tested_single, ← tested_single, dgflow_skeleton, dgflow_skeleton]
  have e1 : (Pi.single i.swap 1 : FaceDof d n m → K) ∘ Sum.inl = (Pi.single i 1 : FaceDof d n m → K) ∘ Sum.inr := by
    funext j; cases i <;> simp [Pi.single_apply]
  have e2 : (Pi.single i.swap 1 : FaceDof d n m → K) ∘ Sum.inr = (Pi.single i 1 : FaceDof d n m → K) ∘ Sum.inl := by
    funext j; cases i <;> simp [Pi.single_apply]
  rw [e1, e2, ← hk]
  change quadrature (geo.quadratureRule _) geo.integrationElement _ = _
  refine quadrature_congr _ _ _ _ fun q _ => ?_
  change flowFace _ _ (par.faceIP geo.volume geoOut.volume geoIn.volume) _ _ (-geo.unitOuterNormal q.1) _ _ _ _ = _
  rw [← hip]
  exact flowFace_swap _ _ _ _ _ _ _ _ _ _

/-- Momentum is conserved: a face exchanges it between its two cells. Whatever (u,p) is, a test velocity that is the same constant on
both sides gives no contribution. -/
theorem C176_conservative (isSimplex : Bool) (o : Int) (dt : K) (par : DGFlow.Param K P Q d) (geo : FaceGeo K P Q d)
    (geoIn geoOut : CellGeo K P d) (vS vN : Basis K P d n) (pS pN : Basis K P d m) (xS xN : Dof d n m → K)
    (y : FaceDof d n m → K) (a : Fin d → K) (hp : ∀ i, y (DGFlow.sp i) = 0 ∧ y (DGFlow.np i) = 0)
    (ha : ∀ q ∈ geo.quadratureRule (DGFlow.skeletonOrder d vS.order isSimplex o),
      femFunction vS.phi ((y ∘ Sum.inl) ∘ Sum.inl) (geo.inInside q.1) = a ∧
      femFunction vN.phi ((y ∘ Sum.inr) ∘ Sum.inl) (geo.inOutside q.1) = a ∧
      femGradient (fun p i => geoIn.jacobianInverseTransposed p *ᵥ vS.js p i) ((y ∘ Sum.inl) ∘ Sum.inl) (geo.inInside q.1) = 0 ∧
      femGradient (fun p i => geoOut.jacobianInverseTransposed p *ᵥ vN.js p i) ((y ∘ Sum.inr) ∘ Sum.inl) (geo.inOutside q.1) = 0) :
    tested (DGFlow.alphaSkeleton isSimplex o dt par geo geoIn geoOut vS vN pS pN xS xN) y = 0 := by
  rw [dgflow_skeleton, ← quadrature_zero' (geo.quadratureRule (DGFlow.skeletonOrder d vS.order isSimplex o)) geo.integrationElement]
  refine quadrature_congr _ _ _ _ fun q hq => ?_
  obtain ⟨h1, h2, h3, h4⟩ := ha q hq
  refine flowFace_continuous _ _ _ _ _ _ _ _ _ _ (h1.trans h2.symm) h3 h4 ?_ ?_
  · change ∑ i, y (DGFlow.sp i) * pS.phi (geo.inInside q.1) i = 0
    exact Finset.sum_eq_zero fun i _ => by rw [(hp i).1, zero_mul]
  · change ∑ i, y (DGFlow.np i) * pN.phi (geo.inOutside q.1) i = 0
    exact Finset.sum_eq_zero fun i _ => by rw [(hp i).2, zero_mul]

/-- Consistency: if velocity, gradient and pressure are the same on both sides, what is left on a face is the work of the stress
σ(u)n - pn on the jump of the test function, for every ε, penalty and scaling; in particular nothing for a test function without
jump. -/
theorem C176_consistent (h2 : (2 : K) ≠ 0) (isSimplex : Bool) (o : Int) (dt : K) (par : DGFlow.Param K P Q d) (geo : FaceGeo K P Q d)
    (geoIn geoOut : CellGeo K P d) (vS vN : Basis K P d n) (pS pN : Basis K P d m) (xS xN : Dof d n m → K)
    (y : FaceDof d n m → K)
    (hu : ∀ q ∈ geo.quadratureRule (DGFlow.skeletonOrder d vS.order isSimplex o),
      flowTrace (fun p i => geoIn.jacobianInverseTransposed p *ᵥ vS.js p i) vS.phi pS.phi xS (geo.inInside q.1) =
      flowTrace (fun p i => geoOut.jacobianInverseTransposed p *ᵥ vN.js p i) vN.phi pN.phi xN (geo.inOutside q.1)) :
    tested (DGFlow.alphaSkeleton isSimplex o dt par geo geoIn geoOut vS vN pS pN xS xN) y =
      -quadrature (geo.quadratureRule (DGFlow.skeletonOrder d vS.order isSimplex o)) geo.integrationElement (fun q =>
        let u := flowTrace (fun p i => geoIn.jacobianInverseTransposed p *ᵥ vS.js p i) vS.phi pS.phi xS (geo.inInside q)
        (traction par.fullTensor (par.muFace q) (geo.unitOuterNormal q) u - u.pres • geo.unitOuterNormal q) ⬝ᵥ
          (femFunction vS.phi ((y ∘ Sum.inl) ∘ Sum.inl) (geo.inInside q) -
            femFunction vN.phi ((y ∘ Sum.inr) ∘ Sum.inl) (geo.inOutside q))) := by
  rw [dgflow_skeleton, ← quadrature_neg']
  refine quadrature_congr _ _ _ _ fun q hq => ?_
  have h := hu q hq
  exact flowFace_consistent h2 _ _ _ _ _ _ _ _ _ _ (congrArg Trace.vel h) (congrArg Trace.grad h) (congrArg Trace.pres h)

private theorem slip_range [LinearOrder K] [IsStrictOrderedRing K] (par : DGFlow.Param K P Q d)
    (h : ∀ s, par.boundarySlip = some s → ∀ q, 0 ≤ s q ∧ s q ≤ 1) (q : Q) : 0 ≤ par.slip q ∧ par.slip q ≤ 1 := by
  unfold DGFlow.Param.slip
  cases e : par.boundarySlip with
  | none => exact ⟨zero_le_one, le_refl _⟩
  | some s => exact h s e q

/-- Stability of the non-symmetric method (ε = 1): tested with the velocity itself and the pressure times -1/s, the pressure terms
cancel, and no face, boundary or (for the Stokes equations) cell produces energy, whatever the nonnegative penalty is. On a face the
dissipation is exactly μγ|[u]|². -/
theorem C176_dissipation [LinearOrder K] [IsStrictOrderedRing K] (isSimplex : Bool) (o : Int) (dt : K) (par : DGFlow.Param K P Q d)
    (cell : CellGeo K P d) (face : FaceGeo K P Q d) (geoIn geoOut : CellGeo K P d) (v vS vN : Basis K P d n)
    (p pS pN : Basis K P d m) (he : par.epsilon = 1) (hs : par.incompressibilityScaling dt ≠ 0)
    (hmu : (∀ pt, 0 ≤ par.mu pt) ∧ ∀ q, 0 ≤ par.muFace q)
    (hip : 0 ≤ par.faceIP face.volume geoIn.volume geoOut.volume ∧ 0 ≤ par.boundaryIP face.volume geoIn.volume)
    (hslip : ∀ s, par.boundarySlip = some s → ∀ q, 0 ≤ s q ∧ s q ≤ 1)
    (hw : (∀ k, ∀ q ∈ cell.quadratureRule k, 0 ≤ q.2 * cell.integrationElement q.1) ∧
      ∀ k, ∀ q ∈ face.quadratureRule k, 0 ≤ q.2 * face.integrationElement q.1) :
    (∀ x xS xN : Dof d n m → K,
      let test := fun x : Dof d n m → K => Sum.elim (x ∘ Sum.inl) (-((par.incompressibilityScaling dt)⁻¹ • (x ∘ Sum.inr)))
      (par.navier = false → 0 ≤ tested (DGFlow.alphaVolume isSimplex o dt par cell v p x) (test x)) ∧
      tested (DGFlow.alphaSkeleton isSimplex o dt par face geoIn geoOut vS vN pS pN xS xN) (Sum.elim (test xS) (test xN)) =
        quadrature (face.quadratureRule (DGFlow.skeletonOrder d vS.order isSimplex o)) face.integrationElement (fun q =>
          let jump := femFunction vS.phi (xS ∘ Sum.inl) (face.inInside q) - femFunction vN.phi (xN ∘ Sum.inl) (face.inOutside q)
          par.muFace q * par.faceIP face.volume geoIn.volume geoOut.volume * (jump ⬝ᵥ jump)) ∧
      0 ≤ tested (DGFlow.alphaSkeleton isSimplex o dt par face geoIn geoOut vS vN pS pN xS xN) (Sum.elim (test xS) (test xN)) ∧
      0 ≤ tested (DGFlow.alphaBoundary isSimplex o dt par face geoIn v p x) (test x)) := by
  intro x xS xN test
  have ht : ∀ (psi : P → Fin m → K) (x : Dof d n m → K) (pt : P),
      femScalar psi (test x ∘ Sum.inr) pt = -(femScalar psi (x ∘ Sum.inr) pt / par.incompressibilityScaling dt) := by
    intro psi x pt
    change femScalar psi (-((par.incompressibilityScaling dt)⁻¹ • (x ∘ Sum.inr))) pt = _
    unfold femScalar
    rw [Finset.sum_div, ← Finset.sum_neg_distrib]
    refine Finset.sum_congr rfl fun i _ => ?_
    simp only [Pi.neg_apply, Pi.smul_apply, smul_eq_mul]
    field_simp
  have he1 : ((par.epsilon : Int) : K) = 1 := by rw [he]; simp
  have hf := dgflow_skeleton isSimplex o dt par face geoIn geoOut vS vN pS pN xS xN (Sum.elim (test xS) (test xN))
  have hface : ∀ q, flowFace par.fullTensor (par.muFace q) (par.faceIP face.volume geoIn.volume geoOut.volume) par.epsilon
      (par.incompressibilityScaling dt) (face.unitOuterNormal q)
      (traceAt geoIn vS pS xS (face.inInside q)) (traceAt geoOut vN pN xN (face.inOutside q))
      (traceAt geoIn vS pS (Sum.elim (test xS) (test xN) ∘ Sum.inl) (face.inInside q))
      (traceAt geoOut vN pN (Sum.elim (test xS) (test xN) ∘ Sum.inr) (face.inOutside q)) =
      par.muFace q * par.faceIP face.volume geoIn.volume geoOut.volume *
        ((femFunction vS.phi (xS ∘ Sum.inl) (face.inInside q) - femFunction vN.phi (xN ∘ Sum.inl) (face.inOutside q)) ⬝ᵥ
        (femFunction vS.phi (xS ∘ Sum.inl) (face.inInside q) - femFunction vN.phi (xN ∘ Sum.inl) (face.inOutside q))) := by
    intro q
    rw [he1]
    exact (flowFace_stable par.fullTensor _ _ _ (hmu.2 q) hip.1 hs (face.unitOuterNormal q)
      (traceAt geoIn vS pS xS (face.inInside q)) (traceAt geoOut vN pN xN (face.inOutside q))
      (traceAt geoIn vS pS (test xS) (face.inInside q)) (traceAt geoOut vN pN (test xN) (face.inOutside q))
      rfl rfl rfl rfl (ht pS.phi xS _) (ht pN.phi xN _)).1
  refine ⟨fun hn => ?_, ?_, ?_, ?_⟩
  · rw [dgflow_volume]
    refine quadrature_nonneg' _ _ _ (fun q _ => ?_) (hw.1 _)
    unfold cellDensity
    rw [hn]
    exact flowDensity_stable _ _ _ _ (hmu.1 q.1) hs _ _ rfl (ht p.phi x _)
  · rw [hf]
    exact quadrature_congr _ _ _ _ fun q _ => hface q.1
  · rw [hf]
    refine quadrature_nonneg' _ _ _ (fun q _ => ?_) (hw.2 _)
    rw [hface]
    exact mul_nonneg (mul_nonneg (hmu.2 q.1) hip.1) (dot_self_nonneg _)
  · rw [dgflow_boundary]
    refine quadrature_nonneg' _ _ _ (fun q _ => ?_) (hw.2 _)
    unfold boundaryForm
    rw [he1]
    cases par.bctype q.1
    · exact le_refl _
    · exact flowDirichlet_stable _ _ _ _ (hmu.2 q.1) hip.2 hs _ _ _ rfl rfl (ht p.phi x _)
    · exact le_refl _
    · exact flowSlip_stable _ _ _ _ _ (hmu.2 q.1) hip.2 hs (slip_range par hslip q.1).1 (slip_range par hslip q.1).2 _ _ _ rfl rfl (ht p.phi x _)

/-- The continuity equation div u = g₂, if its scaling is 1: a velocity that satisfies it leaves no residual in a cell for any test
pressure, provided that the two quadrature rules agree on g₂q. For other scalings this is false, see `C176_continuity_false`: the
operator scales div u but not g₂. -/
theorem C176_continuity_partial (isSimplex : Bool) (o : Int) (dt : K) (par : DGFlow.Param K P Q d) (geo : CellGeo K P d)
    (v : Basis K P d n) (p : Basis K P d m) (x : Dof d n m → K) (yp : Fin m → K)
    (hs : par.incompressibilityScaling dt = 1)
    (hdiv : ∀ q ∈ geo.quadratureRule (DGFlow.volumeOrder d v.order isSimplex o),
      (femGradient (fun p i => geo.jacobianInverseTransposed p *ᵥ v.js p i) (x ∘ Sum.inl) q.1).trace = par.g2 q.1)
    (hrule : quadrature (geo.quadratureRule (DGFlow.volumeOrder d v.order isSimplex o)) geo.integrationElement
        (fun pt => par.g2 pt * femScalar p.phi yp pt) =
      quadrature (geo.quadratureRule (DGFlow.boundaryOrder d v.order isSimplex o)) geo.integrationElement
        (fun pt => par.g2 pt * femScalar p.phi yp pt)) :
    tested (DGFlow.alphaVolume isSimplex o dt par geo v p x) (Sum.elim 0 yp) +
      tested (DGFlow.lambdaVolume isSimplex o par geo v p) (Sum.elim 0 yp) = 0 := by
  have e1 : ∀ pt, (traceAt geo v p (Sum.elim 0 yp) pt).vel = 0 := by
    intro pt; funext c
    change ∑ i, (0 : K) * v.phi pt i = 0
    simp
  have e2 : ∀ pt, (traceAt geo v p (Sum.elim 0 yp) pt).grad = 0 := by
    intro pt; ext c k
    change ∑ i, (0 : K) * gradients geo v pt i k = 0
    simp
  have e3 : ∀ pt, (traceAt geo v p (Sum.elim 0 yp) pt).pres = femScalar p.phi yp pt := fun _ => rfl
  rw [dgflow_volume, dgflow_source]
  have a1 : quadrature (geo.quadratureRule (DGFlow.volumeOrder d v.order isSimplex o)) geo.integrationElement (fun pt =>
      cellDensity par (par.incompressibilityScaling dt) pt (traceAt geo v p x pt) (traceAt geo v p (Sum.elim 0 yp) pt)) =
      -quadrature (geo.quadratureRule (DGFlow.volumeOrder d v.order isSimplex o)) geo.integrationElement
        (fun pt => par.g2 pt * femScalar p.phi yp pt) := by
    rw [← quadrature_neg']
    refine quadrature_congr _ _ _ _ fun q hq => ?_
    unfold cellDensity flowDensity
    rw [e1, e2, e3, hs, ← hdiv q hq]
    change _ = -((traceAt geo v p x q.1).grad.trace * _)
    cases par.navier <;> simp [contract, mul_comm]
  have a2 : quadrature (geo.quadratureRule (DGFlow.boundaryOrder d v.order isSimplex o)) geo.integrationElement (fun pt =>
      par.g2 pt * (traceAt geo v p (Sum.elim 0 yp) pt).pres - par.f pt ⬝ᵥ (traceAt geo v p (Sum.elim 0 yp) pt).vel) =
      quadrature (geo.quadratureRule (DGFlow.boundaryOrder d v.order isSimplex o)) geo.integrationElement
        (fun pt => par.g2 pt * femScalar p.phi yp pt) :=
    quadrature_congr _ _ _ _ fun q _ => by rw [e1, e3]; simp
  rw [a1, a2, ← hrule, neg_add_cancel]

/-- Two linear functions on a cell of the plane. -/
def exFlowFe : Basis Rat Unit 2 2 := ⟨1, fun _ => ![1, 2], fun _ => ![![0, 0], ![1, 1]]⟩
def exFlowP : Basis Rat Unit 2 1 := ⟨0, fun _ => ![1], fun _ => ![![0, 0]]⟩
def exFlowCell : CellGeo Rat Unit 2 := ⟨(), 2, fun _ => 0, fun _ => 4, fun _ => !![1/2, 0; 1, 1/2], fun _ => [((), 1/2)]⟩
def exFlowFace : FaceGeo Rat Unit Unit 2 :=
  ⟨(), 1, 3, fun _ => 0, fun _ => 3, fun _ => (), fun _ => (), ![3/5, 4/5], fun _ => ![3/5, 4/5], fun _ => [((), 1)]⟩
/-- Parameters with penalty 10 |face| / |cell|, incompressibility condition scaled by 1/dt. -/
def exFlowPar (navier full : Bool) (b : TaylorHood.BoundaryType) (eps : Int) : DGFlow.Param Rat Unit Unit 2 :=
  ⟨navier, full, fun _ => 2, fun _ => 3, fun _ => 2, fun _ => ![1, -1], fun _ => ![1, 2], fun _ => 3, fun _ => b, fun _ => ![5, 7], eps,
    none, defaultIncompressibilityScaling, defaultFaceIP 10, defaultBoundaryIP 10⟩

/-- With time steps of another length than 1 the residual of the continuity equation is not that of div u = g₂: here div u = g₂ = 3 and
dt = 1/2, and the residual is not zero. -/
theorem C176_continuity_false :
    ∃ (par : DGFlow.Param Rat Unit Unit 2) (x : Dof 2 2 1 → Rat),
      par.incompressibilityScaling = defaultIncompressibilityScaling ∧
      (∀ q ∈ exFlowCell.quadratureRule (DGFlow.volumeOrder 2 exFlowFe.order true 0),
        (femGradient (fun p i => exFlowCell.jacobianInverseTransposed p *ᵥ exFlowFe.js p i) (x ∘ Sum.inl) q.1).trace = par.g2 q.1) ∧
      tested (DGFlow.alphaVolume true 0 1 par exFlowCell exFlowFe exFlowP x) (Sum.elim 0 1) +
        tested (DGFlow.lambdaVolume true 0 par exFlowCell exFlowFe exFlowP) (Sum.elim 0 1) = 0 ∧
      tested (DGFlow.alphaVolume true 0 (1 / 2) par exFlowCell exFlowFe exFlowP x) (Sum.elim 0 1) +
        tested (DGFlow.lambdaVolume true 0 par exFlowCell exFlowFe exFlowP) (Sum.elim 0 1) ≠ 0 := by
  refine ⟨exFlowPar false true .velocityDirichlet 1, Sum.elim (fun ci => if ci = (0, 1) then 6 else 0) 0, rfl, ?_, ?_, ?_⟩
  · decide +kernel
  · decide +kernel
  · decide +kernel

/-- The hypotheses of the theorems are met, and the matrices and residuals are not zero. -/
example : (exFlowPar false true .velocityDirichlet (-1)).epsilon = -1 ∧
    (exFlowPar false true .velocityDirichlet (-1)).incompressibilityScaling 1 = 1 ∧
    total (DGFlow.jacobianSkeleton true 0 1 (exFlowPar false true .velocityDirichlet (-1)) exFlowFace exFlowCell exFlowCell exFlowFe exFlowFe
      exFlowP exFlowP) (DGFlow.sv 0 1, DGFlow.nv 1 1) ≠ 0 ∧
    total (DGFlow.jacobianBoundary true 0 1 (exFlowPar false true .slipVelocity (-1)) exFlowFace exFlowCell exFlowFe exFlowP)
      (.inl (0, 1), .inl (1, 0)) ≠ 0 ∧
    (exFlowPar true true .velocityDirichlet 1).faceIP 3 2 5 = (exFlowPar true true .velocityDirichlet 1).faceIP 3 5 2 ∧
    (∀ s, (exFlowPar true true .slipVelocity 1).boundarySlip = some s → ∀ q, 0 ≤ s q ∧ s q ≤ 1) := by
  refine ⟨rfl, by decide +kernel, by decide +kernel, by decide +kernel, by decide +kernel, by decide +kernel⟩

/-- The test velocity (2,5) on both sides of a face. -/
example : let y : FaceDof 2 2 1 → Rat := fun i => if i = DGFlow.sv 0 0 ∨ i = DGFlow.nv 0 0 then 2 else
      if i = DGFlow.sv 1 0 ∨ i = DGFlow.nv 1 0 then 5 else 0
    (∀ i, y (DGFlow.sp i) = 0 ∧ y (DGFlow.np i) = 0) ∧
    femFunction exFlowFe.phi ((y ∘ Sum.inl) ∘ Sum.inl) () = ![2, 5] ∧
    femFunction exFlowFe.phi ((y ∘ Sum.inr) ∘ Sum.inl) () = ![2, 5] ∧
    femGradient (fun p i => exFlowCell.jacobianInverseTransposed p *ᵥ exFlowFe.js p i) ((y ∘ Sum.inl) ∘ Sum.inl) () = 0 ∧
    total (DGFlow.alphaSkeleton true 0 1 (exFlowPar false true .velocityDirichlet 1) exFlowFace exFlowCell exFlowCell exFlowFe exFlowFe
      exFlowP exFlowP (fun _ => 1) (fun _ => 2)) (DGFlow.sv 0 0) ≠ 0 := by
  refine ⟨by decide +kernel, by decide +kernel, by decide +kernel, by decide +kernel, by decide +kernel⟩

/-! ### C177 -/

/-- The weak form that the operator for vector valued shape functions assembles: as for the other operator, without the transposed
gradient in the stress, without g₂, and without any term on slip boundaries. The data on the boundary are part of `alpha_boundary`. -/
theorem C177_weak_form_partial {n' m' : Nat} (isSimplex : Bool) (o : Int) (dt : K) (par : DGFlow.Param K P Q d) (cell : CellGeo K P d)
    (face : FaceGeo K P Q d) (geoIn geoOut : CellGeo K P d) (v : VectorBasis K P d n) (p : Basis K P d m)
    (vN : VectorBasis K P d n') (pN : Basis K P d m') (x y : Fin n ⊕ Fin m → K) (xN yN : Fin n' ⊕ Fin m' → K) :
    let trace := flowTraceVec (DGFlowVec.jacobians cell v) v.phi p.phi
    let traceS := flowTraceVec (DGFlowVec.jacobians geoIn v) v.phi p.phi
    let traceN := flowTraceVec (DGFlowVec.jacobians geoOut vN) vN.phi pN.phi
    tested (DGFlowVec.alphaVolume isSimplex o dt par cell v p x) y =
      quadrature (cell.quadratureRule (DGFlow.volumeOrder d v.order isSimplex o)) cell.integrationElement (fun pt =>
        flowDensity par.navier false (par.mu pt) (par.rho pt) (trace x pt).grad (trace x pt).vel (trace x pt).pres
          (trace y pt).grad (trace y pt).vel (par.incompressibilityScaling dt * (trace y pt).pres)) ∧
    tested (DGFlowVec.lambdaVolume isSimplex o par cell v) y =
      -quadrature (cell.quadratureRule (DGFlow.boundaryOrder d v.order isSimplex o)) cell.integrationElement (fun pt =>
        par.f pt ⬝ᵥ (trace y pt).vel) ∧
    tested (DGFlowVec.alphaSkeleton isSimplex o dt par face geoIn geoOut v vN p pN x xN) (Sum.elim y yN) =
      quadrature (face.quadratureRule (DGFlow.skeletonOrder d v.order isSimplex o)) face.integrationElement (fun q =>
        flowFace false (par.muFace q) (par.faceIP face.volume geoIn.volume geoOut.volume) par.epsilon
          (par.incompressibilityScaling dt) (face.unitOuterNormal q)
          (traceS x (face.inInside q)) (traceN xN (face.inOutside q)) (traceS y (face.inInside q)) (traceN yN (face.inOutside q))) ∧
    tested (DGFlowVec.alphaBoundary isSimplex o dt par face geoIn v p x) y =
      quadrature (face.quadratureRule (DGFlow.boundaryOrder d v.order isSimplex o)) face.integrationElement (fun q =>
        if par.bctype q = .velocityDirichlet then
          flowDirichlet false (par.muFace q) (par.boundaryIP face.volume geoIn.volume) par.epsilon (par.incompressibilityScaling dt)
            (face.unitOuterNormal q) (par.g (face.inInside q)) (traceS x (face.inInside q)) (traceS y (face.inInside q))
        else if par.bctype q = .stressNeumann then par.j q ⬝ᵥ (traceS y (face.inInside q)).vel
        else 0) := by
  intro trace traceS traceN
  refine ⟨vec_volume isSimplex o dt par cell v p x y, ?_, vec_skeleton isSimplex o dt par face geoIn geoOut v vN p pN x xN (Sum.elim y yN), ?_⟩
  · rw [← quadrature_neg']
    exact vec_source isSimplex o par cell v p y
  · rw [vec_boundary]
    refine quadrature_congr _ _ _ _ fun q _ => ?_
    unfold boundaryFormVec
    cases par.bctype q.1 <;> simp <;> rfl

/-- The matrices are the derivatives of the residuals. -/
theorem C177_jacobian {n' m' : Nat} (isSimplex : Bool) (o : Int) (dt : K) (par : DGFlow.Param K P Q d) (cell : CellGeo K P d)
    (face : FaceGeo K P Q d) (geoIn geoOut : CellGeo K P d) (v : VectorBasis K P d n) (p : Basis K P d m)
    (vN : VectorBasis K P d n') (pN : Basis K P d m') :
    IsDerivative (fun x => total (DGFlowVec.alphaVolume isSimplex o dt par cell v p x))
      (fun x => total (DGFlowVec.jacobianVolume isSimplex o dt par cell v p x)) ∧
    IsAffineWith
      (fun x : (Fin n ⊕ Fin m) ⊕ (Fin n' ⊕ Fin m') → K =>
        total (DGFlowVec.alphaSkeleton isSimplex o dt par face geoIn geoOut v vN p pN (x ∘ Sum.inl) (x ∘ Sum.inr)))
      (total (DGFlowVec.jacobianSkeleton isSimplex o dt par face geoIn geoOut v vN p pN)) ∧
    IsAffineWith (fun x => total (DGFlowVec.alphaBoundary isSimplex o dt par face geoIn v p x))
      (total (DGFlowVec.jacobianBoundary isSimplex o dt par face geoIn v p)) := by
  refine ⟨derivative_of_tested _ _ fun x z y => ?_, affine_of_tested _ _ fun x z y => ?_, affine_of_tested _ _ fun x z y => ?_⟩
  · refine ⟨quadrature (cell.quadratureRule (DGFlow.volumeOrder d v.order isSimplex o)) cell.integrationElement fun pt =>
      cellSecond par.navier (par.rho pt) (traceVec cell v p z pt) (traceVec cell v p y pt), fun t => ?_⟩
    rw [vec_volume, vec_volume, vec_volume_jacobian, ← quadrature_smul', ← quadrature_smul', ← quadrature_add',
      ← quadrature_add']
    refine quadrature_congr _ _ _ _ fun q _ => ?_
    unfold cellDensityVec cellLinearisedVec traceVec
    rw [flowTraceVec_lin, flowDensity_lin]
  · rw [vec_skeleton, vec_skeleton, vec_skeleton_jacobian, ← quadrature_add']
    refine quadrature_congr _ _ _ _ fun q _ => ?_
    have e1 : (x + z) ∘ Sum.inl = x ∘ Sum.inl + (1 : K) • (z ∘ Sum.inl) := by rw [one_smul]; rfl
    have e2 : (x + z) ∘ Sum.inr = x ∘ Sum.inr + (1 : K) • (z ∘ Sum.inr) := by rw [one_smul]; rfl
    unfold traceVec
    rw [e1, e2, flowTraceVec_lin, flowTraceVec_lin, flowFace_lin, one_mul]
  · rw [vec_boundary, vec_boundary, vec_boundary_jacobian, ← quadrature_add']
    refine quadrature_congr _ _ _ _ fun q _ => ?_
    unfold traceVec boundaryFormVec
    rw [add_eq_one_smul, flowTraceVec_lin]
    cases par.bctype q.1
    · simp
    · simp only [if_true, reduceCtorEq, if_false, add_zero]; rw [flowDirichlet_lin, one_mul]
    · simp [flowTraceVec]
    · simp

/-- With ε = -1 and an unscaled incompressibility condition the matrices are symmetric (in the cells: for the Stokes equations). -/
theorem C177_symmetric {n' m' : Nat} (isSimplex : Bool) (o : Int) (dt : K) (par : DGFlow.Param K P Q d) (cell : CellGeo K P d)
    (face : FaceGeo K P Q d) (geoIn geoOut : CellGeo K P d) (v : VectorBasis K P d n) (p : Basis K P d m)
    (vN : VectorBasis K P d n') (pN : Basis K P d m') (he : par.epsilon = -1) (hs : par.incompressibilityScaling dt = 1) :
    Symmetric (total (DGFlowVec.jacobianSkeleton isSimplex o dt par face geoIn geoOut v vN p pN)) ∧
    Symmetric (total (DGFlowVec.jacobianBoundary isSimplex o dt par face geoIn v p)) ∧
    (par.navier = false → ∀ x, Symmetric (total (DGFlowVec.jacobianVolume isSimplex o dt par cell v p x))) := by
  refine ⟨symmetric_of_bilinear _ fun y z => ?_, symmetric_of_bilinear _ fun y z => ?_,
    fun hn x => symmetric_of_bilinear _ fun y z => ?_⟩
  · rw [vec_skeleton_jacobian, vec_skeleton_jacobian]
    refine quadrature_congr _ _ _ _ fun q _ => ?_
    rw [he, hs, show ((-1 : Int) : K) = -1 by simp, flowFace_symm]
  · rw [vec_boundary_jacobian, vec_boundary_jacobian]
    refine quadrature_congr _ _ _ _ fun q _ => ?_
    unfold boundaryFormVec
    rw [he, hs, show ((-1 : Int) : K) = -1 by simp]
    split
    · exact flowDirichlet_symm _ _ _ _ _ _
    · rfl
  · rw [vec_volume_jacobian, vec_volume_jacobian]
    refine quadrature_congr _ _ _ _ fun q _ => ?_
    unfold cellLinearisedVec
    rw [hs, hn, stokes_symm]
    simp

/-- The vector fields φ_i e_c for the scalar basis functions φ_i: the product space as a space of vector fields. -/
def productBasis (v : Basis K P d n) : VectorBasis K P d (d * n) :=
  ⟨v.order, fun p k r => if r = (finProdFinEquiv.symm k).1 then v.phi p (finProdFinEquiv.symm k).2 else 0,
    fun p k => Matrix.of fun r => if r = (finProdFinEquiv.symm k).1 then v.js p (finProdFinEquiv.symm k).2 else 0⟩

/-- The same coefficients for the product space and for the space of vector fields. -/
def productCoefficients (x : Dof d n m → K) : Fin (d * n) ⊕ Fin m → K :=
  Sum.elim (fun k => x (.inl (finProdFinEquiv.symm k))) (x ∘ Sum.inr)

private theorem sum_product {M : Type} [AddCommMonoid M] (f : Fin d × Fin n → M) :
    ∑ k : Fin (d * n), f (finProdFinEquiv.symm k) = ∑ c, ∑ i, f (c, i) := by
  rw [← Fintype.sum_prod_type]
  exact Equiv.sum_comp finProdFinEquiv.symm f

private theorem traceVec_product (geo : CellGeo K P d) (v : Basis K P d n) (p : Basis K P d m) (x : Dof d n m → K) (pt : P) :
    traceVec geo (productBasis v) p (productCoefficients x) pt = traceAt geo v p x pt := by
  unfold traceVec flowTraceVec traceAt flowTrace
  congr 1
  · ext r l
    rw [Matrix.sum_apply]
    simp only [Matrix.smul_apply, smul_eq_mul]
    have := sum_product (d := d) (n := n) fun ci => x (.inl ci) *
      (geo.jacobianInverseTransposed pt *ᵥ (if r = ci.1 then v.js pt ci.2 else 0)) l
    refine Eq.trans this ?_
    rw [Finset.sum_eq_single r]
    · simp only [if_true]; rfl
    · intro c _ hc
      simp [Ne.symm hc]
    · simp
  · funext r
    rw [Finset.sum_apply]
    simp only [Pi.smul_apply, smul_eq_mul]
    have := sum_product (d := d) (n := n) fun ci => x (.inl ci) * (if r = ci.1 then v.phi pt ci.2 else 0)
    refine Eq.trans this ?_
    rw [Finset.sum_eq_single r]
    · simp only [if_true]; rfl
    · intro c _ hc
      simp [Ne.symm hc]
    · simp

/-- For the same spaces the two operators assemble the same residual, if the stress is μ∇u, g₂ = 0 and no boundary is a slip
boundary. -/
theorem C177_agree (isSimplex : Bool) (o : Int) (dt : K) (par : DGFlow.Param K P Q d) (hf : par.fullTensor = false)
    (hg : ∀ pt, par.g2 pt = 0) (hb : ∀ q, par.bctype q ≠ .slipVelocity) (cell : CellGeo K P d) (face : FaceGeo K P Q d)
    (geoIn geoOut : CellGeo K P d) (v vN : Basis K P d n) (p pN : Basis K P d m) (x xN y yN : Dof d n m → K) :
    tested (DGFlowVec.alphaVolume isSimplex o dt par cell (productBasis v) p (productCoefficients x)) (productCoefficients y) =
      tested (DGFlow.alphaVolume isSimplex o dt par cell v p x) y ∧
    tested (DGFlowVec.lambdaVolume (m := m) isSimplex o par cell (productBasis v)) (productCoefficients y) =
      tested (DGFlow.lambdaVolume isSimplex o par cell v p) y ∧
    tested (DGFlowVec.alphaSkeleton isSimplex o dt par face geoIn geoOut (productBasis v) (productBasis vN) p pN
        (productCoefficients x) (productCoefficients xN)) (Sum.elim (productCoefficients y) (productCoefficients yN)) =
      tested (DGFlow.alphaSkeleton isSimplex o dt par face geoIn geoOut v vN p pN x xN) (Sum.elim y yN) ∧
    tested (DGFlowVec.alphaBoundary isSimplex o dt par face geoIn (productBasis v) p (productCoefficients x)) (productCoefficients y) =
      tested (DGFlow.alphaBoundary isSimplex o dt par face geoIn v p x) y +
        tested (DGFlow.lambdaBoundary isSimplex o dt par face geoIn v p) y := by
  refine ⟨?_, ?_, ?_, ?_⟩
  · rw [vec_volume, dgflow_volume]
    refine quadrature_congr _ _ _ _ fun q _ => ?_
    rw [traceVec_product, traceVec_product]
    unfold cellDensityVec cellDensity
    rw [hf]
  · rw [vec_source isSimplex o par cell (productBasis v) p, dgflow_source]
    refine quadrature_congr _ _ _ _ fun q _ => ?_
    rw [traceVec_product, hg, zero_mul, zero_sub]
  · rw [vec_skeleton, dgflow_skeleton]
    refine quadrature_congr _ _ _ _ fun q _ => ?_
    rw [traceVec_product, traceVec_product, hf]
    change flowFace _ _ _ _ _ _ _ _ (traceVec geoIn (productBasis v) p (productCoefficients y) _)
      (traceVec geoOut (productBasis vN) pN (productCoefficients yN) _) = _
    rw [traceVec_product, traceVec_product]
    rfl
  · rw [vec_boundary, C176_boundary]
    refine quadrature_congr _ _ _ _ fun q _ => ?_
    rw [traceVec_product, traceVec_product]
    unfold boundaryFormVec
    have := hb q.1
    cases h : par.bctype q.1
    · simp
    · simp [hf]; rfl
    · simp; rfl
    · exact absurd h this

/-- The vector valued operator uses the stress μ∇u also if the full stress tensor is asked for. -/
theorem C177_full_tensor_false :
    ∃ (par : DGFlow.Param Rat Unit Unit 2) (x y : Dof 2 2 1 → Rat), par.fullTensor = true ∧
      tested (DGFlowVec.alphaVolume true 0 1 par exFlowCell (productBasis exFlowFe) exFlowP (productCoefficients x))
        (productCoefficients y) ≠ tested (DGFlow.alphaVolume true 0 1 par exFlowCell exFlowFe exFlowP x) y := by
  refine ⟨exFlowPar false true .velocityDirichlet 1, Sum.elim (fun ci => if ci = (0, 1) then 1 else 0) 0,
    Sum.elim (fun ci => if ci = (1, 1) then 1 else 0) 0, rfl, ?_⟩
  decide +kernel

/-- It ignores the source g₂ of the continuity equation: div u = g₂ = 3 here, and the residual is not zero, even for dt = 1. -/
theorem C177_continuity_false :
    ∃ (par : DGFlow.Param Rat Unit Unit 2) (x : Dof 2 2 1 → Rat),
      (∀ q ∈ exFlowCell.quadratureRule (DGFlow.volumeOrder 2 exFlowFe.order true 0),
        (femGradient (fun p i => exFlowCell.jacobianInverseTransposed p *ᵥ exFlowFe.js p i) (x ∘ Sum.inl) q.1).trace = par.g2 q.1) ∧
      tested (DGFlowVec.alphaVolume true 0 1 par exFlowCell (productBasis exFlowFe) exFlowP (productCoefficients x))
          (productCoefficients (Sum.elim 0 1)) +
        tested (DGFlowVec.lambdaVolume true 0 par exFlowCell (productBasis exFlowFe))
          (productCoefficients (m := 1) (Sum.elim 0 1)) ≠ 0 := by
  refine ⟨exFlowPar false false .velocityDirichlet 1, Sum.elim (fun ci => if ci = (0, 1) then 6 else 0) 0, ?_, ?_⟩
  · decide +kernel
  · decide +kernel

/-- It does nothing on slip boundaries: whatever flows through them, there is no residual. -/
theorem C177_slip_false :
    ∃ par : DGFlow.Param Rat Unit Unit 2, (∀ q, par.bctype q = .slipVelocity) ∧
      (∀ x : Dof 2 2 1 → Rat,
        DGFlowVec.alphaBoundary true 0 1 par exFlowFace exFlowCell (productBasis exFlowFe) exFlowP (productCoefficients x) = []) ∧
      ∃ x y : Dof 2 2 1 → Rat,
        femFunction exFlowFe.phi (x ∘ Sum.inl) () ⬝ᵥ exFlowFace.unitOuterNormal () ≠ 0 ∧
        tested (DGFlow.alphaBoundary true 0 1 par exFlowFace exFlowCell exFlowFe exFlowP x) y ≠ 0 := by
  refine ⟨exFlowPar false false .slipVelocity 1, fun _ => rfl, fun x => ?_,
    Sum.elim (fun ci => if ci = (0, 1) then 1 else 0) 0, Sum.elim (fun ci => if ci = (0, 1) then 1 else 0) 0, ?_, ?_⟩
  · rfl
  · decide +kernel
  · decide +kernel

/-- The hypotheses of `C177_agree` and `C177_symmetric` are met by parameters for which the residual is not zero. -/
example : (exFlowPar true false .velocityDirichlet (-1)).fullTensor = false ∧
    (∀ q, (exFlowPar true false .velocityDirichlet (-1)).bctype q ≠ .slipVelocity) ∧
    (∀ pt, ({ exFlowPar true false .velocityDirichlet (-1) with g2 := fun _ => 0 } : DGFlow.Param Rat Unit Unit 2).g2 pt = 0) ∧
    (exFlowPar true false .velocityDirichlet (-1)).incompressibilityScaling 1 = 1 ∧
    total (DGFlowVec.alphaSkeleton true 0 1 (exFlowPar true false .velocityDirichlet (-1)) exFlowFace exFlowCell exFlowCell
      (productBasis exFlowFe) (productBasis exFlowFe) exFlowP exFlowP (fun _ => 1) (fun _ => 2)) (.inl (.inl 0)) ≠ 0 := by
  refine ⟨rfl, by decide, by decide, by decide +kernel, by decide +kernel⟩

/-! ### C178 -/

/-- The default penalty on a face does not depend on the order of the two cells; it is the larger one of the penalties that the two
cells would give the face at the boundary; it is positive. -/
theorem C178_penalty [LinearOrder K] [IsStrictOrderedRing K] (sigma face inside outside : K) (hs : 0 < sigma) (hf : 0 < face)
    (hi : 0 < inside) (ho : 0 < outside) :
    defaultFaceIP sigma face inside outside = defaultFaceIP sigma face outside inside ∧
    defaultFaceIP sigma face inside outside = max (defaultBoundaryIP sigma face inside) (defaultBoundaryIP sigma face outside) ∧
    0 < defaultFaceIP sigma face inside outside ∧ 0 < defaultBoundaryIP sigma face inside := by
  have hsf : 0 < sigma * face := mul_pos hs hf
  refine ⟨by unfold defaultFaceIP; rw [min_comm], ?_, div_pos hsf (lt_min hi ho), div_pos hsf hi⟩
  unfold defaultFaceIP defaultBoundaryIP
  rcases le_total inside outside with h | h
  · rw [min_eq_left h, max_eq_left (div_le_div_of_nonneg_left hsf.le hi h)]
  · rw [min_eq_right h, max_eq_right (div_le_div_of_nonneg_left hsf.le ho h)]

/-- The same for over-penalisation with any monotone power; with exponent 1 it is the default penalty. -/
theorem C178_overpenalty [LinearOrder K] [IsStrictOrderedRing K] (pow : K → K → K) (sigma beta face inside outside : K)
    (hs : 0 < sigma) (hf : 0 < face) (hi : 0 < inside) (ho : 0 < outside)
    (hmono : ∀ a b, 0 < a → a ≤ b → pow a beta ≤ pow b beta) (hone : ∀ a, pow a 1 = a) :
    overPenalizedFaceIP pow sigma beta face inside outside = overPenalizedFaceIP pow sigma beta face outside inside ∧
    overPenalizedFaceIP pow sigma beta face inside outside =
      max (overPenalizedBoundaryIP pow sigma beta face inside) (overPenalizedBoundaryIP pow sigma beta face outside) ∧
    overPenalizedFaceIP pow sigma 1 face inside outside = defaultFaceIP sigma face inside outside ∧
    overPenalizedBoundaryIP pow sigma 1 face inside = defaultBoundaryIP sigma face inside := by
  refine ⟨by unfold overPenalizedFaceIP; rw [min_comm], ?_, ?_, ?_⟩
  · unfold overPenalizedFaceIP overPenalizedBoundaryIP
    rcases le_total inside outside with h | h
    · rw [min_eq_left h, max_eq_left]
      exact mul_le_mul_of_nonneg_left (hmono _ _ (div_pos hf ho) (div_le_div_of_nonneg_left hf.le hi h)) hs.le
    · rw [min_eq_right h, max_eq_right]
      exact mul_le_mul_of_nonneg_left (hmono _ _ (div_pos hf hi) (div_le_div_of_nonneg_left hf.le ho h)) hs.le
  · unfold overPenalizedFaceIP defaultFaceIP; rw [hone, mul_div_assoc]
  · unfold overPenalizedBoundaryIP defaultBoundaryIP; rw [hone, mul_div_assoc]

/-- A call that the time stepping scheme makes on the operator. -/
inductive ClockCall (K : Type) where
  | preStep (time dt : K) (stages : Int)
  | setTime (time : K)

/-- One call. -/
def ClockCall.run (c : DGFlow.Clock K) : ClockCall K → DGFlow.Clock K
  | .preStep t dt s => c.preStep t dt s
  | .setTime t => c.setTime t

/-- The time steps of a history, the last one first. -/
def ClockCall.steps : List (ClockCall K) → List K
  | [] => []
  | .preStep _ dt _ :: l => steps l ++ [dt]
  | .setTime _ :: l => steps l

/-- The times set in a history, the last one first. -/
def ClockCall.times : List (ClockCall K) → List K
  | [] => []
  | .preStep _ _ _ :: l => times l
  | .setTime t :: l => times l ++ [t]

/-- After any history of calls, the incompressibility condition is scaled by 1/dt for the step dt announced last (by 1 if none was),
and the operator and its parameters are at the time set last; before any was set the parameters are at their own time. -/
theorem C178_clock (u t0 : K) (calls : List (ClockCall K)) :
    let c := calls.foldl ClockCall.run (DGFlow.Clock.create u t0)
    defaultIncompressibilityScaling c.currentDt = 1 / (ClockCall.steps calls).headD 1 ∧
    c.paramTime = (ClockCall.times calls).headD t0 ∧ (ClockCall.times calls ≠ [] → c.time = c.paramTime) := by
  have key : ∀ (calls : List (ClockCall K)) (c : DGFlow.Clock K),
      (calls.foldl ClockCall.run c).currentDt = (ClockCall.steps calls).headD c.currentDt ∧
      (calls.foldl ClockCall.run c).paramTime = (ClockCall.times calls).headD c.paramTime ∧
      (calls.foldl ClockCall.run c).time = (ClockCall.times calls).headD c.time := by
    intro calls
    induction calls with
    | nil => intro c; exact ⟨rfl, rfl, rfl⟩
    | cons a l ih =>
      intro c
      rw [List.foldl_cons]
      obtain ⟨h1, h2, h3⟩ := ih (ClockCall.run c a)
      rw [h1, h2, h3]
      cases a with
      | preStep t dt s =>
        simp only [ClockCall.steps, ClockCall.times, ClockCall.run, DGFlow.Clock.preStep]
        refine ⟨?_, by trivial, by trivial⟩
        cases ClockCall.steps l <;> rfl
      | setTime t =>
        simp only [ClockCall.steps, ClockCall.times, ClockCall.run, DGFlow.Clock.setTime]
        refine ⟨by trivial, ?_, ?_⟩ <;> cases ClockCall.times l <;> rfl
  intro c
  obtain ⟨h1, h2, h3⟩ := key calls (DGFlow.Clock.create u t0)
  refine ⟨by unfold defaultIncompressibilityScaling; rw [h1]; rfl, h2, fun h => ?_⟩
  rw [h3, h2]
  cases hl : ClockCall.times calls with
  | nil => exact absurd hl h
  | cons a l => rfl

/-- A history of two steps. -/
example : let calls : List (ClockCall Rat) := [.preStep 0 (1/2) 1, .setTime (1/2), .preStep (1/2) (1/4) 1, .setTime (3/4)]
    let c := calls.foldl ClockCall.run (DGFlow.Clock.create 7 0)
    c.currentDt = 1/4 ∧ c.time = 3/4 ∧ c.paramTime = 3/4 ∧ ClockCall.times calls ≠ [] := by
  refine ⟨rfl, rfl, rfl, by simp [ClockCall.times]⟩
example : defaultFaceIP (10 : Rat) 3 2 5 = 15 := by decide +kernel

end Verif
