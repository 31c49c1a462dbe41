import Verif.Proofs.DGFlowBoundary
/- The discontinuous Galerkin method for the Navier-Stokes equations with vector valued shape functions. -/
set_option linter.unusedSectionVars false
namespace Verif.Tested
open Verif.LocalOp Verif.LocalOp.Spec Matrix
open DGFlow (volumeOrder skeletonOrder boundaryOrder)
open DGFlowVec

variable {K P Q : Type} [Field K] {d n m n' m' : Nat}

local macro "sum1" : tactic => `(tactic| exact Finset.sum_congr rfl fun _ _ => by ring)
local macro "sum2" : tactic =>
  `(tactic| exact Finset.sum_congr rfl fun _ _ => Finset.sum_congr rfl fun _ _ => by ring)

theorem flux_eq (A : Matrix (Fin d) (Fin d) K) (nn r : Fin d → K) : addComputeFlux A nn r = r + A *ᵥ nn := rfl
theorem contraction_eq (A B : Matrix (Fin d) (Fin d) K) : contraction A B = contract A B := rfl

theorem dot_sum (y : Fin n → K) (w : Fin n → Fin d → K) (a : Fin d → K) : a ⬝ᵥ (∑ i, y i • w i) = ∑ i, y i * (a ⬝ᵥ w i) := by
  rw [dotProduct_sum]
  exact Finset.sum_congr rfl fun i _ => by rw [dotProduct_smul, smul_eq_mul]
theorem sum_dot (y : Fin n → K) (w : Fin n → Fin d → K) (a : Fin d → K) : (∑ i, y i • w i) ⬝ᵥ a = ∑ i, y i * (w i ⬝ᵥ a) := by
  rw [dotProduct_comm, dot_sum]
  exact Finset.sum_congr rfl fun i _ => by rw [dotProduct_comm]
theorem sum_mulVec (y : Fin n → K) (J : Fin n → Matrix (Fin d) (Fin d) K) (a : Fin d → K) :
    ∑ i, y i • (J i *ᵥ a) = (∑ i, y i • J i) *ᵥ a := by
  rw [Matrix.sum_mulVec]
  exact Finset.sum_congr rfl fun i _ => by rw [smul_mulVec]
theorem mulVec_sum' (y : Fin n → K) (w : Fin n → Fin d → K) (A : Matrix (Fin d) (Fin d) K) :
    ∑ i, y i • (A *ᵥ w i) = A *ᵥ (∑ i, y i • w i) := by
  rw [Matrix.mulVec_sum]
  exact Finset.sum_congr rfl fun i _ => by rw [mulVec_smul]

theorem vl1 (y : Fin n → K) (w : Fin n → Fin d → K) (a : Fin d → K) (F : K) :
    ∑ i, y i * (-(a ⬝ᵥ w i) * F) = -(F * (a ⬝ᵥ ∑ i, y i • w i)) := by
  rw [dot_sum, Finset.mul_sum, ← Finset.sum_neg_distrib]; sum1
theorem vl2 (y : Fin n → K) (w : Fin n → Fin d → K) (a : Fin d → K) (F : K) :
    ∑ i, y i * ((a ⬝ᵥ w i) * F) = F * (a ⬝ᵥ ∑ i, y i • w i) := by
  rw [dot_sum, Finset.mul_sum]; sum1
theorem vl3 (y : Fin n → K) (w : Fin n → Fin d → K) (a : Fin d → K) (e F : K) :
    ∑ i, y i * (e * (a ⬝ᵥ w i) * F) = e * F * (a ⬝ᵥ ∑ i, y i • w i) := by
  rw [dot_sum, Finset.mul_sum]; sum1
theorem vl4 (y : Fin n → K) (w : Fin n → Fin d → K) (a : Fin d → K) (e F : K) :
    ∑ i, y i * (e * (w i ⬝ᵥ a) * F) = e * F * ((∑ i, y i • w i) ⬝ᵥ a) := by
  rw [sum_dot, Finset.mul_sum]; sum1
theorem vl5 (y : Fin n → K) (w : Fin n → Fin d → K) (a : Fin d → K) (e f F : K) :
    ∑ i, y i * (e * (a ⬝ᵥ w i) * f * F) = e * f * F * (a ⬝ᵥ ∑ i, y i • w i) := by
  rw [dot_sum, Finset.mul_sum]; sum1

theorem vb1 (y : Fin n → K) (z : Fin n' → K) (w : Fin n → Fin d → K) (u : Fin n' → Fin d → K) (e F : K) :
    ∑ i, ∑ j, y i * z j * (e * (u j ⬝ᵥ w i) * F) = e * F * ((∑ j, z j • u j) ⬝ᵥ ∑ i, y i • w i) := by
  rw [dot_sum, Finset.mul_sum]
  refine Finset.sum_congr rfl fun i _ => ?_
  rw [sum_dot, Finset.mul_sum, Finset.mul_sum]; sum1
theorem vb2 (y : Fin n → K) (z : Fin n' → K) (w : Fin n → Fin d → K) (u : Fin n' → Fin d → K) (e F : K) :
    ∑ i, ∑ j, y i * z j * (e * (w i ⬝ᵥ u j) * F) = e * F * ((∑ i, y i • w i) ⬝ᵥ ∑ j, z j • u j) := by
  rw [sum_dot, Finset.mul_sum]
  refine Finset.sum_congr rfl fun i _ => ?_
  rw [dot_sum, Finset.mul_sum, Finset.mul_sum]; sum1
theorem vb3 (y : Fin n → K) (z : Fin n' → K) (w : Fin n → Fin d → K) (u : Fin n' → Fin d → K) (e f F : K) :
    ∑ i, ∑ j, y i * z j * (e * (u j ⬝ᵥ w i) * f * F) = e * f * F * ((∑ j, z j • u j) ⬝ᵥ ∑ i, y i • w i) := by
  rw [show e * f * F * ((∑ j, z j • u j) ⬝ᵥ ∑ i, y i • w i) = e * (f * F) * ((∑ j, z j • u j) ⬝ᵥ ∑ i, y i • w i) by ring, ← vb1]
  sum2
theorem vb4 (y : Fin n → K) (z psi : Fin m → K) (w : Fin n → Fin d → K) (a : Fin d → K) (e F : K) :
    ∑ i, ∑ j, y i * z j * (e * psi j * (w i ⬝ᵥ a) * F) = e * F * (∑ j, z j * psi j) * ((∑ i, y i • w i) ⬝ᵥ a) := by
  rw [sum_dot, Finset.mul_sum]
  refine Finset.sum_congr rfl fun i _ => ?_
  rw [Finset.mul_sum, Finset.sum_mul]; sum1
theorem vb5 (y psi : Fin m → K) (z : Fin n → K) (w : Fin n → Fin d → K) (a : Fin d → K) (e s F : K) :
    ∑ i, ∑ j, y i * z j * (e * psi i * (w j ⬝ᵥ a) * s * F) = e * s * F * (∑ i, y i * psi i) * ((∑ j, z j • w j) ⬝ᵥ a) := by
  rw [show e * s * F * (∑ i, y i * psi i) * ((∑ j, z j • w j) ⬝ᵥ a) = e * (s * F) * (∑ i, y i * psi i) * ((∑ j, z j • w j) ⬝ᵥ a)
    by ring, ← vb4, Finset.sum_comm]
  sum2
theorem vb6 (y : Fin n → K) (z psi : Fin m → K) (w : Fin n → Fin d → K) (a : Fin d → K) (F : K) :
    ∑ i, ∑ j, y i * z j * (psi j * (w i ⬝ᵥ a) * F) = F * (∑ j, z j * psi j) * ((∑ i, y i • w i) ⬝ᵥ a) := by
  rw [← one_mul F, ← vb4]; sum2
theorem vb7 (y psi : Fin m → K) (z : Fin n → K) (w : Fin n → Fin d → K) (a : Fin d → K) (s F : K) :
    ∑ i, ∑ j, y i * z j * (psi i * (w j ⬝ᵥ a) * s * F) = s * F * (∑ i, y i * psi i) * ((∑ j, z j • w j) ⬝ᵥ a) := by
  rw [← one_mul s, ← vb5]; sum2

theorem contract_sum (y : Fin n → K) (J : Fin n → Matrix (Fin d) (Fin d) K) (A : Matrix (Fin d) (Fin d) K) :
    contract A (∑ i, y i • J i) = ∑ i, y i * contract A (J i) := by
  classical
  induction (Finset.univ : Finset (Fin n)) using Finset.induction_on with
  | empty => simp [contract]
  | insert a s ha ih => rw [Finset.sum_insert ha, Finset.sum_insert ha, contract_add_right, contract_smul_right, ih]
theorem trace_sum' (y : Fin n → K) (J : Fin n → Matrix (Fin d) (Fin d) K) :
    (∑ i, y i • J i).trace = ∑ i, y i * (J i).trace := by
  rw [Matrix.trace_sum]
  exact Finset.sum_congr rfl fun i _ => by rw [trace_smul, smul_eq_mul]

theorem vv1 (y : Fin n → K) (J : Fin n → Matrix (Fin d) (Fin d) K) (A : Matrix (Fin d) (Fin d) K) (mu F : K) :
    ∑ i, y i * (contract A (J i) * mu * F) = mu * F * contract A (∑ i, y i • J i) := by
  rw [contract_sum, Finset.mul_sum]; sum1
theorem vv2 (y : Fin n → K) (J : Fin n → Matrix (Fin d) (Fin d) K) (p F : K) :
    ∑ i, y i * (-(J i).trace * p * F) = -(p * F * (∑ i, y i • J i).trace) := by
  rw [trace_sum', Finset.mul_sum, ← Finset.sum_neg_distrib]; sum1
theorem vv3 (y psi : Fin m → K) (a s F : K) : ∑ i, y i * (-a * psi i * s * F) = -(a * s * F * ∑ i, y i * psi i) := by
  rw [Finset.mul_sum, ← Finset.sum_neg_distrib]; sum1
theorem vj1 (y z : Fin n → K) (J : Fin n → Matrix (Fin d) (Fin d) K) (mu F : K) :
    ∑ i, ∑ j, y i * z j * (mu * contract (J j) (J i) * F) = mu * F * contract (∑ j, z j • J j) (∑ i, y i • J i) := by
  rw [contract_sum, Finset.mul_sum]
  refine Finset.sum_congr rfl fun i _ => ?_
  rw [contract_comm, contract_sum, Finset.mul_sum, Finset.mul_sum]
  exact Finset.sum_congr rfl fun j _ => by rw [contract_comm]; ring
theorem vj2 (y z : Fin n → K) (w u v : Fin n → Fin d → K) (e F : K) :
    ∑ i, ∑ j, y i * z j * (e * ((u j ⬝ᵥ w i) + (v j ⬝ᵥ w i)) * F) =
      e * F * ((∑ j, z j • u j + ∑ j, z j • v j) ⬝ᵥ ∑ i, y i • w i) := by
  rw [add_dotProduct, mul_add, ← vb1, ← vb1, ← Finset.sum_add_distrib]
  refine Finset.sum_congr rfl fun i _ => ?_
  rw [← Finset.sum_add_distrib]; sum1
theorem vj3 (y : Fin n → K) (z psi : Fin m → K) (J : Fin n → Matrix (Fin d) (Fin d) K) (F : K) :
    ∑ i, ∑ j, y i * z j * (-psi j * (J i).trace * F) = -(F * (∑ j, z j * psi j) * (∑ i, y i • J i).trace) := by
  rw [trace_sum', Finset.mul_sum, ← Finset.sum_neg_distrib]
  refine Finset.sum_congr rfl fun i _ => ?_
  rw [Finset.mul_sum, Finset.sum_mul, ← Finset.sum_neg_distrib]; sum1
theorem vj4 (z : Fin n → K) (y psi : Fin m → K) (J : Fin n → Matrix (Fin d) (Fin d) K) (s F : K) :
    ∑ i, ∑ j, y j * z i * (-psi j * (J i).trace * s * F) = -(s * F * (∑ j, y j * psi j) * (∑ i, z i • J i).trace) := by
  rw [← vj3]; sum2

abbrev traceVec (geo : CellGeo K P d) (v : VectorBasis K P d n) (p : Basis K P d m) (x : Fin n ⊕ Fin m → K) (pt : P) : Trace K d :=
  flowTraceVec (jacobians geo v) v.phi p.phi x pt

theorem vec_skeleton (s : Bool) (o : Int) (dt : K) (par : DGFlow.Param K P Q d) (geo : FaceGeo K P Q d)
    (geoIn geoOut : CellGeo K P d) (vS : VectorBasis K P d n) (vN : VectorBasis K P d n') (pS : Basis K P d m) (pN : Basis K P d m')
    (xS : Fin n ⊕ Fin m → K) (xN : Fin n' ⊕ Fin m' → K) (y : (Fin n ⊕ Fin m) ⊕ (Fin n' ⊕ Fin m') → K) :
    tested (alphaSkeleton s o dt par geo geoIn geoOut vS vN pS pN xS xN) y =
      quadrature (geo.quadratureRule (skeletonOrder d vS.order s o)) geo.integrationElement fun q =>
        flowFace false (par.muFace q) (par.faceIP geo.volume geoIn.volume geoOut.volume) par.epsilon
          (par.incompressibilityScaling dt) (geo.unitOuterNormal q)
          (traceVec geoIn vS pS xS (geo.inInside q)) (traceVec geoOut vN pN xN (geo.inOutside q))
          (traceVec geoIn vS pS (y ∘ Sum.inl) (geo.inInside q)) (traceVec geoOut vN pN (y ∘ Sum.inr) (geo.inOutside q)) := by
  unfold alphaSkeleton
  rw [tested_flatMap]
  refine sum_eq_quadrature _ _ _ _ fun q w => ?_
  simp only [tested_append, tested_flatMap_fin, tested_map_fin, tested_cons, tested_nil, add_zero,
    Finset.sum_add_distrib, flux_eq, zero_add]
  simp only [vl1, vl2, vl3, vl4, fl7, sum_mulVec]
  unfold flowFace traceVec flowTraceVec femScalar
  simp only [traction_eq, Bool.false_eq_true, if_false, add_zero, smul_dotProduct, add_dotProduct, dotProduct_sub, sub_dotProduct,
    smul_eq_mul, Function.comp_apply]
  ring

theorem vec_skeleton_jacobian (s : Bool) (o : Int) (dt : K) (par : DGFlow.Param K P Q d) (geo : FaceGeo K P Q d)
    (geoIn geoOut : CellGeo K P d) (vS : VectorBasis K P d n) (vN : VectorBasis K P d n') (pS : Basis K P d m) (pN : Basis K P d m')
    (y z : (Fin n ⊕ Fin m) ⊕ (Fin n' ⊕ Fin m') → K) :
    bilinear (total (jacobianSkeleton s o dt par geo geoIn geoOut vS vN pS pN)) y z =
      quadrature (geo.quadratureRule (skeletonOrder d vS.order s o)) geo.integrationElement fun q =>
        flowFace false (par.muFace q) (par.faceIP geo.volume geoIn.volume geoOut.volume) par.epsilon
          (par.incompressibilityScaling dt) (geo.unitOuterNormal q)
          (traceVec geoIn vS pS (z ∘ Sum.inl) (geo.inInside q)) (traceVec geoOut vN pN (z ∘ Sum.inr) (geo.inOutside q))
          (traceVec geoIn vS pS (y ∘ Sum.inl) (geo.inInside q)) (traceVec geoOut vN pN (y ∘ Sum.inr) (geo.inOutside q)) := by
  rw [bilinear_eq]
  unfold jacobianSkeleton
  rw [tested_flatMap]
  refine sum_eq_quadrature _ _ _ _ fun q w => ?_
  simp only [tested_append, tested_flatMap_fin, tested_map_fin, tested_cons, tested_nil, add_zero,
    Finset.sum_add_distrib, flux_eq, zero_add]
  simp only [vb1, vb2, vb4, vb5, sum_mulVec]
  unfold flowFace traceVec flowTraceVec femScalar
  simp only [traction_eq, Bool.false_eq_true, if_false, add_zero, smul_dotProduct, add_dotProduct, dotProduct_sub, sub_dotProduct,
    smul_eq_mul, Function.comp_apply]
  ring

/-- The terms on the boundary. -/
def boundaryFormVec (par : DGFlow.Param K P Q d) (penalty scale : K) (n g : Fin d → K) (q : Q) (u v : Trace K d) : K :=
  if par.bctype q = .velocityDirichlet then flowDirichlet false (par.muFace q) penalty par.epsilon scale n g u v else 0

theorem vec_boundary (s : Bool) (o : Int) (dt : K) (par : DGFlow.Param K P Q d) (geo : FaceGeo K P Q d) (geoIn : CellGeo K P d)
    (v : VectorBasis K P d n) (p : Basis K P d m) (x y : Fin n ⊕ Fin m → K) :
    tested (alphaBoundary s o dt par geo geoIn v p x) y =
      quadrature (geo.quadratureRule (boundaryOrder d v.order s o)) geo.integrationElement fun q =>
        boundaryFormVec par (par.boundaryIP geo.volume geoIn.volume) (par.incompressibilityScaling dt) (geo.unitOuterNormal q)
          (par.g (geo.inInside q)) q (traceVec geoIn v p x (geo.inInside q)) (traceVec geoIn v p y (geo.inInside q)) +
        if par.bctype q = .stressNeumann then par.j q ⬝ᵥ (traceVec geoIn v p y (geo.inInside q)).vel else 0 := by
  unfold alphaBoundary
  rw [tested_flatMap]
  refine sum_eq_quadrature _ _ _ _ fun q w => ?_
  unfold boundaryFormVec
  cases hb : par.bctype q
  · simp [tested_nil]
  · simp only [tested_append, tested_flatMap_fin, tested_map_fin, tested_cons, tested_nil, add_zero,
      Finset.sum_add_distrib, flux_eq, zero_add, reduceCtorEq, if_true, if_false]
    simp only [vl3, vl4, vl5, ab7, sum_mulVec]
    unfold flowDirichlet traceVec flowTraceVec femScalar
    simp only [traction_eq, Bool.false_eq_true, if_false, add_zero, smul_dotProduct, dotProduct_sub, sub_dotProduct,
      smul_eq_mul, Function.comp_apply]
    ring
  · simp only [tested_append, tested_map_fin, tested_nil, reduceCtorEq, if_true, if_false, zero_add]
    simp only [vl2]
    unfold traceVec flowTraceVec
    ring
  · simp [tested_nil]

theorem vec_boundary_jacobian (s : Bool) (o : Int) (dt : K) (par : DGFlow.Param K P Q d) (geo : FaceGeo K P Q d)
    (geoIn : CellGeo K P d) (v : VectorBasis K P d n) (p : Basis K P d m) (y z : Fin n ⊕ Fin m → K) :
    bilinear (total (jacobianBoundary s o dt par geo geoIn v p)) y z =
      quadrature (geo.quadratureRule (boundaryOrder d v.order s o)) geo.integrationElement fun q =>
        boundaryFormVec par (par.boundaryIP geo.volume geoIn.volume) (par.incompressibilityScaling dt) (geo.unitOuterNormal q)
          0 q (traceVec geoIn v p z (geo.inInside q)) (traceVec geoIn v p y (geo.inInside q)) := by
  rw [bilinear_eq]
  unfold jacobianBoundary
  rw [tested_flatMap]
  refine sum_eq_quadrature _ _ _ _ fun q w => ?_
  unfold boundaryFormVec
  by_cases hb : par.bctype q = .velocityDirichlet
  · simp only [hb, tested_append, tested_flatMap_fin, tested_map_fin, tested_cons, tested_nil, add_zero,
      Finset.sum_add_distrib, flux_eq, zero_add, if_true]
    simp only [vb1, vb2, vb3, vb6, vb7, sum_mulVec]
    unfold flowDirichlet traceVec flowTraceVec femScalar
    simp only [traction_eq, Bool.false_eq_true, if_false, add_zero, smul_dotProduct, sub_zero, smul_eq_mul, Function.comp_apply]
    ring
  · simp only [hb, if_false, tested_nil, zero_mul]

/-- The density of the weak form in a cell. -/
def cellDensityVec (par : DGFlow.Param K P Q d) (scale : K) (pt : P) (u v : Trace K d) : K :=
  flowDensity par.navier false (par.mu pt) (par.rho pt) u.grad u.vel u.pres v.grad v.vel (scale * v.pres)

/-- Its linearisation at `w` in direction `u`. -/
def cellLinearisedVec (par : DGFlow.Param K P Q d) (scale : K) (pt : P) (w u v : Trace K d) : K :=
  flowDensity false false (par.mu pt) (par.rho pt) u.grad u.vel u.pres v.grad v.vel (scale * v.pres) +
    if par.navier then par.rho pt * ((w.grad *ᵥ u.vel + u.grad *ᵥ w.vel) ⬝ᵥ v.vel) else 0

theorem vec_volume (s : Bool) (o : Int) (dt : K) (par : DGFlow.Param K P Q d) (geo : CellGeo K P d)
    (v : VectorBasis K P d n) (p : Basis K P d m) (x y : Fin n ⊕ Fin m → K) :
    tested (alphaVolume s o dt par geo v p x) y =
      quadrature (geo.quadratureRule (volumeOrder d v.order s o)) geo.integrationElement fun pt =>
        cellDensityVec par (par.incompressibilityScaling dt) pt (traceVec geo v p x pt) (traceVec geo v p y pt) := by
  unfold alphaVolume
  rw [tested_flatMap]
  refine sum_eq_quadrature _ _ _ _ fun q w => ?_
  have hd : ∀ i, ∑ c, jacobians geo v q i c c = (jacobians geo v q i).trace := fun _ => rfl
  simp only [tested_append, tested_flatMap_fin, tested_map_fin, tested_ite, tested_cons, tested_nil, add_zero,
    Finset.sum_add_distrib, sum_if, hd, contraction_eq]
  unfold cellDensityVec flowDensity traceVec flowTraceVec femScalar
  rw [viscous_contract]
  cases par.navier
  · simp only [Bool.false_eq_true, if_false, add_zero]
    simp only [vv1, vv2, vv3, ← trace_sum', Function.comp_apply]
    ring
  · simp only [if_true, Bool.false_eq_true, if_false]
    simp only [vv1, vv2, vv3, vl3, ← trace_sum', Function.comp_apply]
    ring

theorem vec_volume_jacobian (s : Bool) (o : Int) (dt : K) (par : DGFlow.Param K P Q d) (geo : CellGeo K P d)
    (v : VectorBasis K P d n) (p : Basis K P d m) (x y z : Fin n ⊕ Fin m → K) :
    bilinear (total (jacobianVolume s o dt par geo v p x)) y z =
      quadrature (geo.quadratureRule (volumeOrder d v.order s o)) geo.integrationElement fun pt =>
        cellLinearisedVec par (par.incompressibilityScaling dt) pt (traceVec geo v p x pt) (traceVec geo v p z pt)
          (traceVec geo v p y pt) := by
  rw [bilinear_eq]
  unfold jacobianVolume
  rw [tested_flatMap]
  refine sum_eq_quadrature _ _ _ _ fun q w => ?_
  have hd : ∀ i, ∑ c, jacobians geo v q i c c = (jacobians geo v q i).trace := fun _ => rfl
  simp only [tested_append, tested_flatMap_fin, tested_map_fin, tested_ite, tested_cons, tested_nil, add_zero,
    Finset.sum_add_distrib, sum_if, hd, contraction_eq]
  unfold cellLinearisedVec flowDensity traceVec flowTraceVec femScalar
  rw [viscous_contract]
  cases par.navier
  · simp only [Bool.false_eq_true, if_false, add_zero]
    simp only [vj1, vj3, vj4, Function.comp_apply]
    ring
  · simp only [if_true, Bool.false_eq_true, if_false]
    simp only [vj1, vj2, vj3, vj4, sum_mulVec, mulVec_sum', Function.comp_apply]
    ring

theorem vec_source (s : Bool) (o : Int) (par : DGFlow.Param K P Q d) (geo : CellGeo K P d)
    (v : VectorBasis K P d n) (p : Basis K P d m) (y : Fin n ⊕ Fin m → K) :
    tested (lambdaVolume s o par geo v) y =
      quadrature (geo.quadratureRule (boundaryOrder d v.order s o)) geo.integrationElement fun pt =>
        -(par.f pt ⬝ᵥ (traceVec geo v p y pt).vel) := by
  unfold lambdaVolume
  rw [tested_flatMap]
  refine sum_eq_quadrature _ _ _ _ fun q w => ?_
  simp only [tested_map_fin, vl1]
  unfold traceVec flowTraceVec
  ring

end Verif.Tested
