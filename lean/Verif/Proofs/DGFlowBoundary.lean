import Verif.Proofs.DGFlow
import Verif.Proofs.DGFlowPoint2
/- The terms of the discontinuous Galerkin method for the Navier-Stokes equations at the boundary and in the cells. -/
set_option linter.unusedSectionVars false
namespace Verif.Tested
open Verif.LocalOp Verif.LocalOp.Spec Matrix
open TaylorHood (Dof)
open DGFlow

variable {K P Q : Type} [Field K] {d n m : Nat}

/-- The homogeneous terms on the boundary. -/
def boundaryForm (par : DGFlow.Param K P Q d) (penalty scale : K) (n : Fin d → K) (q : Q) (u v : Trace K d) : K :=
  match par.bctype q with
  | .velocityDirichlet => flowDirichlet par.fullTensor (par.muFace q) penalty par.epsilon scale n 0 u v
  | .slipVelocity => flowSlip par.fullTensor (par.muFace q) penalty par.epsilon scale (par.slip q) n u v
  | _ => 0

theorem transpose_mulVec_self (A : Matrix (Fin d) (Fin d) K) (n' : Fin d → K) : (Aᵀ *ᵥ n') ⬝ᵥ n' = (A *ᵥ n') ⬝ᵥ n' := by
  rw [mulVec_transpose, ← dotProduct_mulVec, dotProduct_comm]

theorem dgflow_boundary (s : Bool) (o : Int) (dt : K) (par : DGFlow.Param K P Q d) (geo : FaceGeo K P Q d) (geoIn : CellGeo K P d)
    (v : Basis K P d n) (p : Basis K P d m) (x y : Dof d n m → K) :
    tested (alphaBoundary s o dt par geo geoIn v p x) y =
      quadrature (geo.quadratureRule (boundaryOrder d v.order s o)) geo.integrationElement fun q =>
        boundaryForm par (par.boundaryIP geo.volume geoIn.volume) (par.incompressibilityScaling dt) (geo.unitOuterNormal q) q
          (traceAt geoIn v p x (geo.inInside q)) (traceAt geoIn v p y (geo.inInside q)) := by
  unfold alphaBoundary
  rw [tested_flatMap]
  refine sum_eq_quadrature _ _ _ _ fun q w => ?_
  have hS : ∀ c, ∑ i, x (.inl (c, i)) * v.phi (geo.inInside q) i = femFunction v.phi (x ∘ Sum.inl) (geo.inInside q) c :=
    fun _ => rfl
  have e1 : velAt (v.phi (geo.inInside q)) (fun c i => y (.inl (c, i))) = femFunction v.phi (y ∘ Sum.inl) (geo.inInside q) := rfl
  have e3 : gradAt (gradients geoIn v (geo.inInside q)) (fun c i => y (.inl (c, i))) =
      femGradient (gradients geoIn v) (y ∘ Sum.inl) (geo.inInside q) := rfl
  have e5 : ∑ i, y (.inr i) * p.phi (geo.inInside q) i = femScalar p.phi (y ∘ Sum.inr) (geo.inInside q) := rfl
  have e7 : ∑ i, x (.inr i) * p.phi (geo.inInside q) i = femScalar p.phi (x ∘ Sum.inr) (geo.inInside q) := rfl
  unfold boundaryForm
  cases hb : par.bctype q
  · simp [tested_nil]
  · simp only [tested_append, tested_flatMap_fin, tested_map_fin, tested_ite, tested_cons, tested_nil, add_zero,
      jac_eq_femGradient, Finset.sum_add_distrib, sum_if, hS, reduceCtorEq, or_false, if_true, if_false, sub_zero]
    simp only [ab1, ab2, ab3, ab4, ab5, fl6]
    simp only [ab7]
    rw [e1, e3, e5, e7]
    unfold flowDirichlet traceAt flowTrace
    simp only [traction_eq]
    cases par.fullTensor
    · simp only [Bool.false_eq_true, if_false, add_zero, smul_dotProduct, smul_eq_mul, sub_zero]
      ring
    · simp only [if_true, smul_dotProduct, add_dotProduct, smul_eq_mul, sub_zero]
      ring
  · simp [tested_nil]
  · simp only [tested_append, tested_flatMap_fin, tested_map_fin, tested_ite, tested_cons, tested_nil, add_zero,
      jac_eq_femGradient, Finset.sum_add_distrib, sum_if, hS, reduceCtorEq, or_true, if_true]
    simp only [ab1, ab2, ab3, ab4, ab5, fl6, as1, as2]
    simp only [ab7]
    rw [e1, e3, e5, e7]
    unfold flowSlip traceAt flowTrace
    simp only [traction_eq]
    cases par.fullTensor
    · simp only [Bool.false_eq_true, if_false, add_zero, smul_dotProduct, smul_eq_mul]
      ring
    · simp only [if_true, smul_dotProduct, add_dotProduct, smul_eq_mul]
      rw [transpose_mulVec_self, transpose_mulVec_self]
      ring

theorem dgflow_boundary_jacobian (s : Bool) (o : Int) (dt : K) (par : DGFlow.Param K P Q d) (geo : FaceGeo K P Q d)
    (geoIn : CellGeo K P d) (v : Basis K P d n) (p : Basis K P d m) (y z : Dof d n m → K) :
    bilinear (total (jacobianBoundary s o dt par geo geoIn v p)) y z =
      quadrature (geo.quadratureRule (boundaryOrder d v.order s o)) geo.integrationElement fun q =>
        boundaryForm par (par.boundaryIP geo.volume geoIn.volume) (par.incompressibilityScaling dt) (geo.unitOuterNormal q) q
          (traceAt geoIn v p z (geo.inInside q)) (traceAt geoIn v p y (geo.inInside q)) := by
  rw [bilinear_eq]
  unfold jacobianBoundary
  rw [tested_flatMap]
  refine sum_eq_quadrature _ _ _ _ fun q w => ?_
  have e1 : ∀ y : Dof d n m → K, velAt (v.phi (geo.inInside q)) (fun c i => y (.inl (c, i))) =
      femFunction v.phi (y ∘ Sum.inl) (geo.inInside q) := fun _ => rfl
  have e3 : ∀ y : Dof d n m → K, gradAt (gradients geoIn v (geo.inInside q)) (fun c i => y (.inl (c, i))) =
      femGradient (gradients geoIn v) (y ∘ Sum.inl) (geo.inInside q) := fun _ => rfl
  have e5 : ∀ y : Dof d n m → K, ∑ i, y (.inr i) * p.phi (geo.inInside q) i = femScalar p.phi (y ∘ Sum.inr) (geo.inInside q) :=
    fun _ => rfl
  unfold boundaryForm
  cases hb : par.bctype q
  · simp [tested_nil]
  · simp only [tested_append, tested_flatMap_fin, tested_ite, tested_cons, tested_nil, add_zero,
      Finset.sum_add_distrib, sum_if, reduceCtorEq, or_false, if_true, if_false, sub_zero]
    simp only [jb1, jb2, jb3, jb4, jb5, jb6, jb7]
    simp only [e1, e3, e5]
    unfold flowDirichlet traceAt flowTrace
    simp only [traction_eq]
    cases par.fullTensor
    · simp only [Bool.false_eq_true, if_false, add_zero, smul_dotProduct, smul_eq_mul, sub_zero]
      ring
    · simp only [if_true, smul_dotProduct, add_dotProduct, smul_eq_mul, sub_zero]
      ring
  · simp [tested_nil]
  · simp only [tested_append, tested_flatMap_fin, tested_map_fin, tested_ite, tested_cons, tested_nil, add_zero,
      Finset.sum_add_distrib, sum_if, reduceCtorEq, or_true, if_true]
    simp only [jb1, jb2, jb3, jb4, jb5, jb6, jb7, js1, js2, js3]
    simp only [e1, e3, e5]
    unfold flowSlip traceAt flowTrace
    simp only [traction_eq]
    cases par.fullTensor
    · simp only [Bool.false_eq_true, if_false, add_zero, smul_dotProduct, smul_eq_mul]
      ring
    · simp only [if_true, smul_dotProduct, add_dotProduct, smul_eq_mul]
      rw [transpose_mulVec_self, transpose_mulVec_self]
      ring

theorem dgflow_boundary_data (s : Bool) (o : Int) (dt : K) (par : DGFlow.Param K P Q d) (geo : FaceGeo K P Q d)
    (geoIn : CellGeo K P d) (v : Basis K P d n) (p : Basis K P d m) (y : Dof d n m → K) :
    tested (lambdaBoundary s o dt par geo geoIn v p) y =
      quadrature (geo.quadratureRule (boundaryOrder d v.order s o)) geo.integrationElement fun q =>
        let t := traceAt geoIn v p y (geo.inInside q)
        if par.bctype q = .velocityDirichlet then
          -(par.epsilon * (traction par.fullTensor (par.muFace q) (geo.unitOuterNormal q) t ⬝ᵥ par.g (geo.inInside q)) +
            par.muFace q * par.boundaryIP geo.volume geoIn.volume * (par.g (geo.inInside q) ⬝ᵥ t.vel) +
            par.incompressibilityScaling dt * t.pres * (par.g (geo.inInside q) ⬝ᵥ geo.unitOuterNormal q))
        else if par.bctype q = .stressNeumann then par.j q ⬝ᵥ t.vel else 0 := by
  unfold lambdaBoundary
  rw [tested_flatMap]
  have ho : lambdaBoundaryOrder d v.order s o = boundaryOrder d v.order s o := by
    unfold lambdaBoundaryOrder boundaryOrder
    cases s
    · simp only [Bool.false_eq_true, if_false]; ring
    · simp
  rw [ho]
  refine sum_eq_quadrature _ _ _ _ fun q w => ?_
  have e1 : ∀ y : Dof d n m → K, velAt (v.phi (geo.inInside q)) (fun c i => y (.inl (c, i))) =
      femFunction v.phi (y ∘ Sum.inl) (geo.inInside q) := fun _ => rfl
  have e3 : ∀ y : Dof d n m → K, gradAt (gradients geoIn v (geo.inInside q)) (fun c i => y (.inl (c, i))) =
      femGradient (gradients geoIn v) (y ∘ Sum.inl) (geo.inInside q) := fun _ => rfl
  have e5 : ∀ y : Dof d n m → K, ∑ i, y (.inr i) * p.phi (geo.inInside q) i = femScalar p.phi (y ∘ Sum.inr) (geo.inInside q) :=
    fun _ => rfl
  cases hb : par.bctype q
  · simp [tested_nil]
  · simp only [tested_append, tested_flatMap_fin, tested_map_fin, tested_ite, tested_cons, tested_nil, add_zero,
      Finset.sum_add_distrib, sum_if, reduceCtorEq, if_true, if_false]
    simp only [lb1, lb2, lb3]
    simp only [lb4]
    simp only [e1, e3, e5]
    unfold traceAt flowTrace
    simp only [traction_eq]
    cases par.fullTensor
    · simp only [Bool.false_eq_true, if_false, add_zero, smul_dotProduct, smul_eq_mul]
      ring
    · simp only [if_true, smul_dotProduct, add_dotProduct, smul_eq_mul]
      ring
  · simp only [tested_append, tested_flatMap_fin, tested_map_fin, tested_nil, reduceCtorEq, if_true, if_false, zero_add]
    simp only [lb5]
    simp only [e1]
    unfold traceAt flowTrace
    ring
  · simp [tested_nil]

/-- The density of the weak form in a cell. -/
def cellDensity (par : DGFlow.Param K P Q d) (scale : K) (pt : P) (u v : Trace K d) : K :=
  flowDensity par.navier par.fullTensor (par.mu pt) (par.rho pt) u.grad u.vel u.pres v.grad v.vel (scale * v.pres)

/-- Its linearisation at `w` in direction `u`. -/
def cellLinearised (par : DGFlow.Param K P Q d) (scale : K) (pt : P) (w u v : Trace K d) : K :=
  flowDensity false par.fullTensor (par.mu pt) (par.rho pt) u.grad u.vel u.pres v.grad v.vel (scale * v.pres) +
    if par.navier then par.rho pt * ((w.grad *ᵥ u.vel + u.grad *ᵥ w.vel) ⬝ᵥ v.vel) else 0

theorem dgflow_volume (s : Bool) (o : Int) (dt : K) (par : DGFlow.Param K P Q d) (geo : CellGeo K P d)
    (v : Basis K P d n) (p : Basis K P d m) (x y : Dof d n m → K) :
    tested (alphaVolume s o dt par geo v p x) y =
      quadrature (geo.quadratureRule (volumeOrder d v.order s o)) geo.integrationElement fun pt =>
        cellDensity par (par.incompressibilityScaling dt) pt (traceAt geo v p x pt) (traceAt geo v p y pt) := by
  unfold alphaVolume
  rw [tested_flatMap]
  refine sum_eq_quadrature _ _ _ _ fun q w => ?_
  have hS : ∀ c, ∑ i, x (.inl (c, i)) * v.phi q i = femFunction v.phi (x ∘ Sum.inl) q c := fun _ => rfl
  have e1 : velAt (v.phi q) (fun c i => y (.inl (c, i))) = femFunction v.phi (y ∘ Sum.inl) q := rfl
  have e3 : gradAt (gradients geo v q) (fun c i => y (.inl (c, i))) = femGradient (gradients geo v) (y ∘ Sum.inl) q := rfl
  have e5 : ∑ i, y (.inr i) * p.phi q i = femScalar p.phi (y ∘ Sum.inr) q := rfl
  have e7 : ∑ i, x (.inr i) * p.phi q i = femScalar p.phi (x ∘ Sum.inr) q := rfl
  simp only [tested_append, tested_flatMap_fin, tested_map_fin, tested_ite, tested_cons, tested_nil, add_zero,
    jac_eq_femGradient, Finset.sum_add_distrib, sum_if, hS]
  unfold cellDensity flowDensity traceAt flowTrace
  rw [viscous_contract]
  cases par.navier
  · simp only [Bool.false_eq_true, if_false, add_zero]
    simp only [av1, av2, av3, av5, e1, e3, e5, e7]
    cases par.fullTensor
    · simp only [Bool.false_eq_true, if_false]; ring
    · simp only [if_true]; ring
  · simp only [if_true]
    simp only [av1, av2, av3, av4, av5, e1, e3, e5, e7]
    cases par.fullTensor
    · simp only [Bool.false_eq_true, if_false]; ring
    · simp only [if_true]; ring

theorem dgflow_volume_jacobian (s : Bool) (o : Int) (dt : K) (par : DGFlow.Param K P Q d) (geo : CellGeo K P d)
    (v : Basis K P d n) (p : Basis K P d m) (x y z : Dof d n m → K) :
    bilinear (total (jacobianVolume s o dt par geo v p x)) y z =
      quadrature (geo.quadratureRule (volumeOrder d v.order s o)) geo.integrationElement fun pt =>
        cellLinearised par (par.incompressibilityScaling dt) pt (traceAt geo v p x pt) (traceAt geo v p z pt)
          (traceAt geo v p y pt) := by
  rw [bilinear_eq]
  unfold jacobianVolume
  rw [tested_flatMap]
  refine sum_eq_quadrature _ _ _ _ fun q w => ?_
  have hS : ∀ c, ∑ i, x (.inl (c, i)) * v.phi q i = femFunction v.phi (x ∘ Sum.inl) q c := fun _ => rfl
  have e1 : ∀ y : Dof d n m → K, velAt (v.phi q) (fun c i => y (.inl (c, i))) = femFunction v.phi (y ∘ Sum.inl) q := fun _ => rfl
  have e3 : ∀ y : Dof d n m → K, gradAt (gradients geo v q) (fun c i => y (.inl (c, i))) =
      femGradient (gradients geo v) (y ∘ Sum.inl) q := fun _ => rfl
  have e5 : ∀ y : Dof d n m → K, ∑ i, y (.inr i) * p.phi q i = femScalar p.phi (y ∘ Sum.inr) q := fun _ => rfl
  simp only [tested_append, tested_flatMap_fin, tested_map_fin, tested_ite, tested_cons, tested_nil, add_zero,
    jac_eq_femGradient, Finset.sum_add_distrib, sum_if, hS]
  unfold cellLinearised flowDensity traceAt flowTrace
  rw [viscous_contract]
  cases par.navier
  · simp only [Bool.false_eq_true, if_false, add_zero]
    simp only [jv1, jv2, jv3, jv4, e1, e3, e5]
    cases par.fullTensor
    · simp only [Bool.false_eq_true, if_false]; ring
    · simp only [if_true]; ring
  · simp only [if_true]
    simp only [jv1, jv2, jv3, jv4, jv5, jv6, e1, e3, e5, add_dotProduct]
    cases par.fullTensor
    · simp only [Bool.false_eq_true, if_false]; ring
    · simp only [if_true, Bool.false_eq_true, if_false]; ring

theorem dgflow_source (s : Bool) (o : Int) (par : DGFlow.Param K P Q d) (geo : CellGeo K P d)
    (v : Basis K P d n) (p : Basis K P d m) (y : Dof d n m → K) :
    tested (lambdaVolume s o par geo v p) y =
      quadrature (geo.quadratureRule (boundaryOrder d v.order s o)) geo.integrationElement fun pt =>
        par.g2 pt * (traceAt geo v p y pt).pres - par.f pt ⬝ᵥ (traceAt geo v p y pt).vel := by
  unfold lambdaVolume
  rw [tested_flatMap]
  refine sum_eq_quadrature _ _ _ _ fun q w => ?_
  simp only [tested_append, tested_flatMap_fin, tested_map_fin]
  rw [sum_phi (fun c i => y (.inl (c, i))) (-((w * geo.integrationElement q) • par.f q)) (v.phi q) _ fun c i => ?_,
    sum_psi (fun i => y (.inr i)) (p.phi q) (par.g2 q * (w * geo.integrationElement q)) _ fun i => by ring]
  · rw [neg_dotProduct, smul_dotProduct, smul_eq_mul]
    change -(w * geo.integrationElement q * (par.f q ⬝ᵥ femFunction v.phi (y ∘ Sum.inl) q)) +
      par.g2 q * (w * geo.integrationElement q) * femScalar p.phi (y ∘ Sum.inr) q =
      (par.g2 q * femScalar p.phi (y ∘ Sum.inr) q - par.f q ⬝ᵥ femFunction v.phi (y ∘ Sum.inl) q) * (w * geo.integrationElement q)
    ring
  · simp only [Pi.neg_apply, Pi.smul_apply, smul_eq_mul]; ring

end Verif.Tested
