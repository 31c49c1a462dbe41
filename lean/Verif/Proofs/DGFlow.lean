import Verif.Proofs.DGFlowPoint
/- The residuals of the discontinuous Galerkin method for the Navier-Stokes equations, tested with a function. -/
set_option linter.unusedSectionVars false
namespace Verif.Tested
open Verif.LocalOp Verif.LocalOp.Spec Matrix
open TaylorHood (Dof)
open DGFlow

variable {K P Q : Type} [Field K] {d n m : Nat}

/-- The trace of the functions with coefficients `x` at a point of a cell. -/
abbrev traceAt (geo : CellGeo K P d) (v : Basis K P d n) (p : Basis K P d m) (x : Dof d n m → K) (pt : P) : Trace K d :=
  flowTrace (gradients geo v) v.phi p.phi x pt

theorem jac_eq_femGradient (geo : CellGeo K P d) (v : Basis K P d n) (x : Dof d n m → K) (pt : P) (c : Fin d) :
    (∑ i, x (.inl (c, i)) • gradients geo v pt i) = femGradient (gradients geo v) (x ∘ Sum.inl) pt c := by
  funext k; rw [sum_smul_apply]; rfl

theorem dgflow_skeleton (s : Bool) (o : Int) (dt : K) (par : DGFlow.Param K P Q d) (geo : FaceGeo K P Q d)
    (geoIn geoOut : CellGeo K P d) (vS vN : Basis K P d n) (pS pN : Basis K P d m) (xS xN : Dof d n m → K)
    (y : FaceDof d n m → K) :
    tested (alphaSkeleton s o dt par geo geoIn geoOut vS vN pS pN xS xN) y =
      quadrature (geo.quadratureRule (skeletonOrder d vS.order s o)) geo.integrationElement fun q =>
        flowFace par.fullTensor (par.muFace q) (par.faceIP geo.volume geoIn.volume geoOut.volume) par.epsilon
          (par.incompressibilityScaling dt) (geo.unitOuterNormal q)
          (traceAt geoIn vS pS xS (geo.inInside q)) (traceAt geoOut vN pN xN (geo.inOutside q))
          (traceAt geoIn vS pS (y ∘ Sum.inl) (geo.inInside q)) (traceAt geoOut vN pN (y ∘ Sum.inr) (geo.inOutside q)) := by
  unfold alphaSkeleton
  rw [tested_flatMap]
  refine sum_eq_quadrature _ _ _ _ fun q w => ?_
  have hS : ∀ c, ∑ i, xS (.inl (c, i)) * vS.phi (geo.inInside q) i = femFunction vS.phi (xS ∘ Sum.inl) (geo.inInside q) c :=
    fun _ => rfl
  have hN : ∀ c, ∑ i, xN (.inl (c, i)) * vN.phi (geo.inOutside q) i = femFunction vN.phi (xN ∘ Sum.inl) (geo.inOutside q) c :=
    fun _ => rfl
  simp only [tested_append, tested_flatMap_fin, tested_map_fin, tested_ite, tested_cons, tested_nil, add_zero,
    jac_eq_femGradient, Finset.sum_add_distrib, sum_if, hS, hN]
  simp only [fl1, fl1p, fl2, fl2p, fl3, fl4, fl5, fl6, fl7]
  have e1 : velAt (vS.phi (geo.inInside q)) (fun c i => y (sv c i)) =
      femFunction vS.phi ((y ∘ Sum.inl) ∘ Sum.inl) (geo.inInside q) := rfl
  have e2 : velAt (vN.phi (geo.inOutside q)) (fun c i => y (nv c i)) =
      femFunction vN.phi ((y ∘ Sum.inr) ∘ Sum.inl) (geo.inOutside q) := rfl
  have e3 : gradAt (gradients geoIn vS (geo.inInside q)) (fun c i => y (sv c i)) =
      femGradient (gradients geoIn vS) ((y ∘ Sum.inl) ∘ Sum.inl) (geo.inInside q) := rfl
  have e4 : gradAt (gradients geoOut vN (geo.inOutside q)) (fun c i => y (nv c i)) =
      femGradient (gradients geoOut vN) ((y ∘ Sum.inr) ∘ Sum.inl) (geo.inOutside q) := rfl
  have e5 : ∑ i, y (sp i) * pS.phi (geo.inInside q) i = femScalar pS.phi ((y ∘ Sum.inl) ∘ Sum.inr) (geo.inInside q) := rfl
  have e6 : ∑ i, y (np i) * pN.phi (geo.inOutside q) i = femScalar pN.phi ((y ∘ Sum.inr) ∘ Sum.inr) (geo.inOutside q) := rfl
  have e7 : ∑ i, xS (.inr i) * pS.phi (geo.inInside q) i = femScalar pS.phi (xS ∘ Sum.inr) (geo.inInside q) := rfl
  have e8 : ∑ i, xN (.inr i) * pN.phi (geo.inOutside q) i = femScalar pN.phi (xN ∘ Sum.inr) (geo.inOutside q) := rfl
  rw [e1, e2, e3, e4, e5, e6, e7, e8]
  unfold flowFace traceAt flowTrace
  simp only [traction_eq]
  cases par.fullTensor
  · simp only [Bool.false_eq_true, if_false, add_zero, smul_dotProduct, add_dotProduct, dotProduct_sub, sub_dotProduct, smul_eq_mul]
    ring
  · simp only [if_true, smul_dotProduct, add_dotProduct, dotProduct_sub, sub_dotProduct, smul_eq_mul]
    ring

theorem dgflow_skeleton_jacobian (s : Bool) (o : Int) (dt : K) (par : DGFlow.Param K P Q d) (geo : FaceGeo K P Q d)
    (geoIn geoOut : CellGeo K P d) (vS vN : Basis K P d n) (pS pN : Basis K P d m) (y z : FaceDof d n m → K) :
    bilinear (total (jacobianSkeleton s o dt par geo geoIn geoOut vS vN pS pN)) y z =
      quadrature (geo.quadratureRule (skeletonOrder d vS.order s o)) geo.integrationElement fun q =>
        flowFace par.fullTensor (par.muFace q) (par.faceIP geo.volume geoIn.volume geoOut.volume) par.epsilon
          (par.incompressibilityScaling dt) (geo.unitOuterNormal q)
          (traceAt geoIn vS pS (z ∘ Sum.inl) (geo.inInside q)) (traceAt geoOut vN pN (z ∘ Sum.inr) (geo.inOutside q))
          (traceAt geoIn vS pS (y ∘ Sum.inl) (geo.inInside q)) (traceAt geoOut vN pN (y ∘ Sum.inr) (geo.inOutside q)) := by
  rw [bilinear_eq]
  unfold jacobianSkeleton
  rw [tested_flatMap]
  refine sum_eq_quadrature _ _ _ _ fun q w => ?_
  simp only [tested_append, tested_flatMap_fin, tested_ite, tested_cons, tested_nil, add_zero,
    Finset.sum_add_distrib, sum_if]
  simp only [bl1, bl2, bl3, bl3n, bl3p, bl4, bl5, bl6, bl7]
  have e1 : ∀ y : FaceDof d n m → K, velAt (vS.phi (geo.inInside q)) (fun c i => y (sv c i)) =
      femFunction vS.phi ((y ∘ Sum.inl) ∘ Sum.inl) (geo.inInside q) := fun _ => rfl
  have e2 : ∀ y : FaceDof d n m → K, velAt (vN.phi (geo.inOutside q)) (fun c i => y (nv c i)) =
      femFunction vN.phi ((y ∘ Sum.inr) ∘ Sum.inl) (geo.inOutside q) := fun _ => rfl
  have e3 : ∀ y : FaceDof d n m → K, gradAt (gradients geoIn vS (geo.inInside q)) (fun c i => y (sv c i)) =
      femGradient (gradients geoIn vS) ((y ∘ Sum.inl) ∘ Sum.inl) (geo.inInside q) := fun _ => rfl
  have e4 : ∀ y : FaceDof d n m → K, gradAt (gradients geoOut vN (geo.inOutside q)) (fun c i => y (nv c i)) =
      femGradient (gradients geoOut vN) ((y ∘ Sum.inr) ∘ Sum.inl) (geo.inOutside q) := fun _ => rfl
  have e5 : ∀ y : FaceDof d n m → K, ∑ i, y (sp i) * pS.phi (geo.inInside q) i =
      femScalar pS.phi ((y ∘ Sum.inl) ∘ Sum.inr) (geo.inInside q) := fun _ => rfl
  have e6 : ∀ y : FaceDof d n m → K, ∑ i, y (np i) * pN.phi (geo.inOutside q) i =
      femScalar pN.phi ((y ∘ Sum.inr) ∘ Sum.inr) (geo.inOutside q) := fun _ => rfl
  simp only [e1, e2, e3, e4, e5, e6]
  unfold flowFace traceAt flowTrace
  simp only [traction_eq]
  rw [dotProduct_comm (femFunction vS.phi ((z ∘ Sum.inl) ∘ Sum.inl) (geo.inInside q)) (femFunction vN.phi _ _),
    dotProduct_comm (femFunction vN.phi ((z ∘ Sum.inr) ∘ Sum.inl) (geo.inOutside q)) (femFunction vS.phi _ _),
    dotProduct_comm (femFunction vN.phi ((z ∘ Sum.inr) ∘ Sum.inl) (geo.inOutside q)) (femFunction vN.phi _ _)]
  cases par.fullTensor
  · simp only [Bool.false_eq_true, if_false, add_zero, smul_dotProduct, add_dotProduct, dotProduct_sub, sub_dotProduct, smul_eq_mul]
    simp only [dotProduct_comm (femFunction _ ((z ∘ _) ∘ _) _) (femFunction _ _ _)]
    ring
  · simp only [if_true, smul_dotProduct, add_dotProduct, dotProduct_sub, sub_dotProduct, smul_eq_mul]
    simp only [dotProduct_comm (femFunction _ ((z ∘ _) ∘ _) _) (femFunction _ _ _)]
    ring

end Verif.Tested
