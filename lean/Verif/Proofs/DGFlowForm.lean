import Verif.Proofs.DGFlowVec
import Mathlib.Tactic.Linarith
/- Linearity, symmetry and definiteness of the forms of the discontinuous Galerkin method for the Navier-Stokes equations. -/
set_option linter.unusedSectionVars false
namespace Verif.Tested
open Verif.LocalOp Verif.LocalOp.Spec Matrix

variable {K P Q : Type} [Field K] {d n m : Nat}

def traceLin (a : Trace K d) (t : K) (b : Trace K d) : Trace K d := ⟨a.grad + t • b.grad, a.vel + t • b.vel, a.pres + t * b.pres⟩

theorem flowTrace_lin (grad : P → Fin n → Fin d → K) (phi : P → Fin n → K) (psi : P → Fin m → K)
    (x z : (Fin d × Fin n) ⊕ Fin m → K) (t : K) (pt : P) :
    flowTrace grad phi psi (x + t • z) pt = traceLin (flowTrace grad phi psi x pt) t (flowTrace grad phi psi z pt) := by
  unfold flowTrace traceLin
  congr 1
  · have e : (x + t • z) ∘ Sum.inl = x ∘ Sum.inl + t • (z ∘ Sum.inl) := rfl
    rw [e, femGradient_add, femGradient_smul]
  · funext c
    simp [femFunction, add_mul, Finset.sum_add_distrib, mul_assoc, Finset.mul_sum]
  · simp [femScalar, add_mul, Finset.sum_add_distrib, mul_assoc, Finset.mul_sum]

theorem flowTraceVec_lin (jac : P → Fin n → Matrix (Fin d) (Fin d) K) (phi : P → Fin n → Fin d → K) (psi : P → Fin m → K)
    (x z : Fin n ⊕ Fin m → K) (t : K) (pt : P) :
    flowTraceVec jac phi psi (x + t • z) pt = traceLin (flowTraceVec jac phi psi x pt) t (flowTraceVec jac phi psi z pt) := by
  unfold flowTraceVec traceLin
  congr 1
  · simp [add_smul, Finset.sum_add_distrib, mul_smul, Finset.smul_sum]
  · simp [add_smul, Finset.sum_add_distrib, mul_smul, Finset.smul_sum]
  · simp [femScalar, add_mul, Finset.sum_add_distrib, mul_assoc, Finset.mul_sum]

theorem viscousStress_lin (full : Bool) (mu t : K) (A B : Matrix (Fin d) (Fin d) K) :
    viscousStress full mu (A + t • B) = viscousStress full mu A + t • viscousStress full mu B := by
  cases full
  · simp only [viscousStress, Bool.false_eq_true, if_false, smul_add, smul_comm mu t]
  · simp only [viscousStress, if_true, transpose_add, transpose_smul]
    ext i j
    simp only [Matrix.add_apply, Matrix.smul_apply, smul_eq_mul]; ring

theorem traction_lin (full : Bool) (mu t : K) (nn : Fin d → K) (a b : Trace K d) :
    traction full mu nn (traceLin a t b) = traction full mu nn a + t • traction full mu nn b := by
  unfold traction traceLin
  rw [viscousStress_lin, add_mulVec, smul_mulVec]

theorem flowFace_lin (full : Bool) (mu pen eps sc t : K) (nn : Fin d → K) (uS uN zS zN vS vN : Trace K d) :
    flowFace full mu pen eps sc nn (traceLin uS t zS) (traceLin uN t zN) vS vN =
      flowFace full mu pen eps sc nn uS uN vS vN + t * flowFace full mu pen eps sc nn zS zN vS vN := by
  unfold flowFace
  rw [traction_lin, traction_lin]
  simp only [traceLin, smul_dotProduct, add_dotProduct, dotProduct_add, dotProduct_sub, sub_dotProduct, dotProduct_smul, smul_eq_mul]
  ring

theorem flowDirichlet_lin (full : Bool) (mu pen eps sc t : K) (nn g : Fin d → K) (u z v : Trace K d) :
    flowDirichlet full mu pen eps sc nn g (traceLin u t z) v =
      flowDirichlet full mu pen eps sc nn g u v + t * flowDirichlet full mu pen eps sc nn 0 z v := by
  unfold flowDirichlet
  rw [traction_lin]
  simp only [traceLin, smul_dotProduct, add_dotProduct, dotProduct_add, dotProduct_sub, sub_dotProduct, dotProduct_smul, smul_eq_mul,
    sub_zero]
  ring

theorem flowSlip_lin (full : Bool) (mu pen eps sc s t : K) (nn : Fin d → K) (u z v : Trace K d) :
    flowSlip full mu pen eps sc s nn (traceLin u t z) v =
      flowSlip full mu pen eps sc s nn u v + t * flowSlip full mu pen eps sc s nn z v := by
  unfold flowSlip
  rw [traction_lin]
  simp only [traceLin, smul_dotProduct, add_dotProduct, dotProduct_add, dotProduct_smul, smul_eq_mul]
  ring

/-- The second order part of the density in a cell. -/
def cellSecond (navier : Bool) (rho : K) (z v : Trace K d) : K :=
  if navier then rho * ((z.grad *ᵥ z.vel) ⬝ᵥ v.vel) else 0

theorem flowDensity_lin (navier full : Bool) (mu rho sc t : K) (u z v : Trace K d) :
    flowDensity navier full mu rho (traceLin u t z).grad (traceLin u t z).vel (traceLin u t z).pres v.grad v.vel (sc * v.pres) =
      flowDensity navier full mu rho u.grad u.vel u.pres v.grad v.vel (sc * v.pres) +
      t * (flowDensity false full mu rho z.grad z.vel z.pres v.grad v.vel (sc * v.pres) +
        if navier then rho * ((u.grad *ᵥ z.vel + z.grad *ᵥ u.vel) ⬝ᵥ v.vel) else 0) + t ^ 2 * cellSecond navier rho z v := by
  unfold flowDensity cellSecond
  simp only [traceLin]
  rw [viscousStress_lin, contract_add_left, contract_smul_left, trace_add, trace_smul]
  cases navier
  · simp only [Bool.false_eq_true, if_false, smul_eq_mul]; ring
  · simp only [Bool.false_eq_true, if_false, if_true, add_mulVec, mulVec_add, smul_mulVec, mulVec_smul, add_dotProduct,
      smul_dotProduct, smul_eq_mul]
    ring

theorem stokes_symm (full : Bool) (mu rho : K) (u v : Trace K d) :
    flowDensity false full mu rho u.grad u.vel u.pres v.grad v.vel (1 * v.pres) =
      flowDensity false full mu rho v.grad v.vel v.pres u.grad u.vel (1 * u.pres) := by
  unfold flowDensity
  rw [viscous_contract, viscous_contract, contract_comm, contract_transpose_left, contract_comm u.grad]
  simp only [Bool.false_eq_true, if_false]
  ring

theorem flowFace_symm (full : Bool) (mu pen : K) (nn : Fin d → K) (uS uN vS vN : Trace K d) :
    flowFace full mu pen (-1) 1 nn uS uN vS vN = flowFace full mu pen (-1) 1 nn vS vN uS uN := by
  unfold flowFace
  rw [dotProduct_comm (uS.vel - uN.vel) (vS.vel - vN.vel)]
  ring

theorem flowDirichlet_symm (full : Bool) (mu pen : K) (nn : Fin d → K) (u v : Trace K d) :
    flowDirichlet full mu pen (-1) 1 nn 0 u v = flowDirichlet full mu pen (-1) 1 nn 0 v u := by
  unfold flowDirichlet
  simp only [sub_zero]
  rw [dotProduct_comm u.vel v.vel]
  ring

theorem flowSlip_symm (full : Bool) (mu pen s : K) (nn : Fin d → K) (u v : Trace K d) :
    flowSlip full mu pen (-1) 1 s nn u v = flowSlip full mu pen (-1) 1 s nn v u := by
  unfold flowSlip
  rw [dotProduct_comm u.vel v.vel]
  ring

/-- Looking at the face from the other side. -/
theorem flowFace_swap (full : Bool) (mu pen eps sc : K) (nn : Fin d → K) (uS uN vS vN : Trace K d) :
    flowFace full mu pen eps sc (-nn) uN uS vN vS = flowFace full mu pen eps sc nn uS uN vS vN := by
  unfold flowFace traction
  simp only [mulVec_neg, smul_dotProduct, add_dotProduct, dotProduct_sub, sub_dotProduct, smul_eq_mul, neg_dotProduct, dotProduct_neg]
  ring

theorem traction_zero (full : Bool) (mu : K) (nn : Fin d → K) (t : Trace K d) (h : t.grad = 0) : traction full mu nn t = 0 := by
  unfold traction; rw [h]; cases full <;> simp [viscousStress]

theorem flowFace_continuous (full : Bool) (mu pen eps sc : K) (nn : Fin d → K) (uS uN vS vN : Trace K d) (hv : vS.vel = vN.vel)
    (hS : vS.grad = 0) (hN : vN.grad = 0) (pS : vS.pres = 0) (pN : vN.pres = 0) :
    flowFace full mu pen eps sc nn uS uN vS vN = 0 := by
  unfold flowFace
  rw [traction_zero _ _ _ vS hS, traction_zero _ _ _ vN hN, hv, pS, pN]
  simp

theorem flowFace_consistent (h2 : (2 : K) ≠ 0) (full : Bool) (mu pen eps sc : K) (nn : Fin d → K) (uS uN vS vN : Trace K d)
    (hu : uS.vel = uN.vel) (hg : uS.grad = uN.grad) (hp : uS.pres = uN.pres) :
    flowFace full mu pen eps sc nn uS uN vS vN =
      -((traction full mu nn uS - uS.pres • nn) ⬝ᵥ (vS.vel - vN.vel)) := by
  have ht : traction full mu nn uN = traction full mu nn uS := by unfold traction; rw [hg]
  unfold flowFace
  rw [ht, hu, ← hp]
  simp only [sub_self, dotProduct_zero, zero_dotProduct, sub_dotProduct, smul_dotProduct, add_dotProduct, smul_eq_mul]
  rw [dotProduct_comm nn, ← sub_dotProduct]
  field_simp
  ring

theorem flowDirichlet_consistent (full : Bool) (mu pen eps sc : K) (nn g : Fin d → K) (u v : Trace K d) (hu : u.vel = g) :
    flowDirichlet full mu pen eps sc nn g u v = -((traction full mu nn u - u.pres • nn) ⬝ᵥ v.vel) := by
  unfold flowDirichlet
  rw [hu]
  simp only [sub_self, dotProduct_zero, zero_dotProduct, sub_dotProduct, smul_dotProduct, smul_eq_mul]
  rw [dotProduct_comm nn]
  ring

section Ordered
variable [LinearOrder K] [IsStrictOrderedRing K]

theorem dot_self_nonneg (a : Fin d → K) : 0 ≤ a ⬝ᵥ a := Finset.sum_nonneg fun i _ => mul_self_nonneg (a i)

theorem viscous_nonneg (full : Bool) (mu : K) (hmu : 0 ≤ mu) (A : Matrix (Fin d) (Fin d) K) :
    0 ≤ contract (viscousStress full mu A) A := by
  rw [viscous_contract]
  have h1 := mul_nonneg hmu (contract_self_nonneg A)
  cases full
  · simpa using h1
  · simp only [if_true]
    have h2 : 0 ≤ contract (A + Aᵀ) (A + Aᵀ) := contract_self_nonneg _
    rw [contract_add_left, contract_add_right, contract_add_right, contract_transpose, ← contract_transpose_left] at h2
    have h3 := mul_nonneg hmu h2
    nlinarith

theorem flowDensity_stable (full : Bool) (mu rho sc : K) (hmu : 0 ≤ mu) (hs : sc ≠ 0) (u v : Trace K d) (hg : v.grad = u.grad)
    (hp : v.pres = -(u.pres / sc)) :
    0 ≤ flowDensity false full mu rho u.grad u.vel u.pres v.grad v.vel (sc * v.pres) := by
  unfold flowDensity
  rw [hg, hp]
  have : sc * -(u.pres / sc) = -u.pres := by field_simp
  rw [this]
  have := viscous_nonneg full mu hmu u.grad
  simp only [Bool.false_eq_true, if_false]
  linarith

theorem flowFace_stable (full : Bool) (mu pen sc : K) (hmu : 0 ≤ mu) (hpen : 0 ≤ pen) (hs : sc ≠ 0) (nn : Fin d → K)
    (uS uN vS vN : Trace K d) (gS : vS.grad = uS.grad) (gN : vN.grad = uN.grad) (hS : vS.vel = uS.vel) (hN : vN.vel = uN.vel)
    (pS : vS.pres = -(uS.pres / sc)) (pN : vN.pres = -(uN.pres / sc)) :
    flowFace full mu pen 1 sc nn uS uN vS vN = mu * pen * ((uS.vel - uN.vel) ⬝ᵥ (uS.vel - uN.vel)) ∧
    0 ≤ flowFace full mu pen 1 sc nn uS uN vS vN := by
  have e : flowFace full mu pen 1 sc nn uS uN vS vN = mu * pen * ((uS.vel - uN.vel) ⬝ᵥ (uS.vel - uN.vel)) := by
    have tS : traction full mu nn vS = traction full mu nn uS := by unfold traction; rw [gS]
    have tN : traction full mu nn vN = traction full mu nn uN := by unfold traction; rw [gN]
    unfold flowFace
    rw [tS, tN, hS, hN, pS, pN]
    field_simp
    ring
  exact ⟨e, e ▸ mul_nonneg (mul_nonneg hmu hpen) (dot_self_nonneg _)⟩

theorem flowDirichlet_stable (full : Bool) (mu pen sc : K) (hmu : 0 ≤ mu) (hpen : 0 ≤ pen) (hs : sc ≠ 0) (nn : Fin d → K)
    (u v : Trace K d) (hg : v.grad = u.grad) (hv : v.vel = u.vel) (hp : v.pres = -(u.pres / sc)) :
    0 ≤ flowDirichlet full mu pen 1 sc nn 0 u v := by
  have e : flowDirichlet full mu pen 1 sc nn 0 u v = mu * pen * (u.vel ⬝ᵥ u.vel) := by
    have t : traction full mu nn v = traction full mu nn u := by unfold traction; rw [hg]
    unfold flowDirichlet
    rw [t, hv, hp, sub_zero]
    field_simp
    ring
  exact e ▸ mul_nonneg (mul_nonneg hmu hpen) (dot_self_nonneg _)

theorem flowSlip_stable (full : Bool) (mu pen sc s : K) (hmu : 0 ≤ mu) (hpen : 0 ≤ pen) (hs : sc ≠ 0) (h0 : 0 ≤ s) (h1 : s ≤ 1)
    (nn : Fin d → K) (u v : Trace K d) (hg : v.grad = u.grad) (hv : v.vel = u.vel) (hp : v.pres = -(u.pres / sc)) :
    0 ≤ flowSlip full mu pen 1 sc s nn u v := by
  have e : flowSlip full mu pen 1 sc s nn u v =
      mu * pen * ((1 - s) * (u.vel ⬝ᵥ u.vel) + s * ((u.vel ⬝ᵥ nn) * (u.vel ⬝ᵥ nn))) := by
    have t : traction full mu nn v = traction full mu nn u := by unfold traction; rw [hg]
    unfold flowSlip
    rw [t, hv, hp]
    field_simp
    ring
  rw [e]
  exact mul_nonneg (mul_nonneg hmu hpen) (add_nonneg (mul_nonneg (by linarith) (dot_self_nonneg _))
    (mul_nonneg h0 (mul_self_nonneg _)))

end Ordered
end Verif.Tested
