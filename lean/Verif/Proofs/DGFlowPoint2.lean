import Verif.Proofs.DGFlowPoint
/- Sums at a point of a boundary face and of a cell. -/
set_option linter.unusedSectionVars false
namespace Verif.Tested
open Verif.LocalOp Verif.LocalOp.Spec Matrix

variable {K : Type} [Field K] {d n m : Nat}

local macro "sum2" : tactic =>
  `(tactic| exact Finset.sum_congr rfl fun _ _ => Finset.sum_congr rfl fun _ _ => by ring)
local macro "sum3" : tactic =>
  `(tactic| exact Finset.sum_congr rfl fun _ _ => Finset.sum_congr rfl fun _ _ => Finset.sum_congr rfl fun _ _ => by ring)
local macro "sum4" : tactic =>
  `(tactic| exact Finset.sum_congr rfl fun _ _ => Finset.sum_congr rfl fun _ _ => Finset.sum_congr rfl fun _ _ =>
    Finset.sum_congr rfl fun _ _ => by ring)

/-! Residual on the boundary. -/

theorem ab1 (y : Fin d → Fin n → K) (A : Matrix (Fin d) (Fin d) K) (n' : Fin d → K) (phi : Fin n → K) (mu F : K) :
    ∑ c, ∑ i, y c i * (-((A c ⬝ᵥ n') * F * mu) * phi i) = -(F * mu * ((A *ᵥ n') ⬝ᵥ velAt phi y)) := by
  rw [sum_phi y (-((F * mu) • (A *ᵥ n'))) phi _ fun c i => ?_, neg_dotProduct, smul_dotProduct, smul_eq_mul]
  simp only [Pi.neg_apply, Pi.smul_apply, Matrix.mulVec, smul_eq_mul]; ring
theorem ab2 (y : Fin d → Fin n → K) (g : Fin n → Fin d → K) (n' a : Fin d → K) (e mu F : K) :
    ∑ c, ∑ i, y c i * (e * mu * (g i ⬝ᵥ n') * a c * F) = e * mu * F * ((gradAt g y *ᵥ n') ⬝ᵥ a) := by
  rw [sum_grad y ((e * mu * F) • a) n' g _ fun c i => ?_, smul_dotProduct, smul_eq_mul, dotProduct_comm]
  simp only [Pi.smul_apply, smul_eq_mul]; ring
theorem ab3 (y : Fin d → Fin n → K) (A : Matrix (Fin d) (Fin d) K) (n' : Fin d → K) (phi : Fin n → K) (mu F : K) :
    ∑ c, ∑ i, ∑ k, y c i * (-mu * A k c * n' k * phi i * F) = -(mu * F * ((Aᵀ *ᵥ n') ⬝ᵥ velAt phi y)) := by
  rw [sum_phiT y (fun c k => -(mu * A k c * n' k * F)) phi _ fun c i k => by ring, ← smul_eq_mul (mu * F), ← smul_dotProduct,
    ← neg_dotProduct]
  congr 1
  funext c
  simp only [Pi.neg_apply, Pi.smul_apply, mulVecT_eq, smul_eq_mul, Finset.mul_sum, ← Finset.sum_neg_distrib]
  exact Finset.sum_congr rfl fun k _ => by ring
theorem ab4 (y : Fin d → Fin n → K) (g : Fin n → Fin d → K) (n' a : Fin d → K) (e mu F : K) :
    ∑ c, ∑ i, ∑ k, y c i * (e * mu * g i k * a k * n' c * F) = e * mu * F * (((gradAt g y)ᵀ *ᵥ n') ⬝ᵥ a) := by
  rw [sum_gradT y ((e * mu * F) • a) n' g _ fun c i k => ?_, smul_dotProduct, smul_eq_mul, dotProduct_comm]
  simp only [Pi.smul_apply, smul_eq_mul]; ring
theorem ab5 (y : Fin d → Fin n → K) (phi : Fin n → K) (a : Fin d → K) (mu pen F : K) :
    ∑ c, ∑ i, y c i * (a c * phi i * mu * pen * F) = mu * pen * F * (a ⬝ᵥ velAt phi y) := by
  rw [sum_phi y ((mu * pen * F) • a) phi _ fun c i => ?_, smul_dotProduct, smul_eq_mul]
  simp only [Pi.smul_apply, smul_eq_mul]; ring
theorem ab7 (y psi : Fin m → K) (a s F : K) : ∑ i, y i * (psi i * a * s * F) = a * s * F * ∑ i, y i * psi i :=
  sum_psi y psi (a * s * F) _ fun i => by ring
theorem as1 (y : Fin d → Fin n → K) (A : Matrix (Fin d) (Fin d) K) (n' : Fin d → K) (phi : Fin n → K) (t mu F : K) :
    ∑ c, ∑ i, ∑ k, y c i * (-t * mu * (A k ⬝ᵥ n') * n' k * phi i * n' c * F) =
      -(t * mu * F * ((A *ᵥ n') ⬝ᵥ n') * (velAt phi y ⬝ᵥ n')) := by
  rw [sum_phiT y (fun c k => -(t * mu * F) * ((A *ᵥ n') k * n' k) * n' c) phi _ fun c i k => ?_]
  · have : (fun c => ∑ k, -(t * mu * F) * ((A *ᵥ n') k * n' k) * n' c) = (-(t * mu * F) * ((A *ᵥ n') ⬝ᵥ n')) • n' := by
      funext c
      rw [Pi.smul_apply, smul_eq_mul, ← Finset.sum_mul, ← Finset.mul_sum]; rfl
    rw [this, smul_dotProduct, smul_eq_mul, dotProduct_comm n']; ring
  · unfold Matrix.mulVec; ring
theorem as2 (y : Fin d → Fin n → K) (g : Fin n → Fin d → K) (n' : Fin d → K) (e t mu a F : K) :
    ∑ c, ∑ i, y c i * (e * t * mu * a * (g i ⬝ᵥ n') * n' c * F) = e * t * mu * a * F * ((gradAt g y *ᵥ n') ⬝ᵥ n') := by
  rw [sum_grad y ((e * t * mu * a * F) • n') n' g _ fun c i => ?_, smul_dotProduct, smul_eq_mul, dotProduct_comm]
  simp only [Pi.smul_apply, smul_eq_mul]; ring
theorem as3 (y : Fin d → Fin n → K) (phi : Fin n → K) (n' : Fin d → K) (e F : K) (mu a : K) :
    ∑ c, ∑ i, y c i * (mu * e * a * phi i * n' c * F) = mu * e * a * F * (velAt phi y ⬝ᵥ n') := fl6 y phi n' (mu * e * a) F

/-! Data on the boundary. -/

theorem lb1 (y : Fin d → Fin n → K) (g : Fin n → Fin d → K) (n' a : Fin d → K) (e F : K) :
    ∑ c, ∑ i, y c i * (-e * (g i ⬝ᵥ n') * F * a c) = -(e * F * ((gradAt g y *ᵥ n') ⬝ᵥ a)) := by
  rw [sum_grad y (-((e * F) • a)) n' g _ fun c i => ?_, neg_dotProduct, smul_dotProduct, smul_eq_mul, dotProduct_comm]
  simp only [Pi.neg_apply, Pi.smul_apply, smul_eq_mul]; ring
theorem lb2 (y : Fin d → Fin n → K) (g : Fin n → Fin d → K) (n' a : Fin d → K) (e F : K) :
    ∑ c, ∑ i, ∑ k, y k i * (-e * (g i c * n' k * F) * a c) = -(e * F * (((gradAt g y)ᵀ *ᵥ n') ⬝ᵥ a)) := by
  conv_rhs => unfold dotProduct
  simp only [gradAtT_mulVec]
  rw [Finset.mul_sum, ← Finset.sum_neg_distrib]
  refine Finset.sum_congr rfl fun c _ => ?_
  simp only [Finset.sum_mul, Finset.mul_sum, ← Finset.sum_neg_distrib]
  sum2
theorem lb3 (y : Fin d → Fin n → K) (phi : Fin n → K) (a : Fin d → K) (pen F : K) :
    ∑ c, ∑ i, y c i * (-phi i * pen * a c * F) = -(pen * F * (a ⬝ᵥ velAt phi y)) := by
  rw [sum_phi y (-((pen * F) • a)) phi _ fun c i => ?_, neg_dotProduct, smul_dotProduct, smul_eq_mul]
  simp only [Pi.neg_apply, Pi.smul_apply, smul_eq_mul]; ring
theorem lb4 (y psi : Fin m → K) (a s F : K) : ∑ i, y i * (-(psi i * a * F) * s) = -(a * s * F * ∑ i, y i * psi i) := by
  rw [sum_psi y psi (-(a * s * F)) _ fun i => by ring]; ring
theorem lb5 (y : Fin d → Fin n → K) (phi : Fin n → K) (a : Fin d → K) (F : K) :
    ∑ c, ∑ i, y c i * (a c * phi i * F) = F * (a ⬝ᵥ velAt phi y) := by
  rw [sum_phi y (F • a) phi _ fun c i => ?_, smul_dotProduct, smul_eq_mul]
  simp only [Pi.smul_apply, smul_eq_mul]; ring

/-! Matrix on the boundary. -/

theorem jb2 (y z : Fin d → Fin n → K) (g : Fin n → Fin d → K) (n' : Fin d → K) (phi : Fin n → K) (e mu F : K) :
    ∑ c, ∑ i, ∑ j, y c j * z c i * (e * ((g j ⬝ᵥ n') * phi i * F * mu)) =
      e * mu * F * ((gradAt g y *ᵥ n') ⬝ᵥ velAt phi z) := by
  rw [← bl2 y z g n' phi e mu F, Finset.sum_congr rfl fun c _ => Finset.sum_comm]
  sum3
theorem jb1 (y z : Fin d → Fin n → K) (g : Fin n → Fin d → K) (n' : Fin d → K) (phi : Fin n → K) (mu F : K) :
    ∑ c, ∑ i, ∑ j, y c i * z c j * -((g j ⬝ᵥ n') * phi i * F * mu) = -(mu * F * ((gradAt g z *ᵥ n') ⬝ᵥ velAt phi y)) := by
  rw [show -(mu * F * ((gradAt g z *ᵥ n') ⬝ᵥ velAt phi y)) = -1 * mu * F * ((gradAt g z *ᵥ n') ⬝ᵥ velAt phi y) by ring,
    ← jb2 z y g n' phi (-1) mu F]
  sum3
theorem jb4 (y z : Fin d → Fin n → K) (g : Fin n → Fin d → K) (n' : Fin d → K) (phi : Fin n → K) (e mu F : K) :
    ∑ c, ∑ i, ∑ j, ∑ k, y k j * z c i * (e * (g j c * n' k * phi i * F * mu)) =
      e * mu * F * (((gradAt g y)ᵀ *ᵥ n') ⬝ᵥ velAt phi z) := by
  rw [← bl5 y z g n' phi e mu F, Finset.sum_congr rfl fun c _ => Finset.sum_comm]
  sum4
theorem jb3 (y z : Fin d → Fin n → K) (g : Fin n → Fin d → K) (n' : Fin d → K) (phi : Fin n → K) (mu F : K) :
    ∑ c, ∑ i, ∑ j, ∑ k, y c i * z k j * -(g j c * n' k * phi i * F * mu) =
      -(mu * F * (((gradAt g z)ᵀ *ᵥ n') ⬝ᵥ velAt phi y)) := by
  rw [show -(mu * F * (((gradAt g z)ᵀ *ᵥ n') ⬝ᵥ velAt phi y)) = -1 * mu * F * (((gradAt g z)ᵀ *ᵥ n') ⬝ᵥ velAt phi y) by ring,
    ← jb4 z y g n' phi (-1) mu F]
  sum4
theorem jb5 (y z : Fin d → Fin n → K) (phi phi' : Fin n → K) (mu e F : K) :
    ∑ c, ∑ i, ∑ j, y c j * z c i * (phi i * phi' j * mu * e * F) = mu * e * F * (velAt phi z ⬝ᵥ velAt phi' y) := by
  rw [← bl3p y z phi phi' (mu * e) F]
  sum3
theorem jb7 (y : Fin d → Fin n → K) (z psi : Fin m → K) (n' : Fin d → K) (phi : Fin n → K) (F : K) :
    ∑ c, ∑ i, ∑ j, y c i * z j * (psi j * n' c * phi i * F) = F * (∑ j, z j * psi j) * (velAt phi y ⬝ᵥ n') := by
  rw [← one_mul F, ← bl6 y z psi n' phi 1 F]
  sum3
theorem jb6 (z : Fin d → Fin n → K) (y psi : Fin m → K) (n' : Fin d → K) (phi : Fin n → K) (F s : K) :
    ∑ c, ∑ i, ∑ j, y j * z c i * (psi j * n' c * phi i * F * s) = F * s * (∑ j, y j * psi j) * (velAt phi z ⬝ᵥ n') := by
  rw [← jb7 z y psi n' phi (F * s)]
  sum3

theorem velAt_dot (phi : Fin n → K) (y : Fin d → Fin n → K) (n' : Fin d → K) :
    velAt phi y ⬝ᵥ n' = ∑ i, ∑ c, y c i * phi i * n' c := by
  rw [Finset.sum_comm]
  change ∑ c, (∑ i, y c i * phi i) * n' c = _
  exact Finset.sum_congr rfl fun c _ => Finset.sum_mul _ _ _
theorem gradAt_dot (g : Fin n → Fin d → K) (y : Fin d → Fin n → K) (n' : Fin d → K) :
    (gradAt g y *ᵥ n') ⬝ᵥ n' = ∑ i, ∑ c, y c i * (g i ⬝ᵥ n') * n' c := by
  rw [Finset.sum_comm]
  conv_lhs => unfold dotProduct
  simp only [gradAt_mulVec]
  exact Finset.sum_congr rfl fun c _ => Finset.sum_mul _ _ _

theorem js2 (y z : Fin d → Fin n → K) (g : Fin n → Fin d → K) (n' : Fin d → K) (phi : Fin n → K) (e t mu F : K) :
    ∑ i, ∑ j, ∑ c, ∑ k, y c j * z k i * (e * (t * ((g j ⬝ᵥ n') * phi i) * F * mu) * n' c * n' k) =
      e * t * mu * F * ((gradAt g y *ᵥ n') ⬝ᵥ n') * (velAt phi z ⬝ᵥ n') := by
  rw [gradAt_dot, velAt_dot, Finset.sum_comm, mul_assoc, Finset.sum_mul_sum, Finset.mul_sum]
  refine Finset.sum_congr rfl fun j _ => ?_
  rw [Finset.mul_sum]
  refine Finset.sum_congr rfl fun i _ => ?_
  rw [Finset.sum_mul_sum, Finset.mul_sum]
  refine Finset.sum_congr rfl fun c _ => ?_
  rw [Finset.mul_sum]
  exact Finset.sum_congr rfl fun k _ => by ring
theorem js1 (y z : Fin d → Fin n → K) (g : Fin n → Fin d → K) (n' : Fin d → K) (phi : Fin n → K) (t mu F : K) :
    ∑ i, ∑ j, ∑ c, ∑ k, y k i * z c j * (-(t * ((g j ⬝ᵥ n') * phi i) * F * mu) * n' c * n' k) =
      -(t * mu * F * ((gradAt g z *ᵥ n') ⬝ᵥ n') * (velAt phi y ⬝ᵥ n')) := by
  rw [show -(t * mu * F * ((gradAt g z *ᵥ n') ⬝ᵥ n') * (velAt phi y ⬝ᵥ n')) =
      -1 * t * mu * F * ((gradAt g z *ᵥ n') ⬝ᵥ n') * (velAt phi y ⬝ᵥ n') by ring, ← js2 z y g n' phi (-1) t mu F]
  sum4
theorem js3 (y z : Fin d → Fin n → K) (n' : Fin d → K) (phi phi' : Fin n → K) (pf : K) :
    ∑ i, ∑ j, ∑ c, ∑ k, y c j * z k i * (phi i * phi' j * pf * n' c * n' k) =
      pf * (velAt phi' y ⬝ᵥ n') * (velAt phi z ⬝ᵥ n') := by
  rw [velAt_dot, velAt_dot, Finset.sum_comm, mul_assoc, Finset.sum_mul_sum, Finset.mul_sum]
  refine Finset.sum_congr rfl fun j _ => ?_
  rw [Finset.mul_sum]
  refine Finset.sum_congr rfl fun i _ => ?_
  rw [Finset.sum_mul_sum, Finset.mul_sum]
  refine Finset.sum_congr rfl fun c _ => ?_
  rw [Finset.mul_sum]
  exact Finset.sum_congr rfl fun k _ => by ring

/-! Volume. -/

theorem av1 (y : Fin d → Fin n → K) (A : Matrix (Fin d) (Fin d) K) (g : Fin n → Fin d → K) (mu F : K) :
    ∑ c, ∑ i, y c i * (mu * (A c ⬝ᵥ g i) * F) = mu * F * contract A (gradAt g y) := by
  have := row_point A (gradAt g y) g (fun ci => y ci.1 ci.2) mu F fun c k => rfl
  rw [this]; ring
theorem av2 (y : Fin d → Fin n → K) (A : Matrix (Fin d) (Fin d) K) (g : Fin n → Fin d → K) (mu F : K) :
    ∑ c, ∑ i, ∑ e, y c i * (mu * A e c * g i e * F) = mu * F * contract Aᵀ (gradAt g y) := by
  have := row_transpose_point A (gradAt g y) g (fun ci => y ci.1 ci.2) mu F fun c k => rfl
  rw [show mu * F * contract Aᵀ (gradAt g y) = mu * contract Aᵀ (gradAt g y) * F by ring, ← this]
  sum3
theorem av3 (y : Fin d → Fin n → K) (g : Fin n → Fin d → K) (pr F : K) :
    ∑ c, ∑ i, y c i * (-pr * g i c * F) = -(pr * F * (gradAt g y).trace) := by
  have := pressure_point (gradAt g y) g (fun ci => y ci.1 ci.2) pr F fun c k => rfl
  rw [show -(pr * F * (gradAt g y).trace) = -(pr * (gradAt g y).trace) * F by ring, ← this]
  sum2
theorem av4 (y : Fin d → Fin n → K) (A : Matrix (Fin d) (Fin d) K) (phi : Fin n → K) (u : Fin d → K) (rho F : K) :
    ∑ c, ∑ i, y c i * (rho * (u ⬝ᵥ A c) * phi i * F) = rho * F * ((A *ᵥ u) ⬝ᵥ velAt phi y) := by
  rw [sum_phi y ((rho * F) • (A *ᵥ u)) phi _ fun c i => ?_, smul_dotProduct, smul_eq_mul]
  simp only [Pi.smul_apply, Matrix.mulVec, smul_eq_mul]; rw [dotProduct_comm]; ring
theorem av5 (A : Matrix (Fin d) (Fin d) K) (psi yp : Fin m → K) (s F : K) :
    ∑ i, ∑ c, yp i * (-A c c * psi i * s * F) = -((∑ i, yp i * psi i) * A.trace * s * F) := by
  have := divergence_point A psi yp (s * F)
  rw [show -((∑ i, yp i * psi i) * A.trace * s * F) = -((∑ i, yp i * psi i) * A.trace) * (s * F) by ring, ← this]
  sum2

theorem gradAt_row (g : Fin n → Fin d → K) (z : Fin d → Fin n → K) (c : Fin d) (h : Fin d → K) :
    (gradAt g z) c ⬝ᵥ h = ∑ j, z c j * (g j ⬝ᵥ h) := by
  rw [← gradAt_mulVec]; rfl

theorem jv1 (y z : Fin d → Fin n → K) (g : Fin n → Fin d → K) (mu F : K) :
    ∑ c, ∑ i, ∑ j, y c i * z c j * (mu * (g j ⬝ᵥ g i) * F) = mu * F * contract (gradAt g z) (gradAt g y) := by
  rw [← av1]
  refine Finset.sum_congr rfl fun c _ => Finset.sum_congr rfl fun i _ => ?_
  rw [gradAt_row, Finset.mul_sum, Finset.sum_mul, Finset.mul_sum]
  exact Finset.sum_congr rfl fun j _ => by ring
theorem jv2 (y z : Fin d → Fin n → K) (g : Fin n → Fin d → K) (mu F : K) :
    ∑ c, ∑ i, ∑ j, ∑ e, y c i * z e j * (mu * (g j c * g i e) * F) = mu * F * contract (gradAt g z)ᵀ (gradAt g y) := by
  rw [← av2]
  refine Finset.sum_congr rfl fun c _ => Finset.sum_congr rfl fun i _ => ?_
  rw [Finset.sum_comm]
  refine Finset.sum_congr rfl fun e _ => ?_
  change _ = y c i * (mu * (∑ j, z e j * g j c) * g i e * F)
  rw [Finset.mul_sum, Finset.sum_mul, Finset.sum_mul, Finset.mul_sum]
  exact Finset.sum_congr rfl fun j _ => by ring
theorem jv3 (y : Fin d → Fin n → K) (g : Fin n → Fin d → K) (z psi : Fin m → K) (F : K) :
    ∑ c, ∑ i, ∑ j, y c i * z j * (-psi j * g i c * F) = -(F * (∑ j, z j * psi j) * (gradAt g y).trace) := by
  rw [show -(F * (∑ j, z j * psi j) * (gradAt g y).trace) = -((∑ j, z j * psi j) * F * (gradAt g y).trace) by ring, ← av3]
  refine Finset.sum_congr rfl fun c _ => Finset.sum_congr rfl fun i _ => ?_
  rw [← Finset.sum_neg_distrib, Finset.sum_mul, Finset.sum_mul, Finset.mul_sum]
  exact Finset.sum_congr rfl fun j _ => by ring
theorem jv4 (z : Fin d → Fin n → K) (g : Fin n → Fin d → K) (y psi : Fin m → K) (s F : K) :
    ∑ c, ∑ i, ∑ j, y j * z c i * (-psi j * g i c * s * F) = -(s * F * (∑ j, y j * psi j) * (gradAt g z).trace) := by
  rw [← jv3]
  sum3
theorem jv5 (y z : Fin d → Fin n → K) (g : Fin n → Fin d → K) (phi : Fin n → K) (u : Fin d → K) (rho F : K) :
    ∑ c, ∑ i, ∑ j, y c i * z c j * (rho * (u ⬝ᵥ g j) * phi i * F) = rho * F * ((gradAt g z *ᵥ u) ⬝ᵥ velAt phi y) := by
  rw [← av4]
  refine Finset.sum_congr rfl fun c _ => Finset.sum_congr rfl fun i _ => ?_
  rw [dotProduct_comm, gradAt_row, Finset.mul_sum, Finset.sum_mul, Finset.sum_mul, Finset.mul_sum]
  exact Finset.sum_congr rfl fun j _ => by rw [dotProduct_comm]; ring
theorem jv6 (y z : Fin d → Fin n → K) (A : Matrix (Fin d) (Fin d) K) (phi : Fin n → K) (rho F : K) :
    ∑ c, ∑ i, ∑ e, ∑ j, y c i * z e j * (rho * phi j * A c e * phi i * F) = rho * F * ((A *ᵥ velAt phi z) ⬝ᵥ velAt phi y) := by
  rw [← av4]
  refine Finset.sum_congr rfl fun c _ => Finset.sum_congr rfl fun i _ => ?_
  change _ = y c i * (rho * (∑ e, (∑ j, z e j * phi j) * A c e) * phi i * F)
  rw [Finset.mul_sum, Finset.sum_mul, Finset.sum_mul, Finset.mul_sum]
  refine Finset.sum_congr rfl fun e _ => ?_
  rw [Finset.sum_mul, Finset.mul_sum, Finset.sum_mul, Finset.sum_mul, Finset.mul_sum]
  exact Finset.sum_congr rfl fun j _ => by ring

end Verif.Tested
