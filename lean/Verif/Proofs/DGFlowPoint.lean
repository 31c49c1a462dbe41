import Verif.Proofs.TaylorHood
import Verif.Spec.DGNavierStokes
import Verif.Model.DGNavierStokes
/- Sums over shape functions at a point of a face. -/
set_option linter.unusedSectionVars false
namespace Verif.Tested
open Verif.LocalOp Verif.LocalOp.Spec Matrix

variable {K P Q : Type} [Field K] {d n m : Nat}

/-- Value and gradient of a velocity given by components, with the basis at the point. -/
def velAt (phi : Fin n → K) (y : Fin d → Fin n → K) : Fin d → K := fun c => ∑ i, y c i * phi i
def gradAt (g : Fin n → Fin d → K) (y : Fin d → Fin n → K) : Matrix (Fin d) (Fin d) K := Matrix.of fun c k => ∑ i, y c i * g i k

theorem sum_phi (y : Fin d → Fin n → K) (a : Fin d → K) (phi : Fin n → K) (R : Fin d → Fin n → K)
    (h : ∀ c i, R c i = a c * phi i) : ∑ c, ∑ i, y c i * R c i = a ⬝ᵥ velAt phi y := by
  unfold dotProduct velAt
  refine Finset.sum_congr rfl fun c _ => ?_
  rw [Finset.mul_sum]
  exact Finset.sum_congr rfl fun i _ => by rw [h]; ring

theorem sum_grad (y : Fin d → Fin n → K) (a n' : Fin d → K) (g : Fin n → Fin d → K) (R : Fin d → Fin n → K)
    (h : ∀ c i, R c i = a c * (g i ⬝ᵥ n')) : ∑ c, ∑ i, y c i * R c i = a ⬝ᵥ (gradAt g y *ᵥ n') := by
  change _ = ∑ c, a c * ∑ k, (∑ i, y c i * g i k) * n' k
  refine Finset.sum_congr rfl fun c _ => ?_
  have e : ∑ k, (∑ i, y c i * g i k) * n' k = ∑ i, y c i * (g i ⬝ᵥ n') := by
    unfold dotProduct
    simp only [Finset.sum_mul, Finset.mul_sum]
    rw [Finset.sum_comm]
    exact Finset.sum_congr rfl fun i _ => Finset.sum_congr rfl fun k _ => by ring
  rw [e, Finset.mul_sum]
  exact Finset.sum_congr rfl fun i _ => by rw [h]; ring

theorem sum_gradT (y : Fin d → Fin n → K) (a n' : Fin d → K) (g : Fin n → Fin d → K) (R : Fin d → Fin n → Fin d → K)
    (h : ∀ c i k, R c i k = n' c * (g i k * a k)) :
    ∑ c, ∑ i, ∑ k, y c i * R c i k = a ⬝ᵥ ((gradAt g y)ᵀ *ᵥ n') := by
  have e : a ⬝ᵥ ((gradAt g y)ᵀ *ᵥ n') = n' ⬝ᵥ (gradAt g y *ᵥ a) := by
    rw [mulVec_transpose, dotProduct_comm, ← dotProduct_mulVec]
  rw [e, ← sum_grad y n' a g (fun c i => n' c * (g i ⬝ᵥ a)) (fun _ _ => rfl)]
  refine Finset.sum_congr rfl fun c _ => Finset.sum_congr rfl fun i _ => ?_
  rw [← Finset.mul_sum]
  congr 1
  unfold dotProduct
  rw [Finset.mul_sum]
  exact Finset.sum_congr rfl fun k _ => by rw [h]

theorem sum_phiT (y : Fin d → Fin n → K) (a : Fin d → Fin d → K) (phi : Fin n → K) (R : Fin d → Fin n → Fin d → K)
    (h : ∀ c i k, R c i k = a c k * phi i) :
    ∑ c, ∑ i, ∑ k, y c i * R c i k = (fun c => ∑ k, a c k) ⬝ᵥ velAt phi y := by
  rw [← sum_phi y (fun c => ∑ k, a c k) phi (fun c i => (∑ k, a c k) * phi i) (fun _ _ => rfl)]
  refine Finset.sum_congr rfl fun c _ => Finset.sum_congr rfl fun i _ => ?_
  rw [← Finset.mul_sum]
  congr 1
  rw [Finset.sum_mul]
  exact Finset.sum_congr rfl fun k _ => h c i k

theorem sum_psi (y psi : Fin m → K) (a : K) (R : Fin m → K) (h : ∀ i, R i = a * psi i) :
    ∑ i, y i * R i = a * ∑ i, y i * psi i := by
  rw [Finset.mul_sum]
  exact Finset.sum_congr rfl fun i _ => by rw [h]; ring

theorem traction_eq (full : Bool) (mu : K) (n' : Fin d → K) (t : Trace K d) :
    traction full mu n' t = mu • (t.grad *ᵥ n') + if full then mu • (t.gradᵀ *ᵥ n') else 0 := by
  unfold traction viscousStress
  cases full
  · simp [smul_mulVec]
  · simp [smul_mulVec, add_mulVec]

theorem gradAt_mulVec (g : Fin n → Fin d → K) (z : Fin d → Fin n → K) (n' : Fin d → K) (c : Fin d) :
    (gradAt g z *ᵥ n') c = ∑ i, z c i * (g i ⬝ᵥ n') := by
  change ∑ k, (∑ i, z c i * g i k) * n' k = _
  unfold dotProduct
  simp only [Finset.sum_mul, Finset.mul_sum]
  rw [Finset.sum_comm]
  exact Finset.sum_congr rfl fun i _ => Finset.sum_congr rfl fun k _ => by ring

theorem gradAtT_mulVec (g : Fin n → Fin d → K) (z : Fin d → Fin n → K) (n' : Fin d → K) (c : Fin d) :
    ((gradAt g z)ᵀ *ᵥ n') c = ∑ i, ∑ k, z k i * g i c * n' k := by
  change ∑ k, (∑ i, z k i * g i c) * n' k = _
  simp only [Finset.sum_mul]
  rw [Finset.sum_comm]

/-! Linear in the test function. -/

theorem fl1 (y : Fin d → Fin n → K) (A B : Matrix (Fin d) (Fin d) K) (n' : Fin d → K) (phi : Fin n → K) (h F : K) :
    ∑ c, ∑ i, y c i * (-(h * (A c ⬝ᵥ n' + B c ⬝ᵥ n') * F) * phi i) =
      -(h * F * ((A *ᵥ n' + B *ᵥ n') ⬝ᵥ velAt phi y)) := by
  rw [sum_phi y (-((h * F) • (A *ᵥ n' + B *ᵥ n'))) phi _ fun c i => ?_, neg_dotProduct, smul_dotProduct, smul_eq_mul]
  simp only [Pi.neg_apply, Pi.smul_apply, Pi.add_apply, Matrix.mulVec, smul_eq_mul]; ring
theorem fl1p (y : Fin d → Fin n → K) (A B : Matrix (Fin d) (Fin d) K) (n' : Fin d → K) (phi : Fin n → K) (h F : K) :
    ∑ c, ∑ i, y c i * (h * (A c ⬝ᵥ n' + B c ⬝ᵥ n') * F * phi i) = h * F * ((A *ᵥ n' + B *ᵥ n') ⬝ᵥ velAt phi y) := by
  rw [sum_phi y ((h * F) • (A *ᵥ n' + B *ᵥ n')) phi _ fun c i => ?_, smul_dotProduct, smul_eq_mul]
  simp only [Pi.smul_apply, Pi.add_apply, Matrix.mulVec, smul_eq_mul]; ring

theorem mulVecT_eq (A : Matrix (Fin d) (Fin d) K) (n' : Fin d → K) (c : Fin d) : (Aᵀ *ᵥ n') c = ∑ k, A k c * n' k := rfl

theorem fl2 (y : Fin d → Fin n → K) (A B : Matrix (Fin d) (Fin d) K) (n' : Fin d → K) (phi : Fin n → K) (h F : K) :
    ∑ c, ∑ i, ∑ k, y c i * (-(h * (A k c + B k c) * n' k * F) * phi i) =
      -(h * F * ((Aᵀ *ᵥ n' + Bᵀ *ᵥ n') ⬝ᵥ velAt phi y)) := by
  rw [sum_phiT y (fun c k => -(h * (A k c + B k c) * n' k * F)) phi _ fun c i k => rfl, ← smul_eq_mul (h * F), ← smul_dotProduct,
    ← neg_dotProduct]
  congr 1
  funext c
  simp only [Pi.neg_apply, Pi.smul_apply, Pi.add_apply, mulVecT_eq, smul_eq_mul, ← Finset.sum_add_distrib, Finset.mul_sum,
    ← Finset.sum_neg_distrib]
  exact Finset.sum_congr rfl fun k _ => by ring
theorem fl2p (y : Fin d → Fin n → K) (A B : Matrix (Fin d) (Fin d) K) (n' : Fin d → K) (phi : Fin n → K) (h F : K) :
    ∑ c, ∑ i, ∑ k, y c i * (h * (A k c + B k c) * n' k * F * phi i) = h * F * ((Aᵀ *ᵥ n' + Bᵀ *ᵥ n') ⬝ᵥ velAt phi y) := by
  rw [sum_phiT y (fun c k => h * (A k c + B k c) * n' k * F) phi _ fun c i k => rfl, ← smul_eq_mul (h * F), ← smul_dotProduct]
  congr 1
  funext c
  simp only [Pi.smul_apply, Pi.add_apply, mulVecT_eq, smul_eq_mul, ← Finset.sum_add_distrib, Finset.mul_sum]
  exact Finset.sum_congr rfl fun k _ => by ring

theorem fl3 (y : Fin d → Fin n → K) (g : Fin n → Fin d → K) (n' a b : Fin d → K) (e h F : K) :
    ∑ c, ∑ i, y c i * (e * h * (g i ⬝ᵥ n') * (a c - b c) * F) = e * h * F * ((gradAt g y *ᵥ n') ⬝ᵥ (a - b)) := by
  rw [sum_grad y ((e * h * F) • (a - b)) n' g _ fun c i => ?_, smul_dotProduct, smul_eq_mul, dotProduct_comm]
  simp only [Pi.smul_apply, Pi.sub_apply, smul_eq_mul]; ring
theorem fl4 (y : Fin d → Fin n → K) (g : Fin n → Fin d → K) (n' a b : Fin d → K) (e h F : K) :
    ∑ c, ∑ i, ∑ k, y c i * (e * h * g i k * (a k - b k) * n' c * F) =
      e * h * F * (((gradAt g y)ᵀ *ᵥ n') ⬝ᵥ (a - b)) := by
  rw [sum_gradT y ((e * h * F) • (a - b)) n' g _ fun c i k => ?_, smul_dotProduct, smul_eq_mul, dotProduct_comm]
  simp only [Pi.smul_apply, Pi.sub_apply, smul_eq_mul]; ring
theorem fl5 (y : Fin d → Fin n → K) (phi : Fin n → K) (a b : Fin d → K) (e F : K) :
    ∑ c, ∑ i, y c i * (e * (a c - b c) * phi i * F) = e * F * ((a - b) ⬝ᵥ velAt phi y) := by
  rw [sum_phi y ((e * F) • (a - b)) phi _ fun c i => ?_, smul_dotProduct, smul_eq_mul]
  simp only [Pi.smul_apply, Pi.sub_apply, smul_eq_mul]; ring
theorem fl6 (y : Fin d → Fin n → K) (phi : Fin n → K) (n' : Fin d → K) (e F : K) :
    ∑ c, ∑ i, y c i * (e * phi i * n' c * F) = e * F * (velAt phi y ⬝ᵥ n') := by
  rw [sum_phi y ((e * F) • n') phi _ fun c i => ?_, smul_dotProduct, smul_eq_mul, dotProduct_comm]
  simp only [Pi.smul_apply, smul_eq_mul]; ring
theorem fl7 (y psi : Fin m → K) (h J s F : K) :
    ∑ i, y i * (h * psi i * J * s * F) = h * J * s * F * ∑ i, y i * psi i :=
  sum_psi y psi (h * J * s * F) _ fun i => by ring

/-! Linear in test and ansatz function. -/

theorem bl1 (y z : Fin d → Fin n → K) (g : Fin n → Fin d → K) (n' : Fin d → K) (phi : Fin n → K) (h F : K) :
    ∑ c, ∑ i, ∑ j, y c j * z c i * -(h * (g i ⬝ᵥ n') * phi j * F) = -(h * F * ((gradAt g z *ᵥ n') ⬝ᵥ velAt phi y)) := by
  conv_rhs => unfold dotProduct
  simp only [gradAt_mulVec, velAt]
  rw [Finset.mul_sum, ← Finset.sum_neg_distrib]
  refine Finset.sum_congr rfl fun c _ => ?_
  rw [Finset.sum_mul_sum, Finset.mul_sum, ← Finset.sum_neg_distrib]
  refine Finset.sum_congr rfl fun i _ => ?_
  rw [Finset.mul_sum, ← Finset.sum_neg_distrib]
  exact Finset.sum_congr rfl fun j _ => by ring
theorem bl2 (y z : Fin d → Fin n → K) (g : Fin n → Fin d → K) (n' : Fin d → K) (phi : Fin n → K) (e h F : K) :
    ∑ c, ∑ i, ∑ j, y c i * z c j * (e * (h * (g i ⬝ᵥ n') * phi j * F)) =
      e * h * F * ((gradAt g y *ᵥ n') ⬝ᵥ velAt phi z) := by
  conv_rhs => unfold dotProduct
  simp only [gradAt_mulVec, velAt]
  rw [Finset.mul_sum]
  refine Finset.sum_congr rfl fun c _ => ?_
  rw [Finset.sum_mul_sum, Finset.mul_sum]
  refine Finset.sum_congr rfl fun i _ => ?_
  rw [Finset.mul_sum]
  exact Finset.sum_congr rfl fun j _ => by ring
theorem bl3 (y z : Fin d → Fin n → K) (phi phi' : Fin n → K) (e F : K) :
    ∑ c, ∑ i, ∑ j, y c i * z c j * (phi i * phi' j * e * F) = e * F * (velAt phi y ⬝ᵥ velAt phi' z) := by
  conv_rhs => unfold dotProduct
  simp only [velAt]
  rw [Finset.mul_sum]
  refine Finset.sum_congr rfl fun c _ => ?_
  rw [Finset.sum_mul_sum, Finset.mul_sum]
  refine Finset.sum_congr rfl fun i _ => ?_
  rw [Finset.mul_sum]
  exact Finset.sum_congr rfl fun j _ => by ring
theorem bl3n (y z : Fin d → Fin n → K) (phi phi' : Fin n → K) (e F : K) :
    ∑ c, ∑ i, ∑ j, y c j * z c i * (-phi i * phi' j * e * F) = -(e * F * (velAt phi z ⬝ᵥ velAt phi' y)) := by
  rw [← bl3 z y phi phi' e F, ← Finset.sum_neg_distrib]
  refine Finset.sum_congr rfl fun c _ => ?_
  rw [← Finset.sum_neg_distrib]
  refine Finset.sum_congr rfl fun i _ => ?_
  rw [← Finset.sum_neg_distrib]
  exact Finset.sum_congr rfl fun j _ => by ring
theorem bl3p (y z : Fin d → Fin n → K) (phi phi' : Fin n → K) (e F : K) :
    ∑ c, ∑ i, ∑ j, y c j * z c i * (phi i * phi' j * e * F) = e * F * (velAt phi z ⬝ᵥ velAt phi' y) := by
  rw [← bl3 z y phi phi' e F]
  exact Finset.sum_congr rfl fun c _ => Finset.sum_congr rfl fun i _ => Finset.sum_congr rfl fun j _ => by ring
theorem bl5 (y z : Fin d → Fin n → K) (g : Fin n → Fin d → K) (n' : Fin d → K) (phi : Fin n → K) (e h F : K) :
    ∑ c, ∑ i, ∑ j, ∑ k, y k i * z c j * (e * (h * (g i c * n' k) * phi j * F)) =
      e * h * F * (((gradAt g y)ᵀ *ᵥ n') ⬝ᵥ velAt phi z) := by
  conv_rhs => unfold dotProduct
  simp only [gradAtT_mulVec, velAt]
  rw [Finset.mul_sum]
  refine Finset.sum_congr rfl fun c _ => ?_
  rw [Finset.sum_mul_sum, Finset.mul_sum]
  refine Finset.sum_congr rfl fun i _ => ?_
  rw [Finset.mul_sum]
  refine Finset.sum_congr rfl fun j _ => ?_
  rw [Finset.sum_mul, Finset.mul_sum]
  exact Finset.sum_congr rfl fun k _ => by ring
theorem bl4 (y z : Fin d → Fin n → K) (g : Fin n → Fin d → K) (n' : Fin d → K) (phi : Fin n → K) (h F : K) :
    ∑ c, ∑ i, ∑ j, ∑ k, y c j * z k i * -(h * (g i c * n' k) * phi j * F) =
      -(h * F * (((gradAt g z)ᵀ *ᵥ n') ⬝ᵥ velAt phi y)) := by
  have := bl5 z y g n' phi (-1) h F
  rw [show -(h * F * (((gradAt g z)ᵀ *ᵥ n') ⬝ᵥ velAt phi y)) = -1 * h * F * (((gradAt g z)ᵀ *ᵥ n') ⬝ᵥ velAt phi y) by ring, ← this]
  exact Finset.sum_congr rfl fun c _ => Finset.sum_congr rfl fun i _ => Finset.sum_congr rfl fun j _ =>
    Finset.sum_congr rfl fun k _ => by ring
theorem bl6 (y : Fin d → Fin n → K) (z psi : Fin m → K) (n' : Fin d → K) (phi : Fin n → K) (h F : K) :
    ∑ c, ∑ i, ∑ j, y c i * z j * (h * (psi j * n' c * phi i) * F) =
      h * F * (∑ j, z j * psi j) * (velAt phi y ⬝ᵥ n') := by
  conv_rhs => unfold dotProduct
  simp only [velAt]
  rw [Finset.mul_sum]
  refine Finset.sum_congr rfl fun c _ => ?_
  rw [Finset.sum_mul, Finset.mul_sum]
  refine Finset.sum_congr rfl fun i _ => ?_
  rw [Finset.mul_sum, Finset.sum_mul]
  exact Finset.sum_congr rfl fun j _ => by ring
theorem bl7 (z : Fin d → Fin n → K) (y psi : Fin m → K) (n' : Fin d → K) (phi : Fin n → K) (h F s : K) :
    ∑ c, ∑ i, ∑ j, y j * z c i * (h * (psi j * n' c * phi i) * F * s) =
      h * F * s * (∑ j, y j * psi j) * (velAt phi z ⬝ᵥ n') := by
  rw [show h * F * s * (∑ j, y j * psi j) * (velAt phi z ⬝ᵥ n') = h * (F * s) * (∑ j, y j * psi j) * (velAt phi z ⬝ᵥ n') by ring,
    ← bl6 z y psi n' phi h (F * s)]
  exact Finset.sum_congr rfl fun c _ => Finset.sum_congr rfl fun i _ => Finset.sum_congr rfl fun j _ => by ring

end Verif.Tested
