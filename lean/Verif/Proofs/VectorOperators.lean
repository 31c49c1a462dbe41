import Verif.Proofs.Tested
import Mathlib.Data.Fintype.BigOperators
/- Weak forms of the operators for systems. -/
set_option linter.unusedSectionVars false
namespace Verif.Tested
open Verif.LocalOp Verif.LocalOp.Spec Matrix

variable {K P Q : Type} [Field K] {d n m : Nat}

/-! ### Elasticity -/

theorem sum_smul_apply (a : Fin n → K) (g : Fin n → Fin d → K) (k : Fin d) :
    (∑ i, a i • g i) k = ∑ i, a i * g i k := by simp [Finset.sum_apply]

theorem elastic_point (G : Matrix (Fin d) (Fin d) K) (g : Fin n → Fin d → K) (y : Fin d × Fin n → K) (mu la F : K)
    (H : Matrix (Fin d) (Fin d) K) (hH : ∀ c k, H c k = ∑ i, y (c, i) * g i k) :
    ∑ c, ∑ i, ∑ k, (y (c, i) * (mu * G c k * g i k * F) + (y (k, i) * (mu * G c k * g i c * F) +
      (y (k, i) * (la * G c c * g i k * F) + 0))) =
    (mu * (contract G H + contract G Hᵀ) + la * (G.trace * H.trace)) * F := by
  have h1 : ∑ c, ∑ i, ∑ k, y (c, i) * (mu * G c k * g i k * F) = mu * contract G H * F := by
    unfold contract
    rw [Finset.mul_sum, Finset.sum_mul]
    refine Finset.sum_congr rfl fun c _ => ?_
    rw [Finset.sum_comm, Finset.mul_sum, Finset.sum_mul]
    refine Finset.sum_congr rfl fun k _ => ?_
    rw [hH, Finset.mul_sum, Finset.mul_sum, Finset.sum_mul]
    exact Finset.sum_congr rfl fun i _ => by ring
  have h2 : ∑ c, ∑ i, ∑ k, y (k, i) * (mu * G c k * g i c * F) = mu * contract G Hᵀ * F := by
    unfold contract
    rw [Finset.mul_sum, Finset.sum_mul]
    refine Finset.sum_congr rfl fun c _ => ?_
    rw [Finset.sum_comm, Finset.mul_sum, Finset.sum_mul]
    refine Finset.sum_congr rfl fun k _ => ?_
    rw [transpose_apply, hH, Finset.mul_sum, Finset.mul_sum, Finset.sum_mul]
    exact Finset.sum_congr rfl fun i _ => by ring
  have h3 : ∑ c, ∑ i, ∑ k, y (k, i) * (la * G c c * g i k * F) = la * (G.trace * H.trace) * F := by
    unfold Matrix.trace
    simp only [diag_apply]
    rw [Finset.sum_mul, Finset.mul_sum, Finset.sum_mul]
    refine Finset.sum_congr rfl fun c _ => ?_
    rw [Finset.sum_comm, Finset.mul_sum, Finset.mul_sum, Finset.sum_mul]
    refine Finset.sum_congr rfl fun k _ => ?_
    rw [hH, Finset.mul_sum, Finset.mul_sum, Finset.sum_mul]
    exact Finset.sum_congr rfl fun i _ => by ring
  simp only [add_zero, Finset.sum_add_distrib]
  rw [h1, h2, h3]
  ring

theorem elastic_alpha (h2 : (2 : K) ≠ 0) (o : Int) (par : Elasticity.Param K P Q d) (geo : CellGeo K P d) (fe : Basis K P d n)
    (x y : Fin d × Fin n → K) :
    tested (Elasticity.alphaVolume o par geo fe x) y =
      quadrature (geo.quadratureRule o) geo.integrationElement fun p =>
        elasticDensity (par.mu p) (par.lambda p) (femGradient (gradients geo fe) x p) (femGradient (gradients geo fe) y p) := by
  unfold Elasticity.alphaVolume
  rw [tested_flatMap]
  refine sum_eq_quadrature _ _ _ _ fun p w => ?_
  simp only [tested_flatMap_fin, tested_cons, tested_nil, sum_smul_apply]
  rw [elasticDensity_eq h2]
  exact elastic_point (femGradient (gradients geo fe) x p) (gradients geo fe p) y _ _ _ _ fun c k => rfl

theorem elastic_matrix_point (G H : Matrix (Fin d) (Fin d) K) (g : Fin n → Fin d → K) (z y : Fin d × Fin n → K) (mu la F : K)
    (hG : ∀ c k, G c k = ∑ i, z (c, i) * g i k) (hH : ∀ c k, H c k = ∑ i, y (c, i) * g i k) :
    ∑ c, ∑ i, ∑ k, ∑ j, (y (k, j) * z (k, i) * (mu * g i c * g j c * F) + (y (k, j) * z (c, i) * (mu * g i k * g j c * F) +
      (y (k, j) * z (c, i) * (la * g i c * g j k * F) + 0))) =
    (mu * (contract G H + contract G Hᵀ) + la * (G.trace * H.trace)) * F := by
  have h1 : ∑ c, ∑ i, ∑ k, ∑ j, y (k, j) * z (k, i) * (mu * g i c * g j c * F) = mu * contract G H * F := by
    unfold contract
    rw [Finset.sum_comm, Finset.mul_sum, Finset.sum_mul]
    have : ∀ i, ∑ c, ∑ k, ∑ j, y (k, j) * z (k, i) * (mu * g i c * g j c * F) =
        ∑ k, ∑ c, ∑ j, y (k, j) * z (k, i) * (mu * g i c * g j c * F) := fun i => Finset.sum_comm
    simp only [this]
    rw [Finset.sum_comm]
    refine Finset.sum_congr rfl fun k _ => ?_
    rw [Finset.sum_comm, Finset.mul_sum, Finset.sum_mul]
    refine Finset.sum_congr rfl fun c _ => ?_
    rw [hG, hH, Finset.sum_mul_sum, Finset.mul_sum, Finset.sum_mul]
    refine Finset.sum_congr rfl fun i _ => ?_
    rw [Finset.mul_sum, Finset.sum_mul]
    exact Finset.sum_congr rfl fun j _ => by ring
  have h2 : ∑ c, ∑ i, ∑ k, ∑ j, y (k, j) * z (c, i) * (mu * g i k * g j c * F) = mu * contract G Hᵀ * F := by
    unfold contract
    rw [Finset.mul_sum, Finset.sum_mul]
    refine Finset.sum_congr rfl fun c _ => ?_
    rw [Finset.sum_comm, Finset.mul_sum, Finset.sum_mul]
    refine Finset.sum_congr rfl fun k _ => ?_
    rw [transpose_apply, hG, hH, Finset.sum_mul_sum, Finset.mul_sum, Finset.sum_mul]
    refine Finset.sum_congr rfl fun i _ => ?_
    rw [Finset.mul_sum, Finset.sum_mul]
    exact Finset.sum_congr rfl fun j _ => by ring
  have h3 : ∑ c, ∑ i, ∑ k, ∑ j, y (k, j) * z (c, i) * (la * g i c * g j k * F) = la * (G.trace * H.trace) * F := by
    unfold Matrix.trace
    simp only [diag_apply]
    rw [Finset.sum_mul, Finset.mul_sum, Finset.sum_mul]
    refine Finset.sum_congr rfl fun c _ => ?_
    rw [Finset.sum_comm, Finset.mul_sum, Finset.mul_sum, Finset.sum_mul]
    refine Finset.sum_congr rfl fun k _ => ?_
    rw [hG, hH, Finset.sum_mul_sum, Finset.mul_sum, Finset.sum_mul]
    refine Finset.sum_congr rfl fun i _ => ?_
    rw [Finset.mul_sum, Finset.sum_mul]
    exact Finset.sum_congr rfl fun j _ => by ring
  simp only [add_zero, Finset.sum_add_distrib]
  rw [h1, h2, h3]
  ring

theorem elastic_jacobian (h2 : (2 : K) ≠ 0) (o : Int) (par : Elasticity.Param K P Q d) (geo : CellGeo K P d) (fe : Basis K P d n)
    (y z : Fin d × Fin n → K) :
    bilinear (total (Elasticity.jacobianVolume o par geo fe)) y z =
      quadrature (geo.quadratureRule o) geo.integrationElement fun p =>
        elasticDensity (par.mu p) (par.lambda p) (femGradient (gradients geo fe) z p) (femGradient (gradients geo fe) y p) := by
  rw [bilinear_eq]
  unfold Elasticity.jacobianVolume
  rw [tested_flatMap]
  refine sum_eq_quadrature _ _ _ _ fun p w => ?_
  simp only [tested_flatMap_fin, tested_cons, tested_nil]
  rw [elasticDensity_eq h2]
  exact elastic_matrix_point _ _ (gradients geo fe p) z y _ _ _ (fun c k => rfl) fun c k => rfl

theorem elasticDensity_add (mu lambda : K) (A A' B : Matrix (Fin d) (Fin d) K) :
    elasticDensity mu lambda (A + A') B = elasticDensity mu lambda A B + elasticDensity mu lambda A' B := by
  unfold elasticDensity strain
  simp only [contract_smul_left, contract_smul_right, contract_add_left, transpose_add, trace_add]
  ring

/-! ### Source terms -/

theorem source_point (y : Fin d × Fin n → K) (phi : Fin n → K) (f : Fin d → K) (F : K) :
    ∑ c, ∑ i, y (c, i) * (f c * phi i * F) = (f ⬝ᵥ fun c => ∑ i, y (c, i) * phi i) * F := by
  unfold dotProduct
  rw [Finset.sum_mul]
  refine Finset.sum_congr rfl fun c _ => ?_
  rw [Finset.mul_sum, Finset.sum_mul]
  exact Finset.sum_congr rfl fun i _ => by ring

theorem elastic_lambda (o : Int) (par : Elasticity.Param K P Q d) (geo : CellGeo K P d) (fe : Basis K P d n)
    (y : Fin d × Fin n → K) :
    tested (Elasticity.lambdaVolume o par geo fe) y =
      -quadrature (geo.quadratureRule o) geo.integrationElement fun p => par.f p ⬝ᵥ femFunction fe.phi y p := by
  unfold Elasticity.lambdaVolume
  rw [tested_flatMap, ← quadrature_neg']
  refine sum_eq_quadrature _ _ _ _ fun p w => ?_
  simp only [tested_flatMap_fin, tested_map_fin]
  rw [source_point y (fe.phi p) (fun c => -par.f p c)]
  unfold femFunction dotProduct
  simp only [neg_mul, Finset.sum_neg_distrib]

theorem elastic_boundary (o : Int) (par : Elasticity.Param K P Q d) (face : FaceGeo K P Q d) (fe : Basis K P d n)
    (y : Fin d × Fin n → K) : tested (Elasticity.lambdaBoundary o par face fe) y = 0 := by
  unfold Elasticity.lambdaBoundary
  rw [tested_flatMap]
  apply List.sum_eq_zero
  intro a ha
  obtain ⟨q, _, rfl⟩ := List.mem_map.1 ha
  simp only [tested_ite, tested_nil, tested_flatMap_fin, tested_map_fin]
  simp

end Verif.Tested
