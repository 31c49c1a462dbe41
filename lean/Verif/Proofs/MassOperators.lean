import Verif.Proofs.VectorOperators
/- Mass operators, the matrices of electrodynamics, and the mixed form of the diffusion equation. -/
set_option linter.unusedSectionVars false
namespace Verif.Tested
open Verif.LocalOp Verif.LocalOp.Spec Matrix

variable {K P Q : Type} [Field K] {d n m : Nat}

theorem affine_of_linear {ι : Type} [DecidableEq ι] [Fintype ι] (r : (ι → K) → List (ι × K)) (J : List ((ι × ι) × K))
    (h : ∀ x y, tested (r x) y = bilinear (total J) y x) : IsAffineWith (fun x => total (r x)) (total J) := by
  refine affine_of_tested _ _ fun x z y => ?_
  rw [h, h]
  unfold bilinear applyMatrix
  simp only [Pi.add_apply, mul_add, Finset.sum_add_distrib]

/-- Sum over the rows: coefficient times a value that is a product with the basis function. -/
theorem value_point (yc phi : Fin n → K) (u F : K) : ∑ i, yc i * (u * phi i * F) = u * (∑ i, yc i * phi i) * F := by
  rw [Finset.mul_sum, Finset.sum_mul]
  exact Finset.sum_congr rfl fun i _ => by ring

theorem dot_point (yc : Fin n → K) (phi : Fin n → Fin d → K) (u : Fin d → K) (F : K) :
    ∑ i, yc i * ((u ⬝ᵥ phi i) * F) = (u ⬝ᵥ fun k => ∑ i, yc i * phi i k) * F := by
  unfold dotProduct
  simp only [Finset.mul_sum, Finset.sum_mul]
  rw [Finset.sum_comm]
  exact Finset.sum_congr rfl fun i _ => Finset.sum_congr rfl fun k _ => by ring

theorem matrix_value_point (yc zc phi : Fin n → K) (F : K) :
    ∑ j, ∑ i, yc i * zc j * (phi j * phi i * F) = (∑ j, zc j * phi j) * (∑ i, yc i * phi i) * F := by
  rw [Finset.sum_mul_sum, Finset.sum_mul]
  refine Finset.sum_congr rfl fun j _ => ?_
  rw [Finset.sum_mul]
  exact Finset.sum_congr rfl fun i _ => by ring

theorem matrix_dot_point {e : Nat} (yc zc : Fin n → K) (phi : Fin n → Fin e → K) (F : K) :
    ∑ i, ∑ j, yc i * zc j * ((phi j ⬝ᵥ phi i) * F) =
      ((fun k => ∑ j, zc j * phi j k) ⬝ᵥ fun k => ∑ i, yc i * phi i k) * F := by
  rw [← dot_point]
  refine Finset.sum_congr rfl fun i _ => ?_
  unfold dotProduct
  simp only [Finset.mul_sum, Finset.sum_mul]
  rw [Finset.sum_comm]
  exact Finset.sum_congr rfl fun k _ => Finset.sum_congr rfl fun j _ => by ring

/-! ### Mass of the velocity -/

theorem mass_alpha (s : Bool) (o : Int) (rho : P → K) (geo : CellGeo K P d) (v : Basis K P d n)
    (x y : TaylorHood.Dof d n m → K) :
    tested (VelocityMass.alphaVolume s o rho geo v x) y =
      quadrature (geo.quadratureRule (TaylorHood.massOrder d v.order s o)) geo.integrationElement fun p =>
        rho p * (femFunction v.phi (x ∘ Sum.inl) p ⬝ᵥ femFunction v.phi (y ∘ Sum.inl) p) := by
  have e : (fun p => rho p * (femFunction v.phi (x ∘ Sum.inl) p ⬝ᵥ femFunction v.phi (y ∘ Sum.inl) p)) =
      fun p => ∑ c, rho p * (femFunction v.phi (x ∘ Sum.inl) p c * femFunction v.phi (y ∘ Sum.inl) p c) := by
    funext p; unfold dotProduct; rw [Finset.mul_sum]
  rw [e, quadrature_sum']
  unfold VelocityMass.alphaVolume
  rw [tested_flatMap_fin]
  refine Finset.sum_congr rfl fun c _ => ?_
  rw [tested_flatMap]
  refine sum_eq_quadrature _ _ _ _ fun p w => ?_
  simp only [tested_map_fin]
  rw [value_point (fun i => y (.inl (c, i)))]
  unfold femFunction
  simp only [Function.comp_apply]
  ring

theorem mass_jacobian (s : Bool) (o : Int) (rho : P → K) (geo : CellGeo K P d) (v : Basis K P d n)
    (y z : TaylorHood.Dof d n m → K) :
    bilinear (total (VelocityMass.jacobianVolume s o rho geo v)) y z =
      quadrature (geo.quadratureRule (TaylorHood.massOrder d v.order s o)) geo.integrationElement fun p =>
        rho p * (femFunction v.phi (z ∘ Sum.inl) p ⬝ᵥ femFunction v.phi (y ∘ Sum.inl) p) := by
  have e : (fun p => rho p * (femFunction v.phi (z ∘ Sum.inl) p ⬝ᵥ femFunction v.phi (y ∘ Sum.inl) p)) =
      fun p => ∑ c, rho p * (femFunction v.phi (z ∘ Sum.inl) p c * femFunction v.phi (y ∘ Sum.inl) p c) := by
    funext p; unfold dotProduct; rw [Finset.mul_sum]
  rw [e, quadrature_sum', bilinear_eq]
  unfold VelocityMass.jacobianVolume
  rw [tested_flatMap_fin]
  refine Finset.sum_congr rfl fun c _ => ?_
  rw [tested_flatMap]
  refine sum_eq_quadrature _ _ _ _ fun p w => ?_
  simp only [tested_flatMap_fin, tested_map_fin]
  rw [matrix_value_point (fun i => y (.inl (c, i))) (fun i => z (.inl (c, i)))]
  unfold femFunction
  simp only [Function.comp_apply]
  ring

theorem sum_smul_fun (a : Fin n → K) (g : Fin n → Fin d → K) : (∑ i, a i • g i) = fun k => ∑ i, a i * g i k := by
  funext k; exact sum_smul_apply a g k

theorem mass_alpha_vec (s : Bool) (o : Int) (rho : P → K) (geo : CellGeo K P d) (v : VectorBasis K P d n)
    (x y : Fin n ⊕ Fin m → K) :
    tested (VelocityMass.alphaVolumeVec s o rho geo v x) y =
      quadrature (geo.quadratureRule (TaylorHood.massOrder d v.order s o)) geo.integrationElement fun p =>
        rho p * (femVector v.phi (x ∘ Sum.inl) p ⬝ᵥ femVector v.phi (y ∘ Sum.inl) p) := by
  unfold VelocityMass.alphaVolumeVec
  rw [tested_flatMap]
  refine sum_eq_quadrature _ _ _ _ fun p w => ?_
  simp only [tested_map_fin]
  rw [dot_point (fun i => y (.inl i)), sum_smul_fun]
  have e1 : femVector v.phi (x ∘ Sum.inl) p = fun k => ∑ i, x (.inl i) * v.phi p i k := rfl
  have e2 : femVector v.phi (y ∘ Sum.inl) p = fun k => ∑ i, y (.inl i) * v.phi p i k := rfl
  rw [e1, e2]
  ring

theorem mass_jacobian_vec (s : Bool) (o : Int) (rho : P → K) (geo : CellGeo K P d) (v : VectorBasis K P d n)
    (y z : Fin n ⊕ Fin m → K) :
    bilinear (total (VelocityMass.jacobianVolumeVec s o rho geo v)) y z =
      quadrature (geo.quadratureRule (TaylorHood.massOrder d v.order s o)) geo.integrationElement fun p =>
        rho p * (femVector v.phi (z ∘ Sum.inl) p ⬝ᵥ femVector v.phi (y ∘ Sum.inl) p) := by
  rw [bilinear_eq]
  unfold VelocityMass.jacobianVolumeVec
  rw [tested_flatMap]
  refine sum_eq_quadrature _ _ _ _ fun p w => ?_
  simp only [tested_flatMap_fin, tested_map_fin]
  rw [matrix_dot_point (fun i => y (.inl i)) (fun i => z (.inl i))]
  have e1 : femVector v.phi (z ∘ Sum.inl) p = fun k => ∑ i, z (.inl i) * v.phi p i k := rfl
  have e2 : femVector v.phi (y ∘ Sum.inl) p = fun k => ∑ i, y (.inl i) * v.phi p i k := rfl
  rw [e1, e2]
  ring

/-! ### L2 -/

variable {L : Nat} {size : Fin L → Nat}

theorem tested_map {α ι : Type} [DecidableEq ι] [Fintype ι] [DecidableEq α] [Fintype α] (l : List (α × K)) (g : α → ι) (y : ι → K) :
    tested (l.map fun c => (g c.1, c.2)) y = tested l (fun a => y (g a)) := by
  rw [tested_eq, tested_eq, List.map_map]; rfl

theorem l2_alpha (o : Int) (sc : K) (geo : CellGeo K P d) (fe : (l : Fin L) → Basis K P d (size l)) (x y : L2.Dof size → K) :
    tested (L2.alphaVolume o sc geo fe x) y =
      ∑ l, quadrature (geo.quadratureRule (2 * (fe l).order + o)) geo.integrationElement fun p =>
        sc * (femScalar (fe l).phi (fun i => x ⟨l, i⟩) p * femScalar (fe l).phi (fun i => y ⟨l, i⟩) p) := by
  unfold L2.alphaVolume
  rw [tested_flatMap_fin]
  refine Finset.sum_congr rfl fun l _ => ?_
  rw [tested_map _ (fun i => (⟨l, i⟩ : L2.Dof size))]
  unfold L2.scalarAlphaVolume
  rw [tested_flatMap]
  refine sum_eq_quadrature _ _ _ _ fun p w => ?_
  simp only [tested_map_fin]
  rw [value_point (fun i => y ⟨l, i⟩)]
  unfold femScalar
  ring

theorem l2_jacobian (o : Int) (sc : K) (geo : CellGeo K P d) (fe : (l : Fin L) → Basis K P d (size l)) (y z : L2.Dof size → K) :
    bilinear (total (L2.jacobianVolume o sc geo fe)) y z =
      ∑ l, quadrature (geo.quadratureRule (2 * (fe l).order + o)) geo.integrationElement fun p =>
        sc * (femScalar (fe l).phi (fun i => z ⟨l, i⟩) p * femScalar (fe l).phi (fun i => y ⟨l, i⟩) p) := by
  rw [bilinear_eq]
  unfold L2.jacobianVolume
  rw [tested_flatMap_fin]
  refine Finset.sum_congr rfl fun l _ => ?_
  rw [tested_map _ (fun i : Fin (size l) × Fin (size l) => ((⟨l, i.1⟩, ⟨l, i.2⟩) : L2.Dof size × L2.Dof size))]
  unfold L2.scalarJacobianVolume
  rw [tested_flatMap]
  refine sum_eq_quadrature _ _ _ _ fun p w => ?_
  simp only [tested_flatMap_fin, tested_map_fin]
  rw [matrix_value_point (fun i => y ⟨l, i⟩) (fun i => z ⟨l, i⟩)]
  unfold femScalar
  ring

theorem functional_lambda (o : Int) (f : P → Fin d → K) (geo : CellGeo K P d) (fe : VectorBasis K P d n) (weight : K)
    (y : Fin n → K) :
    tested (L2.functionalLambdaVolume o f geo fe weight) y =
      weight * quadrature (geo.quadratureRule o) geo.integrationElement fun p => f p ⬝ᵥ femVector fe.phi y p := by
  unfold L2.functionalLambdaVolume
  rw [tested_flatMap, ← quadrature_smul']
  refine sum_eq_quadrature _ _ _ _ fun p w => ?_
  simp only [tested_map_fin]
  rw [dot_point]
  have e1 : femVector fe.phi y p = fun k => ∑ i, y i * fe.phi p i k := rfl
  rw [e1]
  ring

/-! ### Electrodynamics -/

theorem electro_T (o : Int) (eps : P → K) (geo : CellGeo K P d) (fe : VectorBasis K P d n) (y z : Fin n → K) :
    bilinear (total (Electrodynamic.jacobianT o eps geo fe)) y z =
      quadrature (geo.quadratureRule o) geo.integrationElement fun p =>
        eps p * (femVector fe.phi z p ⬝ᵥ femVector fe.phi y p) := by
  rw [bilinear_eq]
  unfold Electrodynamic.jacobianT
  rw [tested_flatMap]
  refine sum_eq_quadrature _ _ _ _ fun p w => ?_
  simp only [tested_flatMap_fin, tested_map_fin]
  have := matrix_dot_point y z (fe.phi p) (w * geo.integrationElement p * eps p)
  have e1 : femVector fe.phi y p = fun k => ∑ i, y i * fe.phi p i k := rfl
  have e2 : femVector fe.phi z p = fun k => ∑ i, z i * fe.phi p i k := rfl
  rw [e1, e2]
  calc _ = _ := Finset.sum_congr rfl fun i _ => Finset.sum_congr rfl fun j _ => by
                  rw [mul_comm (w * geo.integrationElement p * eps p), dotProduct_comm]
    _ = _ := this
    _ = _ := by ring

/-- A curl that is linear commutes with the sum over the basis functions. -/
theorem electro_S {e : Nat} (toCurl : Matrix (Fin d) (Fin d) K → Fin e → K)
    (o : Int) (mu : P → K) (geo : CellGeo K P d) (fe : VectorBasis K P d n) (y z : Fin n → K)
    (hl : ∀ (a : Fin n → K) (A : Fin n → Matrix (Fin d) (Fin d) K) k, toCurl (∑ i, a i • A i) k = ∑ i, a i * toCurl (A i) k) :
    bilinear (total (Electrodynamic.jacobianS toCurl o mu geo fe)) y z =
      quadrature (geo.quadratureRule o) geo.integrationElement fun p =>
        (mu p)⁻¹ * (toCurl (∑ i, z i • fe.js p i) ⬝ᵥ toCurl (∑ i, y i • fe.js p i)) := by
  rw [bilinear_eq]
  unfold Electrodynamic.jacobianS
  rw [tested_flatMap]
  refine sum_eq_quadrature _ _ _ _ fun p w => ?_
  simp only [tested_flatMap_fin, tested_map_fin]
  have := matrix_dot_point y z (fun i => toCurl (fe.js p i)) (w * geo.integrationElement p / mu p)
  have e1 : toCurl (∑ i, y i • fe.js p i) = fun k => ∑ i, y i * toCurl (fe.js p i) k := funext (hl y _)
  have e2 : toCurl (∑ i, z i • fe.js p i) = fun k => ∑ i, z i * toCurl (fe.js p i) k := funext (hl z _)
  rw [e1, e2]
  calc _ = _ := Finset.sum_congr rfl fun i _ => Finset.sum_congr rfl fun j _ => by
                  rw [mul_comm (w * geo.integrationElement p / mu p), dotProduct_comm]
    _ = _ := this
    _ = _ := by rw [div_eq_mul_inv]; ring

theorem curl₃_linear (a : Fin n → K) (A : Fin n → Matrix (Fin 3) (Fin 3) K) (k : Fin 3) :
    Electrodynamic.curl₃ (∑ i, a i • A i) k = ∑ i, a i * Electrodynamic.curl₃ (A i) k := by
  unfold Electrodynamic.curl₃
  simp only [Matrix.sum_apply, Matrix.smul_apply, smul_eq_mul, mul_sub, Finset.sum_sub_distrib]
theorem curl₂_linear (a : Fin n → K) (A : Fin n → Matrix (Fin 2) (Fin 2) K) (k : Fin 1) :
    Electrodynamic.curl₂ (∑ i, a i • A i) k = ∑ i, a i * Electrodynamic.curl₂ (A i) k := by
  unfold Electrodynamic.curl₂
  simp only [Matrix.sum_apply, Matrix.smul_apply, smul_eq_mul, mul_sub, Finset.sum_sub_distrib]

theorem curl₃_isCurl (A : Matrix (Fin 3) (Fin 3) K) : IsCurl₃ A (Electrodynamic.curl₃ A) := by
  intro h
  funext i
  simp only [Matrix.mulVec, dotProduct, Matrix.sub_apply, Matrix.transpose_apply, Fin.sum_univ_three, cross_apply,
    Electrodynamic.curl₃]
  fin_cases i
  · simp [Fin.isValue]; ring
  · simp [Fin.isValue]; ring
  · simp [Fin.isValue]; ring

theorem curl₂_isCurl (A : Matrix (Fin 2) (Fin 2) K) : IsCurl₂ A (Electrodynamic.curl₂ A 0) := by
  intro h
  funext i
  simp only [Matrix.mulVec, dotProduct, Matrix.sub_apply, Matrix.transpose_apply, Fin.sum_univ_two, Electrodynamic.curl₂]
  fin_cases i
  · simp; ring
  · simp

end Verif.Tested
