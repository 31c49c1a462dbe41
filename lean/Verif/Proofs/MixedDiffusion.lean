import Verif.Proofs.MassOperators
import Mathlib.LinearAlgebra.Matrix.NonsingularInverse
/- The mixed form of the diffusion equation. -/
set_option linter.unusedSectionVars false
namespace Verif.Tested
open Verif.LocalOp Verif.LocalOp.Spec Matrix

variable {K P Q : Type} [Field K] {d n m : Nat}

/-- The inverse of the inverse transposed Jacobian is the transposed Jacobian. -/
theorem invert_inverse (invert : Matrix (Fin d) (Fin d) K → Matrix (Fin d) (Fin d) K)
    (hinv : ∀ M, M.det ≠ 0 → M * invert M = 1) (B F : Matrix (Fin d) (Fin d) K) (h : B * F = 1) : invert B = F := by
  have hd : B.det ≠ 0 := by
    intro h0
    have := congrArg Matrix.det h
    rw [det_mul, h0, zero_mul, det_one] at this
    exact zero_ne_one this
  have h1 := hinv B hd
  have h2 : F * B = 1 := mul_eq_one_comm.1 h
  calc invert B = (F * B) * invert B := by rw [h2, one_mul]
    _ = F * (B * invert B) := Matrix.mul_assoc _ _ _
    _ = F := by rw [h1, Matrix.mul_one]

theorem femVector_mulVec (F : Matrix (Fin d) (Fin d) K) (phi : P → Fin n → Fin d → K) (x : Fin n → K) (p : P) :
    (fun k => ∑ i, x i * (F *ᵥ phi p i) k) = F *ᵥ femVector phi x p := by
  funext k
  unfold femVector Matrix.mulVec dotProduct
  simp only [Finset.mul_sum]
  rw [Finset.sum_comm]
  exact Finset.sum_congr rfl fun i _ => Finset.sum_congr rfl fun k _ => by ring

/-- The trace of the derivative of a Piola transformed field. -/
theorem piola_divergence (F G D : Matrix (Fin d) (Fin d) K) (det : K) (h : G * F = 1) :
    (det⁻¹ • (F * D * G)).trace = det⁻¹ * D.trace := by
  rw [trace_smul, smul_eq_mul, Matrix.trace_mul_comm (F * D) G, ← Matrix.mul_assoc, h, Matrix.one_mul]

/-- The value of `alpha_volume` tested with `y`, before anything is assumed about the Helmholtz term. -/
theorem mixed_alpha (qv qp : Int) (invert : Matrix (Fin d) (Fin d) K → Matrix (Fin d) (Fin d) K) (origin : P)
    (param : MixedDiffusion.Param K P Q d) (geo : CellGeo K P d) (v : VectorBasis K P d n) (p : Basis K P d m)
    (F : Matrix (Fin d) (Fin d) K) (det : K) (hdet : det ≠ 0) (hie : ∀ pt, geo.integrationElement pt = det)
    (hF : invert (geo.jacobianInverseTransposed origin) = Fᵀ) (x y : Fin n ⊕ Fin m → K) :
    tested (MixedDiffusion.alphaVolume qv qp invert origin param geo v p x) y =
      quadrature (geo.quadratureRule qv) geo.integrationElement (fun pt =>
        (invert (param.A geo.center) *ᵥ piola F det (femVector v.phi (x ∘ Sum.inl) pt)) ⬝ᵥ
          piola F det (femVector v.phi (y ∘ Sum.inl) pt)) -
      quadrature (geo.quadratureRule qp) geo.integrationElement (fun pt =>
        femScalar p.phi (x ∘ Sum.inr) pt * (det⁻¹ * (∑ i, y (.inl i) • v.js pt i).trace) +
        det⁻¹ * (∑ i, x (.inl i) • v.js pt i).trace * femScalar p.phi (y ∘ Sum.inr) pt) -
      quadrature (geo.quadratureRule qp) geo.integrationElement (fun pt =>
        det⁻¹ * (param.c pt * femScalar p.phi (x ∘ Sum.inr) pt * femScalar p.phi (y ∘ Sum.inr) pt)) := by
  have htr : ∀ (a : Fin n → K) pt, ∑ i, a i * ∑ j, v.js pt i j j = (∑ i, a i • v.js pt i).trace := by
    intro a pt
    rw [trace_sum]
    exact Finset.sum_congr rfl fun i _ => by rw [trace_smul, smul_eq_mul]; rfl
  unfold MixedDiffusion.alphaVolume
  simp only []
  rw [tested_append, tested_flatMap, tested_flatMap, sub_sub, ← quadrature_add', sub_eq_add_neg, ← quadrature_neg']
  congr 1
  · refine sum_eq_quadrature _ _ _ _ fun pt w => ?_
    simp only [tested_map_fin, hF, transpose_transpose, hie]
    rw [dot_point (fun i => y (.inl i)), femVector_mulVec F v.phi (fun i => y (.inl i)) pt, sum_smul_fun,
      femVector_mulVec F v.phi (fun i => x (.inl i)) pt]
    have e1 : ((fun i => x (.inl i)) : Fin n → K) = x ∘ Sum.inl := rfl
    have e2 : ((fun i => y (.inl i)) : Fin n → K) = y ∘ Sum.inl := rfl
    rw [e1, e2]
    unfold piola
    rw [mulVec_smul, smul_dotProduct, dotProduct_smul, smul_eq_mul, smul_eq_mul]
    field_simp
  · refine sum_eq_quadrature _ _ _ _ fun pt w => ?_
    simp only [tested_append, tested_map_fin, hie]
    rw [value_point (fun i => y (.inr i)), value_point (fun i => y (.inl i)) (fun i => ∑ j, v.js pt i j j),
      value_point (fun i => y (.inr i)), htr, htr]
    have e1 : ∑ i, y (.inr i) * p.phi pt i = femScalar p.phi (y ∘ Sum.inr) pt := rfl
    have e2 : ∑ i, x (.inr i) * p.phi pt i = femScalar p.phi (x ∘ Sum.inr) pt := rfl
    rw [e1, e2]
    field_simp
    ring

theorem mixed_lambda (qp : Int) (param : MixedDiffusion.Param K P Q d) (geo : CellGeo K P d) (p : Basis K P d m)
    (y : Fin n ⊕ Fin m → K) :
    tested (MixedDiffusion.lambdaVolume qp param geo p) y =
      quadrature (geo.quadratureRule qp) geo.integrationElement fun pt => param.f pt * femScalar p.phi (y ∘ Sum.inr) pt := by
  unfold MixedDiffusion.lambdaVolume
  rw [tested_flatMap]
  refine sum_eq_quadrature _ _ _ _ fun pt w => ?_
  simp only [tested_map_fin]
  rw [value_point (fun i => y (.inr i))]
  rfl

theorem mixed_boundary (qv : Int) (invert : Matrix (Fin d) (Fin d) K → Matrix (Fin d) (Fin d) K) (origin : P)
    (param : MixedDiffusion.Param K P Q d) (geo : CellGeo K P d) (face : FaceGeo K P Q d) (v : VectorBasis K P d n)
    (F : Matrix (Fin d) (Fin d) K) (det : K) (hie : ∀ pt, geo.integrationElement pt = det)
    (hF : invert (geo.jacobianInverseTransposed origin) = Fᵀ) (y : Fin n ⊕ Fin m → K) :
    tested (MixedDiffusion.lambdaBoundary qv invert origin param geo face v) y =
      quadrature (face.quadratureRule qv) face.integrationElement fun q =>
        if param.neumann q then 0 else
          param.g (face.inInside q) * (piola F det (femVector v.phi (y ∘ Sum.inl) (face.inInside q)) ⬝ᵥ face.unitOuterNormal q) := by
  unfold MixedDiffusion.lambdaBoundary
  simp only []
  rw [tested_flatMap]
  refine sum_eq_quadrature _ _ _ _ fun q w => ?_
  cases h : param.neumann q
  · simp only [Bool.false_eq_true, if_false, tested_map_fin, hF, transpose_transpose, hie]
    have := dot_point (fun i => y (.inl i)) (fun i => F *ᵥ v.phi (face.inInside q) i) (face.unitOuterNormal q)
      (param.g (face.inInside q) * (w * face.integrationElement q / det))
    rw [femVector_mulVec F v.phi (fun i => y (.inl i))] at this
    have e1 : ((fun i => y (.inl i)) : Fin n → K) = y ∘ Sum.inl := rfl
    rw [e1] at this
    refine Eq.trans (Finset.sum_congr rfl fun i _ => ?_) (this.trans ?_)
    · rw [dotProduct_comm]; ring
    · unfold piola
      rw [smul_dotProduct, dotProduct_comm, smul_eq_mul, div_eq_mul_inv]; ring
  · simp [tested_nil]

end Verif.Tested
