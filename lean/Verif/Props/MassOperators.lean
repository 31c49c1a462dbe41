import Verif.Proofs.MixedDiffusion
import Verif.Spec.MixedDiffusion
import Verif.Props.VectorOperators
/-
C168: the mixed formulation of the diffusion equation. C169: mass operators, functionals, and the matrices of electrodynamics.
-/
set_option linter.unusedSectionVars false
namespace Verif
open Verif.LocalOp Verif.LocalOp.Spec Verif.Tested Matrix

variable {K P Q : Type} [Field K] {d n m : Nat}

/-! ### C168 -/

/-- The residual of the mixed formulation tested with (v,q): K⁻¹σ·v - u div v - div σ q - c u q. -/
def MixedWeakForm (qorderV qorderP : Int) (invert : Matrix (Fin d) (Fin d) K → Matrix (Fin d) (Fin d) K) (origin : P)
    (param : MixedDiffusion.Param K P Q d) (geo : CellGeo K P d) (v : VectorBasis K P d n) (p : Basis K P d m)
    (F : Matrix (Fin d) (Fin d) K) (det : K) (x y : Fin n ⊕ Fin m → K) : Prop :=
  tested (MixedDiffusion.alphaVolume qorderV qorderP invert origin param geo v p x) y =
    quadrature (geo.quadratureRule qorderV) geo.integrationElement (fun pt =>
      (invert (param.A geo.center) *ᵥ piola F det (femVector v.phi (x ∘ Sum.inl) pt)) ⬝ᵥ
        piola F det (femVector v.phi (y ∘ Sum.inl) pt)) -
    quadrature (geo.quadratureRule qorderP) geo.integrationElement (fun pt =>
      femScalar p.phi (x ∘ Sum.inr) pt *
        piolaDivergence F (geo.jacobianInverseTransposed pt)ᵀ det (∑ i, y (.inl i) • v.js pt i) +
      piolaDivergence F (geo.jacobianInverseTransposed pt)ᵀ det (∑ i, x (.inl i) • v.js pt i) * femScalar p.phi (y ∘ Sum.inr) pt) -
    quadrature (geo.quadratureRule qorderP) geo.integrationElement (fun pt =>
      param.c pt * femScalar p.phi (x ∘ Sum.inr) pt * femScalar p.phi (y ∘ Sum.inr) pt)

private theorem finv (geo : CellGeo K P d) (F : Matrix (Fin d) (Fin d) K) (det : K) (h : AffineCell geo F det) (pt : P) :
    (geo.jacobianInverseTransposed pt)ᵀ * F = 1 := by
  have h1 := congrArg Matrix.transpose (mul_eq_one_comm.1 (h.inverse pt))
  rwa [transpose_mul, transpose_transpose, transpose_one] at h1

/-- On affine cells the residual is the mixed weak form, if there is no reaction term or the cell has the volume of the
reference element. -/
theorem C168_weak_form_partial (qorderV qorderP : Int) (invert : Matrix (Fin d) (Fin d) K → Matrix (Fin d) (Fin d) K) (origin : P)
    (hinv : ∀ M, M.det ≠ 0 → M * invert M = 1) (param : MixedDiffusion.Param K P Q d) (geo : CellGeo K P d)
    (v : VectorBasis K P d n) (p : Basis K P d m) (F : Matrix (Fin d) (Fin d) K) (det : K) (haff : AffineCell geo F det)
    (hc : det = 1 ∨ ∀ q ∈ geo.quadratureRule qorderP, param.c q.1 = 0) (x y : Fin n ⊕ Fin m → K) :
    MixedWeakForm qorderV qorderP invert origin param geo v p F det x y := by
  unfold MixedWeakForm
  rw [mixed_alpha qorderV qorderP invert origin param geo v p F det haff.regular haff.element
    (invert_inverse invert hinv _ _ (haff.inverse origin)) x y]
  congr 1
  · congr 1
    refine quadrature_congr _ _ _ _ fun q _ => ?_
    unfold piolaDivergence
    rw [piola_divergence _ _ _ _ (finv geo F det haff q.1), piola_divergence _ _ _ _ (finv geo F det haff q.1)]
  · refine quadrature_congr _ _ _ _ fun q hq => ?_
    rcases hc with h1 | h0
    · rw [h1, inv_one, one_mul]
    · rw [h0 q hq]; ring

/-- The right hand side is f q, and the Dirichlet values enter by g v·n on the faces that are not Neumann faces. -/
theorem C168_sources (qorderV qorderP : Int) (invert : Matrix (Fin d) (Fin d) K → Matrix (Fin d) (Fin d) K) (origin : P)
    (hinv : ∀ M, M.det ≠ 0 → M * invert M = 1) (param : MixedDiffusion.Param K P Q d) (geo : CellGeo K P d)
    (face : FaceGeo K P Q d) (v : VectorBasis K P d n) (p : Basis K P d m) (F : Matrix (Fin d) (Fin d) K) (det : K)
    (haff : AffineCell geo F det) (y : Fin n ⊕ Fin m → K) :
    tested (MixedDiffusion.lambdaVolume qorderP param geo p) y =
      quadrature (geo.quadratureRule qorderP) geo.integrationElement
        (fun pt => param.f pt * femScalar p.phi (y ∘ Sum.inr) pt) ∧
    tested (MixedDiffusion.lambdaBoundary qorderV invert origin param geo face v) y =
      quadrature (face.quadratureRule qorderV) face.integrationElement (fun q =>
        if param.neumann q then 0 else
          param.g (face.inInside q) *
            (piola F det (femVector v.phi (y ∘ Sum.inl) (face.inInside q)) ⬝ᵥ face.unitOuterNormal q)) :=
  ⟨mixed_lambda qorderP param geo p y, mixed_boundary qorderV invert origin param geo face v F det haff.element
    (invert_inverse invert hinv _ _ (haff.inverse origin)) y⟩

/-- With a symmetric permeability the operator is symmetric: the residual of x tested with y is that of y tested with x. -/
theorem C168_symmetric (qorderV qorderP : Int) (invert : Matrix (Fin d) (Fin d) K → Matrix (Fin d) (Fin d) K) (origin : P)
    (hinv : ∀ M, M.det ≠ 0 → M * invert M = 1) (param : MixedDiffusion.Param K P Q d) (geo : CellGeo K P d)
    (v : VectorBasis K P d n) (p : Basis K P d m) (F : Matrix (Fin d) (Fin d) K) (det : K) (haff : AffineCell geo F det)
    (hA : (param.A geo.center)ᵀ = param.A geo.center) (hreg : (param.A geo.center).det ≠ 0) (x y : Fin n ⊕ Fin m → K) :
    tested (MixedDiffusion.alphaVolume qorderV qorderP invert origin param geo v p x) y =
      tested (MixedDiffusion.alphaVolume qorderV qorderP invert origin param geo v p y) x := by
  have hs : (invert (param.A geo.center))ᵀ = invert (param.A geo.center) := by
    have h1 := hinv _ hreg
    have h2 : (invert (param.A geo.center))ᵀ * param.A geo.center = 1 := by
      have := congrArg Matrix.transpose h1
      rwa [transpose_mul, hA, transpose_one] at this
    calc (invert (param.A geo.center))ᵀ = (invert (param.A geo.center))ᵀ * (param.A geo.center * invert (param.A geo.center)) := by
          rw [h1, Matrix.mul_one]
      _ = invert (param.A geo.center) := by rw [← Matrix.mul_assoc, h2, Matrix.one_mul]
  have hsym : ∀ a b : Fin d → K, (invert (param.A geo.center) *ᵥ a) ⬝ᵥ b = (invert (param.A geo.center) *ᵥ b) ⬝ᵥ a := by
    intro a b
    rw [dotProduct_comm, dotProduct_mulVec, ← mulVec_transpose, hs]
  have hF := invert_inverse invert hinv _ _ (haff.inverse origin)
  rw [mixed_alpha qorderV qorderP invert origin param geo v p F det haff.regular haff.element hF,
    mixed_alpha qorderV qorderP invert origin param geo v p F det haff.regular haff.element hF]
  congr 1
  · congr 1
    · exact quadrature_congr _ _ _ _ fun q _ => hsym _ _
    · exact quadrature_congr _ _ _ _ fun q _ => by ring
  · exact quadrature_congr _ _ _ _ fun q _ => by ring

/-- Inverting 1×1 matrices. -/
def exInvert₁ (M : Matrix (Fin 1) (Fin 1) Rat) : Matrix (Fin 1) (Fin 1) Rat := fun _ _ => (M 0 0)⁻¹
def exMixedGeo : CellGeo Rat Unit 1 := ⟨(), 2, fun _ => 0, fun _ => 2, fun _ => !![1/2], fun _ => [((), 1)]⟩
def exMixedV : VectorBasis Rat Unit 1 1 := ⟨1, fun _ _ _ => 1, fun _ _ => !![1]⟩
def exMixedP : Basis Rat Unit 1 1 := ⟨0, fun _ _ => 1, fun _ _ => 0⟩
def exMixedParam (c : Rat) : MixedDiffusion.Param Rat Unit Unit 1 := ⟨fun _ => !![3], fun _ => c, fun _ => 1, fun _ => false, fun _ => 1⟩

private theorem exInvert₁_inverts : ∀ M : Matrix (Fin 1) (Fin 1) Rat, M.det ≠ 0 → M * exInvert₁ M = 1 := by
  intro M h
  rw [det_fin_one] at h
  ext i j
  fin_cases i; fin_cases j
  simp [exInvert₁, Matrix.mul_apply, h]

private theorem exMixedGeo_affine : AffineCell exMixedGeo !![2] 2 :=
  ⟨fun _ => by ext i j; fin_cases i; fin_cases j; simp [exMixedGeo, Matrix.mul_apply], fun _ => rfl, by decide⟩

/-- The reaction term is integrated without the integration element: on an affine cell of length two, the residual of a constant
is not that of the weak form if there is reaction. -/
theorem C168_reaction_false : ∃ (invert : Matrix (Fin 1) (Fin 1) Rat → Matrix (Fin 1) (Fin 1) Rat)
    (param : MixedDiffusion.Param Rat Unit Unit 1) (geo : CellGeo Rat Unit 1) (x y : Fin 1 ⊕ Fin 1 → Rat),
    (∀ M, M.det ≠ 0 → M * invert M = 1) ∧ AffineCell geo !![2] 2 ∧
    ¬ MixedWeakForm 2 1 invert () param geo exMixedV exMixedP !![2] 2 x y := by
  refine ⟨exInvert₁, exMixedParam 1, exMixedGeo, Sum.elim 0 1, Sum.elim 0 1, exInvert₁_inverts, exMixedGeo_affine, ?_⟩
  unfold MixedWeakForm
  decide +kernel

/-- The hypotheses of the theorems hold on that cell without reaction, with a residual that is not zero. -/
example : (∀ M : Matrix (Fin 1) (Fin 1) Rat, M.det ≠ 0 → M * exInvert₁ M = 1) ∧ AffineCell exMixedGeo !![2] 2 ∧
    (∀ q ∈ exMixedGeo.quadratureRule 1, (exMixedParam 0).c q.1 = 0) ∧
    ((exMixedParam 0).A exMixedGeo.center)ᵀ = (exMixedParam 0).A exMixedGeo.center ∧
    ((exMixedParam 0).A exMixedGeo.center).det ≠ 0 ∧
    tested (MixedDiffusion.alphaVolume 2 1 exInvert₁ () (exMixedParam 0) exMixedGeo exMixedV exMixedP (Sum.elim 1 1)) (Sum.elim 1 2) ≠ 0 :=
  ⟨exInvert₁_inverts, exMixedGeo_affine, by decide, by decide, by rw [det_fin_one]; decide, by decide +kernel⟩

/-! ### C169 -/

/-- The mass operator of a tree of spaces is scaling · ∫uv for each leaf, integrated with twice the order of the leaf plus
what the user adds; different leaves are not coupled. The assembled matrix is its derivative, and symmetric. -/
theorem C169_mass {L : Nat} {size : Fin L → Nat} (intorderadd : Int) (scaling : K) (geo : CellGeo K P d)
    (fe : (l : Fin L) → Basis K P d (size l)) :
    (∀ x y : L2.Dof size → K, tested (L2.alphaVolume intorderadd scaling geo fe x) y =
      ∑ l, quadrature (geo.quadratureRule (2 * (fe l).order + intorderadd)) geo.integrationElement fun p =>
        scaling * (femScalar (fe l).phi (fun i => x ⟨l, i⟩) p * femScalar (fe l).phi (fun i => y ⟨l, i⟩) p)) ∧
    IsAffineWith (fun x => total (L2.alphaVolume intorderadd scaling geo fe x))
      (total (L2.jacobianVolume intorderadd scaling geo fe)) ∧
    Symmetric (total (L2.jacobianVolume intorderadd scaling geo fe)) := by
  refine ⟨l2_alpha intorderadd scaling geo fe, affine_of_linear _ _ fun x y => ?_, symmetric_of_bilinear _ fun y z => ?_⟩
  · rw [l2_alpha, l2_jacobian]
  · rw [l2_jacobian, l2_jacobian]
    exact Finset.sum_congr rfl fun l _ => quadrature_congr _ _ _ _ fun q _ => by ring

/-- The mass matrix is positive semidefinite. -/
theorem C169_mass_energy [LinearOrder K] [IsStrictOrderedRing K] {L : Nat} {size : Fin L → Nat} (intorderadd : Int) (scaling : K)
    (geo : CellGeo K P d) (fe : (l : Fin L) → Basis K P d (size l)) (hs : 0 ≤ scaling)
    (hw : ∀ l, ∀ q ∈ geo.quadratureRule (2 * (fe l).order + intorderadd), 0 ≤ q.2 * geo.integrationElement q.1)
    (x : L2.Dof size → K) : 0 ≤ quadForm (total (L2.jacobianVolume intorderadd scaling geo fe)) x := by
  rw [quadForm_eq_bilinear, l2_jacobian]
  exact Finset.sum_nonneg fun l _ => quadrature_nonneg' _ _ _ (fun q _ => mul_nonneg hs (mul_self_nonneg _)) (hw l)

/-- The mass operators of the Navier-Stokes equations are ∫ρ u·v, for velocities in a power space and with vector valued
basis functions; the pressure does not contribute and receives nothing. The matrices are the derivatives. -/
theorem C169_velocity_mass (isSimplex : Bool) (s : Int) (rho : P → K) (geo : CellGeo K P d) (v : Basis K P d n)
    (vv : VectorBasis K P d n) :
    (∀ x y : TaylorHood.Dof d n m → K, tested (VelocityMass.alphaVolume isSimplex s rho geo v x) y =
      quadrature (geo.quadratureRule (TaylorHood.massOrder d v.order isSimplex s)) geo.integrationElement fun p =>
        rho p * (femFunction v.phi (x ∘ Sum.inl) p ⬝ᵥ femFunction v.phi (y ∘ Sum.inl) p)) ∧
    (∀ x y : Fin n ⊕ Fin m → K, tested (VelocityMass.alphaVolumeVec isSimplex s rho geo vv x) y =
      quadrature (geo.quadratureRule (TaylorHood.massOrder d vv.order isSimplex s)) geo.integrationElement fun p =>
        rho p * (femVector vv.phi (x ∘ Sum.inl) p ⬝ᵥ femVector vv.phi (y ∘ Sum.inl) p)) ∧
    IsAffineWith (fun x : TaylorHood.Dof d n m → K => total (VelocityMass.alphaVolume isSimplex s rho geo v x))
      (total (VelocityMass.jacobianVolume isSimplex s rho geo v)) ∧
    IsAffineWith (fun x : Fin n ⊕ Fin m → K => total (VelocityMass.alphaVolumeVec isSimplex s rho geo vv x))
      (total (VelocityMass.jacobianVolumeVec isSimplex s rho geo vv)) := by
  refine ⟨mass_alpha isSimplex s rho geo v, mass_alpha_vec isSimplex s rho geo vv, affine_of_linear _ _ fun x y => ?_,
    affine_of_linear _ _ fun x y => ?_⟩
  · rw [mass_alpha, mass_jacobian]
  · rw [mass_alpha_vec, mass_jacobian_vec]

/-- The linear functional of f is ∫f·v times the weight of the residual. -/
theorem C169_functional (quadOrder : Int) (f : P → Fin d → K) (geo : CellGeo K P d) (fe : VectorBasis K P d n) (weight : K)
    (y : Fin n → K) :
    tested (L2.functionalLambdaVolume quadOrder f geo fe weight) y =
      weight * quadrature (geo.quadratureRule quadOrder) geo.integrationElement fun p => f p ⬝ᵥ femVector fe.phi y p :=
  functional_lambda quadOrder f geo fe weight y

/-- The matrix T of electrodynamics is ∫ε u·v. The matrix S is ∫μ⁻¹ curl u·curl v, in three and in two dimensions. -/
theorem C169_electrodynamics {n₂ n₃ : Nat} (qorder : Int) (eps mu : P → K) (geo : CellGeo K P d) (fe : VectorBasis K P d n)
    (geo₂ : CellGeo K P 2) (fe₂ : VectorBasis K P 2 n₂) (geo₃ : CellGeo K P 3) (fe₃ : VectorBasis K P 3 n₃) :
    (∀ y z, bilinear (total (Electrodynamic.jacobianT qorder eps geo fe)) y z =
      quadrature (geo.quadratureRule qorder) geo.integrationElement fun p =>
        eps p * (femVector fe.phi z p ⬝ᵥ femVector fe.phi y p)) ∧
    (∃ curl : Matrix (Fin 3) (Fin 3) K → Fin 3 → K, (∀ A, IsCurl₃ A (curl A)) ∧
      ∀ y z, bilinear (total (Electrodynamic.jacobianS Electrodynamic.curl₃ qorder mu geo₃ fe₃)) y z =
        quadrature (geo₃.quadratureRule qorder) geo₃.integrationElement fun p =>
          (mu p)⁻¹ * (curl (∑ i, z i • fe₃.js p i) ⬝ᵥ curl (∑ i, y i • fe₃.js p i))) ∧
    (∃ curl : Matrix (Fin 2) (Fin 2) K → K, (∀ A, IsCurl₂ A (curl A)) ∧
      ∀ y z, bilinear (total (Electrodynamic.jacobianS Electrodynamic.curl₂ qorder mu geo₂ fe₂)) y z =
        quadrature (geo₂.quadratureRule qorder) geo₂.integrationElement fun p =>
          (mu p)⁻¹ * (curl (∑ i, z i • fe₂.js p i) * curl (∑ i, y i • fe₂.js p i))) := by
  refine ⟨electro_T qorder eps geo fe, ⟨Electrodynamic.curl₃, curl₃_isCurl, fun y z => ?_⟩,
    ⟨fun A => Electrodynamic.curl₂ A 0, curl₂_isCurl, fun y z => ?_⟩⟩
  · exact electro_S _ _ _ _ _ _ _ curl₃_linear
  · rw [electro_S _ _ _ _ _ _ _ curl₂_linear]
    refine quadrature_congr _ _ _ _ fun q _ => ?_
    simp [dotProduct]

/-- Both matrices are symmetric, and positive semidefinite for positive coefficients. -/
theorem C169_electrodynamics_energy [LinearOrder K] [IsStrictOrderedRing K] {n₃ : Nat} (qorder : Int) (eps mu : P → K)
    (geo₃ : CellGeo K P 3) (fe₃ : VectorBasis K P 3 n₃) (heps : ∀ p, 0 ≤ eps p) (hmu : ∀ p, 0 ≤ mu p)
    (hw : ∀ q ∈ geo₃.quadratureRule qorder, 0 ≤ q.2 * geo₃.integrationElement q.1) (x : Fin n₃ → K) :
    Symmetric (total (Electrodynamic.jacobianT qorder eps geo₃ fe₃)) ∧
    Symmetric (total (Electrodynamic.jacobianS Electrodynamic.curl₃ qorder mu geo₃ fe₃)) ∧
    0 ≤ quadForm (total (Electrodynamic.jacobianT qorder eps geo₃ fe₃)) x ∧
    0 ≤ quadForm (total (Electrodynamic.jacobianS Electrodynamic.curl₃ qorder mu geo₃ fe₃)) x := by
  have hd : ∀ a : Fin 3 → K, 0 ≤ a ⬝ᵥ a := fun a => Finset.sum_nonneg fun _ _ => mul_self_nonneg _
  refine ⟨symmetric_of_bilinear _ fun y z => ?_, symmetric_of_bilinear _ fun y z => ?_, ?_, ?_⟩
  · rw [electro_T, electro_T]
    exact quadrature_congr _ _ _ _ fun q _ => by rw [dotProduct_comm]
  · rw [electro_S _ _ _ _ _ _ _ curl₃_linear, electro_S _ _ _ _ _ _ _ curl₃_linear]
    exact quadrature_congr _ _ _ _ fun q _ => by rw [dotProduct_comm]
  · rw [quadForm_eq_bilinear, electro_T]
    exact quadrature_nonneg' _ _ _ (fun q _ => mul_nonneg (heps _) (hd _)) hw
  · rw [quadForm_eq_bilinear, electro_S _ _ _ _ _ _ _ curl₃_linear]
    exact quadrature_nonneg' _ _ _ (fun q _ => mul_nonneg (inv_nonneg.2 (hmu _)) (hd _)) hw

/-- Two leaves of different order on the skewed cell: the mass is positive and different leaves are not coupled. A field with
a curl that is not zero. -/
example : ∃ fe : (l : Fin 2) → Basis Rat Unit 2 ((fun _ => 2 : Fin 2 → Nat) l),
    0 < quadForm (total (L2.jacobianVolume 0 3 exElasticGeo fe)) (fun _ => 1) ∧
    total (L2.jacobianVolume 0 3 exElasticGeo fe) (⟨0, 1⟩, ⟨1, 0⟩) = 0 ∧
    total (L2.jacobianVolume 0 3 exElasticGeo fe) (⟨0, 1⟩, ⟨0, 0⟩) ≠ 0 ∧
    Electrodynamic.curl₃ (!![0, 1, 0; 3, 0, 0; 0, 0, 5] : Matrix (Fin 3) (Fin 3) Rat) = ![0, 0, 2] ∧
    (∀ l : Fin 2, ∀ q ∈ exElasticGeo.quadratureRule (2 * (fe l).order + 0), 0 ≤ q.2 * exElasticGeo.integrationElement q.1) :=
  ⟨fun l => ⟨l.val + 1, fun _ _ => 1, fun _ _ => 0⟩, by decide +kernel, by decide +kernel, by decide +kernel, by decide +kernel,
    by decide +kernel⟩

end Verif
