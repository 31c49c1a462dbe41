import Verif.Proofs.TaylorHood
import Mathlib.Algebra.Order.Ring.Rat
import Mathlib.Algebra.Field.Rat
import Mathlib.Tactic.NormNum
import Mathlib.Tactic.LinearCombination
import Mathlib.Tactic.Linarith
/-
C166: linear elasticity. C167: the Taylor-Hood discretisation of the Stokes and Navier-Stokes equations.
-/
set_option linter.unusedSectionVars false
namespace Verif
open Verif.LocalOp Verif.LocalOp.Spec Verif.Tested Matrix

variable {K P Q : Type} [Field K] {d n m : Nat}

/-! ### C166 -/

/-- The residual of a displacement u, tested with any v, is the quadrature of 2μ ε(u):ε(v) + λ div u div v; the load is the
quadrature of -f·v, and the boundary contributes nothing. -/
theorem C166_weak_form (h2 : (2 : K) ≠ 0) (intorder : Int) (param : Elasticity.Param K P Q d) (geo : CellGeo K P d)
    (face : FaceGeo K P Q d) (fe : Basis K P d n) (x y : Fin d × Fin n → K) :
    tested (Elasticity.alphaVolume intorder param geo fe x) y =
      quadrature (geo.quadratureRule intorder) geo.integrationElement (fun p =>
        elasticDensity (param.mu p) (param.lambda p)
          (femGradient (fun p i => geo.jacobianInverseTransposed p *ᵥ fe.js p i) x p)
          (femGradient (fun p i => geo.jacobianInverseTransposed p *ᵥ fe.js p i) y p)) ∧
    tested (Elasticity.lambdaVolume intorder param geo fe) y =
      -quadrature (geo.quadratureRule intorder) geo.integrationElement (fun p => param.f p ⬝ᵥ femFunction fe.phi y p) ∧
    tested (Elasticity.lambdaBoundary intorder param face fe) y = 0 :=
  ⟨elastic_alpha h2 intorder param geo fe x y, elastic_lambda intorder param geo fe y, elastic_boundary intorder param face fe y⟩

/-- The assembled matrix is the derivative of the residual, and it is symmetric. -/
theorem C166_jacobian (h2 : (2 : K) ≠ 0) (intorder : Int) (param : Elasticity.Param K P Q d) (geo : CellGeo K P d)
    (fe : Basis K P d n) :
    IsAffineWith (fun x => total (Elasticity.alphaVolume intorder param geo fe x))
      (total (Elasticity.jacobianVolume intorder param geo fe)) ∧
    Symmetric (total (Elasticity.jacobianVolume intorder param geo fe)) := by
  refine ⟨affine_of_tested _ _ fun x z y => ?_, symmetric_of_bilinear _ fun y z => ?_⟩
  · rw [elastic_alpha h2, elastic_alpha h2, elastic_jacobian h2, ← quadrature_add']
    exact quadrature_congr _ _ _ _ fun q _ => by rw [femGradient_add, elasticDensity_add]
  · rw [elastic_jacobian h2, elastic_jacobian h2]
    exact quadrature_congr _ _ _ _ fun q _ => elasticDensity_comm _ _ _ _

/-- With nonnegative Lamé constants and quadrature weights the matrix is positive semidefinite: the elastic energy of a
displacement is not negative. -/
theorem C166_energy [LinearOrder K] [IsStrictOrderedRing K] (intorder : Int) (param : Elasticity.Param K P Q d)
    (geo : CellGeo K P d) (fe : Basis K P d n) (hmu : ∀ p, 0 ≤ param.mu p) (hla : ∀ p, 0 ≤ param.lambda p)
    (hw : ∀ q ∈ geo.quadratureRule intorder, 0 ≤ q.2 * geo.integrationElement q.1) (x : Fin d × Fin n → K) :
    0 ≤ quadForm (total (Elasticity.jacobianVolume intorder param geo fe)) x := by
  rw [quadForm_eq_bilinear, elastic_jacobian two_ne_zero]
  refine quadrature_nonneg' _ _ _ (fun q _ => ?_) hw
  exact add_nonneg (mul_nonneg (mul_nonneg two_pos.le (hmu _)) (contract_self_nonneg _))
    (mul_nonneg (hla _) (mul_self_nonneg _))

/-- Infinitesimal rigid body motions, whose gradient is antisymmetric, produce no elastic force. -/
theorem C166_rigid_motions (h2 : (2 : K) ≠ 0) (intorder : Int) (param : Elasticity.Param K P Q d) (geo : CellGeo K P d)
    (fe : Basis K P d n) (x : Fin d × Fin n → K)
    (hx : ∀ q ∈ geo.quadratureRule intorder,
      (femGradient (fun p i => geo.jacobianInverseTransposed p *ᵥ fe.js p i) x q.1)ᵀ =
        -femGradient (fun p i => geo.jacobianInverseTransposed p *ᵥ fe.js p i) x q.1) (i : Fin d × Fin n) :
    total (Elasticity.alphaVolume intorder param geo fe x) i = 0 := by
  rw [← tested_single, elastic_alpha h2]
  rw [← quadrature_zero' (geo.quadratureRule intorder) geo.integrationElement]
  refine quadrature_congr _ _ _ _ fun q hq => ?_
  have h : (femGradient (gradients geo fe) x q.1)ᵀ = -femGradient (gradients geo fe) x q.1 := hx q hq
  have ht : (femGradient (gradients geo fe) x q.1).trace = 0 := by
    have := congrArg Matrix.trace h
    rw [trace_transpose, trace_neg] at this
    have h3 : 2 * (femGradient (gradients geo fe) x q.1).trace = 0 := by linear_combination this
    exact (mul_eq_zero.1 h3).resolve_left h2
  unfold elasticDensity strain
  rw [h, ht, add_neg_cancel, smul_zero]
  unfold contract
  simp

/-- A bilinear triangle like element in two dimensions: gradients (1,0), (0,1). -/
def exElasticFe : Basis Rat Unit 2 2 := ⟨1, fun _ => ![1, 2], fun _ => ![![1, 0], ![0, 1]]⟩
def exElasticGeo : CellGeo Rat Unit 2 := ⟨(), 2, fun _ => 0, fun _ => 4, fun _ => !![1/2, 0; 1, 1/2], fun _ => [((), 1/2)]⟩
def exElasticParam : Elasticity.Param Rat Unit Unit 2 := ⟨fun _ => 3, fun _ => 5, fun _ => ![1, -1], fun _ => false⟩

/-- The hypotheses hold for a skewed cell, and the energy of a shear is positive; a rotation of that cell exists. -/
example : (∀ p, 0 ≤ exElasticParam.mu p) ∧ (∀ q ∈ exElasticGeo.quadratureRule 2, 0 ≤ q.2 * exElasticGeo.integrationElement q.1) ∧
    0 < quadForm (total (Elasticity.jacobianVolume 2 exElasticParam exElasticGeo exElasticFe)) (fun i => if i.1 = 0 then 1 else 0) ∧
    (∀ q ∈ exElasticGeo.quadratureRule 2,
      (femGradient (fun p i => exElasticGeo.jacobianInverseTransposed p *ᵥ exElasticFe.js p i)
        (fun i => if i = (0, 1) then 2 else if i = (1, 0) then -2 else if i = (1, 1) then 4 else 0) q.1)ᵀ =
        -femGradient (fun p i => exElasticGeo.jacobianInverseTransposed p *ᵥ exElasticFe.js p i)
          (fun i => if i = (0, 1) then 2 else if i = (1, 0) then -2 else if i = (1, 1) then 4 else 0) q.1) := by
  refine ⟨by decide, by decide +kernel, by decide +kernel, by decide +kernel⟩

/-! ### C167 -/

private theorem femFunction_add {k : Nat} (phi : P → Fin n → K) (x z : Fin k × Fin n → K) (p : P) :
    femFunction phi (x + z) p = femFunction phi x p + femFunction phi z p := by
  funext i; simp [femFunction, add_mul, Finset.sum_add_distrib]
private theorem femFunction_smul {k : Nat} (phi : P → Fin n → K) (t : K) (x : Fin k × Fin n → K) (p : P) :
    femFunction phi (t • x) p = t • femFunction phi x p := by
  funext i; simp [femFunction, mul_assoc, Finset.mul_sum]
private theorem femScalar_add (phi : P → Fin n → K) (x z : Fin n → K) (p : P) :
    femScalar phi (x + z) p = femScalar phi x p + femScalar phi z p := by
  simp [femScalar, add_mul, Finset.sum_add_distrib]
private theorem femScalar_smul (phi : P → Fin n → K) (t : K) (x : Fin n → K) (p : P) :
    femScalar phi (t • x) p = t * femScalar phi x p := by
  simp [femScalar, mul_assoc, Finset.mul_sum]

/-- The orders of the quadrature rules: with velocities of order k, 3k-1 for the flow and 2k for the source, plus the degree
of the geometry if the cell (face) is not a simplex, plus what the user adds. -/
theorem C167_orders (d k : Nat) (s : Int) :
    TaylorHood.volumeOrder d k true s = 3 * k - 1 + s ∧ TaylorHood.volumeOrder d k false s = 3 * k - 1 + d + s ∧
    TaylorHood.massOrder d k true s = 2 * k + s ∧ TaylorHood.massOrder d k false s = 2 * k + (d - 1) + s ∧
    TaylorHood.faceOrder d k true s = 2 * k + s ∧ TaylorHood.faceOrder d k false s = 2 * k + (d - 1) + s := by
  refine ⟨?_, ?_, ?_, ?_, ?_, ?_⟩ <;> simp [TaylorHood.volumeOrder, TaylorHood.massOrder, TaylorHood.faceOrder] <;> ring

/-- The residual of (u,p), tested with (v,q), is the quadrature of σ(u):∇v - p div v + ρ(u·∇)u·v - q div u, without the
convective term for the Stokes equations; the sources are -f·v and g₂q, and the traction on Neumann boundaries is j·v. -/
theorem C167_weak_form (isSimplex : Bool) (s : Int) (par : TaylorHood.Param K P Q d) (geo : CellGeo K P d)
    (face : FaceGeo K P Q d) (v : Basis K P d n) (p : Basis K P d m) (x y : TaylorHood.Dof d n m → K) :
    tested (TaylorHood.alphaVolume isSimplex s par geo v p x) y =
      quadrature (geo.quadratureRule (TaylorHood.volumeOrder d v.order isSimplex s)) geo.integrationElement (fun pt =>
        flowDensity par.navier par.fullTensor (par.mu pt) (par.rho pt)
          (femGradient (fun p i => geo.jacobianInverseTransposed p *ᵥ v.js p i) (x ∘ Sum.inl) pt)
          (femFunction v.phi (x ∘ Sum.inl) pt) (femScalar p.phi (x ∘ Sum.inr) pt)
          (femGradient (fun p i => geo.jacobianInverseTransposed p *ᵥ v.js p i) (y ∘ Sum.inl) pt)
          (femFunction v.phi (y ∘ Sum.inl) pt) (femScalar p.phi (y ∘ Sum.inr) pt)) ∧
    tested (TaylorHood.lambdaVolume isSimplex s par geo v p) y =
      quadrature (geo.quadratureRule (TaylorHood.massOrder d v.order isSimplex s)) geo.integrationElement (fun pt =>
        par.g2 pt * femScalar p.phi (y ∘ Sum.inr) pt - par.f pt ⬝ᵥ femFunction v.phi (y ∘ Sum.inl) pt) ∧
    tested (TaylorHood.lambdaBoundary isSimplex s par face v) y =
      quadrature (face.quadratureRule (TaylorHood.faceOrder d v.order isSimplex s)) face.integrationElement (fun q =>
        if par.bctype q = .stressNeumann then par.j q ⬝ᵥ femFunction v.phi (y ∘ Sum.inl) (face.inInside q) else 0) :=
  ⟨flow_alpha isSimplex s par geo v p x y, flow_lambda isSimplex s par geo v p y, flow_boundary isSimplex s par face v y⟩

private theorem viscousStress_add (full : Bool) (mu : K) (A B : Matrix (Fin d) (Fin d) K) :
    viscousStress full mu (A + B) = viscousStress full mu A + viscousStress full mu B := by
  cases full <;> simp [viscousStress, smul_add]
  abel
private theorem viscousStress_smul (full : Bool) (mu t : K) (A : Matrix (Fin d) (Fin d) K) :
    viscousStress full mu (t • A) = t • viscousStress full mu A := by
  cases full <;> simp [viscousStress, smul_add, smul_smul, mul_comm]

/-- The assembled matrix at (u,p) is the derivative of the residual there. -/
theorem C167_jacobian (isSimplex : Bool) (s : Int) (par : TaylorHood.Param K P Q d) (geo : CellGeo K P d)
    (v : Basis K P d n) (p : Basis K P d m) :
    IsDerivative (fun x => total (TaylorHood.alphaVolume isSimplex s par geo v p x))
      (fun x => total (TaylorHood.jacobianVolume isSimplex s par geo v p x)) := by
  refine derivative_of_tested _ _ fun x z y => ?_
  refine ⟨quadrature (geo.quadratureRule (TaylorHood.volumeOrder d v.order isSimplex s)) geo.integrationElement fun pt =>
    if par.navier then par.rho pt * ((femGradient (gradients geo v) (z ∘ Sum.inl) pt *ᵥ femFunction v.phi (z ∘ Sum.inl) pt) ⬝ᵥ
      femFunction v.phi (y ∘ Sum.inl) pt) else 0, fun t => ?_⟩
  rw [flow_alpha, flow_alpha, flow_jacobian, ← quadrature_smul', ← quadrature_smul', ← quadrature_add', ← quadrature_add']
  refine quadrature_congr _ _ _ _ fun q _ => ?_
  have e1 : (x + t • z) ∘ Sum.inl = x ∘ Sum.inl + t • (z ∘ Sum.inl) := rfl
  have e2 : (x + t • z) ∘ Sum.inr = x ∘ Sum.inr + t • (z ∘ Sum.inr) := rfl
  unfold navierStokesDensity navierStokesLinearised flowDensity
  rw [e1, e2, femGradient_add, femGradient_smul, femFunction_add, femFunction_smul, femScalar_add, femScalar_smul,
    viscousStress_add, viscousStress_smul, contract_add_left, contract_smul_left, trace_add, trace_smul]
  cases par.navier
  · simp only [Bool.false_eq_true, if_false, smul_eq_mul]; ring
  · simp only [Bool.false_eq_true, if_false, if_true, add_mulVec, mulVec_add, smul_mulVec, mulVec_smul, add_dotProduct,
      smul_dotProduct, smul_eq_mul]
    ring

/-- Without the convective term the residual is affine, with the same matrix everywhere, and this matrix is symmetric. -/
theorem C167_stokes (isSimplex : Bool) (s : Int) (par : TaylorHood.Param K P Q d) (geo : CellGeo K P d)
    (v : Basis K P d n) (p : Basis K P d m) (hn : par.navier = false) (x₀ : TaylorHood.Dof d n m → K) :
    IsAffineWith (fun x => total (TaylorHood.alphaVolume isSimplex s par geo v p x))
      (total (TaylorHood.jacobianVolume isSimplex s par geo v p x₀)) ∧
    Symmetric (total (TaylorHood.jacobianVolume isSimplex s par geo v p x₀)) := by
  refine ⟨affine_of_tested _ _ fun x z y => ?_, symmetric_of_bilinear _ fun y z => ?_⟩
  · rw [flow_alpha, flow_alpha, flow_jacobian, ← quadrature_add']
    refine quadrature_congr _ _ _ _ fun q _ => ?_
    have e1 : (x + z) ∘ Sum.inl = x ∘ Sum.inl + (z ∘ Sum.inl) := rfl
    have e2 : (x + z) ∘ Sum.inr = x ∘ Sum.inr + (z ∘ Sum.inr) := rfl
    unfold navierStokesDensity navierStokesLinearised flowDensity
    rw [e1, e2, femGradient_add, femFunction_add, femScalar_add, viscousStress_add, contract_add_left, trace_add]
    simp only [hn, Bool.false_eq_true, if_false]
    ring
  · rw [flow_jacobian, flow_jacobian]
    refine quadrature_congr _ _ _ _ fun q _ => ?_
    unfold navierStokesLinearised flowDensity
    rw [viscous_contract, viscous_contract, contract_comm, contract_transpose_left,
      contract_comm (femGradient (gradients geo v) (z ∘ Sum.inl) q.1)]
    simp only [hn, Bool.false_eq_true, if_false]
    ring

/-- The Stokes operator is stable: tested with the velocity itself and the negative pressure, the pressure terms cancel and the
viscous dissipation remains, which is not negative. -/
theorem C167_dissipation [LinearOrder K] [IsStrictOrderedRing K] (isSimplex : Bool) (s : Int) (par : TaylorHood.Param K P Q d)
    (geo : CellGeo K P d) (v : Basis K P d n) (p : Basis K P d m) (hn : par.navier = false) (hmu : ∀ pt, 0 ≤ par.mu pt)
    (hw : ∀ q ∈ geo.quadratureRule (TaylorHood.volumeOrder d v.order isSimplex s), 0 ≤ q.2 * geo.integrationElement q.1)
    (x : TaylorHood.Dof d n m → K) :
    0 ≤ tested (TaylorHood.alphaVolume isSimplex s par geo v p x) (Sum.elim (x ∘ Sum.inl) (-(x ∘ Sum.inr))) := by
  rw [flow_alpha]
  refine quadrature_nonneg' _ _ _ (fun q _ => ?_) hw
  have e1 : Sum.elim (x ∘ Sum.inl) (-(x ∘ Sum.inr)) ∘ Sum.inl = x ∘ Sum.inl := rfl
  have e2 : Sum.elim (x ∘ Sum.inl) (-(x ∘ Sum.inr)) ∘ Sum.inr = -(x ∘ Sum.inr) := rfl
  have e3 : femScalar p.phi (-(x ∘ Sum.inr)) q.1 = -femScalar p.phi (x ∘ Sum.inr) q.1 := by
    simp [femScalar]
  unfold navierStokesDensity flowDensity
  rw [e1, e2, e3, hn, viscous_contract]
  simp only [Bool.false_eq_true, if_false]
  have h1 := mul_nonneg (hmu q.1) (contract_self_nonneg (femGradient (gradients geo v) (x ∘ Sum.inl) q.1))
  cases par.fullTensor
  · simp only [Bool.false_eq_true, if_false]; linarith
  · simp only [if_true]
    set A := femGradient (gradients geo v) (x ∘ Sum.inl) q.1
    have h2 : 0 ≤ contract (A + Aᵀ) (A + Aᵀ) := contract_self_nonneg _
    rw [contract_add_left, contract_add_right, contract_add_right, contract_transpose, ← contract_transpose_left] at h2
    have h3 := mul_nonneg (hmu q.1) h2
    nlinarith

/-- A cell with one quadrature point, two velocity functions per component and one pressure function, as Navier-Stokes and as
Stokes with the full tensor: the hypotheses of the theorems hold and the dissipation is positive. -/
example : ∃ (par : TaylorHood.Param Rat Unit Unit 2) (p : Basis Rat Unit 2 1) (x : TaylorHood.Dof 2 2 1 → Rat),
    par.navier = false ∧ par.fullTensor = true ∧ (∀ pt, 0 ≤ par.mu pt) ∧
    0 < tested (TaylorHood.alphaVolume true 0 par exElasticGeo exElasticFe p x) (Sum.elim (x ∘ Sum.inl) (-(x ∘ Sum.inr))) ∧
    total (TaylorHood.jacobianVolume true 0 par exElasticGeo exElasticFe p x) (.inl (0, 0), .inr 0) ≠ 0 ∧
    total (TaylorHood.alphaVolume true 0 { par with navier := true } exElasticGeo exElasticFe p x) (.inl (0, 0)) ≠
      total (TaylorHood.alphaVolume true 0 par exElasticGeo exElasticFe p x) (.inl (0, 0)) := by
  refine ⟨⟨false, true, fun _ => 3, fun _ => 1, fun _ => ![1, 2], fun _ => 0, fun _ => .stressNeumann, fun _ => ![1, 1]⟩,
    ⟨0, fun _ => ![1], fun _ => ![![0, 0]]⟩, Sum.elim (fun i => if i.1 = 0 then 1 else 2) (fun _ => 7), rfl, rfl, by decide,
    by decide +kernel, by decide +kernel, by decide +kernel⟩

end Verif
