import Verif.Proofs.VectorOperators
/- The weak form of the Navier-Stokes equations. -/
set_option linter.unusedSectionVars false
namespace Verif.Tested
open Verif.LocalOp Verif.LocalOp.Spec Matrix

variable {K P Q : Type} [Field K] {d n m : Nat}

theorem row_point (R B : Matrix (Fin d) (Fin d) K) (g : Fin n → Fin d → K) (y : Fin d × Fin n → K) (a F : K)
    (hB : ∀ c k, B c k = ∑ i, y (c, i) * g i k) :
    ∑ c, ∑ i, y (c, i) * (a * (R c ⬝ᵥ g i) * F) = a * contract R B * F := by
  unfold contract dotProduct
  rw [Finset.mul_sum, Finset.sum_mul]
  refine Finset.sum_congr rfl fun c _ => ?_
  simp only [Finset.mul_sum, Finset.sum_mul, hB]
  rw [Finset.sum_comm]
  exact Finset.sum_congr rfl fun i _ => Finset.sum_congr rfl fun k _ => by ring

theorem row_transpose_point (A B : Matrix (Fin d) (Fin d) K) (g : Fin n → Fin d → K) (y : Fin d × Fin n → K) (a F : K)
    (hB : ∀ c k, B c k = ∑ i, y (c, i) * g i k) :
    ∑ c, ∑ i, ∑ e, y (c, i) * (a * (A e c * g i e) * F) = a * contract Aᵀ B * F := by
  rw [← row_point Aᵀ B g y a F hB]
  refine Finset.sum_congr rfl fun c _ => Finset.sum_congr rfl fun i _ => ?_
  unfold dotProduct
  simp only [transpose_apply, Finset.mul_sum, Finset.sum_mul]

theorem pressure_point (B : Matrix (Fin d) (Fin d) K) (g : Fin n → Fin d → K) (y : Fin d × Fin n → K) (pr F : K)
    (hB : ∀ c k, B c k = ∑ i, y (c, i) * g i k) :
    ∑ c, ∑ i, y (c, i) * (-(pr * g i c) * F) = -(pr * B.trace) * F := by
  unfold Matrix.trace
  rw [Finset.mul_sum, ← Finset.sum_neg_distrib, Finset.sum_mul]
  refine Finset.sum_congr rfl fun c _ => ?_
  rw [diag_apply, hB, Finset.mul_sum, ← Finset.sum_neg_distrib, Finset.sum_mul]
  exact Finset.sum_congr rfl fun i _ => by ring

theorem divergence_point (A : Matrix (Fin d) (Fin d) K) (psi yp : Fin m → K) (F : K) :
    ∑ i, ∑ c, yp i * (-1 * A c c * psi i * F) = -((∑ i, yp i * psi i) * A.trace) * F := by
  unfold Matrix.trace
  rw [Finset.sum_mul, ← Finset.sum_neg_distrib, Finset.sum_mul]
  refine Finset.sum_congr rfl fun i _ => ?_
  rw [Finset.mul_sum, ← Finset.sum_neg_distrib, Finset.sum_mul]
  exact Finset.sum_congr rfl fun c _ => by rw [diag_apply]; ring

theorem sum_if {α : Type} [Fintype α] (p : Bool) (f : α → K) : ∑ a, (if p = true then f a else 0) = if p then ∑ a, f a else 0 := by
  cases p <;> simp

theorem viscous_contract (full : Bool) (mu : K) (A B : Matrix (Fin d) (Fin d) K) :
    contract (viscousStress full mu A) B = mu * contract A B + if full then mu * contract Aᵀ B else 0 := by
  cases full <;> simp [viscousStress, contract_smul_left, contract_add_left, mul_add]

/-- The density of the weak form of the Navier-Stokes equations as function of the coefficients. -/
def navierStokesDensity (par : TaylorHood.Param K P Q d) (geo : CellGeo K P d) (v : Basis K P d n) (p : Basis K P d m)
    (x y : TaylorHood.Dof d n m → K) (pt : P) : K :=
  flowDensity par.navier par.fullTensor (par.mu pt) (par.rho pt)
    (femGradient (gradients geo v) (x ∘ Sum.inl) pt) (femFunction v.phi (x ∘ Sum.inl) pt) (femScalar p.phi (x ∘ Sum.inr) pt)
    (femGradient (gradients geo v) (y ∘ Sum.inl) pt) (femFunction v.phi (y ∘ Sum.inl) pt) (femScalar p.phi (y ∘ Sum.inr) pt)

/-- The same for the linearisation at `x` in direction `z`. -/
def navierStokesLinearised (par : TaylorHood.Param K P Q d) (geo : CellGeo K P d) (v : Basis K P d n) (p : Basis K P d m)
    (x y z : TaylorHood.Dof d n m → K) (pt : P) : K :=
  flowDensity false par.fullTensor (par.mu pt) (par.rho pt)
    (femGradient (gradients geo v) (z ∘ Sum.inl) pt) (femFunction v.phi (z ∘ Sum.inl) pt) (femScalar p.phi (z ∘ Sum.inr) pt)
    (femGradient (gradients geo v) (y ∘ Sum.inl) pt) (femFunction v.phi (y ∘ Sum.inl) pt) (femScalar p.phi (y ∘ Sum.inr) pt) +
  if par.navier then par.rho pt *
    ((femGradient (gradients geo v) (x ∘ Sum.inl) pt *ᵥ femFunction v.phi (z ∘ Sum.inl) pt +
      femGradient (gradients geo v) (z ∘ Sum.inl) pt *ᵥ femFunction v.phi (x ∘ Sum.inl) pt) ⬝ᵥ
      femFunction v.phi (y ∘ Sum.inl) pt) else 0

theorem flow_alpha (s : Bool) (o : Int) (par : TaylorHood.Param K P Q d) (geo : CellGeo K P d) (v : Basis K P d n)
    (p : Basis K P d m) (x y : TaylorHood.Dof d n m → K) :
    tested (TaylorHood.alphaVolume s o par geo v p x) y =
      quadrature (geo.quadratureRule (TaylorHood.volumeOrder d v.order s o)) geo.integrationElement
        (navierStokesDensity par geo v p x y) := by
  unfold TaylorHood.alphaVolume
  rw [tested_flatMap]
  refine sum_eq_quadrature _ _ _ _ fun pt w => ?_
  have hjac : ∀ c, (∑ i, x (.inl (c, i)) • gradients geo v pt i) = femGradient (gradients geo v) (x ∘ Sum.inl) pt c := by
    intro c; funext k; rw [sum_smul_apply]; rfl
  simp only [tested_append, tested_flatMap_fin, tested_map_fin, tested_ite, tested_cons, tested_nil, add_zero, hjac,
    Finset.sum_add_distrib, sum_if]
  have hB : ∀ c k, femGradient (gradients geo v) (y ∘ Sum.inl) pt c k = ∑ i, (y ∘ Sum.inl) (c, i) * gradients geo v pt i k :=
    fun c k => rfl
  have t1 := row_point (femGradient (gradients geo v) (x ∘ Sum.inl) pt) _ _ _ (par.mu pt) (w * geo.integrationElement pt) hB
  have t2 := row_transpose_point (femGradient (gradients geo v) (x ∘ Sum.inl) pt) _ _ _ (par.mu pt)
    (w * geo.integrationElement pt) hB
  have t3 := pressure_point _ _ _ (∑ i, x (.inr i) * p.phi pt i) (w * geo.integrationElement pt) hB
  have t4 := divergence_point (femGradient (gradients geo v) (x ∘ Sum.inl) pt) (p.phi pt) (fun i => y (.inr i))
    (w * geo.integrationElement pt)
  have t5 := source_point (y ∘ Sum.inl) (v.phi pt)
    (fun c => par.rho pt * ((fun c => ∑ i, x (.inl (c, i)) * v.phi pt i) ⬝ᵥ femGradient (gradients geo v) (x ∘ Sum.inl) pt c))
    (w * geo.integrationElement pt)
  simp only [Function.comp_apply] at t1 t2 t3 t5
  rw [t1, t2, t3, t4]
  unfold navierStokesDensity flowDensity
  rw [viscous_contract]
  cases hn : par.navier
  · cases hf : par.fullTensor
    · simp only [femScalar, Function.comp_apply, Bool.false_eq_true, if_false]; ring
    · simp only [femScalar, Function.comp_apply, Bool.false_eq_true, if_false, if_true]; ring
  · simp only [if_true]
    rw [t5]
    have e : ((femGradient (gradients geo v) (x ∘ Sum.inl) pt *ᵥ femFunction v.phi (x ∘ Sum.inl) pt) ⬝ᵥ
        femFunction v.phi (y ∘ Sum.inl) pt) * par.rho pt =
        (fun c => par.rho pt * ((fun c => ∑ i, x (.inl (c, i)) * v.phi pt i) ⬝ᵥ
          femGradient (gradients geo v) (x ∘ Sum.inl) pt c)) ⬝ᵥ fun c => ∑ i, y (.inl (c, i)) * v.phi pt i := by
      unfold dotProduct Matrix.mulVec
      rw [Finset.sum_mul]
      refine Finset.sum_congr rfl fun c _ => ?_
      rw [dotProduct_comm]
      unfold femFunction dotProduct
      simp only [Function.comp_apply]
      ring
    rw [← e]
    cases hf : par.fullTensor
    · simp only [femScalar, Function.comp_apply, Bool.false_eq_true, if_false]; ring
    · simp only [femScalar, Function.comp_apply, if_true]; ring

theorem row_matrix (g : Fin n → Fin d → K) (z : Fin n → K) (C : Fin d → K) (hC : ∀ k, C k = ∑ j, z j * g j k) (h : Fin d → K) :
    ∑ j, z j * (h ⬝ᵥ g j) = h ⬝ᵥ C := by
  unfold dotProduct
  simp only [hC, Finset.mul_sum]
  rw [Finset.sum_comm]
  exact Finset.sum_congr rfl fun j _ => Finset.sum_congr rfl fun k _ => by ring

theorem flow_jacobian (s : Bool) (o : Int) (par : TaylorHood.Param K P Q d) (geo : CellGeo K P d) (v : Basis K P d n)
    (p : Basis K P d m) (x y z : TaylorHood.Dof d n m → K) :
    bilinear (total (TaylorHood.jacobianVolume s o par geo v p x)) y z =
      quadrature (geo.quadratureRule (TaylorHood.volumeOrder d v.order s o)) geo.integrationElement
        (navierStokesLinearised par geo v p x y z) := by
  rw [bilinear_eq]
  unfold TaylorHood.jacobianVolume
  rw [tested_flatMap]
  refine sum_eq_quadrature _ _ _ _ fun pt w => ?_
  have hjac : ∀ c, (∑ i, x (.inl (c, i)) • gradients geo v pt i) = femGradient (gradients geo v) (x ∘ Sum.inl) pt c := by
    intro c; funext k; rw [sum_smul_apply]; rfl
  simp only [tested_append, tested_flatMap_fin, tested_map_fin, tested_ite, tested_cons, tested_nil, add_zero, hjac,
    Finset.sum_add_distrib, sum_if]
  have hC : ∀ c k, femGradient (gradients geo v) (z ∘ Sum.inl) pt c k = ∑ i, (z ∘ Sum.inl) (c, i) * gradients geo v pt i k :=
    fun c k => rfl
  have hB : ∀ c k, femGradient (gradients geo v) (y ∘ Sum.inl) pt c k = ∑ i, (y ∘ Sum.inl) (c, i) * gradients geo v pt i k :=
    fun c k => rfl
  generalize hA' : femGradient (gradients geo v) (x ∘ Sum.inl) pt = A
  generalize hC' : femGradient (gradients geo v) (z ∘ Sum.inl) pt = C at hC
  generalize hB' : femGradient (gradients geo v) (y ∘ Sum.inl) pt = B at hB
  generalize hF : w * geo.integrationElement pt = F
  generalize gradients geo v pt = g at hB hC
  -- viscous terms
  have t1 : ∑ c, ∑ i, ∑ j, y (.inl (c, i)) * z (.inl (c, j)) * (par.mu pt * (g i ⬝ᵥ g j) * F) = par.mu pt * contract C B * F := by
    rw [← row_point C B g (y ∘ Sum.inl) _ F hB]
    refine Finset.sum_congr rfl fun c _ => Finset.sum_congr rfl fun i _ => ?_
    rw [dotProduct_comm, ← row_matrix g (fun j => z (.inl (c, j))) (C c) (hC c), Finset.mul_sum, Finset.sum_mul, Finset.mul_sum]
    exact Finset.sum_congr rfl fun j _ => by rw [Function.comp_apply]; ring
  have t2 : ∑ c, ∑ i, ∑ j, ∑ e, y (.inl (c, i)) * z (.inl (e, j)) * (par.mu pt * (g j c * g i e) * F) =
      par.mu pt * contract Cᵀ B * F := by
    rw [← row_transpose_point C B g (y ∘ Sum.inl) _ F hB]
    refine Finset.sum_congr rfl fun c _ => Finset.sum_congr rfl fun i _ => ?_
    rw [Finset.sum_comm]
    refine Finset.sum_congr rfl fun e _ => ?_
    rw [hC, Finset.sum_mul, Finset.mul_sum, Finset.sum_mul, Finset.mul_sum]
    exact Finset.sum_congr rfl fun j _ => by rw [Function.comp_apply, Function.comp_apply]; ring
  have t3 : ∑ c, ∑ i, ∑ j, y (.inl (c, i)) * z (.inr j) * (-(g i c * p.phi pt j) * F) =
      -(femScalar p.phi (z ∘ Sum.inr) pt * B.trace) * F := by
    rw [← pressure_point B g (y ∘ Sum.inl) _ F hB]
    refine Finset.sum_congr rfl fun c _ => Finset.sum_congr rfl fun i _ => ?_
    unfold femScalar
    rw [Finset.sum_mul, ← Finset.sum_neg_distrib, Finset.sum_mul, Finset.mul_sum]
    exact Finset.sum_congr rfl fun j _ => by rw [Function.comp_apply, Function.comp_apply]; ring
  have t4 : ∑ c, ∑ i, ∑ j, y (.inr i) * z (.inl (c, j)) * (-(g j c * p.phi pt i) * F) =
      -(femScalar p.phi (y ∘ Sum.inr) pt * C.trace) * F := by
    have := divergence_point C (p.phi pt) (fun i => y (.inr i)) F
    unfold femScalar
    simp only [Function.comp_apply]
    rw [← this, Finset.sum_comm]
    refine Finset.sum_congr rfl fun i _ => Finset.sum_congr rfl fun c _ => ?_
    rw [hC, Finset.mul_sum, Finset.sum_mul, Finset.sum_mul, Finset.mul_sum]
    exact Finset.sum_congr rfl fun j _ => by rw [Function.comp_apply]; ring
  rw [t1, t2, t3, t4]
  unfold navierStokesLinearised flowDensity
  rw [viscous_contract, hA', hB', hC']
  cases hn : par.navier
  · cases hf : par.fullTensor
    · simp only [Bool.false_eq_true, if_false]; rw [← hF]; ring
    · simp only [Bool.false_eq_true, if_false, if_true]; rw [← hF]; ring
  · simp only [if_true]
    have t5 : ∑ c, ∑ i, ∑ k, ∑ j, y (.inl (c, i)) * z (.inl (k, j)) * (F * par.rho pt * A c k * v.phi pt i * v.phi pt j) =
        par.rho pt * ((A *ᵥ femFunction v.phi (z ∘ Sum.inl) pt) ⬝ᵥ femFunction v.phi (y ∘ Sum.inl) pt) * F := by
      have := source_point (y ∘ Sum.inl) (v.phi pt) (fun c => par.rho pt * (A *ᵥ femFunction v.phi (z ∘ Sum.inl) pt) c) F
      have e : (fun c => par.rho pt * (A *ᵥ femFunction v.phi (z ∘ Sum.inl) pt) c) =
          par.rho pt • (A *ᵥ femFunction v.phi (z ∘ Sum.inl) pt) := rfl
      rw [e, smul_dotProduct, smul_eq_mul] at this
      refine Eq.trans ?_ this
      refine Finset.sum_congr rfl fun c _ => Finset.sum_congr rfl fun i _ => ?_
      unfold Matrix.mulVec dotProduct femFunction
      rw [Finset.mul_sum, Finset.sum_mul, Finset.sum_mul, Finset.mul_sum]
      refine Finset.sum_congr rfl fun k _ => ?_
      rw [Finset.mul_sum, Finset.mul_sum, Finset.sum_mul, Finset.sum_mul, Finset.mul_sum]
      exact Finset.sum_congr rfl fun j _ => by rw [Function.comp_apply, Function.comp_apply]; ring
    have t6 : ∑ c, ∑ i, ∑ j, y (.inl (c, i)) * z (.inl (c, j)) *
        (F * par.rho pt * v.phi pt i * ((fun c => ∑ i, x (.inl (c, i)) * v.phi pt i) ⬝ᵥ g j)) =
        par.rho pt * ((C *ᵥ femFunction v.phi (x ∘ Sum.inl) pt) ⬝ᵥ femFunction v.phi (y ∘ Sum.inl) pt) * F := by
      have := source_point (y ∘ Sum.inl) (v.phi pt) (fun c => par.rho pt * (C *ᵥ femFunction v.phi (x ∘ Sum.inl) pt) c) F
      have e : (fun c => par.rho pt * (C *ᵥ femFunction v.phi (x ∘ Sum.inl) pt) c) =
          par.rho pt • (C *ᵥ femFunction v.phi (x ∘ Sum.inl) pt) := rfl
      rw [e, smul_dotProduct, smul_eq_mul] at this
      refine Eq.trans ?_ this
      refine Finset.sum_congr rfl fun c _ => Finset.sum_congr rfl fun i _ => ?_
      have := row_matrix g (fun j => z (.inl (c, j))) (C c) (hC c) (fun c => ∑ i, x (.inl (c, i)) * v.phi pt i)
      have e2 : (C *ᵥ femFunction v.phi (x ∘ Sum.inl) pt) c =
          (fun c => ∑ i, x (.inl (c, i)) * v.phi pt i) ⬝ᵥ C c := by
        unfold Matrix.mulVec; rw [dotProduct_comm]; rfl
      rw [e2, ← this, Finset.mul_sum, Finset.sum_mul, Finset.sum_mul, Finset.mul_sum]
      exact Finset.sum_congr rfl fun j _ => by rw [Function.comp_apply]; ring
    rw [t5, t6, add_dotProduct]
    cases hf : par.fullTensor
    · simp only [Bool.false_eq_true, if_false]; rw [← hF]; ring
    · simp only [Bool.false_eq_true, if_false, if_true]; rw [← hF]; ring

theorem flow_lambda (s : Bool) (o : Int) (par : TaylorHood.Param K P Q d) (geo : CellGeo K P d) (v : Basis K P d n)
    (p : Basis K P d m) (y : TaylorHood.Dof d n m → K) :
    tested (TaylorHood.lambdaVolume s o par geo v p) y =
      quadrature (geo.quadratureRule (TaylorHood.massOrder d v.order s o)) geo.integrationElement fun pt =>
        par.g2 pt * femScalar p.phi (y ∘ Sum.inr) pt - par.f pt ⬝ᵥ femFunction v.phi (y ∘ Sum.inl) pt := by
  unfold TaylorHood.lambdaVolume
  rw [tested_flatMap]
  refine sum_eq_quadrature _ _ _ _ fun pt w => ?_
  simp only [tested_append, tested_flatMap_fin, tested_map_fin]
  have := source_point (y ∘ Sum.inl) (v.phi pt) (fun c => -par.f pt c) (w * geo.integrationElement pt)
  simp only [Function.comp_apply] at this
  rw [this]
  have e : (fun c => -par.f pt c) = -par.f pt := rfl
  rw [e, neg_dotProduct]
  have h2 : ∑ i, y (.inr i) * (par.g2 pt * p.phi pt i * (w * geo.integrationElement pt)) =
      par.g2 pt * femScalar p.phi (y ∘ Sum.inr) pt * (w * geo.integrationElement pt) := by
    unfold femScalar
    rw [Finset.mul_sum, Finset.sum_mul]
    exact Finset.sum_congr rfl fun i _ => by rw [Function.comp_apply]; ring
  rw [h2]
  have h3 : femFunction v.phi (y ∘ Sum.inl) pt = fun c => ∑ i, y (.inl (c, i)) * v.phi pt i := rfl
  rw [h3]
  ring

theorem flow_boundary (s : Bool) (o : Int) (par : TaylorHood.Param K P Q d) (face : FaceGeo K P Q d) (v : Basis K P d n)
    (y : TaylorHood.Dof d n m → K) :
    tested (TaylorHood.lambdaBoundary s o par face v) y =
      quadrature (face.quadratureRule (TaylorHood.faceOrder d v.order s o)) face.integrationElement fun q =>
        if par.bctype q = .stressNeumann then par.j q ⬝ᵥ femFunction v.phi (y ∘ Sum.inl) (face.inInside q) else 0 := by
  unfold TaylorHood.lambdaBoundary
  rw [tested_flatMap]
  refine sum_eq_quadrature _ _ _ _ fun pt w => ?_
  by_cases h : par.bctype pt = .stressNeumann
  · simp only [h, ne_eq, not_true_eq_false, if_false, if_true, tested_flatMap_fin, tested_map_fin]
    have := source_point (y ∘ Sum.inl) (v.phi (face.inInside pt)) (par.j pt) (w * face.integrationElement pt)
    simp only [Function.comp_apply] at this
    rw [this]
    rfl
  · simp only [h, ne_eq, not_false_eq_true, if_true, if_false, tested_nil, zero_mul]

end Verif.Tested
