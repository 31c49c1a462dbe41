import Verif.Model.NonlinearFEM
import Verif.Spec.VectorOperators
import Verif.Proofs.Tested
import Mathlib.Algebra.Order.Ring.Rat
import Mathlib.Algebra.Field.Rat
/-
C171: the nonlinear convection-diffusion operator.
-/
set_option linter.unusedSectionVars false
namespace Verif
open Verif.LocalOp Verif.LocalOp.Spec Verif.Tested Matrix

variable {K P Q : Type} [Field K] {d n : Nat}

/-- The gradient of the finite element function with coefficients `x`. -/
def femScalarGradient (geo : CellGeo K P d) (fe : Basis K P d n) (x : Fin n → K) (p : P) : Fin d → K :=
  ∑ i, x i • (geo.jacobianInverseTransposed p *ᵥ fe.js p i)

/-- The weak form of ∇·(q(x,u) - D(x) v(u) ∇w(u)) = f(u) for the finite element function u with coefficients `x`, tested with the
one with coefficients `y`; w(u) is interpolated, D taken at the centre of the cell. -/
def NonlinearWeakForm (intorder : Int) (param : NonlinearFEM.Param K P Q d) (geo : CellGeo K P d) (fe : Basis K P d n)
    (x y : Fin n → K) : Prop :=
  tested (NonlinearFEM.alphaVolume intorder param geo fe x) y =
    quadrature (geo.quadratureRule intorder) geo.integrationElement fun p =>
      let u := femScalar fe.phi x p
      let gradw := femScalarGradient geo fe (fun i => param.w geo.center (x i)) p
      let grady := femScalarGradient geo fe y p
      (param.D geo.center *ᵥ (param.v p u • gradw)) ⬝ᵥ grady - param.q p u ⬝ᵥ grady - param.f p u * femScalar fe.phi y p

/-- The Neumann condition (q - D v ∇w)·n = j(u). -/
def NonlinearNeumann (intorder : Int) (param : NonlinearFEM.Param K P Q d) (face : FaceGeo K P Q d) (fe : Basis K P d n)
    (x y : Fin n → K) : Prop :=
  tested (NonlinearFEM.alphaBoundary intorder param face fe x) y =
    quadrature (face.quadratureRule intorder) face.integrationElement fun q =>
      if param.isDirichlet q then 0 else
        param.j (face.inInside q) (femScalar fe.phi x (face.inInside q)) * femScalar fe.phi y (face.inInside q)

theorem nonlinear_volume (intorder : Int) (param : NonlinearFEM.Param K P Q d) (geo : CellGeo K P d) (fe : Basis K P d n)
    (x y : Fin n → K) : tested (NonlinearFEM.alphaVolume intorder param geo fe x) y =
    quadrature (geo.quadratureRule intorder) geo.integrationElement fun p =>
      (param.D geo.center *ᵥ (param.v p (femScalar fe.phi (fun i => param.w geo.center (x i)) p) •
        femScalarGradient geo fe (fun i => param.w geo.center (x i)) p)) ⬝ᵥ femScalarGradient geo fe y p -
      param.q p (femScalar fe.phi (fun i => param.w geo.center (x i)) p) ⬝ᵥ femScalarGradient geo fe y p -
      param.f p (femScalar fe.phi (fun i => param.w geo.center (x i)) p) * femScalar fe.phi y p := by
  unfold NonlinearFEM.alphaVolume
  rw [tested_flatMap]
  refine sum_eq_quadrature _ _ _ _ fun p wt => ?_
  have h : ∀ a : Fin d → K, a ⬝ᵥ femScalarGradient geo fe y p =
      ∑ i, y i * (a ⬝ᵥ (geo.jacobianInverseTransposed p *ᵥ fe.js p i)) := by
    intro a
    unfold femScalarGradient
    rw [dotProduct_sum]
    exact Finset.sum_congr rfl fun i _ => by rw [dotProduct_smul, smul_eq_mul]
  rw [h, h]
  simp only [tested_map_fin, femScalar, femScalarGradient, Finset.mul_sum, Finset.sum_mul, ← Finset.sum_sub_distrib]
  exact Finset.sum_congr rfl fun i _ => by ring

theorem nonlinear_boundary (intorder : Int) (param : NonlinearFEM.Param K P Q d) (face : FaceGeo K P Q d)
    (fe : Basis K P d n) (x y : Fin n → K) : tested (NonlinearFEM.alphaBoundary intorder param face fe x) y =
    quadrature (face.quadratureRule intorder) face.integrationElement fun q =>
      if param.isDirichlet q then 0 else
        param.j (face.inInside q) (femScalar fe.phi (fun i => param.w (face.inInside face.center) (x i)) (face.inInside q)) *
          femScalar fe.phi y (face.inInside q) := by
  unfold NonlinearFEM.alphaBoundary
  rw [tested_flatMap]
  refine sum_eq_quadrature _ _ _ _ fun p wt => ?_
  rw [tested_ite, tested_nil]
  split
  · rw [zero_mul]
  · simp only [tested_map_fin, femScalar, Finset.mul_sum, Finset.sum_mul]
    exact Finset.sum_congr rfl fun i _ => by ring

/-- The residual is the quadrature of the weak form, if the coefficients have the same values for u and the interpolation of
w(u) at the quadrature points. This holds if w(u) = u, and if v, q, f, j do not depend on u. -/
theorem C171_weak_form_partial (intorder : Int) (param : NonlinearFEM.Param K P Q d) (geo : CellGeo K P d) (face : FaceGeo K P Q d)
    (fe : Basis K P d n) (x y : Fin n → K)
    (hvol : ∀ q ∈ geo.quadratureRule intorder, let u := femScalar fe.phi x q.1
      let w := femScalar fe.phi (fun i => param.w geo.center (x i)) q.1
      param.v q.1 w = param.v q.1 u ∧ param.q q.1 w = param.q q.1 u ∧ param.f q.1 w = param.f q.1 u)
    (hface : ∀ q ∈ face.quadratureRule intorder, let pt := face.inInside q.1
      param.j pt (femScalar fe.phi (fun i => param.w (face.inInside face.center) (x i)) pt) =
        param.j pt (femScalar fe.phi x pt)) :
    NonlinearWeakForm intorder param geo fe x y ∧ NonlinearNeumann intorder param face fe x y := by
  constructor
  · unfold NonlinearWeakForm
    rw [nonlinear_volume]
    refine quadrature_congr _ _ _ _ fun q hq => ?_
    obtain ⟨h1, h2, h3⟩ := hvol q hq
    simp only [h1, h2, h3]
  · unfold NonlinearNeumann
    rw [nonlinear_boundary]
    refine quadrature_congr _ _ _ _ fun q hq => ?_
    simp only [hface q hq]

/-- In particular for w(u) = u. -/
theorem C171_identity (intorder : Int) (param : NonlinearFEM.Param K P Q d) (geo : CellGeo K P d) (face : FaceGeo K P Q d)
    (fe : Basis K P d n) (x y : Fin n → K) (hw : ∀ p u, param.w p u = u) :
    NonlinearWeakForm intorder param geo fe x y ∧ NonlinearNeumann intorder param face fe x y := by
  refine C171_weak_form_partial intorder param geo face fe x y ?_ ?_
  · intro q _; simp only [hw]; exact ⟨trivial, trivial, trivial⟩
  · intro q _; simp only [hw]

def exNonlinearGeo : CellGeo Rat Rat 1 := ⟨1/2, 1, fun x _ => x, fun _ => 1, fun _ => !![1], fun _ => [(0, 1/2), (1, 1/2)]⟩
def exNonlinearFace : FaceGeo Rat Rat Unit 1 := ⟨(), 1, 1, fun _ _ => 1, fun _ => 1, fun _ => 1, fun _ => 0, fun _ => 1,
  fun _ _ => 1, fun _ => [((), 1)]⟩
def exNonlinearFe : Basis Rat Rat 1 2 := ⟨1, fun p => ![1 - p, p], fun _ => ![fun _ => -1, fun _ => 1]⟩
/-- w(u) = u², f(u) = u, j(u) = u. -/
def exNonlinearParam (w : Rat → Rat) : NonlinearFEM.Param Rat Rat Unit 1 :=
  ⟨fun _ u => u, fun _ => w, fun _ _ => 1, fun _ => !![1], fun _ _ => 0, fun _ u => u, fun _ => false⟩

/-- Where w is not the identity the coefficients are evaluated at w(u) instead of u: the weak form and the Neumann condition
are violated. -/
theorem C171_coefficients_false : ∃ (param : NonlinearFEM.Param Rat Rat Unit 1) (geo : CellGeo Rat Rat 1)
    (face : FaceGeo Rat Rat Unit 1) (fe : Basis Rat Rat 1 2) (x y : Fin 2 → Rat),
    ¬NonlinearWeakForm 2 param geo fe x y ∧ ¬NonlinearNeumann 2 param face fe x y := by
  refine ⟨exNonlinearParam fun u => u ^ 2, exNonlinearGeo, exNonlinearFace, exNonlinearFe, ![2, 2], ![1, 1], ?_, ?_⟩
  · unfold NonlinearWeakForm; decide +kernel
  · unfold NonlinearNeumann; decide +kernel

/-- A case with w(u) = u and residuals that are not zero. -/
example : (∀ p u, (exNonlinearParam id).w p u = u) ∧
    tested (NonlinearFEM.alphaVolume 2 (exNonlinearParam id) exNonlinearGeo exNonlinearFe ![1, 3]) ![0, 1] ≠ 0 ∧
    tested (NonlinearFEM.alphaBoundary 2 (exNonlinearParam id) exNonlinearFace exNonlinearFe ![1, 3]) ![0, 1] ≠ 0 :=
  ⟨fun _ _ => rfl, by decide +kernel, by decide +kernel⟩

end Verif
