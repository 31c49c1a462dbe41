import Verif.Model.Darcy
import Verif.Spec.VectorOperators
import Verif.Proofs.Tested
import Mathlib.LinearAlgebra.Matrix.NonsingularInverse
import Mathlib.Tactic.LinearCombination
import Mathlib.Algebra.Order.Ring.Rat
import Mathlib.Algebra.Field.Rat
/-
C170: the velocity reconstructed from a finite volume pressure.
-/
set_option linter.unusedSectionVars false
namespace Verif
open Verif.LocalOp Verif.LocalOp.Spec Verif.Tested Matrix

variable {K P Q : Type} [Field K] {d : Nat}

/-- The shape functions of lowest order of Raviart and Thomas at a point `x` on face `k`: the normal component is one for the
function that belongs to the face and zero for the others. -/
def OnFace (rt0 : P → Fin (2 * d) → Fin d → K) (normals : Fin (2 * d) → Fin d → K) (x : P) (k : Fin (2 * d)) : Prop :=
  ∀ i, rt0 x i ⬝ᵥ normals k = if i = k then 1 else 0

/-- The outer normals of the reference cube: the faces 2a and 2a+1 are at 0 and 1 of coordinate a. -/
def cubeNormal (i : Fin (2 * d)) : Fin d → K :=
  Pi.single ⟨i.val / 2, by omega⟩ (if i.val % 2 = 0 then -1 else 1)

theorem normalHat_eq (i : Fin (2 * d)) : (Darcy.normalHat i : Fin d → K) = cubeNormal i := by
  funext k
  unfold Darcy.normalHat cubeNormal
  by_cases h : k.val = i.val / 2
  · have : k = ⟨i.val / 2, by omega⟩ := Fin.ext h
    rw [if_pos h, this, Pi.single_eq_same]
  · have : k ≠ ⟨i.val / 2, by omega⟩ := fun e => h (congrArg Fin.val e)
    rw [if_neg h, Pi.single_eq_of_ne this]

private theorem coefficients_get (f : Darcy.Intersection K P Q d → K) (iss : List (Darcy.Intersection K P Q d))
    (hn : (iss.map fun i => i.index).Nodup) (c₀ : Fin (2 * d) → K) (is : Darcy.Intersection K P Q d) (his : is ∈ iss) :
    iss.foldl (fun c is => Function.update c is.index (f is)) c₀ is.index = f is := by
  induction iss generalizing c₀ with
  | nil => cases his
  | cons a l ih =>
    rw [List.map_cons, List.nodup_cons] at hn
    rw [List.foldl_cons]
    rcases List.mem_cons.1 his with rfl | h
    · have : ∀ (l : List (Darcy.Intersection K P Q d)) (c : Fin (2 * d) → K), is.index ∉ l.map (fun i => i.index) →
          l.foldl (fun c is => Function.update c is.index (f is)) c is.index = c is.index := by
        intro l
        induction l with
        | nil => intro c _; rfl
        | cons b l ih =>
          intro c hb
          rw [List.map_cons, List.mem_cons, not_or] at hb
          rw [List.foldl_cons, ih _ hb.2, Function.update_of_ne hb.1]
      rw [this _ _ hn.1, Function.update_self]
    · exact ih hn.2 _ h

private theorem cache_valid (rt0 : P → Fin (2 * d) → Fin d → K) (jacT : Nat → P → Matrix (Fin d) (Fin d) K)
    (coeffs : Nat → Fin (2 * d) → K) (J : Nat → Matrix (Fin d) (Fin d) K) (hJ : ∀ i x, jacT i x = (J i)ᵀ)
    (history : List (Nat × P)) :
    ∀ i B det, Darcy.cacheAfter rt0 jacT coeffs history = some (i, B, det) → B = (J i)ᵀ ∧ det = (J i).det := by
  unfold Darcy.cacheAfter
  have step : ∀ (c : Darcy.Cache K d) (h : Nat × P),
      (∀ i B det, c = some (i, B, det) → B = (J i)ᵀ ∧ det = (J i).det) →
      ∀ i B det, (Darcy.evaluate rt0 jacT coeffs c h.1 h.2).2 = some (i, B, det) → B = (J i)ᵀ ∧ det = (J i).det := by
    intro c h hc i B det he
    unfold Darcy.evaluate at he
    rcases c with _ | ⟨i', B', det'⟩
    · simp only [Option.some.injEq, Prod.mk.injEq] at he
      obtain ⟨rfl, rfl, rfl⟩ := he
      rw [hJ]; exact ⟨rfl, det_transpose _⟩
    · by_cases hi : h.1 = i'
      · simp only [hi, ne_eq, not_true_eq_false, if_false, Option.some.injEq] at he
        exact hc _ _ _ (congrArg some he)
      · simp only [hi, ne_eq, not_false_eq_true, if_true, Option.some.injEq, Prod.mk.injEq] at he
        obtain ⟨rfl, rfl, rfl⟩ := he
        rw [hJ]; exact ⟨rfl, det_transpose _⟩
  have main : ∀ (l : List (Nat × P)) (c : Darcy.Cache K d), (∀ i B det, c = some (i, B, det) → B = (J i)ᵀ ∧ det = (J i).det) →
      ∀ i B det, l.foldl (fun c h => (Darcy.evaluate rt0 jacT coeffs c h.1 h.2).2) c = some (i, B, det) →
        B = (J i)ᵀ ∧ det = (J i).det := by
    intro l
    induction l with
    | nil => intro c hc; exact hc
    | cons h l ih => intro c hc; rw [List.foldl_cons]; exact ih _ (step c h hc)
  exact main history none (fun i B det h => by cases h)

/-- On grids with affine cells, the value of the velocity does not depend on the points and cells at which it was evaluated
before. -/
theorem C170_history (rt0 : P → Fin (2 * d) → Fin d → K) (jacobianTransposed : Nat → P → Matrix (Fin d) (Fin d) K)
    (coeffs : Nat → Fin (2 * d) → K) (J : Nat → Matrix (Fin d) (Fin d) K) (hJ : ∀ i x, jacobianTransposed i x = (J i)ᵀ)
    (history : List (Nat × P)) (index : Nat) (x : P) :
    (Darcy.evaluate rt0 jacobianTransposed coeffs (Darcy.cacheAfter rt0 jacobianTransposed coeffs history) index x).1 =
      (J index).det • (J index *ᵥ ∑ i, coeffs index i • rt0 x i) := by
  have hv := cache_valid rt0 jacobianTransposed coeffs J hJ history
  unfold Darcy.evaluate
  rcases hc : Darcy.cacheAfter rt0 jacobianTransposed coeffs history with _ | ⟨i, B, det⟩
  · simp only [hJ, transpose_transpose, det_transpose]
  · by_cases hi : index = i
    · obtain ⟨h1, h2⟩ := hv i B det hc
      simp only [hi, ne_eq, not_true_eq_false, if_false, h1, h2, transpose_transpose]
    · simp only [hi, ne_eq, not_false_eq_true, if_true, hJ, transpose_transpose, det_transpose]

/-- On an affine cell, at every point of a face, the normal component of the velocity is the normal velocity of the finite
volume scheme. `J` are the Jacobians of the cells; the unit outer normal of a face is the normal of the reference cube
transformed and scaled. -/
theorem C170_normal_component (twoNorm : (Fin d → K) → K) (rt0 : P → Fin (2 * d) → Fin d → K)
    (jacobianTransposed : Nat → P → Matrix (Fin d) (Fin d) K) (coeffs : Nat → Fin (2 * d) → K)
    (J : Nat → Matrix (Fin d) (Fin d) K) (hJ : ∀ i x, jacobianTransposed i x = (J i)ᵀ)
    (history : List (Nat × P)) (index : Nat) (geo : CellGeo K P d) (par : CellParam K P d) (pressure : K)
    (hgeo : geo.jacobianInverseTransposed geo.center * (J index)ᵀ = 1)
    (iss : List (Darcy.Intersection K P Q d)) (hnodup : (iss.map fun i => i.index).Nodup)
    (hcoeffs : coeffs index = Darcy.coefficients twoNorm geo par pressure iss)
    (is : Darcy.Intersection K P Q d) (his : is ∈ iss) (scale : K)
    (hnormal : is.geo.centerUnitOuterNormal = scale • (geo.jacobianInverseTransposed geo.center *ᵥ cubeNormal is.index))
    (hunit : is.geo.centerUnitOuterNormal ⬝ᵥ is.geo.centerUnitOuterNormal = 1)
    (x : P) (hx : OnFace rt0 cubeNormal x is.index) :
    (Darcy.evaluate rt0 jacobianTransposed coeffs (Darcy.cacheAfter rt0 jacobianTransposed coeffs history) index x).1 ⬝ᵥ
      is.geo.centerUnitOuterNormal = Darcy.normalVelocity twoNorm geo par pressure is := by
  rw [C170_history rt0 jacobianTransposed coeffs J hJ]
  have hget : coeffs index is.index =
      Darcy.coefficient geo (Darcy.normalVelocity twoNorm geo par pressure is) is := by
    rw [hcoeffs]
    exact coefficients_get (fun is => Darcy.coefficient geo (Darcy.normalVelocity twoNorm geo par pressure is) is) iss hnodup 0
      is his
  set B := geo.jacobianInverseTransposed geo.center
  set n := is.geo.centerUnitOuterNormal
  set vn := Darcy.normalVelocity twoNorm geo par pressure is
  have hBJ : (J index)ᵀ * B = 1 := mul_eq_one_comm.1 hgeo
  have hdet : (J index).det * B.det = 1 := by
    have := congrArg Matrix.det hBJ
    rwa [det_mul, det_transpose, det_one] at this
  have hy : (∑ i, coeffs index i • rt0 x i) ⬝ᵥ cubeNormal is.index = coeffs index is.index := by
    rw [sum_dotProduct, Finset.sum_eq_single is.index]
    · rw [smul_dotProduct, hx, if_pos rfl, smul_eq_mul, mul_one]
    · intro j _ hj; rw [smul_dotProduct, hx, if_neg hj, smul_zero]
    · simp
  have hcoef : Darcy.coefficient geo vn is = B.det * (vn * (n ⬝ᵥ (B *ᵥ cubeNormal is.index))) := by
    unfold Darcy.coefficient
    simp only []
    rw [normalHat_eq, smul_dotProduct, mulVec_smul, smul_dotProduct, smul_eq_mul, smul_eq_mul]
    congr 2
    rw [dotProduct_mulVec, ← mulVec_transpose]
  have hs : scale * (n ⬝ᵥ (B *ᵥ cubeNormal is.index)) = 1 := by
    rw [← smul_eq_mul, ← dotProduct_smul, ← hnormal]; exact hunit
  have hJn : (J index *ᵥ ∑ i, coeffs index i • rt0 x i) ⬝ᵥ n = scale * coeffs index is.index := by
    rw [hnormal, dotProduct_smul, smul_eq_mul, dotProduct_mulVec, ← mulVec_transpose, mulVec_mulVec]
    have : Bᵀ * J index = 1 := by
      have := congrArg Matrix.transpose hBJ
      rwa [transpose_mul, transpose_transpose, transpose_one] at this
    rw [this, one_mulVec, hy]
  rw [smul_dotProduct, hJn, hget, hcoef, smul_eq_mul]
  linear_combination (J index).det * B.det * vn * hs + vn * hdet

/-- Two cells see the same normal velocity on their common face, up to the sign: what leaves one cell enters the other. -/
theorem C170_conservative (twoNorm : (Fin d → K) → K) (hnorm : ∀ v, twoNorm (-v) = twoNorm v)
    (geoS geoN : CellGeo K P d) (parS parN : CellParam K P d) (pS pN : K) (isS isN : Darcy.Intersection K P Q d)
    (hS : isS.outside = some (geoN, parN, pN)) (hN : isN.outside = some (geoS, parS, pS)) (hbS : isS.boundary = false)
    (hbN : isN.boundary = false) (hn : isN.geo.centerUnitOuterNormal = -isS.geo.centerUnitOuterNormal) :
    Darcy.normalVelocity twoNorm geoN parN pN isN = -Darcy.normalVelocity twoNorm geoS parS pS isS := by
  have hq : ∀ (A : Matrix (Fin d) (Fin d) K) v, (-v) ⬝ᵥ (A *ᵥ (-v)) = v ⬝ᵥ (A *ᵥ v) := by
    intro A v; rw [mulVec_neg, dotProduct_neg, neg_dotProduct, neg_neg]
  unfold Darcy.normalVelocity
  simp only [hS, hN, hbS, hbN, hn, hq, Bool.false_eq_true, if_false]
  rw [← neg_sub (geoN.global geoN.center) (geoS.global geoS.center), hnorm,
    add_comm (1 / (isS.geo.centerUnitOuterNormal ⬝ᵥ parN.A geoN.center *ᵥ isS.geo.centerUnitOuterNormal + 1 / 10 ^ 30))]
  ring

/-- The normal velocity times the area of the face is the flux that the cell-centred finite volume operator accounts for: on
interior faces, on Dirichlet and on Neumann faces, without convection. -/
theorem C170_flux_partial [LinearOrder K] (twoNorm : (Fin d → K) → K) (hnorm : ∀ v, twoNorm (-v) = twoNorm v)
    (geo geoOut : CellGeo K P d) (par parOut : CellParam K P d) (x : CCFV.Sides → K) (is : Darcy.Intersection K P Q d)
    (hb : ∀ p, par.b p = 0) :
    (is.outside = some (geoOut, parOut, x (.inr 0)) → is.boundary = false →
      total (CCFV.alphaSkeleton twoNorm is.geo geo geoOut par parOut x) (.inl 0) =
        Darcy.normalVelocity twoNorm geo par (x (.inl 0)) is * CCFV.faceVolume is.geo) ∧
    (is.outside = none → is.boundary = true → is.fpar.bctype is.geo.center ≠ .outflow →
      total (CCFV.alphaBoundary twoNorm is.geo geo par is.fpar fun _ => x (.inl 0)) 0 =
        Darcy.normalVelocity twoNorm geo par (x (.inl 0)) is * CCFV.faceVolume is.geo) := by
  constructor
  · intro ho hbd
    unfold CCFV.alphaSkeleton Darcy.normalVelocity
    simp only [ho, hbd, hb, zero_dotProduct, mul_zero, zero_mul, zero_add, Bool.false_eq_true, if_false]
    rw [total_cons', total_cons']
    simp only [if_true, reduceCtorEq, if_false]
    rw [← neg_sub (geoOut.global geoOut.center) (geo.global geo.center), hnorm]
    unfold CCFV.kAvg CCFV.kNormal total
    simp
    ring
  · intro ho hbd hout
    unfold CCFV.alphaBoundary Darcy.normalVelocity
    simp only [ho, hbd, hb, zero_dotProduct, zero_mul, zero_add, if_true]
    cases hbc : is.fpar.bctype is.geo.center with
    | dirichlet =>
      simp only []
      rw [total_cons']
      simp only [if_true]
      rw [← neg_sub (is.geo.global is.geo.center) (geo.global geo.center), hnorm]
      unfold CCFV.kNormal total
      simp
      ring
    | neumann =>
      simp only []
      rw [total_cons']
      simp [total]
    | outflow => exact absurd hbc hout
    | none => simp [total]

def exDarcyGeo (p : Rat) : CellGeo Rat Unit 1 := ⟨(), 2, fun _ _ => p, fun _ => 2, fun _ => !![1/2], fun _ => [((), 1)]⟩
def exDarcyPar : CellParam Rat Unit 1 := ⟨true, fun _ => !![3], fun _ => 0, fun _ => 0, fun _ => 0, fun _ => 5⟩
def exDarcyFace (p n : Rat) : FaceGeo Rat Unit Unit 1 := ⟨(), 1, 1, fun _ _ => p, fun _ => 1, fun _ => (), fun _ => (),
  fun _ => n, fun _ _ => n, fun _ => [((), 1)]⟩

/-- At an outflow boundary with prescribed diffusive flux the velocity is zero although the finite volume operator accounts for
that flux. -/
theorem C170_outflow_false : ∃ (twoNorm : (Fin 1 → Rat) → Rat) (geo : CellGeo Rat Unit 1) (par : CellParam Rat Unit 1)
    (is : Darcy.Intersection Rat Unit Unit 1) (p : Rat), (∀ v, twoNorm (-v) = twoNorm v) ∧ (∀ q, par.b q = 0) ∧
    is.outside = none ∧ is.boundary = true ∧
    total (CCFV.alphaBoundary twoNorm is.geo geo par is.fpar fun _ => p) 0 ≠
      Darcy.normalVelocity twoNorm geo par p is * CCFV.faceVolume is.geo :=
  ⟨fun v => |v 0|, exDarcyGeo 1, exDarcyPar, ⟨1, exDarcyFace 2 1, ⟨fun _ => .outflow, fun _ => 0, fun _ => 7⟩, true, none⟩, 3,
    fun v => abs_neg _, fun _ => rfl, rfl, rfl, by decide +kernel⟩

/-- After the communication every process has the coefficients of the process that owns the cell, if each copy receives exactly
one message, from the owner. -/
theorem C170_exchange {V Proc Cell : Type} [DecidableEq Proc] [DecidableEq Cell] (values : Proc → Cell → V)
    (messages : List (Proc × Proc × Cell)) (owner : Cell → Proc) (hmsg : ∀ m ∈ messages, m.1 = owner m.2.2 ∧ m.2.1 ≠ owner m.2.2)
    (p : Proc) (c : Cell) (hc : p = owner c ∨ (owner c, p, c) ∈ messages) :
    Darcy.exchange values messages p c = values (owner c) c := by
  unfold Darcy.exchange
  have main : ∀ (l : List (Proc × Proc × Cell)) (r : Proc → Cell → V), (∀ m ∈ l, m.1 = owner m.2.2 ∧ m.2.1 ≠ owner m.2.2) →
      (r p c = values (owner c) c ∨ (owner c, p, c) ∈ l) →
      l.foldl (fun r m => fun p c => if p = m.2.1 ∧ c = m.2.2 then values m.1 m.2.2 else r p c) r p c = values (owner c) c := by
    intro l
    induction l with
    | nil => intro r _ h; simpa using h
    | cons m l ih =>
      intro r hm h
      rw [List.foldl_cons]
      refine ih _ (fun m' h' => hm m' (List.mem_cons_of_mem _ h')) ?_
      have h1 := hm m List.mem_cons_self
      by_cases he : p = m.2.1 ∧ c = m.2.2
      · left
        rw [if_pos he, h1.1, ← he.2]
      · rw [if_neg he]
        rcases h with h | h
        · exact Or.inl h
        · rcases List.mem_cons.1 h with h | h
          · exfalso; apply he; rw [← h]; exact ⟨rfl, rfl⟩
          · exact Or.inr h
  refine main messages values hmsg ?_
  rcases hc with h | h
  · left; rw [h]
  · exact Or.inr h

/-- The velocity from a finite element pressure is -A∇u, with A at the centre of the cell; the two functions that evaluate a
finite element function and its gradient yield Σxᵢφᵢ and Σxᵢ∇φᵢ. -/
theorem C170_fem {n : Nat} (geo : CellGeo K P d) (fe : Basis K P d n) (A : P → Matrix (Fin d) (Fin d) K) (xl : Fin n → K) (x : P) :
    Darcy.evaluateFEM geo fe A xl x = -(A geo.center *ᵥ
      fun k => femScalar (fun p i => (geo.jacobianInverseTransposed p *ᵥ fe.js p i) k) xl x) ∧
    Darcy.evalFunction fe xl x = femScalar fe.phi xl x ∧
    Darcy.evalGradient geo fe xl x =
      fun k => femScalar (fun p i => (geo.jacobianInverseTransposed p *ᵥ fe.js p i) k) xl x := by
  have hg : (∑ i, xl i • (geo.jacobianInverseTransposed x *ᵥ fe.js x i)) =
      fun k => femScalar (fun p i => (geo.jacobianInverseTransposed p *ᵥ fe.js p i) k) xl x := by
    funext k
    simp [femScalar, Finset.sum_apply]
  refine ⟨?_, rfl, hg⟩
  unfold Darcy.evaluateFEM
  simp only [neg_smul, Finset.sum_neg_distrib]
  rw [hg, mulVec_neg]

/-- Shape functions of lowest order on the unit interval: x-1 and x. -/
def exRt0 (x : Rat) : Fin 2 → Fin 1 → Rat := ![fun _ => x - 1, fun _ => x]

/-- The hypotheses of `C170_normal_component` hold for a cell of length two, with a neighbour on the right and a Dirichlet
boundary on the left, with a velocity that is not zero. -/
example : ∃ (geo : CellGeo Rat Rat 1) (par : CellParam Rat Rat 1) (isL isR : Darcy.Intersection Rat Rat Unit 1) (J : Matrix (Fin 1) (Fin 1) Rat),
    geo.jacobianInverseTransposed geo.center * Jᵀ = 1 ∧ ([isL, isR].map fun i => i.index).Nodup ∧
    isL.geo.centerUnitOuterNormal = (2 : Rat) • (geo.jacobianInverseTransposed geo.center *ᵥ cubeNormal isL.index) ∧
    isR.geo.centerUnitOuterNormal = (2 : Rat) • (geo.jacobianInverseTransposed geo.center *ᵥ cubeNormal isR.index) ∧
    isL.geo.centerUnitOuterNormal ⬝ᵥ isL.geo.centerUnitOuterNormal = 1 ∧ OnFace exRt0 cubeNormal 0 isL.index ∧
    OnFace exRt0 cubeNormal 1 isR.index ∧ Darcy.normalVelocity (fun v => |v 0|) geo par 3 isL = -6 ∧
    Darcy.normalVelocity (fun v => |v 0|) geo par 3 isR ≠ 0 :=
  ⟨⟨1/2, 2, fun x _ => 2 * x, fun _ => 2, fun _ => !![1/2], fun _ => [(1/2, 1)]⟩,
    ⟨true, fun _ => !![3], fun _ => 0, fun _ => 0, fun _ => 0, fun _ => 5⟩,
    ⟨0, ⟨(), 1, 1, fun _ _ => 0, fun _ => 1, fun _ => 0, fun _ => 1, fun _ => -1, fun _ _ => -1, fun _ => [((), 1)]⟩,
      ⟨fun _ => .dirichlet, fun _ => 0, fun _ => 0⟩, true, none⟩,
    ⟨1, ⟨(), 1, 1, fun _ _ => 2, fun _ => 1, fun _ => 1, fun _ => 0, fun _ => 1, fun _ _ => 1, fun _ => [((), 1)]⟩,
      ⟨fun _ => .none, fun _ => 0, fun _ => 0⟩, false,
      some (⟨1/2, 2, fun x _ => 2 + 2 * x, fun _ => 2, fun _ => !![1/2], fun _ => [(1/2, 1)]⟩,
        ⟨true, fun _ => !![3], fun _ => 0, fun _ => 0, fun _ => 0, fun _ => 5⟩, 1)⟩,
    !![2], by decide +kernel, by decide, by decide +kernel, by decide +kernel, by decide +kernel, by unfold OnFace; decide +kernel,
    by unfold OnFace; decide +kernel, by decide +kernel, by decide +kernel⟩

end Verif
