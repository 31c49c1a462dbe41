import Verif.Spec.DGForm
import Verif.Proofs.ConvectionDiffusion
import Mathlib.Algebra.BigOperators.Group.Finset.Sigma
import Mathlib.Data.Matrix.Basic
import Mathlib.Tactic.Positivity
import Mathlib.Tactic.Linarith
namespace Verif.LocalOp
open Spec Matrix

section
variable {K P Q : Type} [Field K] [LinearOrder K] {d n m ns nn : Nat}

omit [LinearOrder K] in
theorem tested_flatMap {ι α : Type} [Fintype ι] [DecidableEq ι] (l : List α) (f : α → Calls ι K) (y : ι → K) :
    tested (l.flatMap f) y = (l.map fun a => tested (f a) y).sum := by
  induction l with
  | nil => simp [tested, total_nil]
  | cons a l ih =>
    rw [List.map_cons, List.sum_cons, ← ih]
    simp only [tested, List.flatMap_cons, total_append, mul_add, Finset.sum_add_distrib]

omit [LinearOrder K] in
theorem tested_append {ι : Type} [Fintype ι] [DecidableEq ι] (l l' : Calls ι K) (y : ι → K) :
    tested (l ++ l') y = tested l y + tested l' y := by
  simp only [tested, total_append, mul_add, Finset.sum_add_distrib]

omit [LinearOrder K] in
theorem tested_forEach (v y : Fin n → K) : tested (forEach v) y = ∑ i, y i * v i := by
  simp only [tested, total_forEach]

omit [LinearOrder K] in
theorem tested_inside (l : Calls (Fin ns) K) (y : Fin ns ⊕ Fin nn → K) :
    tested (DG.inside l) y = tested l fun i => y (.inl i) := by
  simp only [tested, sum_sum_type, total_inside_inl, total_inside_inr, mul_zero, Finset.sum_const_zero, add_zero]

omit [LinearOrder K] in
theorem tested_outside (l : Calls (Fin nn) K) (y : Fin ns ⊕ Fin nn → K) :
    tested (DG.outside l) y = tested l fun i => y (.inr i) := by
  simp only [tested, sum_sum_type, total_outside_inl, total_outside_inr, mul_zero, Finset.sum_const_zero, zero_add]

omit [LinearOrder K] in
theorem sum_value (lfs : Basis K P d n) (y : Fin n → K) (p : P) (a : K) :
    ∑ i, y i * (a * lfs.phi p i) = a * value lfs y p := by
  simp only [value, Finset.mul_sum]
  exact Finset.sum_congr rfl fun i _ => by ring

omit [LinearOrder K] in
theorem sum_gradient (geo : CellGeo K P d) (lfs : Basis K P d n) (y : Fin n → K) (p : P) (a : K) (v : Fin d → K) :
    ∑ i, y i * (a * (v ⬝ᵥ (geo.jacobianInverseTransposed p *ᵥ lfs.js p i))) = a * (v ⬝ᵥ gradient geo lfs y p) := by
  simp only [gradient, dot_sum_smul, Finset.mul_sum]
  exact Finset.sum_congr rfl fun i _ => by ring

theorem theta_eq (op : DG.Op K) : op.theta = sign op.method := by
  unfold DG.Op.theta sign
  cases op.method <;> rfl

theorem volume_form (op : DG.Op K) (geo : CellGeo K P d) (par : CellParam K P d) (lfs : Basis K P d n) (x y : Fin n → K) :
    tested (DG.alphaVolume op geo par lfs lfs x) y = volumeForm geo par lfs (op.intorder lfs.order) x y := by
  unfold DG.alphaVolume volumeForm integrate
  dsimp only
  rw [tested_flatMap, Nat.max_self]
  congr 1
  refine List.map_congr_left ?_
  rintro ⟨p, w⟩ _
  rw [tested_forEach]
  have ht : FEM.tensorAt geo par p = tensor geo par p := rfl
  have hv : (∑ i, x i * lfs.phi p i) = value lfs x p := rfl
  have hgr : (∑ i, x i • (geo.jacobianInverseTransposed p *ᵥ lfs.js p i)) = gradient geo lfs x p := rfl
  rw [ht, hv, hgr]
  generalize hF : w * geo.integrationElement p = F
  have : ∀ i, y i * (((tensor geo par p *ᵥ gradient geo lfs x p) ⬝ᵥ (geo.jacobianInverseTransposed p *ᵥ lfs.js p i)
        - value lfs x p * (par.b p ⬝ᵥ (geo.jacobianInverseTransposed p *ᵥ lfs.js p i))
        + par.c p * value lfs x p * lfs.phi p i) * F)
      = y i * (F * ((tensor geo par p *ᵥ gradient geo lfs x p) ⬝ᵥ (geo.jacobianInverseTransposed p *ᵥ lfs.js p i)))
        + y i * ((-(F * value lfs x p)) * (par.b p ⬝ᵥ (geo.jacobianInverseTransposed p *ᵥ lfs.js p i)))
        + y i * ((F * par.c p * value lfs x p) * lfs.phi p i) := fun i => by ring
  simp only [this, Finset.sum_add_distrib, sum_gradient, sum_value]
  ring

theorem skeleton_form (op : DG.Op K) (geo : FaceGeo K P Q d) (geoIn geoOut : CellGeo K P d)
    (parIn parOut : CellParam K P d) (lfsS : Basis K P d ns) (lfsN : Basis K P d nn) (x y : Fin ns ⊕ Fin nn → K) :
    tested (DG.alphaSkeleton op geo geoIn geoOut parIn parOut lfsS lfsN lfsS lfsN x) y
      = skeletonForm op geo geoIn geoOut parIn parOut lfsS lfsN (op.intorder (max lfsS.order lfsN.order)) x y := by
  unfold DG.alphaSkeleton skeletonForm integrateFace
  dsimp only
  rw [tested_flatMap, Nat.max_self]
  congr 1
  refine List.map_congr_left ?_
  rintro ⟨q, w⟩ _
  dsimp only
  rw [← theta_eq]
  have hvS : (∑ i, x (.inl i) * lfsS.phi (geo.inInside q) i) = value lfsS (fun i => x (.inl i)) (geo.inInside q) := rfl
  have hvN : (∑ i, x (.inr i) * lfsN.phi (geo.inOutside q) i) = value lfsN (fun i => x (.inr i)) (geo.inOutside q) := rfl
  have hgS : (∑ i, x (.inl i) • (geoIn.jacobianInverseTransposed (geo.inInside q) *ᵥ lfsS.js (geo.inInside q) i))
    = gradient geoIn lfsS (fun i => x (.inl i)) (geo.inInside q) := rfl
  have hgN : (∑ i, x (.inr i) • (geoOut.jacobianInverseTransposed (geo.inOutside q) *ᵥ lfsN.js (geo.inOutside q) i))
    = gradient geoOut lfsN (fun i => x (.inr i)) (geo.inOutside q) := rfl
  rw [hvS, hvN, hgS, hgN]
  simp only [tested_append, tested_inside, tested_outside, tested_forEach, sum_value, sum_gradient]
  have h1 : (DG.couplingAt op geo geoIn geoOut parIn parOut (max lfsS.order lfsN.order) q).AnS = conormalS geo geoIn parIn q := by
    unfold DG.couplingAt DG.coupling conormalS tensor faceNormal
    cases parIn.permeabilityIsConstantPerCell <;> cases op.weightsOn <;> rfl
  have h2 : (DG.couplingAt op geo geoIn geoOut parIn parOut (max lfsS.order lfsN.order) q).AnN
      = conormalN geo geoOut parIn parOut q := by
    unfold DG.couplingAt DG.coupling conormalN faceNormal
    cases parIn.permeabilityIsConstantPerCell <;> cases op.weightsOn <;> rfl
  have h3 : (DG.couplingAt op geo geoIn geoOut parIn parOut (max lfsS.order lfsN.order) q).omegaS
      = weightS op.weightsOn (conormalS geo geoIn parIn q ⬝ᵥ faceNormal geo parIn q)
        (conormalN geo geoOut parIn parOut q ⬝ᵥ faceNormal geo parIn q) := by
    unfold DG.couplingAt DG.coupling conormalN conormalS tensor faceNormal weightS
    cases parIn.permeabilityIsConstantPerCell <;> cases op.weightsOn <;> rfl
  have h4 : (DG.couplingAt op geo geoIn geoOut parIn parOut (max lfsS.order lfsN.order) q).omegaN
      = weightN op.weightsOn (conormalS geo geoIn parIn q ⬝ᵥ faceNormal geo parIn q)
        (conormalN geo geoOut parIn parOut q ⬝ᵥ faceNormal geo parIn q) := by
    unfold DG.couplingAt DG.coupling conormalN conormalS tensor faceNormal weightN
    cases parIn.permeabilityIsConstantPerCell <;> cases op.weightsOn <;> rfl
  have h5 : (DG.couplingAt op geo geoIn geoOut parIn parOut (max lfsS.order lfsN.order) q).penalty
      = penalty op.weightsOn op.alpha (min geoIn.volume geoOut.volume / geo.volume)
        (conormalS geo geoIn parIn q ⬝ᵥ faceNormal geo parIn q)
        (conormalN geo geoOut parIn parOut q ⬝ᵥ faceNormal geo parIn q) (max lfsS.order lfsN.order) d := by
    unfold DG.couplingAt DG.coupling conormalN conormalS tensor faceNormal penalty
    cases parIn.permeabilityIsConstantPerCell <;> cases op.weightsOn <;> rfl
  rw [h1, h2, h3, h4, h5]
  unfold DG.upwind
  by_cases hbn : parIn.b (geo.inInside q) ⬝ᵥ geo.unitOuterNormal q ≥ 0
  · simp only [hbn, if_true]; ring
  · simp only [hbn, if_false]; ring

theorem boundary_form (op : DG.Op K) (geo : FaceGeo K P Q d) (geoIn : CellGeo K P d) (par : CellParam K P d)
    (fpar : FaceParam K Q) (lfs : Basis K P d n) (x y : Fin n → K) (r : Calls (Fin n) K)
    (hr : DG.alphaBoundary op geo geoIn par fpar lfs lfs x = some r) :
    tested r y = boundaryForm op geo geoIn par fpar lfs (op.intorder lfs.order) x y := by
  have hok : ∀ q ∈ geo.quadratureRule (op.intorder lfs.order), ¬ OutflowOnInflow geo par fpar q.1 := by
    intro q hq ho
    have : DG.alphaBoundary op geo geoIn par fpar lfs lfs x = none := by
      unfold DG.alphaBoundary DG.residualBoundaryIntegral
      dsimp only
      rw [Nat.max_self]
      exact loop_none _ _ ⟨q, hq, (residualBoundaryPoint_none ..).mpr ho⟩
    rw [this] at hr
    cases hr
  have hr' : DG.alphaBoundary op geo geoIn par fpar lfs lfs x
      = some ((geo.quadratureRule (op.intorder lfs.order)).flatMap fun q =>
        (DG.residualBoundaryPoint op geo geoIn par fpar lfs lfs x false q.1 q.2).getD []) := by
    unfold DG.alphaBoundary DG.residualBoundaryIntegral
    dsimp only
    rw [Nat.max_self]
    refine loop_some _ _ _ fun q hq => ?_
    rcases hs : DG.residualBoundaryPoint op geo geoIn par fpar lfs lfs x false q.1 q.2 with _ | c
    · exact absurd ((residualBoundaryPoint_none ..).mp hs) (hok q hq)
    · rfl
  rw [hr'] at hr
  cases hr
  unfold boundaryForm integrateFace
  rw [tested_flatMap]
  congr 1
  refine List.map_congr_left ?_
  rintro ⟨q, w⟩ hq
  have hno := hok _ hq
  unfold OutflowOnInflow at hno
  unfold DG.residualBoundaryPoint
  dsimp only at hno ⊢
  rw [← theta_eq]
  have hv : (∑ i, x i * lfs.phi (geo.inInside q) i) = value lfs x (geo.inInside q) := rfl
  have hg : (∑ i, x i • (geoIn.jacobianInverseTransposed (geo.inInside q) *ᵥ lfs.js (geo.inInside q) i))
    = gradient geoIn lfs x (geo.inInside q) := rfl
  rw [hv, hg]
  have h1 : (DG.boundaryCouplingAt op geo geoIn par lfs.order q).1 = conormalS geo geoIn par q := by
    unfold DG.boundaryCouplingAt conormalS tensor faceNormal
    cases par.permeabilityIsConstantPerCell <;> rfl
  have h2 : (DG.boundaryCouplingAt op geo geoIn par lfs.order q).2
      = op.alpha / (geoIn.volume / geo.volume) * (if op.weightsOn then conormalS geo geoIn par q ⬝ᵥ faceNormal geo par q else 1) *
      ((lfs.order * (lfs.order + d - 1) : Nat) : K) := by
    unfold DG.boundaryCouplingAt conormalS tensor faceNormal
    cases par.permeabilityIsConstantPerCell <;> rfl
  rw [h1, h2]
  cases hb : fpar.bctype q with
  | none => simp [tested, total_nil]
  | neumann =>
    simp only [Bool.not_false, if_true, Option.getD_some, tested_forEach]
    simp only [value, Finset.mul_sum, Finset.sum_mul]
    exact Finset.sum_congr rfl fun i _ => by ring
  | outflow =>
    rw [if_neg fun h => hno ⟨hb, h⟩]
    simp only [Bool.not_false, if_true, Option.getD_some, tested_append, tested_forEach, sum_value]
    have : ∀ i, y i * (fpar.o q * lfs.phi (geo.inInside q) i * (w * geo.integrationElement q))
      = y i * ((fpar.o q * (w * geo.integrationElement q)) * lfs.phi (geo.inInside q) i) := fun i => by ring
    simp only [this, sum_value]
    ring
  | dirichlet =>
    simp only [Option.getD_some, tested_append, tested_forEach, sum_value, sum_gradient, Bool.false_eq_true, if_false]
    unfold DG.upwind
    by_cases hbn : par.b (geo.inInside q) ⬝ᵥ geo.unitOuterNormal q ≥ 0
    · simp only [hbn, if_true]; ring
    · simp only [hbn, if_false]; ring

omit [LinearOrder K] in
/-- The function with all coefficients equal to `a` is constant if constants are in the space. -/
theorem value_const (lfs : Basis K P d n) (h : HasConstants lfs) (a : K) (p : P) : value lfs (fun _ => a) p = a := by
  simp only [value, ← Finset.mul_sum, (h p).1, mul_one]

omit [LinearOrder K] in
theorem gradient_const (geo : CellGeo K P d) (lfs : Basis K P d n) (h : HasConstants lfs) (a : K) (p : P) :
    gradient geo lfs (fun _ => a) p = 0 := by
  unfold gradient
  rw [← Finset.smul_sum]
  have : ∑ i, geo.jacobianInverseTransposed p *ᵥ lfs.js p i = 0 := by
    rw [← Matrix.mulVec_sum, (h p).2, Matrix.mulVec_zero]
  rw [this, smul_zero]

omit [LinearOrder K] in
/-- The quadratic form of the matrix is the residual of the linear operator tested with the function itself. -/
theorem quadForm_eq {ι : Type} [Fintype ι] [DecidableEq ι] {r : (ι → K) → Calls ι K} {J : ι × ι → K}
    (h : LinearPlus (fun x => total (r x)) J fun _ => 0) (x : ι → K) : quadForm J x = tested (r x) x := by
  unfold quadForm tested
  refine Finset.sum_congr rfl fun i _ => ?_
  have := h x i
  simp only [add_zero] at this
  rw [this]

end
end Verif.LocalOp

namespace Verif.LocalOp
open Spec Matrix

section
variable {K P Q : Type} [Field K] [LinearOrder K] {d n m ns nn : Nat}

omit [LinearOrder K] in
/-- Unit vectors. -/
theorem entry_eq {ι : Type} [Fintype ι] [DecidableEq ι] {r : (ι → K) → Calls ι K} {J : ι × ι → K}
    (h : LinearPlus (fun x => total (r x)) J fun _ => 0) (i j : ι) :
    J (i, j) = tested (r fun k => if k = j then 1 else 0) fun k => if k = i then 1 else 0 := by
  unfold tested
  have := h (fun k => if k = j then 1 else 0) i
  simp only [add_zero, applyMatrix, mul_ite, mul_one, mul_zero, Finset.sum_ite_eq', Finset.mem_univ, if_true] at this
  simp only [ite_mul, one_mul, zero_mul, Finset.sum_ite_eq', Finset.mem_univ, if_true, this]

omit [LinearOrder K] in
theorem integrateFace_congr (geo : FaceGeo K P Q d) (order : Int) (g g' : Q → K)
    (h : ∀ q ∈ geo.quadratureRule order, g q.1 = g' q.1) : integrateFace geo order g = integrateFace geo order g' := by
  unfold integrateFace
  congr 1
  exact List.map_congr_left fun q hq => by rw [h q hq]

omit [LinearOrder K] in
theorem integrate_congr (geo : CellGeo K P d) (order : Int) (g g' : P → K)
    (h : ∀ q ∈ geo.quadratureRule order, g q.1 = g' q.1) : integrate geo order g = integrate geo order g' := by
  unfold integrate
  congr 1
  exact List.map_congr_left fun q hq => by rw [h q hq]

omit [LinearOrder K] in
theorem integrateFace_neg (geo : FaceGeo K P Q d) (order : Int) (g : Q → K) :
    integrateFace geo order (fun q => -g q) = -integrateFace geo order g := by
  unfold integrateFace
  induction geo.quadratureRule order with
  | nil => simp
  | cons a l ih => simp only [List.map_cons, List.sum_cons, ih]; ring

omit [LinearOrder K] in
theorem integrateFace_sub (geo : FaceGeo K P Q d) (order : Int) (g g' : Q → K) :
    integrateFace geo order g - integrateFace geo order g' = integrateFace geo order fun q => g q - g' q := by
  unfold integrateFace
  induction geo.quadratureRule order with
  | nil => simp
  | cons a l ih => simp only [List.map_cons, List.sum_cons, ← ih]; ring

omit [LinearOrder K] in
theorem value_zero (lfs : Basis K P d n) (p : P) : value lfs (fun _ => 0) p = 0 := by simp [value]

omit [LinearOrder K] in
theorem gradient_zero (geo : CellGeo K P d) (lfs : Basis K P d n) (p : P) : gradient geo lfs (fun _ => 0) p = 0 := by
  simp [gradient]

section
variable [IsStrictOrderedRing K]

theorem list_sum_nonneg' {α : Type} (l : List α) (f : α → K) (h : ∀ a ∈ l, 0 ≤ f a) : 0 ≤ (l.map f).sum := by
  induction l with
  | nil => simp
  | cons a l ih =>
    rw [List.map_cons, List.sum_cons]
    exact add_nonneg (h a List.mem_cons_self) (ih fun b hb => h b (List.mem_cons_of_mem _ hb))

theorem integrateFace_nonneg (geo : FaceGeo K P Q d) (order : Int) (hw : NonnegFaceWeights geo order) (g : Q → K)
    (h : ∀ q ∈ geo.quadratureRule order, 0 ≤ g q.1) : 0 ≤ integrateFace geo order g :=
  list_sum_nonneg' _ _ fun q hq => mul_nonneg (h q hq) (hw q hq)

theorem integrate_nonneg (geo : CellGeo K P d) (order : Int) (hw : NonnegWeights geo order) (g : P → K)
    (h : ∀ q ∈ geo.quadratureRule order, 0 ≤ g q.1) : 0 ≤ integrate geo order g :=
  list_sum_nonneg' _ _ fun q hq => mul_nonneg (h q hq) (hw q hq)

theorem penalty_nonneg (on : Bool) (alpha h dS dN : K) (p d : Nat) (ha : 0 ≤ alpha) (hh : 0 ≤ h) (hS : 0 ≤ dS) (hN : 0 ≤ dN) :
    0 ≤ penalty on alpha h dS dN p d := by
  unfold penalty
  refine mul_nonneg (mul_nonneg (div_nonneg ha hh) ?_) (Nat.cast_nonneg _)
  cases on
  · simp
  · simp only [if_true]
    positivity

end
end
end Verif.LocalOp
