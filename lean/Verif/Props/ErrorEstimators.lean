import Verif.Model.ErrorEstimators
import Verif.Spec.ErrorEstimators
import Verif.Proofs.Tested
import Mathlib.Data.List.Pairwise
import Mathlib.Data.Matrix.Mul
import Mathlib.LinearAlgebra.Matrix.Symmetric
import Mathlib.Algebra.Order.Field.Basic
import Mathlib.Algebra.Order.Ring.Rat
import Mathlib.Algebra.Order.BigOperators.Group.List
import Mathlib.Data.Fin.VecNotation
import Mathlib.Tactic.Ring
import Mathlib.Tactic.FieldSimp
import Mathlib.Tactic.Linarith
import Mathlib.Tactic.Positivity
import Mathlib.Tactic.FinCases
import Mathlib.Tactic.NormNum
/-
C174-C175: residual based error indicators in space and in time.
-/
set_option linter.unusedSectionVars false
namespace Verif
open Verif.LocalOp Verif.LocalOp.Spec Matrix

variable {K P Q : Type} [Field K] [LinearOrder K] [IsStrictOrderedRing K] {d n m : Nat}

/-! ### C174: the diameter -/

private theorem inner_spec (twoNorm : (Fin d → K) → K) (xi : Fin d → K) (rest : List (Fin d → K)) (h : K) :
    h ≤ Estimator.innerLoop twoNorm xi h rest ∧
    (∀ xj ∈ rest, twoNorm (xj - xi) ≤ Estimator.innerLoop twoNorm xi h rest) ∧
    (Estimator.innerLoop twoNorm xi h rest = h ∨ ∃ xj ∈ rest, Estimator.innerLoop twoNorm xi h rest = twoNorm (xj - xi)) := by
  induction rest generalizing h with
  | nil => simp [Estimator.innerLoop]
  | cons y ys ih =>
    obtain ⟨h1, h2, h3⟩ := ih (max h (twoNorm (y - xi)))
    have he : Estimator.innerLoop twoNorm xi h (y :: ys) = Estimator.innerLoop twoNorm xi (max h (twoNorm (y - xi))) ys := rfl
    rw [he]
    refine ⟨le_trans (le_max_left _ _) h1, ?_, ?_⟩
    · intro xj hj
      rcases List.mem_cons.1 hj with rfl | hj
      · exact le_trans (le_max_right _ _) h1
      · exact h2 _ hj
    · rcases h3 with h3 | ⟨xj, hj, h3⟩
      · rcases max_cases h (twoNorm (y - xi)) with ⟨hm, _⟩ | ⟨hm, _⟩
        · left; rw [h3, hm]
        · right; exact ⟨y, List.mem_cons_self, by rw [h3, hm]⟩
      · right; exact ⟨xj, List.mem_cons_of_mem _ hj, h3⟩

private theorem outer_spec (twoNorm : (Fin d → K) → K) (l : List (Fin d → K)) (h : K) :
    h ≤ Estimator.outerLoop twoNorm h l ∧
    (l.Pairwise fun a b => twoNorm (b - a) ≤ Estimator.outerLoop twoNorm h l) ∧
    (Estimator.outerLoop twoNorm h l = h ∨ ∃ a ∈ l, ∃ b ∈ l, Estimator.outerLoop twoNorm h l = twoNorm (b - a)) := by
  induction l generalizing h with
  | nil => simp [Estimator.outerLoop]
  | cons x xs ih =>
    obtain ⟨i1, i2, i3⟩ := inner_spec twoNorm x xs h
    obtain ⟨h1, h2, h3⟩ := ih (Estimator.innerLoop twoNorm x h xs)
    have he : Estimator.outerLoop twoNorm h (x :: xs) = Estimator.outerLoop twoNorm (Estimator.innerLoop twoNorm x h xs) xs := rfl
    rw [he]
    refine ⟨i1.trans h1, List.pairwise_cons.2 ⟨fun b hb => (i2 b hb).trans h1, h2⟩, ?_⟩
    rcases h3 with h3 | ⟨a, ha, b, hb, h3⟩
    · rcases i3 with i3 | ⟨b, hb, i3⟩
      · left; rw [h3, i3]
      · right; exact ⟨x, List.mem_cons_self, b, List.mem_cons_of_mem _ hb, by rw [h3, i3]⟩
    · right; exact ⟨a, List.mem_cons_of_mem _ ha, b, List.mem_cons_of_mem _ hb, h3⟩

/-- **C174 (diameter).** The size of a cell with at least two corners is the largest distance between two of its corners. -/
theorem C174_diameter {twoNorm : (Fin d → K) → K} (hzero : twoNorm 0 = 0) (hneg : ∀ v, twoNorm (-v) = twoNorm v)
    (hpos : ∀ v, 0 ≤ twoNorm v) {corners : List (Fin d → K)} (hlen : 2 ≤ corners.length) :
    IsDiameter (fun a b => twoNorm (a - b)) corners (Estimator.diameter twoNorm corners) := by
  obtain ⟨h1, h2, h3⟩ := outer_spec twoNorm corners (-1)
  have hnn : 0 ≤ Estimator.outerLoop twoNorm (-1) corners := by
    match corners, hlen, h2 with
    | a :: b :: l, _, h2 => exact (hpos _).trans ((List.pairwise_cons.1 h2).1 b List.mem_cons_self)
  constructor
  · rcases h3 with h3 | ⟨a, ha, b, hb, h3⟩
    · rw [h3] at hnn; linarith
    · exact ⟨b, hb, a, ha, h3⟩
  · intro a ha b hb
    have hsymm : Std.Symm fun a b : Fin d → K => twoNorm (a - b) ≤ Estimator.diameter twoNorm corners := by
      constructor
      intro a b hab
      rwa [← hneg, neg_sub]
    have hp : corners.Pairwise fun a b => twoNorm (a - b) ≤ Estimator.diameter twoNorm corners := by
      refine h2.imp ?_
      intro a b hab
      rw [← hneg, neg_sub]
      exact hab
    exact hp.forall_of_forall (fun x _ => by rw [sub_self, hzero]; exact hnn) ha hb

example : IsDiameter (fun a b : Fin 1 → ℚ => |(a - b) 0|) [![0], ![3], ![1]] (Estimator.diameter (fun v => |v 0|) [![0], ![3], ![1]]) :=
  C174_diameter (twoNorm := fun v : Fin 1 → ℚ => |v 0|) (by simp) (by simp) (fun v => abs_nonneg _) (by decide)

/-! ### C174: the indicator for conforming finite elements -/

private theorem total_one (v : K) : total [((0 : Fin 1), v)] 0 = v := by simp [total]
private theorem total_two (a b : K) (s : Fin 1 ⊕ Fin 1) :
    total [((Sum.inl 0 : Fin 1 ⊕ Fin 1), a), (Sum.inr 0, b)] s = s.elim (fun _ => a) fun _ => b := by
  rcases s with s | s <;> fin_cases s <;> simp [total]

private theorem cell_congr (geo : CellGeo K P d) (order : Int) {g g' : P → K} (h : ∀ q ∈ geo.quadratureRule order, g q.1 = g' q.1) :
    integrate geo order g = integrate geo order g' := by
  unfold integrate
  congr 1
  exact List.map_congr_left fun q hq => by rw [h q hq]

private theorem face_congr (geo : FaceGeo K P Q d) (order : Int) {g g' : Q → K} (h : ∀ q ∈ geo.quadratureRule order, g q.1 = g' q.1) :
    integrateFace geo order g = integrateFace geo order g' := by
  unfold integrateFace
  congr 1
  exact List.map_congr_left fun q hq => by rw [h q hq]

private theorem sum_scaled {α : Type} (l : List α) (c : K) (g : α → K) : (l.map fun a => c * g a).sum = c * (l.map g).sum := by
  induction l with
  | nil => simp
  | cons a l ih => simp only [List.map_cons, List.sum_cons, ih]; ring

private theorem face_scaled (geo : FaceGeo K P Q d) (order : Int) (c : K) (g : Q → K) :
    integrateFace geo order (fun q => c * g q) = c * integrateFace geo order g := by
  unfold integrateFace
  rw [← sum_scaled]
  congr 1
  exact List.map_congr_left fun q _ => by ring

private theorem cell_scaled (geo : CellGeo K P d) (order : Int) (c : K) (g : P → K) :
    integrate geo order (fun q => c * g q) = c * integrate geo order g := by
  unfold integrate
  rw [← sum_scaled]
  congr 1
  exact List.map_congr_left fun q _ => by ring

private theorem sum_nonneg_map {α : Type} {l : List α} {g : α → K} (h : ∀ a ∈ l, 0 ≤ g a) : 0 ≤ (l.map g).sum :=
  List.sum_nonneg (by simpa using h)

private theorem cell_nonneg {geo : CellGeo K P d} {order : Int} (hw : NonnegWeights geo order) {g : P → K} (h : ∀ p, 0 ≤ g p) :
    0 ≤ integrate geo order g := sum_nonneg_map fun q hq => mul_nonneg (h _) (hw q hq)

private theorem face_nonneg {geo : FaceGeo K P Q d} {order : Int} (hw : NonnegFaceWeights geo order) {g : Q → K} (h : ∀ p, 0 ≤ g p) :
    0 ≤ integrateFace geo order g := sum_nonneg_map fun q hq => mul_nonneg (h _) (hw q hq)

private theorem sum_zero_iff {α : Type} {l : List α} {g : α → K} (h : ∀ a ∈ l, 0 ≤ g a) :
    (l.map g).sum = 0 ↔ ∀ a ∈ l, g a = 0 := by
  induction l with
  | nil => simp
  | cons a l ih =>
    have h1 := h a List.mem_cons_self
    have h2 : ∀ b ∈ l, 0 ≤ g b := fun b hb => h b (List.mem_cons_of_mem _ hb)
    have h3 := sum_nonneg_map h2
    rw [List.map_cons, List.sum_cons, List.forall_mem_cons, ← ih h2]
    constructor
    · intro h; constructor <;> linarith
    · rintro ⟨h, h'⟩; rw [h, h', add_zero]

private theorem flux_symm {A : Matrix (Fin d) (Fin d) K} (h : A.IsSymm) (g nu : Fin d → K) :
    (A *ᵥ nu) ⬝ᵥ g = normalFluxAt A g nu := by
  unfold normalFluxAt
  rw [dotProduct_comm, Matrix.dotProduct_mulVec, ← Matrix.mulVec_transpose, h.eq]

/-- **C174 (cells, conforming).** The contribution of the cell is `h² ∫(f - cu)²`, if at every quadrature point the reaction term
vanishes or balances the source. Missing: the other cases, see `C174_femVolume_false`. -/
theorem C174_femVolume_partial (hT : K) (geo : CellGeo K P d) (par : CellParam K P d) (lfs : Basis K P d n) (x : Fin n → K)
    (h : ∀ q ∈ geo.quadratureRule (2 * lfs.order), par.c q.1 * value lfs x q.1 = 0 ∨ par.f q.1 = par.c q.1 * value lfs x q.1) :
    total (Estimator.FEM.alphaVolume hT geo par lfs x) 0 =
      hT ^ 2 * integrate geo (2 * lfs.order) fun p => (par.f p - par.c p * value lfs x p) ^ 2 := by
  unfold Estimator.FEM.alphaVolume
  rw [total_one, pow_two]
  congr 1
  unfold integrate
  congr 1
  refine List.map_congr_left fun q hq => ?_
  have hv : ∑ i, x i * lfs.phi q.1 i = value lfs x q.1 := rfl
  simp only [hv]
  rcases h q hq with h | h
  · have : par.c q.1 * par.c q.1 * value lfs x q.1 * value lfs x q.1 = (par.c q.1 * value lfs x q.1) ^ 2 := by ring
    rw [this, h]; ring
  · rw [h]; ring

/-- One cell with one quadrature point, and one shape function with the value 1. -/
def estCell : CellGeo ℚ Unit 2 :=
  ⟨(), 1, fun _ => ![0, 0], fun _ => 1, fun _ => 1, fun _ => [((), 1)]⟩
def estParam (c f : ℚ) : CellParam ℚ Unit 2 := ⟨true, fun _ => 1, fun _ => ![1, 0], fun _ => c, fun _ => f, fun _ => 0⟩
def estBasis (order : Nat) : Basis ℚ Unit 2 1 := ⟨order, fun _ _ => 1, fun _ _ => ![1, 0]⟩

example : total (Estimator.FEM.alphaVolume 2 estCell (estParam 0 3) (estBasis 1) ![5]) 0 = 36 := by decide +kernel
example : total (Estimator.FEM.alphaVolume 2 estCell (estParam 0 3) (estBasis 1) ![5]) 0 =
    2 ^ 2 * integrate estCell (2 * (1 : Nat)) fun p => ((estParam 0 3).f p - (estParam 0 3).c p * value (estBasis 1) ![5] p) ^ 2 :=
  C174_femVolume_partial 2 estCell (estParam 0 3) (estBasis 1) ![5] fun q _ => Or.inl (by simp [estParam])

/-- **C174 fails for a reaction term.** `f² - c²u²` is integrated instead of `(f - cu)²`: with `c = 1`, `f = 0` and `u = 1` the squared
indicator of the cell is negative. -/
theorem C174_femVolume_false :
    total (Estimator.FEM.alphaVolume 1 estCell (estParam 1 0) (estBasis 1) ![1]) 0 < 0 ∧
    0 < (1 : ℚ) ^ 2 * integrate estCell (2 * (1 : Nat)) fun p =>
      ((estParam 1 0).f p - (estParam 1 0).c p * value (estBasis 1) ![1] p) ^ 2 := by
  constructor <;> decide +kernel

/-- **C174 (faces, conforming).** Both cells of an inner face get a quarter of `h ∫ [A∇u·n]²`, where `h` is the larger one of their
diameters. The tensor has to be symmetric, and the face flat if the tensor is declared to be constant on each cell. -/
theorem C174_femFace (hIn hOut : K) (geo : FaceGeo K P Q d) (geoIn geoOut : CellGeo K P d) (parIn parOut : CellParam K P d)
    (hflag : parIn.permeabilityIsConstantPerCell = parOut.permeabilityIsConstantPerCell)
    (hflat : parIn.permeabilityIsConstantPerCell = true → ∀ q, geo.unitOuterNormal q = geo.centerUnitOuterNormal)
    (hsIn : ∀ p, (parIn.A p).IsSymm) (hsOut : ∀ p, (parOut.A p).IsSymm)
    (lfsS : Basis K P d n) (xS : Fin n → K) (lfsN : Basis K P d m) (xN : Fin m → K) (side : Fin 1 ⊕ Fin 1) :
    total (Estimator.FEM.alphaSkeleton hIn hOut geo geoIn geoOut parIn parOut lfsS xS lfsN xN) side =
      1 / 4 * (max hIn hOut * integrateFace geo (2 * lfsS.order) fun q =>
        fluxJump geo geoIn geoOut (tensor geoIn parIn) (tensor geoOut parOut) lfsS xS lfsN xN q ^ 2) := by
  unfold Estimator.FEM.alphaSkeleton
  rw [total_two]
  have key : ∀ v : K, (side.elim (fun _ => v) fun _ => v) = v := by rcases side with s | s <;> simp
  rw [key, mul_left_comm]
  congr 1
  rw [← face_scaled]
  unfold integrateFace
  congr 1
  refine List.map_congr_left fun q _ => ?_
  have hS : ∑ i, xS i • (geoIn.jacobianInverseTransposed (geo.inInside q.1) *ᵥ lfsS.js (geo.inInside q.1) i) =
    gradient geoIn lfsS xS (geo.inInside q.1) := rfl
  have hN : ∑ i, xN i • (geoOut.jacobianInverseTransposed (geo.inOutside q.1) *ᵥ lfsN.js (geo.inOutside q.1) i) =
    gradient geoOut lfsN xN (geo.inOutside q.1) := rfl
  simp only [hS, hN, fluxJump, tensor, ← hflag]
  cases hc : parIn.permeabilityIsConstantPerCell
  · simp only [Bool.false_eq_true, if_false]
    rw [flux_symm (hsIn _), flux_symm (hsOut _)]
    ring
  · simp only [if_true]
    rw [flux_symm (hsIn _), flux_symm (hsOut _), hflat hc]
    ring

/-- **C174 (Neumann boundary, conforming).** `h ∫ (j + A∇u·n)²` on the faces with a flux condition, nothing on the others. -/
theorem C174_femBoundary (hT : K) (geo : FaceGeo K P Q d) (geoIn : CellGeo K P d) (par : CellParam K P d) (fpar : FaceParam K Q)
    (hflat : par.permeabilityIsConstantPerCell = true → ∀ q, geo.unitOuterNormal q = geo.centerUnitOuterNormal)
    (hs : ∀ p, (par.A p).IsSymm) (lfs : Basis K P d n) (x : Fin n → K) :
    total (Estimator.FEM.alphaBoundary hT geo geoIn par fpar lfs x) 0 =
      if fpar.bctype geo.center = .neumann then
        hT * integrateFace geo (2 * lfs.order) fun q => (fpar.j q +
          normalFluxAt (tensor geoIn par (geo.inInside q)) (gradient geoIn lfs x (geo.inInside q)) (geo.unitOuterNormal q)) ^ 2
      else 0 := by
  unfold Estimator.FEM.alphaBoundary
  by_cases hb : fpar.bctype geo.center = .neumann
  · rw [if_neg (not_not.2 hb), if_pos hb, total_one]
    congr 1
    unfold integrateFace
    congr 1
    refine List.map_congr_left fun q _ => ?_
    have hS : ∑ i, x i • (geoIn.jacobianInverseTransposed (geo.inInside q.1) *ᵥ lfs.js (geo.inInside q.1) i) =
      gradient geoIn lfs x (geo.inInside q.1) := rfl
    simp only [hS, tensor]
    cases hc : par.permeabilityIsConstantPerCell
    · simp only [Bool.false_eq_true, if_false]
      rw [flux_symm (hs _)]; ring
    · simp only [if_true]
      rw [flux_symm (hs _), hflat hc]; ring
  · rw [if_pos hb, if_neg hb]; simp [total]

/-- **C174 (nonnegative, conforming).** The contributions of the faces are not negative. -/
theorem C174_femNonneg_partial {hIn hOut : K} (h0 : 0 ≤ hIn) (geo : FaceGeo K P Q d) (geoIn geoOut : CellGeo K P d)
    (parIn parOut : CellParam K P d) (fpar : FaceParam K Q) (lfsS : Basis K P d n) (xS : Fin n → K) (lfsN : Basis K P d m)
    (xN : Fin m → K) (hw : NonnegFaceWeights geo (2 * lfsS.order)) (side : Fin 1 ⊕ Fin 1) :
    0 ≤ total (Estimator.FEM.alphaSkeleton hIn hOut geo geoIn geoOut parIn parOut lfsS xS lfsN xN) side ∧
    0 ≤ total (Estimator.FEM.alphaBoundary hIn geo geoIn parIn fpar lfsS xS) 0 := by
  constructor
  · unfold Estimator.FEM.alphaSkeleton
    rw [total_two]
    have key : ∀ v : K, (side.elim (fun _ => v) fun _ => v) = v := by rcases side with s | s <;> simp
    rw [key]
    refine mul_nonneg (h0.trans (le_max_left _ _)) (sum_nonneg_map fun q hq => mul_nonneg ?_ (hw q hq))
    rw [mul_assoc]
    exact mul_nonneg (by norm_num) (mul_self_nonneg _)
  · unfold Estimator.FEM.alphaBoundary
    split
    · simp [total]
    · rw [total_one]
      exact mul_nonneg h0 (sum_nonneg_map fun q hq => mul_nonneg (mul_self_nonneg _) (hw q hq))

/-- **C174 (orientation, conforming).** It does not matter from which of the two cells a face is visited. -/
theorem C174_femOrientation (hIn hOut : K) (geo : FaceGeo K P Q d) (geoIn geoOut : CellGeo K P d) (parIn parOut : CellParam K P d)
    (hflag : parIn.permeabilityIsConstantPerCell = parOut.permeabilityIsConstantPerCell)
    (lfsS : Basis K P d n) (xS : Fin n → K) (lfsN : Basis K P d m) (xN : Fin m → K) (horder : lfsS.order = lfsN.order)
    (side : Fin 1 ⊕ Fin 1) :
    total (Estimator.FEM.alphaSkeleton hOut hIn (otherSide geo) geoOut geoIn parOut parIn lfsN xN lfsS xS) side.swap =
      total (Estimator.FEM.alphaSkeleton hIn hOut geo geoIn geoOut parIn parOut lfsS xS lfsN xN) side := by
  unfold Estimator.FEM.alphaSkeleton
  rw [total_two, total_two]
  have key : ∀ (v : K) (s : Fin 1 ⊕ Fin 1), (s.elim (fun _ => v) fun _ => v) = v := by rintro v (s | s) <;> simp
  rw [key, key, max_comm, ← horder]
  congr 2
  refine List.map_congr_left fun q _ => ?_
  simp only [otherSide, ← hflag]
  cases parIn.permeabilityIsConstantPerCell
  · simp only [Bool.false_eq_true, if_false, mulVec_neg, neg_dotProduct]; ring
  · simp only [if_true, mulVec_neg, neg_dotProduct]; ring

/-- **C174 (consistency, conforming).** If the equation without the ignored terms holds at the quadrature points of the cell, the
flux is continuous across the face and the flux condition holds, then the contributions vanish. -/
theorem C174_femVanishes (hIn hOut : K) (geo : FaceGeo K P Q d) (geoIn geoOut : CellGeo K P d) (parIn parOut : CellParam K P d)
    (fpar : FaceParam K Q)
    (hflag : parIn.permeabilityIsConstantPerCell = parOut.permeabilityIsConstantPerCell)
    (hflat : parIn.permeabilityIsConstantPerCell = true → ∀ q, geo.unitOuterNormal q = geo.centerUnitOuterNormal)
    (hsIn : ∀ p, (parIn.A p).IsSymm) (hsOut : ∀ p, (parOut.A p).IsSymm)
    (lfsS : Basis K P d n) (xS : Fin n → K) (lfsN : Basis K P d m) (xN : Fin m → K) (side : Fin 1 ⊕ Fin 1) :
    ((∀ q ∈ geoIn.quadratureRule (2 * lfsS.order), parIn.f q.1 = parIn.c q.1 * value lfsS xS q.1) →
      total (Estimator.FEM.alphaVolume hIn geoIn parIn lfsS xS) 0 = 0) ∧
    ((∀ q ∈ geo.quadratureRule (2 * lfsS.order),
        fluxJump geo geoIn geoOut (tensor geoIn parIn) (tensor geoOut parOut) lfsS xS lfsN xN q.1 = 0) →
      total (Estimator.FEM.alphaSkeleton hIn hOut geo geoIn geoOut parIn parOut lfsS xS lfsN xN) side = 0) ∧
    ((∀ q ∈ geo.quadratureRule (2 * lfsS.order), fpar.j q.1 = -normalFluxAt (tensor geoIn parIn (geo.inInside q.1))
        (gradient geoIn lfsS xS (geo.inInside q.1)) (geo.unitOuterNormal q.1)) →
      total (Estimator.FEM.alphaBoundary hIn geo geoIn parIn fpar lfsS xS) 0 = 0) := by
  have zc : ∀ (g : CellGeo K P d) (o : Int), integrate g o (fun _ => 0) = 0 := by intro g o; simp [integrate]
  have zf : ∀ (o : Int), integrateFace geo o (fun _ => 0) = 0 := by intro o; simp [integrateFace]
  refine ⟨fun h => ?_, fun h => ?_, fun h => ?_⟩
  · rw [C174_femVolume_partial _ _ _ _ _ fun q hq => Or.inr (h q hq),
      cell_congr (g' := fun _ => 0) _ _ fun q hq => by rw [h q hq]; ring, zc, mul_zero]
  · rw [C174_femFace _ _ _ _ _ _ _ hflag hflat hsIn hsOut, face_congr (g' := fun _ => 0) _ _ fun q hq => by rw [h q hq]; ring,
      zf, mul_zero, mul_zero]
  · rw [C174_femBoundary _ _ _ _ _ hflat hsIn]
    split
    · rw [face_congr (g' := fun _ => 0) _ _ fun q hq => by rw [h q hq]; ring, zf, mul_zero]
    · rfl

/-- A face with one quadrature point. -/
def estFace : FaceGeo ℚ Unit Unit 2 :=
  ⟨(), 1, 1, fun _ => ![0, 0], fun _ => 1, id, id, ![1, 0], fun _ => ![1, 0], fun _ => [((), 1)]⟩

example : total (Estimator.FEM.alphaSkeleton 2 3 estFace estCell estCell (estParam 0 0) (estParam 0 0) (estBasis 1) ![5]
    (estBasis 1) ![1]) (.inr 0) = 12 := by decide +kernel
example := C174_femFace 2 3 estFace estCell estCell (estParam 0 0) (estParam 0 0) rfl (fun _ _ => rfl)
  (fun _ => by simp [estParam, Matrix.IsSymm]) (fun _ => by simp [estParam, Matrix.IsSymm]) (estBasis 1) ![5] (estBasis 1) ![1] (.inl 0)
example : NonnegFaceWeights estFace (2 * (1 : Nat)) := by unfold NonnegFaceWeights; decide +kernel
example : total (Estimator.FEM.alphaBoundary 2 estFace estCell (estParam 0 0) ⟨fun _ => .neumann, fun _ => 3, fun _ => 0⟩ (estBasis 1)
    ![1]) 0 = 32 := by decide +kernel

/-! ### C174: the indicator for the discontinuous Galerkin method -/

private theorem epsilon_spec (hd : d = 2 ∨ d = 3) (A : Matrix (Fin d) (Fin d) K) :
    ∃ e, Estimator.DG.epsilon A = some e ∧ IsMinDiagonal A e := by
  rcases hd with rfl | rfl
  · refine ⟨_, rfl, ?_, ?_⟩
    · rcases min_cases (A 0 0) (A 1 1) with ⟨h, _⟩ | ⟨h, _⟩
      · exact ⟨0, h⟩
      · exact ⟨1, h⟩
    · intro i; fin_cases i
      · exact min_le_left _ _
      · exact min_le_right _ _
  · refine ⟨_, rfl, ?_, ?_⟩
    · rcases min_cases (A 2 2) (min (A 0 0) (A 1 1)) with ⟨h, _⟩ | ⟨h, _⟩
      · exact ⟨2, h⟩
      · rw [h]
        rcases min_cases (A 0 0) (A 1 1) with ⟨h, _⟩ | ⟨h, _⟩
        · exact ⟨0, h⟩
        · exact ⟨1, h⟩
    · intro i; fin_cases i
      · exact (min_le_right _ _).trans (min_le_left _ _)
      · exact (min_le_right _ _).trans (min_le_right _ _)
      · exact min_le_left _ _

private theorem minDiagonal_unique {A : Matrix (Fin d) (Fin d) K} {e e' : K} (h : IsMinDiagonal A e) (h' : IsMinDiagonal A e') :
    e = e' := by
  obtain ⟨⟨i, hi⟩, hl⟩ := h
  obtain ⟨⟨j, hj⟩, hl'⟩ := h'
  exact le_antisymm (by rw [hj]; exact hl j) (by rw [hi]; exact hl' i)

private theorem epsilon_eq (hd : d = 2 ∨ d = 3) {A : Matrix (Fin d) (Fin d) K} {e : K} (he : IsMinDiagonal A e) :
    Estimator.DG.epsilon A = some e := by
  obtain ⟨e', h1, h2⟩ := epsilon_spec hd A
  rw [h1, minDiagonal_unique h2 he]

private theorem divide_eq {a b : K} (h : b ≠ 0) : Estimator.DG.divide a b = some (a / b) := if_neg h

/-- **C174 (cells, discontinuous Galerkin).** The contribution of the cell is `h²/(p²ε) ∫ (f - b·∇u - cu)²`, where `ε` is the
smallest diagonal entry of the tensor and `p` the order of the element, which must not be zero. -/
theorem C174_dgVolume (hd : d = 2 ∨ d = 3) (hT : K) (geo : CellGeo K P d) (par : CellParam K P d) (lfs : Basis K P d n) (x : Fin n → K)
    {e : K} (he : IsMinDiagonal (par.A geo.center) e) (he0 : e ≠ 0) (hp : lfs.order ≠ 0) :
    ∃ calls, Estimator.DG.alphaVolume hT geo par lfs x = some calls ∧
      total calls 0 = hT ^ 2 / ((lfs.order : K) ^ 2 * e) * integrate geo (2 * lfs.order) fun p =>
        (par.f p - par.b p ⬝ᵥ gradient geo lfs x p - par.c p * value lfs x p) ^ 2 := by
  have hp' : (lfs.order : K) ≠ 0 := Nat.cast_ne_zero.2 hp
  unfold Estimator.DG.alphaVolume
  simp only [epsilon_eq hd he, divide_eq hp', divide_eq he0, Option.bind_eq_bind, Option.bind_some, Option.pure_def]
  refine ⟨_, rfl, ?_⟩
  rw [total_one]
  congr 1
  · rw [div_div, div_div]; congr 1 <;> ring
  · unfold integrate
    congr 1
    refine List.map_congr_left fun q _ => ?_
    simp only [value, gradient, Darcy.evalGradient]
    ring

/-- **C174 fails for piecewise constant functions.** The order of the element is a divisor: for an element of order zero the
indicator of a cell is never a number. -/
theorem C174_dgVolume_false (hT : K) (geo : CellGeo K P d) (par : CellParam K P d) (lfs : Basis K P d n) (x : Fin n → K)
    (hp : lfs.order = 0) : Estimator.DG.alphaVolume hT geo par lfs x = none := by
  unfold Estimator.DG.alphaVolume
  cases Estimator.DG.epsilon (par.A geo.center) <;> simp [hp, Estimator.DG.divide]

/-- **C174 (faces, discontinuous Galerkin).** Each of the two cells of an inner face gets half of
`h_F ∫ [A∇u·n]² + (γ/h_F + h_F/ε) ∫ [u]²`, with its own `ε`. -/
theorem C174_dgFace (hd : d = 2 ∨ d = 3) (gamma : K) {hF : K} (hF0 : hF ≠ 0) (geo : FaceGeo K P Q d) (geoIn geoOut : CellGeo K P d)
    (parIn parOut : CellParam K P d) (hflat : ∀ q, geo.unitOuterNormal q = geo.centerUnitOuterNormal)
    (hsIn : ∀ p, (parIn.A p).IsSymm) (hsOut : ∀ p, (parOut.A p).IsSymm)
    (lfsS : Basis K P d n) (xS : Fin n → K) (lfsN : Basis K P d m) (xN : Fin m → K)
    {eS eN : K} (heS : IsMinDiagonal (parIn.A geoIn.center) eS) (heN : IsMinDiagonal (parOut.A geoOut.center) eN)
    (hS0 : eS ≠ 0) (hN0 : eN ≠ 0) :
    ∃ calls, Estimator.DG.alphaSkeleton gamma hF geo geoIn geoOut parIn parOut lfsS xS lfsN xN = some calls ∧
      ∀ side : Fin 1 ⊕ Fin 1, total calls side =
        1 / 2 * (hF * (integrateFace geo (2 * lfsS.order) fun q =>
            fluxJump geo geoIn geoOut parIn.A parOut.A lfsS xS lfsN xN q ^ 2) +
          (gamma / hF + hF / side.elim (fun _ => eS) fun _ => eN) * integrateFace geo (2 * lfsS.order) fun q =>
            valueJump geo lfsS xS lfsN xN q ^ 2) := by
  unfold Estimator.DG.alphaSkeleton
  simp only [epsilon_eq hd heS, epsilon_eq hd heN, divide_eq hF0, divide_eq hS0, divide_eq hN0, Option.bind_eq_bind,
    Option.bind_some, Option.pure_def]
  refine ⟨_, rfl, fun side => ?_⟩
  have h1 : ((geo.quadratureRule (2 * (lfsS.order : Int))).map fun qp =>
      (((parIn.A (geo.inInside qp.1) *ᵥ geo.centerUnitOuterNormal) ⬝ᵥ Darcy.evalGradient geoIn lfsS xS (geo.inInside qp.1)) -
        ((parOut.A (geo.inOutside qp.1) *ᵥ geo.centerUnitOuterNormal) ⬝ᵥ Darcy.evalGradient geoOut lfsN xN (geo.inOutside qp.1))) *
      (((parIn.A (geo.inInside qp.1) *ᵥ geo.centerUnitOuterNormal) ⬝ᵥ Darcy.evalGradient geoIn lfsS xS (geo.inInside qp.1)) -
        ((parOut.A (geo.inOutside qp.1) *ᵥ geo.centerUnitOuterNormal) ⬝ᵥ Darcy.evalGradient geoOut lfsN xN (geo.inOutside qp.1))) *
      (qp.2 * geo.integrationElement qp.1)).sum = integrateFace geo (2 * lfsS.order) fun q =>
        fluxJump geo geoIn geoOut parIn.A parOut.A lfsS xS lfsN xN q ^ 2 := by
    unfold integrateFace
    congr 1
    refine List.map_congr_left fun q _ => ?_
    rw [flux_symm (hsIn _), flux_symm (hsOut _)]
    simp only [fluxJump, hflat, gradient, Darcy.evalGradient]
    ring
  have h2 : ((geo.quadratureRule (2 * (lfsS.order : Int))).map fun qp =>
      (Darcy.evalFunction lfsS xS (geo.inInside qp.1) - Darcy.evalFunction lfsN xN (geo.inOutside qp.1)) *
      (Darcy.evalFunction lfsS xS (geo.inInside qp.1) - Darcy.evalFunction lfsN xN (geo.inOutside qp.1)) *
      (qp.2 * geo.integrationElement qp.1)).sum = integrateFace geo (2 * lfsS.order) fun q => valueJump geo lfsS xS lfsN xN q ^ 2 := by
    unfold integrateFace
    congr 1
    refine List.map_congr_left fun q _ => ?_
    simp only [valueJump, value, Darcy.evalFunction]
    ring
  rw [total_two, h1, h2]
  rcases side with s | s <;> simp only [Sum.elim_inl, Sum.elim_inr] <;> ring

/-- **C174 (Dirichlet boundary, discontinuous Galerkin).** `(γ/h_F + h_F/ε) ∫ (u - g)²` on the Dirichlet boundary, nothing elsewhere. -/
theorem C174_dgBoundary (hd : d = 2 ∨ d = 3) (gamma : K) {hF : K} (hF0 : hF ≠ 0) (geo : FaceGeo K P Q d) (geoIn : CellGeo K P d)
    (par : CellParam K P d) (fpar : FaceParam K Q) (lfs : Basis K P d n) (x : Fin n → K) {e : K}
    (he : IsMinDiagonal (par.A geoIn.center) e) (he0 : e ≠ 0) :
    ∃ calls, Estimator.DG.alphaBoundary gamma hF geo geoIn par fpar lfs x = some calls ∧
      total calls 0 = if fpar.bctype geo.center = .dirichlet then
          (gamma / hF + hF / e) * integrateFace geo (2 * lfs.order) fun q =>
            (value lfs x (geo.inInside q) - par.g (geo.inInside q)) ^ 2
        else 0 := by
  unfold Estimator.DG.alphaBoundary
  simp only [epsilon_eq hd he, divide_eq hF0, divide_eq he0, Option.bind_eq_bind, Option.bind_some, Option.pure_def]
  by_cases hb : fpar.bctype geo.center = .dirichlet
  · rw [if_neg (not_not.2 hb), if_pos hb]
    refine ⟨_, rfl, ?_⟩
    rw [total_one]
    congr 1
    unfold integrateFace
    congr 1
    refine List.map_congr_left fun q _ => ?_
    simp only [value, Darcy.evalFunction]
    ring
  · rw [if_pos hb, if_neg hb]
    exact ⟨_, rfl, by simp [total]⟩

private theorem cell_zero {geo : CellGeo K P d} {order : Int} (hw : ∀ q ∈ geo.quadratureRule order, 0 < q.2 * geo.integrationElement q.1)
    (g : P → K) : integrate geo order (fun p => g p ^ 2) = 0 ↔ ∀ q ∈ geo.quadratureRule order, g q.1 = 0 := by
  unfold integrate
  rw [sum_zero_iff fun q hq => mul_nonneg (sq_nonneg _) (hw q hq).le]
  refine forall_congr' fun q => forall_congr' fun hq => ?_
  rw [mul_eq_zero, or_iff_left (hw q hq).ne', sq_eq_zero_iff]

private theorem face_zero {geo : FaceGeo K P Q d} {order : Int}
    (hw : ∀ q ∈ geo.quadratureRule order, 0 < q.2 * geo.integrationElement q.1)
    (g : Q → K) : integrateFace geo order (fun p => g p ^ 2) = 0 ↔ ∀ q ∈ geo.quadratureRule order, g q.1 = 0 := by
  unfold integrateFace
  rw [sum_zero_iff fun q hq => mul_nonneg (sq_nonneg _) (hw q hq).le]
  refine forall_congr' fun q => forall_congr' fun hq => ?_
  rw [mul_eq_zero, or_iff_left (hw q hq).ne', sq_eq_zero_iff]

/-- **C174 (definiteness, discontinuous Galerkin).** The squared indicators are not negative, and they vanish exactly if the residual
of the equation, the jump of the flux and of the solution, and the deviation from the boundary values are zero at the quadrature
points. -/
theorem C174_dgDefinite (hd : d = 2 ∨ d = 3) {gamma hF hT : K} (hg : 0 ≤ gamma) (hF0 : 0 < hF) (hT0 : 0 < hT) (geo : FaceGeo K P Q d)
    (geoIn geoOut : CellGeo K P d) (parIn parOut : CellParam K P d) (fpar : FaceParam K Q)
    (hflat : ∀ q, geo.unitOuterNormal q = geo.centerUnitOuterNormal)
    (hsIn : ∀ p, (parIn.A p).IsSymm) (hsOut : ∀ p, (parOut.A p).IsSymm)
    (lfsS : Basis K P d n) (xS : Fin n → K) (lfsN : Basis K P d m) (xN : Fin m → K) (hp : lfsS.order ≠ 0)
    (hposIn : ∀ i, 0 < parIn.A geoIn.center i i) (hposOut : ∀ i, 0 < parOut.A geoOut.center i i)
    (hwc : ∀ q ∈ geoIn.quadratureRule (2 * lfsS.order), 0 < q.2 * geoIn.integrationElement q.1)
    (hwf : ∀ q ∈ geo.quadratureRule (2 * lfsS.order), 0 < q.2 * geo.integrationElement q.1) :
    (∃ calls, Estimator.DG.alphaVolume hT geoIn parIn lfsS xS = some calls ∧ 0 ≤ total calls 0 ∧
      (total calls 0 = 0 ↔ ∀ q ∈ geoIn.quadratureRule (2 * lfsS.order),
        parIn.f q.1 = parIn.b q.1 ⬝ᵥ gradient geoIn lfsS xS q.1 + parIn.c q.1 * value lfsS xS q.1)) ∧
    (∃ calls, Estimator.DG.alphaSkeleton gamma hF geo geoIn geoOut parIn parOut lfsS xS lfsN xN = some calls ∧
      ∀ side : Fin 1 ⊕ Fin 1, 0 ≤ total calls side ∧
      (total calls side = 0 ↔ ∀ q ∈ geo.quadratureRule (2 * lfsS.order),
        fluxJump geo geoIn geoOut parIn.A parOut.A lfsS xS lfsN xN q.1 = 0 ∧ valueJump geo lfsS xS lfsN xN q.1 = 0)) ∧
    (∃ calls, Estimator.DG.alphaBoundary gamma hF geo geoIn parIn fpar lfsS xS = some calls ∧ 0 ≤ total calls 0 ∧
      (total calls 0 = 0 ↔ fpar.bctype geo.center = .dirichlet → ∀ q ∈ geo.quadratureRule (2 * lfsS.order),
        value lfsS xS (geo.inInside q.1) = parIn.g (geo.inInside q.1))) := by
  obtain ⟨eS, _, heS⟩ := epsilon_spec hd (parIn.A geoIn.center)
  obtain ⟨eN, _, heN⟩ := epsilon_spec hd (parOut.A geoOut.center)
  have hS0 : 0 < eS := by obtain ⟨i, hi⟩ := heS.1; rw [hi]; exact hposIn i
  have hN0 : 0 < eN := by obtain ⟨i, hi⟩ := heN.1; rw [hi]; exact hposOut i
  have hp' : 0 < (lfsS.order : K) := Nat.cast_pos.2 (Nat.pos_of_ne_zero hp)
  refine ⟨?_, ?_, ?_⟩
  · obtain ⟨calls, h1, h2⟩ := C174_dgVolume hd hT geoIn parIn lfsS xS heS hS0.ne' hp
    have hfac : 0 < hT ^ 2 / ((lfsS.order : K) ^ 2 * eS) := by positivity
    refine ⟨calls, h1, ?_, ?_⟩
    · rw [h2]
      exact mul_nonneg hfac.le (cell_nonneg (fun q hq => (hwc q hq).le) fun _ => sq_nonneg _)
    · rw [h2, mul_eq_zero, or_iff_right hfac.ne', cell_zero hwc]
      refine forall_congr' fun q => forall_congr' fun _ => ?_
      constructor <;> intro h <;> linarith
  · obtain ⟨calls, h1, h2⟩ := C174_dgFace hd gamma hF0.ne' geo geoIn geoOut parIn parOut hflat hsIn hsOut lfsS xS lfsN xN heS heN
      hS0.ne' hN0.ne'
    refine ⟨calls, h1, fun side => ?_⟩
    have hside : 0 < (side.elim (fun _ => eS) fun _ => eN) := by rcases side with s | s <;> simpa
    have hfac : 0 < gamma / hF + hF / side.elim (fun _ => eS) fun _ => eN := by positivity
    have n1 := face_nonneg (fun q hq => (hwf q hq).le)
      (g := fun q => fluxJump geo geoIn geoOut parIn.A parOut.A lfsS xS lfsN xN q ^ 2) fun _ => sq_nonneg _
    have n2 := face_nonneg (fun q hq => (hwf q hq).le) (g := fun q => valueJump geo lfsS xS lfsN xN q ^ 2) fun _ => sq_nonneg _
    rw [h2]
    refine ⟨by positivity, ?_⟩
    have split : (∀ q ∈ geo.quadratureRule (2 * lfsS.order),
        fluxJump geo geoIn geoOut parIn.A parOut.A lfsS xS lfsN xN q.1 = 0 ∧ valueJump geo lfsS xS lfsN xN q.1 = 0) ↔
        (integrateFace geo (2 * lfsS.order) fun q => fluxJump geo geoIn geoOut parIn.A parOut.A lfsS xS lfsN xN q ^ 2) = 0 ∧
        (integrateFace geo (2 * lfsS.order) fun q => valueJump geo lfsS xS lfsN xN q ^ 2) = 0 := by
      rw [face_zero hwf, face_zero hwf]
      exact ⟨fun h => ⟨fun q hq => (h q hq).1, fun q hq => (h q hq).2⟩, fun h q hq => ⟨h.1 q hq, h.2 q hq⟩⟩
    rw [split]
    have m1 := mul_nonneg hF0.le n1
    have m2 := mul_nonneg hfac.le n2
    constructor
    · intro h
      have a1 : hF * (integrateFace geo (2 * lfsS.order) fun q =>
          fluxJump geo geoIn geoOut parIn.A parOut.A lfsS xS lfsN xN q ^ 2) = 0 := by linarith
      have a2 : (gamma / hF + hF / side.elim (fun _ => eS) fun _ => eN) * (integrateFace geo (2 * lfsS.order) fun q =>
          valueJump geo lfsS xS lfsN xN q ^ 2) = 0 := by linarith
      exact ⟨(mul_eq_zero.1 a1).resolve_left hF0.ne', (mul_eq_zero.1 a2).resolve_left hfac.ne'⟩
    · rintro ⟨a1, a2⟩; rw [a1, a2]; ring
  · obtain ⟨calls, h1, h2⟩ := C174_dgBoundary hd gamma hF0.ne' geo geoIn parIn fpar lfsS xS heS hS0.ne'
    have hfac : 0 < gamma / hF + hF / eS := by positivity
    refine ⟨calls, h1, ?_, ?_⟩
    · rw [h2]; split
      · exact mul_nonneg hfac.le (face_nonneg (fun q hq => (hwf q hq).le) fun _ => sq_nonneg _)
      · exact le_rfl
    · rw [h2]
      by_cases hb : fpar.bctype geo.center = .dirichlet
      · rw [if_pos hb, mul_eq_zero, or_iff_right hfac.ne', face_zero hwf]
        constructor
        · intro h _ q hq; exact sub_eq_zero.1 (h q hq)
        · intro h q hq; exact sub_eq_zero.2 (h hb q hq)
      · rw [if_neg hb]; simp [hb]

/-- **C174 (orientation, discontinuous Galerkin).** -/
theorem C174_dgOrientation (gamma hF : K) (geo : FaceGeo K P Q d) (geoIn geoOut : CellGeo K P d) (parIn parOut : CellParam K P d)
    (lfsS : Basis K P d n) (xS : Fin n → K) (lfsN : Basis K P d m) (xN : Fin m → K) (horder : lfsS.order = lfsN.order) :
    (Estimator.DG.alphaSkeleton gamma hF (otherSide geo) geoOut geoIn parOut parIn lfsN xN lfsS xS).map
        (fun calls side => total calls (Sum.swap side)) =
      (Estimator.DG.alphaSkeleton gamma hF geo geoIn geoOut parIn parOut lfsS xS lfsN xN).map fun calls => total calls := by
  unfold Estimator.DG.alphaSkeleton
  cases h1 : Estimator.DG.epsilon (parIn.A geoIn.center) <;> cases h2 : Estimator.DG.epsilon (parOut.A geoOut.center) <;>
    simp only [Option.bind_eq_bind, Option.bind_some, Option.bind_none, Option.map_none]
  rename_i eS eN
  cases h3 : Estimator.DG.divide gamma hF <;> cases h4 : Estimator.DG.divide hF eS <;> cases h5 : Estimator.DG.divide hF eN <;>
    simp only [Option.bind_some, Option.bind_none, Option.map_none, Option.pure_def, Option.map_some]
  congr 1
  funext side
  rw [total_two, total_two, ← horder]
  have e1 : ∀ q : Q, ((parOut.A (geo.inOutside q) *ᵥ (-geo.centerUnitOuterNormal)) ⬝ᵥ Darcy.evalGradient geoOut lfsN xN (geo.inOutside q)) -
      ((parIn.A (geo.inInside q) *ᵥ (-geo.centerUnitOuterNormal)) ⬝ᵥ Darcy.evalGradient geoIn lfsS xS (geo.inInside q)) =
      ((parIn.A (geo.inInside q) *ᵥ geo.centerUnitOuterNormal) ⬝ᵥ Darcy.evalGradient geoIn lfsS xS (geo.inInside q)) -
      ((parOut.A (geo.inOutside q) *ᵥ geo.centerUnitOuterNormal) ⬝ᵥ Darcy.evalGradient geoOut lfsN xN (geo.inOutside q)) := by
    intro q; simp only [mulVec_neg, neg_dotProduct]; ring
  have e2 : ∀ q : Q, (Darcy.evalFunction lfsN xN (geo.inOutside q) - Darcy.evalFunction lfsS xS (geo.inInside q)) *
      (Darcy.evalFunction lfsN xN (geo.inOutside q) - Darcy.evalFunction lfsS xS (geo.inInside q)) =
      (Darcy.evalFunction lfsS xS (geo.inInside q) - Darcy.evalFunction lfsN xN (geo.inOutside q)) *
      (Darcy.evalFunction lfsS xS (geo.inInside q) - Darcy.evalFunction lfsN xN (geo.inOutside q)) := by intro q; ring
  rcases side with s | s <;> simp only [otherSide, Sum.swap_inl, Sum.swap_inr, Sum.elim_inl, Sum.elim_inr, e1, e2]

example : IsMinDiagonal ((estParam 1 2).A estCell.center) 1 := ⟨⟨0, rfl⟩, by intro i; fin_cases i <;> simp [estParam]⟩
example : (Estimator.DG.alphaVolume 2 estCell (estParam 1 7) (estBasis 1) ![2]).map (fun c => total c 0) = some 36 := by decide +kernel
example : (Estimator.DG.alphaSkeleton 3 2 estFace estCell estCell (estParam 0 0) (estParam 0 0) (estBasis 1) ![5]
    (estBasis 1) ![1]).map (fun c => total c (.inr 0)) = some 44 := by decide +kernel
example := C174_dgDefinite (Or.inl rfl) (gamma := 3) (hF := 2) (hT := 2) (by norm_num) (by norm_num) (by norm_num) estFace estCell estCell
  (estParam 1 7) (estParam 1 7) ⟨fun _ => .dirichlet, fun _ => 3, fun _ => 0⟩ (fun _ => rfl) (fun _ => by simp [estParam, Matrix.IsSymm])
  (fun _ => by simp [estParam, Matrix.IsSymm]) (estBasis 1) ![5] (estBasis 1) ![1] one_ne_zero
  (by intro i; fin_cases i <;> simp [estParam]) (by intro i; fin_cases i <;> simp [estParam])
  (by decide +kernel) (by decide +kernel)

/-! ### C175: the indicators in time -/

/-- **C175 (Simpson's rule).** The averages in time are exact for polynomials of degree three: with an antiderivative `F` of
`p(τ) = a + bτ + cτ² + eτ³`, the mean of `p` is `(F(t+Δt) - F(t))/Δt`. -/
theorem C175_simpson (a b c e t : K) {dt : K} (hdt : dt ≠ 0) :
    let p := fun s : K => a + b * s + c * s ^ 2 + e * s ^ 3
    let F := fun s : K => a * s + b * s ^ 2 / 2 + c * s ^ 3 / 3 + e * s ^ 4 / 4
    timeMean t dt p = (F (t + dt) - F t) / dt := by
  intro p F
  simp only [timeMean, simpson, p, F]
  field_simp
  ring

/-- **C175 (cells, first estimator).** `h²/Δt ∫ u² + h² ∫∫ (f - f̄)²`, where `u` is the change of the solution in the time step, `f̄` the
mean of the source in time and the integral in time is computed with Simpson's rule. -/
theorem C175_volume1 (s : Estimator.Temporal.Step K) (hdt : s.dt ≠ 0) (hT : K) (geo : CellGeo K P d) (f : K → P → K) (paramTime : K)
    (lfs : Basis K P d n) (x : Fin n → K) :
    total (Estimator.Temporal.alphaVolume1 s hT geo f paramTime lfs x).1 0 =
      hT ^ 2 / s.dt * (integrate geo (2 * lfs.order) fun p => value lfs x p ^ 2) +
      hT ^ 2 * simpson s.time s.dt fun t => integrate geo (2 * lfs.order) fun p =>
        (f t p - timeMean s.time s.dt fun t' => f t' p) ^ 2 := by
  have hm : ∀ p, (timeMean s.time s.dt fun t' => f t' p) =
      1 / 6 * f s.time p + 2 / 3 * f (s.time + 1 / 2 * s.dt) p + 1 / 6 * f (s.time + s.dt) p := by
    intro p
    unfold timeMean simpson
    rw [mul_div_cancel_left₀ _ hdt, show s.time + s.dt / 2 = s.time + 1 / 2 * s.dt by ring]
  have e1 : ∀ g : P → K, ((geo.quadratureRule (2 * (lfs.order : Int))).map fun ip =>
      (g ip.1 - (1 / 6 * f s.time ip.1 + 2 / 3 * f (s.time + 1 / 2 * s.dt) ip.1 + 1 / 6 * f (s.time + s.dt) ip.1)) *
      (g ip.1 - (1 / 6 * f s.time ip.1 + 2 / 3 * f (s.time + 1 / 2 * s.dt) ip.1 + 1 / 6 * f (s.time + s.dt) ip.1)) *
      (ip.2 * geo.integrationElement ip.1)).sum =
      integrate geo (2 * lfs.order) fun p => (g p - timeMean s.time s.dt fun t' => f t' p) ^ 2 := by
    intro g
    unfold integrate
    congr 1
    exact List.map_congr_left fun q _ => by simp only [hm]; ring
  have e2 : ((geo.quadratureRule (2 * (lfs.order : Int))).map fun ip =>
      (∑ i, x i * lfs.phi ip.1 i) * (∑ i, x i * lfs.phi ip.1 i) * (ip.2 * geo.integrationElement ip.1)).sum =
      integrate geo (2 * lfs.order) fun p => value lfs x p ^ 2 := by
    unfold integrate value
    congr 1
    exact List.map_congr_left fun q _ => by ring
  simp only [Estimator.Temporal.alphaVolume1, e1 (f s.time), e1 (f (s.time + 1 / 2 * s.dt)), e1 (f (s.time + s.dt)), e2]
  simp only [total, List.filter_cons, decide_true, if_true, List.filter_nil, List.map_cons, List.map_nil, List.sum_cons, List.sum_nil]
  unfold simpson
  rw [show s.time + s.dt / 2 = s.time + 1 / 2 * s.dt by ring]
  ring

/-- **C175 (exact for linear sources).** For a source that is linear in time the oscillation is the exact integral
`h² Δt³/12 ∫ (∂f/∂t)²`. -/
theorem C175_volume1_linear (s : Estimator.Temporal.Step K) (hdt : s.dt ≠ 0) (hT : K) (geo : CellGeo K P d) (a b : P → K) (paramTime : K)
    (lfs : Basis K P d n) (x : Fin n → K) :
    total (Estimator.Temporal.alphaVolume1 s hT geo (fun t p => a p + t * b p) paramTime lfs x).1 0 =
      hT ^ 2 / s.dt * (integrate geo (2 * lfs.order) fun p => value lfs x p ^ 2) +
      hT ^ 2 * (s.dt ^ 3 / 12 * integrate geo (2 * lfs.order) fun p => b p ^ 2) := by
  rw [C175_volume1 s hdt]
  congr 2
  have hm : ∀ t p, ((a p + t * b p) - timeMean s.time s.dt fun t' => a p + t' * b p) ^ 2 = (t - s.time - s.dt / 2) ^ 2 * b p ^ 2 := by
    intro t p
    unfold timeMean simpson
    rw [mul_div_cancel_left₀ _ hdt]
    ring
  simp only [hm, cell_scaled]
  unfold simpson
  ring

/-- **C175 (cells, second estimator).** `Δt ∫ |∇u|² + Δt² ∫∫ |∇(If - If̄)|²`, where `I` is the interpolation on the cell. -/
theorem C175_volume (s : Estimator.Temporal.Step K) (hdt : s.dt ≠ 0) (geo : CellGeo K P d) (f : K → P → K)
    (interpolate : (P → K) → Fin n → K) (lfs : Basis K P d n) (x : Fin n → K) :
    total (Estimator.Temporal.alphaVolume s geo f interpolate lfs x).1 0 =
      s.dt * (integrate geo (2 * lfs.order) fun p => gradient geo lfs x p ⬝ᵥ gradient geo lfs x p) +
      s.dt ^ 2 * simpson s.time s.dt fun t => integrate geo (2 * lfs.order) fun p =>
        let g := gradient geo lfs (fun i => interpolate (f t) i - timeMean s.time s.dt fun t' => interpolate (f t') i) p
        g ⬝ᵥ g := by
  have hm : ∀ i, (timeMean s.time s.dt fun t' => interpolate (f t') i) =
      1 / 6 * interpolate (f s.time) i + 2 / 3 * interpolate (f (s.time + 1 / 2 * s.dt)) i + 1 / 6 * interpolate (f (s.time + s.dt)) i := by
    intro i
    unfold timeMean simpson
    rw [mul_div_cancel_left₀ _ hdt, show s.time + s.dt / 2 = s.time + 1 / 2 * s.dt by ring]
  have hg : ∀ (c c' : Fin n → K) (p : P), gradient geo lfs (fun i => c i - c' i) p = gradient geo lfs c p - gradient geo lfs c' p := by
    intro c c' p
    simp only [gradient, sub_smul, Finset.sum_sub_distrib]
  simp only [hg, hm]
  unfold Estimator.Temporal.alphaVolume simpson integrate
  rw [show s.time + s.dt / 2 = s.time + 1 / 2 * s.dt by ring]
  simp only [total, List.filter_cons, decide_true, if_true, List.filter_nil, List.map_cons, List.map_nil, List.sum_cons, List.sum_nil]
  simp only [gradient]
  ring

/-- **C175 (Neumann boundary).** `(h + Δt²/h) ∫∫ (j - j_mid)²` with the trapezoidal rule in time, on the faces that have a flux condition
at the time of the parameters. -/
theorem C175_boundary (s : Estimator.Temporal.Step K) (hT : K) (geo : FaceGeo K P Q d) (bctype : K → Q → BC) (j : K → Q → K)
    (paramTime : K) (lfs : Basis K P d n) :
    let osc := fun t => integrateFace geo (2 * lfs.order) fun q => (j t q - j (s.time + s.dt / 2) q) ^ 2
    total (Estimator.Temporal.alphaBoundary s hT geo bctype j paramTime lfs).1 0 =
      if bctype paramTime geo.center = .neumann then
        (hT + s.dt ^ 2 / hT) * (s.dt / 2 * (osc s.time + osc (s.time + s.dt)))
      else 0 := by
  intro osc
  unfold Estimator.Temporal.alphaBoundary
  by_cases hb : bctype paramTime geo.center = .neumann
  · rw [if_neg (not_not.2 hb), if_pos hb, total_one]
    have e : ∀ t, ((geo.quadratureRule (2 * (lfs.order : Int))).map fun ip =>
        (j t ip.1 - j (s.time + 1 / 2 * s.dt) ip.1) * (j t ip.1 - j (s.time + 1 / 2 * s.dt) ip.1) *
        (ip.2 * geo.integrationElement ip.1)).sum = osc t := by
      intro t
      simp only [osc, integrateFace]
      congr 1
      exact List.map_congr_left fun q _ => by rw [show s.time + s.dt / 2 = s.time + 1 / 2 * s.dt by ring]; ring
    simp only [e]
    ring
  · rw [if_pos hb, if_neg hb]; simp [total]

/-- **C175 (nonnegative).** -/
theorem C175_nonneg (s : Estimator.Temporal.Step K) (hdt : 0 < s.dt) {hT : K} (hh : 0 < hT) (geo : CellGeo K P d) (face : FaceGeo K P Q d)
    (f : K → P → K) (bctype : K → Q → BC) (j : K → Q → K) (interpolate : (P → K) → Fin n → K) (paramTime : K) (lfs : Basis K P d n)
    (x : Fin n → K) (hw : NonnegWeights geo (2 * lfs.order)) (hwf : NonnegFaceWeights face (2 * lfs.order)) :
    0 ≤ total (Estimator.Temporal.alphaVolume1 s hT geo f paramTime lfs x).1 0 ∧
    0 ≤ total (Estimator.Temporal.alphaVolume s geo f interpolate lfs x).1 0 ∧
    0 ≤ total (Estimator.Temporal.alphaBoundary s hT face bctype j paramTime lfs).1 0 := by
  have hs : ∀ g : K → K, (∀ t, 0 ≤ g t) → 0 ≤ simpson s.time s.dt g := by
    intro g hg
    have h1 := hg s.time
    have h2 := hg (s.time + s.dt / 2)
    have h3 := hg (s.time + s.dt)
    unfold simpson
    positivity
  have hdot : ∀ v : Fin d → K, 0 ≤ v ⬝ᵥ v := fun v => Finset.sum_nonneg fun i _ => mul_self_nonneg _
  refine ⟨?_, ?_, ?_⟩
  · rw [C175_volume1 s hdt.ne']
    have h1 := cell_nonneg hw (g := fun p => value lfs x p ^ 2) fun _ => sq_nonneg _
    have h2 := hs _ fun t => cell_nonneg hw (g := fun p => (f t p - timeMean s.time s.dt fun t' => f t' p) ^ 2) fun _ => sq_nonneg _
    positivity
  · rw [C175_volume s hdt.ne']
    have h1 := cell_nonneg hw (g := fun p => gradient geo lfs x p ⬝ᵥ gradient geo lfs x p) fun _ => hdot _
    have h2 := hs _ fun t => cell_nonneg hw (g := fun p =>
      gradient geo lfs (fun i => interpolate (f t) i - timeMean s.time s.dt fun t' => interpolate (f t') i) p ⬝ᵥ
      gradient geo lfs (fun i => interpolate (f t) i - timeMean s.time s.dt fun t' => interpolate (f t') i) p) fun _ => hdot _
    positivity
  · rw [C175_boundary]
    split
    · have h1 := face_nonneg hwf (g := fun q => (j s.time q - j (s.time + s.dt / 2) q) ^ 2) fun _ => sq_nonneg _
      have h2 := face_nonneg hwf (g := fun q => (j (s.time + s.dt) q - j (s.time + s.dt / 2) q) ^ 2) fun _ => sq_nonneg _
      positivity
    · exact le_rfl

/-- **C175 (stationary).** If the data do not depend on time and the solution does not change, the indicators vanish. -/
theorem C175_stationary (s : Estimator.Temporal.Step K) (hdt : s.dt ≠ 0) (hT : K) (geo : CellGeo K P d) (face : FaceGeo K P Q d)
    (f : K → P → K) (bctype : K → Q → BC) (j : K → Q → K) (interpolate : (P → K) → Fin n → K) (paramTime : K) (lfs : Basis K P d n)
    (hf : ∀ t t' p, f t p = f t' p) (hj : ∀ t t' q, j t q = j t' q) :
    total (Estimator.Temporal.alphaVolume1 s hT geo f paramTime lfs (0 : Fin n → K)).1 0 = 0 ∧
    total (Estimator.Temporal.alphaVolume s geo f interpolate lfs (0 : Fin n → K)).1 0 = 0 ∧
    total (Estimator.Temporal.alphaBoundary s hT face bctype j paramTime lfs).1 0 = 0 := by
  have hmean : ∀ c : K, timeMean s.time s.dt (fun _ => c) = c := by
    intro c; unfold timeMean simpson; rw [mul_div_cancel_left₀ _ hdt]; ring
  have hf' : f = fun _ => f s.time := by funext t p; exact hf _ _ _
  refine ⟨?_, ?_, ?_⟩
  · rw [C175_volume1 s hdt, hf']
    simp only [hmean]
    simp [integrate, value, simpson]
  · rw [C175_volume s hdt, hf']
    simp only [hmean]
    simp [integrate, gradient, simpson]
  · rw [C175_boundary]
    split
    · simp only [hj _ (s.time + s.dt / 2), sub_self]
      simp [integrateFace]
    · rfl

/-- **C175 (history).** What is assembled for a cell and its boundary faces does not depend on the time that the parameters had before;
the type of the boundary condition is the one at the end of the time step, and this is the time that the parameters are left at. -/
theorem C175_history (s : Estimator.Temporal.Step K) (hT : K) (geo : CellGeo K P d) (f : K → P → K)
    (interpolate : (P → K) → Fin n → K) (lfs : Basis K P d n) (x : Fin n → K) (faces : List (Estimator.Temporal.BoundaryFace K P Q d))
    (paramTime : K) :
    let r := Estimator.Temporal.cell s hT geo f interpolate lfs x faces paramTime
    r.2 = s.time + s.dt ∧
    total r.1 0 = total (Estimator.Temporal.alphaVolume s geo f interpolate lfs x).1 0 +
      (faces.map fun face =>
        total (Estimator.Temporal.alphaBoundary s hT face.geo face.bctype face.j (s.time + s.dt) lfs).1 0).sum := by
  have happ : ∀ a b : List (Fin 1 × K), total (a ++ b) 0 = total a 0 + total b 0 := by
    intro a b; simp [total]
  have key : ∀ (l : List (Estimator.Temporal.BoundaryFace K P Q d)) (r : Calls (Fin 1) K × K), r.2 = s.time + s.dt →
      (l.foldl (fun r face =>
        let b := Estimator.Temporal.alphaBoundary s hT face.geo face.bctype face.j r.2 lfs
        (r.1 ++ b.1, b.2)) r).2 = s.time + s.dt ∧
      total (l.foldl (fun r face =>
        let b := Estimator.Temporal.alphaBoundary s hT face.geo face.bctype face.j r.2 lfs
        (r.1 ++ b.1, b.2)) r).1 0 = total r.1 0 + (l.map fun face =>
        total (Estimator.Temporal.alphaBoundary s hT face.geo face.bctype face.j (s.time + s.dt) lfs).1 0).sum := by
    intro l
    induction l with
    | nil => intro r hr; simp [hr]
    | cons face l ih =>
      intro r hr
      simp only [List.foldl_cons, List.map_cons, List.sum_cons]
      have hb : (Estimator.Temporal.alphaBoundary s hT face.geo face.bctype face.j r.2 lfs).2 = s.time + s.dt := by
        rw [hr]
        unfold Estimator.Temporal.alphaBoundary
        split
        · rfl
        · simp only; split <;> rfl
      obtain ⟨h1, h2⟩ := ih (r.1 ++ (Estimator.Temporal.alphaBoundary s hT face.geo face.bctype face.j r.2 lfs).1,
        (Estimator.Temporal.alphaBoundary s hT face.geo face.bctype face.j r.2 lfs).2) hb
      refine ⟨h1, ?_⟩
      rw [h2, happ, hr, add_assoc]
  exact key faces _ rfl

/-- **C175 fails: the assembly has an effect.** The parameters are left at the end of the time step, also if other operators that share
them have set another time. -/
theorem C175_paramTime_false :
    (Estimator.Temporal.alphaVolume1 (⟨0, 1⟩ : Estimator.Temporal.Step ℚ) 1 estCell (fun t _ => t) 0 (estBasis 1) ![1]).2 ≠ 0 ∧
    (Estimator.Temporal.cell (Q := Unit) (⟨0, 1⟩ : Estimator.Temporal.Step ℚ) 1 estCell (fun t _ => t) (fun g _ => g ()) (estBasis 1) ![1]
      [] 0).2 ≠ 0 := by
  constructor <;> decide +kernel

example : total (Estimator.Temporal.alphaVolume1 (⟨0, 6⟩ : Estimator.Temporal.Step ℚ) 1 estCell (fun t _ => t) 0 (estBasis 1) ![6]).1 0 =
    24 := by decide +kernel
example : total (Estimator.Temporal.alphaVolume (⟨0, 6⟩ : Estimator.Temporal.Step ℚ) estCell (fun t _ => t) (fun g _ => g ()) (estBasis 1)
    ![1]).1 0 = 654 := by decide +kernel
example : total (Estimator.Temporal.alphaBoundary (⟨0, 2⟩ : Estimator.Temporal.Step ℚ) 1 estFace (fun _ _ => .neumann) (fun t _ => t) 0
    (estBasis 1)).1 0 = 10 := by decide +kernel

end Verif
