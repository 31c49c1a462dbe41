import Verif.Proofs.AmgBackends
import Mathlib.Algebra.Field.Rat
import Mathlib.LinearAlgebra.Matrix.Notation
import Mathlib.Algebra.BigOperators.Fin
/-
C179 (preconditioner with smoothing in the discontinuous space and a correction in a conforming subspace), C180 (matrix of the embedding of the
conforming space), C181 (life cycle of the solver backends with multigrid).
-/
set_option linter.unusedSectionVars false
namespace Verif

open Matrix AmgBackends

/-! ### C179 -/

section
variable {K ι κ : Type} [CommRing K] [Fintype ι] [Fintype κ] [DecidableEq ι]

/-- Specification: the textbook correction of an approximate solution `x` of `A x = b` with an approximate inverse `B`. -/
def correction (A B : Matrix ι ι K) (b x : ι → K) : ι → K := x + B *ᵥ (b - A *ᵥ x)

/-- C179: an application adds to `x` the result of `n1` smoothing corrections, one correction in the subspace and `n2` smoothing corrections
for `A y = b`, starting with zero: what is added does not depend on `x`. Negative numbers of steps mean none. -/
theorem C179_apply (A S : Matrix ι ι K) (P : Matrix ι κ K) (C : Matrix κ κ K) (dgprec : (ι → K) → (ι → K) → ι → K)
    (cgprec : (κ → K) → (κ → K) → κ → K) (hS : ∀ d, dgprec 0 d = S *ᵥ d) (hC : ∀ c, cgprec 0 c = C *ᵥ c) (n1 n2 : Int) (x b : ι → K) :
    hybridApply A P dgprec cgprec n1 n2 x b =
      x + (correction A S b)^[n2.toNat] (correction A (P * C * Pᵀ) b ((correction A S b)^[n1.toNat] 0)) :=
  hybrid_relax A S P C dgprec cgprec hS hC n1 n2 x b

/-- C179, the error of the result for `A u = b`: the product of the error propagations of the parts. -/
theorem C179_error (A S : Matrix ι ι K) (P : Matrix ι κ K) (C : Matrix κ κ K) (dgprec : (ι → K) → (ι → K) → ι → K)
    (cgprec : (κ → K) → (κ → K) → κ → K) (hS : ∀ d, dgprec 0 d = S *ᵥ d) (hC : ∀ c, cgprec 0 c = C *ᵥ c) (n1 n2 : Nat) (u : ι → K) :
    u - hybridApply A P dgprec cgprec n1 n2 0 (A *ᵥ u) =
      ((1 - S * A) ^ n2 * (1 - P * C * Pᵀ * A) * (1 - S * A) ^ n1) *ᵥ u := by
  rw [hybrid_relax A S P C dgprec cgprec hS hC, zero_add, Int.toNat_natCast, Int.toNat_natCast, relaxP_iterate_error, relaxP_error,
    relaxP_iterate_error, sub_zero, mulVec_mulVec, mulVec_mulVec, Matrix.mul_assoc]

/-- C179: with as many steps before as after the correction and symmetric parts the preconditioner is symmetric, as conjugate gradients require;
the matrix need not be definite. -/
theorem C179_symmetric (A S : Matrix ι ι K) (P : Matrix ι κ K) (C : Matrix κ κ K) (dgprec : (ι → K) → (ι → K) → ι → K)
    (cgprec : (κ → K) → (κ → K) → κ → K) (hS : ∀ d, dgprec 0 d = S *ᵥ d) (hC : ∀ c, cgprec 0 c = C *ᵥ c) (hA : A.IsSymm) (hSs : S.IsSymm)
    (hCs : C.IsSymm) (n : Int) (b c : ι → K) :
    c ⬝ᵥ hybridApply A P dgprec cgprec n n 0 b = b ⬝ᵥ hybridApply A P dgprec cgprec n n 0 c := by
  have hT : (P * C * Pᵀ).IsSymm := by
    unfold Matrix.IsSymm
    rw [transpose_mul, transpose_mul, transpose_transpose, hCs.eq, Matrix.mul_assoc]
  have hM := hybrid_symm A S (P * C * Pᵀ) hA hSs hT n.toNat
  rw [hybrid_relax A S P C dgprec cgprec hS hC, hybrid_relax A S P C dgprec cgprec hS hC, zero_add, zero_add, hybrid_matrix, hybrid_matrix,
    dotProduct_mulVec, ← mulVec_transpose, hM.eq, dotProduct_comm]

/-- C179, exact solution in the subspace as last step: the defect has no component in the subspace. -/
theorem C179_defect (A S : Matrix ι ι K) (P : Matrix ι κ K) (C : Matrix κ κ K) (dgprec : (ι → K) → (ι → K) → ι → K)
    (cgprec : (κ → K) → (κ → K) → κ → K) [DecidableEq κ] (hS : ∀ d, dgprec 0 d = S *ᵥ d) (hC : ∀ c, cgprec 0 c = C *ᵥ c)
    (hex : (Pᵀ * A * P) * C = 1) (n1 : Int) (b : ι → K) :
    Pᵀ *ᵥ (b - A *ᵥ hybridApply A P dgprec cgprec n1 0 0 b) = 0 := by
  rw [hybrid_relax A S P C dgprec cgprec hS hC, zero_add]
  simp only [Int.toNat_zero, Function.iterate_zero, id_eq]
  generalize (relaxP A S b)^[n1.toNat] 0 = x
  unfold relaxP
  have h : ∀ d : ι → K, Pᵀ *ᵥ (A *ᵥ ((P * C * Pᵀ) *ᵥ d)) = Pᵀ *ᵥ d := fun d => by
    rw [mulVec_mulVec, mulVec_mulVec, show Pᵀ * A * (P * C * Pᵀ) = Pᵀ * A * P * C * Pᵀ by simp only [Matrix.mul_assoc], hex, Matrix.one_mul]
  rw [mulVec_add, ← sub_sub, mulVec_sub, h, sub_self]

/-- C179, exact solution in the subspace as first step: a solution in the subspace is found, whatever the number of later smoothing steps. -/
theorem C179_subspace (A S : Matrix ι ι K) (P : Matrix ι κ K) (C : Matrix κ κ K) (dgprec : (ι → K) → (ι → K) → ι → K)
    (cgprec : (κ → K) → (κ → K) → κ → K) [DecidableEq κ] (hS : ∀ d, dgprec 0 d = S *ᵥ d) (hC : ∀ c, cgprec 0 c = C *ᵥ c)
    (hex : C * (Pᵀ * A * P) = 1) (n2 : Int) (z : κ → K) :
    hybridApply A P dgprec cgprec 0 n2 0 (A *ᵥ (P *ᵥ z)) = P *ᵥ z := by
  rw [hybrid_relax A S P C dgprec cgprec hS hC, zero_add]
  simp only [Int.toNat_zero, Function.iterate_zero, id_eq]
  have h1 : relaxP A (P * C * Pᵀ) (A *ᵥ (P *ᵥ z)) 0 = P *ᵥ z := by
    have e : P * C * Pᵀ * A * P = P := by
      rw [show P * C * Pᵀ * A * P = P * (C * (Pᵀ * A * P)) by simp only [Matrix.mul_assoc], hex, Matrix.mul_one]
    simp only [relaxP, mulVec_zero, sub_zero, zero_add, mulVec_mulVec, ← Matrix.mul_assoc]
    rw [e]
  rw [h1]
  have h := relaxP_iterate_error A S (P *ᵥ z) (P *ᵥ z) n2.toNat
  rw [sub_self, mulVec_zero] at h
  exact (sub_eq_zero.mp h).symm
end

/-- C179: the preconditioner is positive definite if the matrix is symmetric and positive definite, the smoother converges in the energy norm and the correction in the
subspace does not increase the energy of the error (an exact solver or a convergent multigrid cycle), with at least one smoothing step. -/
theorem C179_positive {K ι κ : Type} [Field K] [LinearOrder K] [IsStrictOrderedRing K] [Fintype ι] [Fintype κ] [DecidableEq ι]
    (A S : Matrix ι ι K) (P : Matrix ι κ K) (C : Matrix κ κ K) (dgprec : (ι → K) → (ι → K) → ι → K)
    (cgprec : (κ → K) → (κ → K) → κ → K) (hS : ∀ d, dgprec 0 d = S *ᵥ d) (hC : ∀ c, cgprec 0 c = C *ᵥ c) (hA : A.IsSymm)
    (hpos : ∀ x, x ≠ 0 → 0 < x ⬝ᵥ A *ᵥ x)
    (hsmooth : ∀ d, d ≠ 0 → (S *ᵥ d) ⬝ᵥ A *ᵥ (S *ᵥ d) < 2 * ((S *ᵥ d) ⬝ᵥ d))
    (hcoarse : ∀ c, (C *ᵥ c) ⬝ᵥ (Pᵀ * A * P) *ᵥ (C *ᵥ c) ≤ 2 * ((C *ᵥ c) ⬝ᵥ c))
    (n1 n2 : Nat) (hn : 1 ≤ n1 + n2) (b : ι → K) (hb : b ≠ 0) :
    0 < b ⬝ᵥ hybridApply A P dgprec cgprec n1 n2 0 b := by
  rw [hybrid_relax A S P C dgprec cgprec hS hC, zero_add]
  exact hybrid_positive A S P C hA hpos hsmooth hcoarse n1 n2 hn b hb

/-- A matrix, a smoother (half a Jacobi step) and a subspace. -/
def hybridA : Matrix (Fin 2) (Fin 2) Rat := !![2, -1; -1, 2]
def hybridS : Matrix (Fin 2) (Fin 2) Rat := !![1 / 4, 0; 0, 1 / 4]
def hybridP : Matrix (Fin 2) (Fin 1) Rat := !![1; 1]
def hybridC : Matrix (Fin 1) (Fin 1) Rat := !![1 / 2]

example : hybridA.IsSymm ∧ hybridS.IsSymm ∧ hybridC.IsSymm ∧ (hybridPᵀ * hybridA * hybridP) * hybridC = 1 ∧
    hybridC * (hybridPᵀ * hybridA * hybridP) = 1 := by
  unfold Matrix.IsSymm; decide +kernel

example : hybridApply hybridA hybridP (fun _ d => hybridS *ᵥ d) (fun _ c => hybridC *ᵥ c) 1 1 0 ![1, 0] = ![21 / 32, 11 / 32] := by decide +kernel

theorem hybridA_quadratic (x : Fin 2 → Rat) : x ⬝ᵥ hybridA *ᵥ x = x 0 ^ 2 + x 1 ^ 2 + (x 0 - x 1) ^ 2 := by
  simp [hybridA, dotProduct, mulVec, Fin.sum_univ_two]; ring

private theorem two_ne {x : Fin 2 → Rat} (h : x ≠ 0) : 0 < x 0 ^ 2 + x 1 ^ 2 := by
  by_contra hh
  apply h
  have h0 := sq_nonneg (x 0)
  have h1 := sq_nonneg (x 1)
  have e0 : x 0 ^ 2 = 0 := by linarith
  have e1 : x 1 ^ 2 = 0 := by linarith
  funext i
  fin_cases i
  · simpa using e0
  · simpa using e1

/-- The hypotheses of `C179_positive` hold for it. -/
example : (∀ x, x ≠ 0 → 0 < x ⬝ᵥ hybridA *ᵥ x) ∧
    (∀ d, d ≠ 0 → (hybridS *ᵥ d) ⬝ᵥ hybridA *ᵥ (hybridS *ᵥ d) < 2 * ((hybridS *ᵥ d) ⬝ᵥ d)) ∧
    (∀ c, (hybridC *ᵥ c) ⬝ᵥ (hybridPᵀ * hybridA * hybridP) *ᵥ (hybridC *ᵥ c) ≤ 2 * ((hybridC *ᵥ c) ⬝ᵥ c)) := by
  refine ⟨fun x hx => ?_, fun d hd => ?_, fun c => ?_⟩
  · rw [hybridA_quadratic]
    have := two_ne hx
    have := sq_nonneg (x 0 - x 1)
    linarith
  · rw [hybridA_quadratic]
    have h := two_ne hd
    have h2 := sq_nonneg (d 0 + d 1)
    simp only [hybridS, dotProduct, mulVec, Fin.sum_univ_two, Matrix.of_apply, Matrix.cons_val_zero, Matrix.cons_val_one, zero_mul, add_zero, zero_add]
    nlinarith
  · have h := sq_nonneg (c 0)
    have e : hybridPᵀ * hybridA * hybridP = !![2] := by decide +kernel
    rw [e]
    simp only [hybridC, dotProduct, mulVec, Fin.sum_univ_one, Matrix.of_apply, Matrix.cons_val_zero]
    simp
    nlinarith

/-! ### C180 -/

section
variable {K Pt ι κ : Type} [CommRing K] [Fintype κ] [DecidableEq ι] [DecidableEq κ]

/-- Specification: the component `l` of the conforming function with coefficients `z` on a cell. -/
def conformingFunction (c : Cell K Pt ι κ) (z : κ → K) (l : Fin c.leaves.length) (p : Pt) : K :=
  ∑ i, z (c.uIndex ⟨l, i⟩) * (c.leaves.get l).shape i p

/-- Specification: the component `l` of the discontinuous function with coefficients `w` on a cell, for given shape functions. -/
def discontinuousFunction (c : Cell K Pt ι κ) (psi : (l : Fin c.leaves.length) → Fin (c.leaves.get l).nv → Pt → K) (w : ι → K)
    (l : Fin c.leaves.length) (p : Pt) : K :=
  ∑ j, w (c.vIndex ⟨l, j⟩) * psi l j p

/-- The degrees of freedom of the discontinuous space belong to a single local index of a single cell. -/
def Discontinuous (cells : List (Cell K Pt ι κ)) : Prop :=
  (cells.Pairwise fun c c' => ∀ j j', c.vIndex j ≠ c'.vIndex j') ∧ ∀ c ∈ cells, Function.Injective c.vIndex

/-- C180, the rows of the matrix: the coefficients of the interpolation of the conforming shape functions with the same component on
the cell that the row belongs to. -/
theorem C180_rows (cells : List (Cell K Pt ι κ)) (hd : Discontinuous cells) (c : Cell K Pt ι κ) (hc : c ∈ cells) (l : Fin c.leaves.length)
    (j : Fin (c.leaves.get l).nv) (z : κ → K) :
    (prolongation cells *ᵥ z) (c.vIndex ⟨l, j⟩) =
      ∑ i, (c.leaves.get l).interpolate ((c.leaves.get l).shape i) j * z (c.uIndex ⟨l, i⟩) := by
  have hrow : ∀ k, prolongation cells (c.vIndex ⟨l, j⟩) k = ∑ i, if c.uIndex i = k then entryP c.leaves ⟨l, j⟩ i else 0 := by
    intro k
    rw [prolongation_eq]
    have key : ∀ (cs : List (Cell K Pt ι κ)), (cs.Pairwise fun c c' => ∀ j j', c.vIndex j ≠ c'.vIndex j') → c ∈ cs →
        (cs.map fun c' => ∑ j', ∑ i, if c'.vIndex j' = c.vIndex ⟨l, j⟩ ∧ c'.uIndex i = k then entryP c'.leaves j' i else 0).sum =
          ∑ j', ∑ i, if c.vIndex j' = c.vIndex ⟨l, j⟩ ∧ c.uIndex i = k then entryP c.leaves j' i else 0 := by
      have zero : ∀ c' : Cell K Pt ι κ, (∀ j', c'.vIndex j' ≠ c.vIndex ⟨l, j⟩) →
          (∑ j', ∑ i, if c'.vIndex j' = c.vIndex ⟨l, j⟩ ∧ c'.uIndex i = k then entryP c'.leaves j' i else 0) = 0 := by
        intro c' h
        exact Finset.sum_eq_zero fun j' _ => Finset.sum_eq_zero fun i _ => if_neg fun hh => h j' hh.1
      intro cs
      induction cs with
      | nil => intro _ h; cases h
      | cons a cs ih =>
        intro hp hm
        rw [List.pairwise_cons] at hp
        rw [List.map_cons, List.sum_cons]
        rcases List.mem_cons.mp hm with rfl | hm'
        · have : (cs.map fun c' => ∑ j', ∑ i, if c'.vIndex j' = c.vIndex ⟨l, j⟩ ∧ c'.uIndex i = k then entryP c'.leaves j' i else 0).sum = 0 := by
            apply List.sum_eq_zero
            intro v hv
            obtain ⟨c', hc', rfl⟩ := List.mem_map.mp hv
            exact zero c' fun j' => (hp.1 c' hc' ⟨l, j⟩ j').symm
          rw [this, add_zero]
        · rw [ih hp.2 hm', zero a fun j' => hp.1 c hm' j' ⟨l, j⟩, zero_add]
    rw [key cells hd.1 hc, Finset.sum_eq_single ⟨l, j⟩]
    · simp
    · intro j' _ hj
      exact Finset.sum_eq_zero fun i _ => if_neg fun hh => hj (hd.2 c hc hh.1)
    · intro h; exact absurd (Finset.mem_univ _) h
  have e1 : (prolongation cells *ᵥ z) (c.vIndex ⟨l, j⟩) = ∑ i : UIndex c.leaves, entryP c.leaves ⟨l, j⟩ i * z (c.uIndex i) := by
    change ∑ k, prolongation cells (c.vIndex ⟨l, j⟩) k * z k = _
    simp only [hrow, Finset.sum_mul]
    rw [Finset.sum_comm]
    refine Finset.sum_congr rfl fun i _ => ?_
    simp [ite_mul]
  rw [e1, Fintype.sum_sigma, Finset.sum_eq_single l]
  · simp [entryP]
  · intro l' _ hl
    refine Finset.sum_eq_zero fun i _ => ?_
    simp [entryP, Ne.symm hl]
  · intro h; exact absurd (Finset.mem_univ _) h

/-- C180: the product of the matrix with the coefficients of a conforming function are the coefficients of the same function in the discontinuous space,
on every cell and for every component, if the interpolation of the discontinuous finite element reproduces the conforming shape functions. -/
theorem C180_embedding (cells : List (Cell K Pt ι κ)) (hd : Discontinuous cells) (c : Cell K Pt ι κ) (hc : c ∈ cells)
    (psi : (l : Fin c.leaves.length) → Fin (c.leaves.get l).nv → Pt → K) (l : Fin c.leaves.length)
    (hrep : ∀ i p, ∑ j, (c.leaves.get l).interpolate ((c.leaves.get l).shape i) j * psi l j p = (c.leaves.get l).shape i p)
    (z : κ → K) (p : Pt) :
    discontinuousFunction c psi (prolongation cells *ᵥ z) l p = conformingFunction c z l p := by
  unfold discontinuousFunction conformingFunction
  simp only [C180_rows cells hd c hc, Finset.sum_mul]
  rw [Finset.sum_comm]
  refine Finset.sum_congr rfl fun i _ => ?_
  rw [← hrep i p, Finset.mul_sum]
  exact Finset.sum_congr rfl fun j _ => by ring

/-- C180: for a form that depends on the functions only, the matrix `Pᵀ A P` in the subspace is the matrix of the form for the conforming functions. -/
theorem C180_galerkin [Fintype ι] {F : Type} (form : F → F → K) (A : Matrix ι ι K) (dg : (ι → K) → F) (cg : (κ → K) → F)
    (hA : ∀ w w', w ⬝ᵥ A *ᵥ w' = form (dg w) (dg w')) (P : Matrix ι κ K) (hP : ∀ z, dg (P *ᵥ z) = cg z) (z z' : κ → K) :
    z ⬝ᵥ (Pᵀ * A * P) *ᵥ z' = form (cg z) (cg z') := by
  rw [← hP, ← hP, ← hA, ← mulVec_mulVec, ← mulVec_mulVec, dotProduct_mulVec, vecMul_transpose]
end

/-- Two intervals with linear functions, points are 0 and 1 in each: the functions are given by their values. -/
def linearLeaf : LeafPair Rat Bool :=
  ⟨2, 2, fun i p => if i = 0 then (if p then 0 else 1) else (if p then 1 else 0), fun f j => if j = 0 then f false else f true⟩
def linearCells : List (Cell Rat Bool (Fin 4) (Fin 3)) :=
  [⟨[linearLeaf], fun i => if i.2.val = 0 then 0 else 1, fun j => if j.2.val = 0 then 0 else 1⟩,
   ⟨[linearLeaf], fun i => if i.2.val = 0 then 1 else 2, fun j => if j.2.val = 0 then 2 else 3⟩]

example : prolongation linearCells = !![1, 0, 0; 0, 1, 0; 0, 1, 0; 0, 0, 1] := by decide +kernel

example : Discontinuous linearCells := by
  constructor
  · unfold linearCells
    rw [List.pairwise_cons]
    refine ⟨?_, List.pairwise_singleton _ _⟩
    intro c hc
    obtain rfl := List.mem_singleton.mp hc
    rintro j j'
    by_cases h : j.2.val = 0 <;> by_cases h' : j'.2.val = 0 <;> simp [h, h']
  · intro c hc
    have inj : ∀ j j' : VIndex [linearLeaf], ((j.2.val = 0) ↔ (j'.2.val = 0)) → j = j' := by decide +kernel
    rcases List.mem_cons.mp hc with rfl | hc
    · intro j j' h
      apply inj
      by_cases h0 : j.2.val = 0 <;> by_cases h1 : j'.2.val = 0 <;> simp [h0, h1] at h ⊢
    · obtain rfl := List.mem_singleton.mp hc
      intro j j' h
      apply inj
      by_cases h0 : j.2.val = 0 <;> by_cases h1 : j'.2.val = 0 <;> simp [h0, h1] at h ⊢

example : ∀ (i : Fin linearLeaf.nu) (p : Bool),
    ∑ j : Fin linearLeaf.nv, linearLeaf.interpolate (linearLeaf.shape i) j * linearLeaf.shape j p = linearLeaf.shape i p := by
  decide +kernel

/-! ### C181 -/

/-- What happens to a backend and to the matrices. -/
inductive AmgEvent (M : Type) where
  | write (a : Nat) (m : M)
  | destroy (a : Nat)
  | setReuse (r : Bool)
  | apply (a : Nat)

/-- The state after an event. -/
def amgEvent {M : Type} (s : Heap M × SeqAMG M) : AmgEvent M → Heap M × SeqAMG M
  | .write a m => (fun b => if b = a then some m else s.1 b, s.2)
  | .destroy a => (fun b => if b = a then none else s.1 b, s.2)
  | .setReuse r => (s.1, { s.2 with reuse := r })
  | .apply a => (s.1, (SeqAMG.apply s.1 s.2 a).1)

/-- Every history of a backend. -/
def amgRun {M : Type} (heap : Heap M) (reuse : Bool) (es : List (AmgEvent M)) : Heap M × SeqAMG M :=
  es.foldl amgEvent (heap, SeqAMG.create reuse)

/-- The addresses solved with. -/
def AmgEvent.address? {M : Type} : AmgEvent M → Option Nat
  | .apply a => some a
  | _ => none

private theorem amg_inv {M : Type} (heap : Heap M) (reuse : Bool) (es : List (AmgEvent M)) (a : Nat)
    (hsame : ∀ b ∈ es.filterMap AmgEvent.address?, b = a) :
    ((amgRun heap reuse es).2.firstapply = false → (amgRun heap reuse es).2.oop = some a) := by
  unfold amgRun
  induction es using List.reverseRecOn with
  | nil => intro h; cases h
  | append_singleton es e ih =>
    rw [List.filterMap_append] at hsame
    have ih := ih fun b hb => hsame b (List.mem_append_left _ hb)
    rw [List.foldl_append, List.foldl_cons, List.foldl_nil]
    cases e with
    | write a m => exact ih
    | destroy a => exact ih
    | setReuse r => exact ih
    | apply b =>
      obtain rfl : b = a := hsame b (List.mem_append_right _ (by simp [AmgEvent.address?]))
      simp only [amgEvent, SeqAMG.apply]
      split
      · intro _; rfl
      · exact ih

/-- C181, sequential backend: after every history, if the hierarchy is not to be reused or all earlier calls had the same matrix object, the system solved is the one with
the present values of the matrix passed; without reuse the hierarchy is built for it as well. The restriction on the matrix objects is missing in
the property. -/
theorem C181_sequential_partial {M : Type} (heap : Heap M) (reuse : Bool) (es : List (AmgEvent M)) (a : Nat) (m : M)
    (halive : (amgRun heap reuse es).1 a = some m)
    (hsame : (amgRun heap reuse es).2.reuse = false ∨ ∀ b ∈ es.filterMap AmgEvent.address?, b = a) :
    ∀ r, (SeqAMG.apply (amgRun heap reuse es).1 (amgRun heap reuse es).2 a).2 = some r →
      r.operator = m ∧ ((amgRun heap reuse es).2.reuse = false → r.setup = m) := by
  intro r hr
  simp only [SeqAMG.apply] at hr
  by_cases h : (amgRun heap reuse es).2.reuse = false ∨ (amgRun heap reuse es).2.firstapply = true
  · simp only [if_pos h, halive, Option.bind_eq_bind, Option.bind_some, Option.some.injEq] at hr
    subst hr
    exact ⟨rfl, fun _ => rfl⟩
  · rw [not_or] at h
    have hs : ∀ b ∈ es.filterMap AmgEvent.address?, b = a := hsame.resolve_left h.1
    have ho := amg_inv heap reuse es a hs (by simpa using h.2)
    have hn : ¬((amgRun heap reuse es).2.reuse = false ∨ (amgRun heap reuse es).2.firstapply = true) := by rw [not_or]; exact h
    simp only [if_neg hn, ho, halive, Option.bind_eq_bind, Option.bind_some] at hr
    cases hamg : (amgRun heap reuse es).2.amg with
    | none => simp [hamg] at hr
    | some h' =>
      simp only [hamg, Option.bind_some, Option.some.injEq] at hr
      subst hr
      exact ⟨rfl, fun hf => absurd hf h.1⟩

/-- Without reuse, or at the first call, there is a result. -/
theorem C181_sequential_defined {M : Type} (heap : Heap M) (s : SeqAMG M) (a : Nat) (m : M) (halive : heap a = some m)
    (h : s.reuse = false ∨ s.firstapply = true) : (SeqAMG.apply heap s a).2 = some ⟨m, m⟩ := by
  simp [SeqAMG.apply, h, halive]

/-- C181 fails with reuse: the second call solves with the matrix of the first, not the one it was given. -/
theorem C181_sequential_false :
    (let s := amgRun (M := Int) (fun _ => none) true [.write 0 2, .write 1 5, .apply 0]
     (SeqAMG.apply s.1 s.2 1).2) = some ⟨2, 2⟩ := by decide +kernel

/-- ... and if that matrix is destroyed it is used all the same. -/
theorem C181_destroyed_false :
    (let s := amgRun (M := Int) (fun _ => none) true [.write 0 2, .write 1 5, .apply 0, .destroy 0]
     (SeqAMG.apply s.1 s.2 1).2) = none := by decide +kernel

example : (let s := amgRun (M := Int) (fun _ => none) true [.write 0 2, .apply 0, .write 0 3]
    (SeqAMG.apply s.1 s.2 0).2) = some ⟨3, 2⟩ := by decide +kernel

/-- C181, parallel backends: without reuse every call solves the system it was given with a hierarchy for it. -/
theorem C181_parallel_partial {M : Type} (calls : List M) (A : M) :
    ((calls.foldl (fun s B => (ParAMG.apply s B).1) (ParAMG.create false)).apply A).2 = some ⟨A, A⟩ := by
  have h : (calls.foldl (fun s B => (ParAMG.apply s B).1) (ParAMG.create (M := M) false)).reuse = false := by
    induction calls using List.reverseRecOn with
    | nil => rfl
    | append_singleton l a ih =>
      rw [List.foldl_append, List.foldl_cons, List.foldl_nil]
      generalize List.foldl _ _ l = s at ih
      simp [ParAMG.apply, ih]
  generalize List.foldl _ _ calls = s at h
  simp [ParAMG.apply, h]

/-- C181 fails with reuse: every call after the first uses objects that were destroyed at the end of the first. -/
theorem C181_parallel_false {M : Type} (A : M) (calls : List M) (B : M) :
    (((A :: calls).foldl (fun s B => (ParAMG.apply s B).1) (ParAMG.create true)).apply B).2 = none := by
  have h : ∀ s : ParAMG M, s.reuse = true → s.firstapply = false → (∃ m, s.amg = some (0, m)) → 0 < s.calls →
      ((calls.foldl (fun s B => (ParAMG.apply s B).1) s).apply B).2 = none := by
    induction calls with
    | nil =>
      rintro s h1 h2 ⟨m, h3⟩ h4
      have h5 : ¬0 = s.calls := by omega
      simp [ParAMG.apply, h1, h2, h3, h5]
    | cons a l ih =>
      rintro s h1 h2 ⟨m, h3⟩ h4
      rw [List.foldl_cons]
      apply ih <;> simp [ParAMG.apply, h1, h2, h3]
  rw [List.foldl_cons]
  apply h <;> simp [ParAMG.apply, ParAMG.create]

section
variable {K ι κ : Type} [CommRing K] [Fintype ι] [Fintype κ]

/-- The calls of the backend for discontinuous spaces. -/
inductive DGEvent (K ι : Type) where
  | setReuse (r : Bool)
  | setRelaxation (w : Rat)
  | setPre (n : Int)
  | setPost (n : Int)
  | apply (A : Matrix ι ι K)

def dgEvent (P : Matrix ι κ K) (smoother : Matrix ι ι K → Int → (ι → K) → (ι → K) → ι → K)
    (amg : Matrix κ κ K → (κ → K) → (κ → K) → κ → K) (s : SeqDG K κ) : DGEvent K ι → SeqDG K κ
  | .setReuse r => s.setReuse r
  | .setRelaxation w => s.setRelaxation w
  | .setPre n => s.setPre n
  | .setPost n => s.setPost n
  | .apply A => (s.apply P smoother amg A).1

/-- Specification: the settings in force after a history: whether the hierarchy is reused, the relaxation and the numbers of steps. -/
def dgSettings (reuse : Bool) (es : List (DGEvent K ι)) : Bool × Rat × Int × Int :=
  es.foldl (fun s e => match e with
    | .setReuse r => (r, s.2)
    | .setRelaxation w => (s.1, w, s.2.2)
    | .setPre n => (s.1, s.2.1, n, s.2.2.2)
    | .setPost n => (s.1, s.2.1, s.2.2.1, n)
    | .apply _ => s) (reuse, 1, 2, 2)

/-- Specification: the matrix for which the hierarchy has to be built in a call with `A` after a history: `A` unless it is reused, then the one of the last call in which it was
built. -/
def dgSetup (reuse : Bool) : List (DGEvent K ι) → Option (Matrix ι ι K)
  | es => (es.foldl (fun (s : Bool × Option (Matrix ι ι K)) e => match e with
    | .setReuse r => (r, s.2)
    | .apply A => (s.1, if s.1 = true then some (s.2.getD A) else some A)
    | _ => s) (reuse, none)).2

/-- C181: after every history of calls, the preconditioner consists of the smoother for the present matrix with the settings in force, and of the hierarchy for
`Pᵀ B P`, where `B` is the present matrix, or with reuse the one the hierarchy was built for; relaxation factors that are no integers
are missing. -/
theorem C181_settings_partial (P : Matrix ι κ K) (smoother : Matrix ι ι K → Int → (ι → K) → (ι → K) → ι → K)
    (amg : Matrix κ κ K → (κ → K) → (κ → K) → κ → K) (reuse : Bool) (es : List (DGEvent K ι))
    (hint : ∀ w : Rat, .setRelaxation w ∈ es → ∃ k : Int, w = k) (A : Matrix ι ι K) :
    let settings := dgSettings reuse es
    ∃ k : Int, settings.2.1 = k ∧
      ((es.foldl (dgEvent P smoother amg) (SeqDG.create reuse)).apply P smoother amg A).2 =
        some (hybridApply A P (smoother A k)
          (amg (Pᵀ * (if settings.1 = true then (dgSetup reuse es).getD A else A) * P)) settings.2.2.1 settings.2.2.2) := by
  have inv : ∀ es : List (DGEvent K ι), (∀ w : Rat, .setRelaxation w ∈ es → ∃ k : Int, w = k) →
      (es.foldl (dgEvent P smoother amg) (SeqDG.create reuse)).reuse = (dgSettings reuse es).1 ∧
      ((es.foldl (dgEvent P smoother amg) (SeqDG.create reuse)).relaxation : Rat) = (dgSettings reuse es).2.1 ∧
      (es.foldl (dgEvent P smoother amg) (SeqDG.create reuse)).n1 = (dgSettings reuse es).2.2.1 ∧
      (es.foldl (dgEvent P smoother amg) (SeqDG.create reuse)).n2 = (dgSettings reuse es).2.2.2 ∧
      (es.foldl (dgEvent P smoother amg) (SeqDG.create reuse)).firstapply = (dgSetup reuse es).isNone ∧
      (es.foldl (dgEvent P smoother amg) (SeqDG.create reuse)).amg = (dgSetup reuse es).map (fun B => Pᵀ * B * P) ∧
      (es.foldl (fun (s : Bool × Option (Matrix ι ι K)) e => match e with
        | .setReuse r => (r, s.2)
        | .apply A => (s.1, if s.1 = true then some (s.2.getD A) else some A)
        | _ => s) (reuse, none)).1 = (dgSettings reuse es).1 := by
    intro es
    induction es using List.reverseRecOn with
    | nil => intro _; simp [dgSettings, dgSetup, SeqDG.create]
    | append_singleton es e ih =>
      intro hint
      obtain ⟨h1, h2, h3, h4, h5, h6, h7⟩ := ih fun w hw => hint w (List.mem_append_left _ hw)
      unfold dgSetup at h5 h6 ⊢
      unfold dgSettings at h1 h2 h3 h4 h7 ⊢
      simp only [List.foldl_append, List.foldl_cons, List.foldl_nil]
      cases e with
      | setReuse r => exact ⟨rfl, h2, h3, h4, h5, h6, rfl⟩
      | setRelaxation w =>
        refine ⟨h1, ?_, h3, h4, h5, h6, h7⟩
        obtain ⟨k, rfl⟩ := hint w (List.mem_append_right _ (by simp))
        simp [dgEvent, SeqDG.setRelaxation, toInt]
      | setPre n => exact ⟨h1, h2, rfl, h4, h5, h6, h7⟩
      | setPost n => exact ⟨h1, h2, h3, rfl, h5, h6, h7⟩
      | apply B =>
        refine ⟨h1, h2, h3, h4, ?_, ?_, h7⟩
        · simp only [dgEvent, SeqDG.apply]
          rw [h1, h5, h7]
          cases (List.foldl _ (reuse, (1 : Rat), (2 : Int), (2 : Int)) es).1 <;>
            cases (List.foldl _ (reuse, (none : Option (Matrix ι ι K))) es).2 <;> simp
        · simp only [dgEvent, SeqDG.apply]
          rw [h1, h5, h6, h7]
          cases (List.foldl _ (reuse, (1 : Rat), (2 : Int), (2 : Int)) es).1 <;>
            cases (List.foldl _ (reuse, (none : Option (Matrix ι ι K))) es).2 <;> simp
  obtain ⟨h1, h2, h3, h4, h5, h6, _⟩ := inv es hint
  refine ⟨_, h2.symm, ?_⟩
  simp only [SeqDG.apply]
  rw [h1, h3, h4, h5, h6]
  cases (dgSettings reuse es).1 <;> cases (dgSetup reuse es) <;> simp

/-- C181 fails for other relaxation factors: the member is an integer. With the factor 1/2 and a smoother that scales with its factor the
preconditioner is the correction in the subspace alone. -/
theorem C181_relaxation_false :
    ((SeqDG.create (K := Rat) (κ := Fin 1) false).setRelaxation (1 / 2)).relaxation = 0 ∧
    ((SeqDG.create (K := Rat) (κ := Fin 1) false).setRelaxation (9 / 10)).relaxation = 0 ∧
    ((((SeqDG.create (K := Rat) (κ := Fin 1) false).setRelaxation (1 / 2)).apply hybridP
      (fun _ w _ d => (w : Rat) • (hybridS *ᵥ d)) (fun _ _ c => hybridC *ᵥ c) hybridA).2.map fun f => f 0 ![1, -1]) = some 0 ∧
    hybridApply hybridA hybridP (fun _ d => (1 / 2 : Rat) • (hybridS *ᵥ d)) (fun _ c => hybridC *ᵥ c) 2 2 0 ![1, -1] ≠ 0 := by
  decide +kernel
end

/-- C181 fails for the parallel backend for discontinuous spaces: it leaves trivial rows in the matrix of the caller, so that a second call with
the same matrix builds another hierarchy. -/
theorem C181_matrix_false :
    let A : Matrix (Fin 2) (Fin 2) Rat := !![2, -1; -1, 3]
    let first := ovlpDGSetup [1] [] hybridP A
    let second := ovlpDGSetup [1] [] hybridP first.2
    first.1 = !![3] ∧ second.1 = !![2] := by decide +kernel

/-- C181: without constraints in the discontinuous space a call changes nothing. -/
theorem C181_matrix_partial {K ι κ : Type} [CommRing K] [Fintype ι] [Fintype κ] [DecidableEq ι] [DecidableEq κ] (cgcc : List κ)
    (P : Matrix ι κ K) (A : Matrix ι ι K) : (ovlpDGSetup [] cgcc P A).2 = A := by
  funext i j; simp [ovlpDGSetup, trivialRows]

/-- C181, matrix-free operator: `applyscaleadd` adds a multiple of the product with the Jacobian at the linearization point; for a nonlinear problem without such a point
there is no result. -/
theorem C181_on_the_fly {K U : Type} {n m : Type} [CommRing K] [Fintype n] (J : U → Matrix m n K) (J0 : Matrix m n K) (isLinear : Bool) (u : Option U) (alpha : K)
    (x : n → K) (y : m → K) :
    onTheFlyApplyscaleadd isLinear (fun x (r : m → K) => r + J0 *ᵥ x) (fun u x r => r + J u *ᵥ x) u alpha x y =
      if isLinear then some (y + alpha • (J0 *ᵥ x)) else u.map fun u => y + alpha • (J u *ᵥ x) := by
  cases isLinear <;> cases u <;> simp [onTheFlyApplyscaleadd, onTheFlyApply]

end Verif
