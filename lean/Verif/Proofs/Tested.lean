import Verif.Spec.VectorOperators
import Verif.Model.VectorOperators
import Mathlib.Algebra.BigOperators.Fin
import Mathlib.Tactic.Ring
import Mathlib.Tactic.FieldSimp
import Mathlib.Tactic.Linarith
/- Residuals tested with a function. -/
set_option linter.unusedSectionVars false
namespace Verif.Tested
open Verif.LocalOp Verif.LocalOp.Spec Matrix

variable {K P : Type} [Field K] {ι : Type} [DecidableEq ι] [Fintype ι] {d n m : Nat}

theorem total_cons' (c : ι × K) (l : List (ι × K)) (i : ι) :
    total (c :: l) i = (if c.1 = i then c.2 else 0) + total l i := by
  unfold total
  by_cases h : c.1 = i
  · simp [h]
  · simp [h]

theorem tested_eq (calls : List (ι × K)) (y : ι → K) : tested calls y = (calls.map fun c => y c.1 * c.2).sum := by
  induction calls with
  | nil => simp [tested, total]
  | cons c l ih =>
    rw [List.map_cons, List.sum_cons, ← ih]
    unfold tested
    simp only [total_cons', mul_add, Finset.sum_add_distrib]
    congr 1
    simp

theorem tested_nil (y : ι → K) : tested ([] : List (ι × K)) y = 0 := by rw [tested_eq]; rfl
theorem tested_cons (c : ι × K) (l : List (ι × K)) (y : ι → K) : tested (c :: l) y = y c.1 * c.2 + tested l y := by
  rw [tested_eq, tested_eq]; rfl
theorem tested_append (a b : List (ι × K)) (y : ι → K) : tested (a ++ b) y = tested a y + tested b y := by
  simp [tested_eq]
theorem tested_map_fin {n : Nat} (g : Fin n → ι) (v : Fin n → K) (y : ι → K) :
    tested ((List.finRange n).map fun i => (g i, v i)) y = ∑ i, y (g i) * v i := by
  rw [tested_eq, List.map_map, ← List.ofFn_eq_map, List.sum_ofFn]; rfl
theorem tested_flatMap {α : Type} (l : List α) (f : α → List (ι × K)) (y : ι → K) :
    tested (l.flatMap f) y = (l.map fun a => tested (f a) y).sum := by
  induction l with
  | nil => simp [tested_nil]
  | cons a l ih => rw [List.flatMap_cons, tested_append, ih]; rfl
theorem tested_flatMap_fin {n : Nat} (f : Fin n → List (ι × K)) (y : ι → K) :
    tested ((List.finRange n).flatMap f) y = ∑ i, tested (f i) y := by
  rw [tested_flatMap, ← List.ofFn_eq_map, List.sum_ofFn]
theorem tested_ite {p : Prop} [Decidable p] (a b : List (ι × K)) (y : ι → K) :
    tested (if p then a else b) y = if p then tested a y else tested b y := by split <;> rfl

theorem bilinear_eq (J : List ((ι × ι) × K)) (y z : ι → K) :
    bilinear (total J) y z = tested J fun c => y c.1 * z c.2 := by
  unfold bilinear applyMatrix tested
  rw [Fintype.sum_prod_type]
  refine Finset.sum_congr rfl fun i _ => ?_
  rw [Finset.mul_sum]
  exact Finset.sum_congr rfl fun j _ => by ring

theorem tested_single (calls : List (ι × K)) (i : ι) : tested calls (Pi.single i 1) = total calls i := by
  unfold tested
  rw [Finset.sum_eq_single i]
  · simp
  · intro j _ h; simp [h]
  · simp

theorem bilinear_single (J : ι × ι → K) (i : ι) (z : ι → K) : bilinear J (Pi.single i 1) z = applyMatrix J z i := by
  unfold bilinear
  rw [Finset.sum_eq_single i]
  · simp
  · intro j _ h; simp [h]
  · simp

theorem applyMatrix_single (J : ι × ι → K) (i j : ι) : applyMatrix J (Pi.single j 1) i = J (i, j) := by
  unfold applyMatrix
  rw [Finset.sum_eq_single j]
  · simp
  · intro k _ h; simp [h]
  · simp

theorem affine_of_tested (r : (ι → K) → List (ι × K)) (J : List ((ι × ι) × K))
    (h : ∀ x z y, tested (r (x + z)) y = tested (r x) y + bilinear (total J) y z) :
    IsAffineWith (fun x => total (r x)) (total J) := by
  intro x z i
  have := h x z (Pi.single i 1)
  rwa [tested_single, tested_single, bilinear_single] at this

theorem derivative_of_tested (r : (ι → K) → List (ι × K)) (J : (ι → K) → List ((ι × ι) × K))
    (h : ∀ x z y, ∃ q : K, ∀ t : K, tested (r (x + t • z)) y = tested (r x) y + t * bilinear (total (J x)) y z + t ^ 2 * q) :
    IsDerivative (fun x => total (r x)) (fun x => total (J x)) := by
  intro x z i
  obtain ⟨q, hq⟩ := h x z (Pi.single i 1)
  refine ⟨q, fun t => ?_⟩
  have := hq t
  rwa [tested_single, tested_single, bilinear_single] at this

theorem symmetric_of_bilinear (J : ι × ι → K) (h : ∀ y z, bilinear J y z = bilinear J z y) : Symmetric J := by
  intro i j
  have := h (Pi.single i 1) (Pi.single j 1)
  rwa [bilinear_single, bilinear_single, applyMatrix_single, applyMatrix_single] at this

theorem quadForm_eq_bilinear (J : ι × ι → K) (x : ι → K) : quadForm J x = bilinear J x x := rfl

/-- A sum over the points of a rule is a quadrature if the summands agree. -/
theorem sum_eq_quadrature (rule : List (P × K)) (ie f : P → K) (g : P × K → K)
    (h : ∀ p w, g (p, w) = f p * (w * ie p)) : (rule.map g).sum = quadrature rule ie f := by
  unfold quadrature
  exact congrArg List.sum (List.map_congr_left fun q _ => h q.1 q.2)

theorem quadrature_congr (rule : List (P × K)) (ie f g : P → K) (h : ∀ q ∈ rule, f q.1 = g q.1) :
    quadrature rule ie f = quadrature rule ie g := by
  unfold quadrature
  exact congrArg List.sum (List.map_congr_left fun q hq => by rw [h q hq])

theorem quadrature_add' (rule : List (P × K)) (ie f g : P → K) :
    quadrature rule ie (fun p => f p + g p) = quadrature rule ie f + quadrature rule ie g := by
  unfold quadrature
  induction rule with
  | nil => simp
  | cons a l ih => simp only [List.map_cons, List.sum_cons, ih]; ring

theorem quadrature_smul' (rule : List (P × K)) (ie f : P → K) (t : K) :
    quadrature rule ie (fun p => t * f p) = t * quadrature rule ie f := by
  unfold quadrature
  induction rule with
  | nil => simp
  | cons a l ih => simp only [List.map_cons, List.sum_cons, ih]; ring

theorem quadrature_zero' (rule : List (P × K)) (ie : P → K) : quadrature rule ie (fun _ => 0) = 0 := by
  unfold quadrature; induction rule with
  | nil => simp
  | cons a l ih => simp [ih]

theorem quadrature_neg' (rule : List (P × K)) (ie f : P → K) :
    quadrature rule ie (fun p => -f p) = -quadrature rule ie f := by
  have := quadrature_smul' rule ie f (-1)
  simpa using this

theorem quadrature_sum' {κ : Type} [Fintype κ] (rule : List (P × K)) (ie : P → K) (f : P → κ → K) :
    quadrature rule ie (fun p => ∑ k, f p k) = ∑ k, quadrature rule ie (fun p => f p k) := by
  unfold quadrature
  induction rule with
  | nil => simp
  | cons a l ih => rw [List.map_cons, List.sum_cons, ih, Finset.sum_mul, ← Finset.sum_add_distrib]; rfl

theorem quadrature_nonneg' [LinearOrder K] [IsStrictOrderedRing K] (rule : List (P × K)) (ie f : P → K)
    (hf : ∀ q ∈ rule, 0 ≤ f q.1) (hw : ∀ q ∈ rule, 0 ≤ q.2 * ie q.1) : 0 ≤ quadrature rule ie f := by
  unfold quadrature
  apply List.sum_nonneg
  intro a ha
  obtain ⟨q, hq, rfl⟩ := List.mem_map.1 ha
  exact mul_nonneg (hf q hq) (hw q hq)

theorem femGradient_add (grad : P → Fin n → Fin d → K) (x z : Fin d × Fin n → K) (p : P) :
    femGradient grad (x + z) p = femGradient grad x p + femGradient grad z p := by
  ext c k; simp [femGradient, add_mul, Finset.sum_add_distrib]

theorem femGradient_smul (grad : P → Fin n → Fin d → K) (t : K) (x : Fin d × Fin n → K) (p : P) :
    femGradient grad (t • x) p = t • femGradient grad x p := by
  ext c k; simp [femGradient, mul_assoc, Finset.mul_sum]

theorem contract_comm (A B : Matrix (Fin d) (Fin d) K) : contract A B = contract B A := by
  unfold contract; simp only [mul_comm]

theorem contract_add_left (A B C : Matrix (Fin d) (Fin d) K) : contract (A + B) C = contract A C + contract B C := by
  unfold contract; simp only [Matrix.add_apply, add_mul, Finset.sum_add_distrib]
theorem contract_add_right (A B C : Matrix (Fin d) (Fin d) K) : contract C (A + B) = contract C A + contract C B := by
  rw [contract_comm, contract_add_left, contract_comm A, contract_comm B]
theorem contract_smul_left (t : K) (A C : Matrix (Fin d) (Fin d) K) : contract (t • A) C = t * contract A C := by
  unfold contract; simp only [Matrix.smul_apply, smul_eq_mul, Finset.mul_sum, mul_assoc]
theorem contract_smul_right (t : K) (A C : Matrix (Fin d) (Fin d) K) : contract C (t • A) = t * contract C A := by
  rw [contract_comm, contract_smul_left, contract_comm]
theorem contract_transpose (A B : Matrix (Fin d) (Fin d) K) : contract Aᵀ Bᵀ = contract A B := by
  unfold contract; rw [Finset.sum_comm]; rfl
theorem contract_transpose_left (A B : Matrix (Fin d) (Fin d) K) : contract Aᵀ B = contract A Bᵀ := by
  rw [← contract_transpose, transpose_transpose]
theorem contract_self_nonneg [LinearOrder K] [IsStrictOrderedRing K] (A : Matrix (Fin d) (Fin d) K) : 0 ≤ contract A A :=
  Finset.sum_nonneg fun _ _ => Finset.sum_nonneg fun _ _ => mul_self_nonneg _

theorem elasticDensity_eq (h2 : (2 : K) ≠ 0) (mu lambda : K) (A B : Matrix (Fin d) (Fin d) K) :
    elasticDensity mu lambda A B = mu * (contract A B + contract A Bᵀ) + lambda * (A.trace * B.trace) := by
  unfold elasticDensity strain
  simp only [contract_smul_left, contract_smul_right, contract_add_left, contract_add_right, contract_transpose]
  rw [contract_transpose_left A B]
  field_simp
  ring

theorem elasticDensity_comm (mu lambda : K) (A B : Matrix (Fin d) (Fin d) K) :
    elasticDensity mu lambda A B = elasticDensity mu lambda B A := by
  unfold elasticDensity; rw [contract_comm, mul_comm A.trace]

end Verif.Tested
