import Verif.Model.Hyperbolic
import Verif.Spec.Hyperbolic
import Verif.Proofs.LocalOperator
import Mathlib.LinearAlgebra.Matrix.NonsingularInverse
import Mathlib.LinearAlgebra.Matrix.ToLinearEquiv
import Mathlib.Algebra.Order.Ring.Abs
import Mathlib.Algebra.BigOperators.Field
import Mathlib.Tactic.FieldSimp
import Mathlib.Tactic.LinearCombination
import Mathlib.Tactic.Linarith
import Mathlib.Tactic.FinCases
set_option linter.unusedSectionVars false
/-
Lemmas for C161-C164.
-/
namespace Verif
open LocalOp LocalOp.Spec LocalOp.Hyperbolic Matrix

section
variable {K P Q : Type} [Field K] [LinearOrder K] [IsStrictOrderedRing K] {d n ns nn m : Nat}

/-! ### Linear algebra -/

/-- A right inverse suffices for the determinant. -/
theorem det_ne_zero_of_right {k : Nat} (M L : Matrix (Fin k) (Fin k) K) (h : M * L = 1) : M.det ≠ 0 := by
  intro h0
  have := congrArg Matrix.det h
  rw [Matrix.det_mul, h0, Matrix.det_one, zero_mul] at this
  exact zero_ne_one this

/-- What the solver returns is the only solution. -/
theorem solves_eq {solve : Acoustics.Solve K} (hs : Solves solve) {k : Nat} (M : Matrix (Fin k) (Fin k) K) (b x : Fin k → K)
    (h : M.det ≠ 0) (hx : M *ᵥ x = b) : solve k M b = x := by
  have hu : IsUnit M := (Matrix.isUnit_iff_isUnit_det M).mpr (isUnit_iff_ne_zero.mpr h)
  exact Matrix.mulVec_injective_of_isUnit hu ((hs k M b h).trans hx.symm)

/-! ### Acoustics -/

theorem acousticNormalFlux_zero (c : K) (nF : Fin d → K) (u : Fin (d + 1) → K) :
    acousticNormalFlux c nF u 0 = ∑ j, u j.succ * nF j := by
  simp [acousticNormalFlux, acousticFlux, Matrix.mulVec, dotProduct]

theorem acousticNormalFlux_succ (c : K) (nF : Fin d → K) (u : Fin (d + 1) → K) (k : Fin d) :
    acousticNormalFlux c nF u k.succ = c ^ 2 * u 0 * nF k := by
  simp [acousticNormalFlux, acousticFlux, Matrix.mulVec, dotProduct]

theorem tangential_props (nF : Fin 3 → K) (h : nF ⬝ᵥ nF = 1) :
    Acoustics.tangential nF ⬝ᵥ nF = 0 ∧ Acoustics.tangential nF ⬝ᵥ Acoustics.tangential nF ≠ 0 := by
  unfold Acoustics.tangential
  simp only [dotProduct, Fin.sum_univ_succ, Fin.sum_univ_zero] at h ⊢
  simp at h ⊢
  split
  · rename_i hs
    constructor
    · simp; ring
    · simp
      have hs' : (nF 1 - nF 2) * (nF 1 - nF 2) + ((nF 2 - nF 0) * (nF 2 - nF 0) + (nF 0 - nF 1) * (nF 0 - nF 1)) < 1 := by
        refine lt_of_lt_of_le hs ?_
        norm_num
      nlinarith [sq_nonneg (nF 0 - nF 2), sq_nonneg (nF 0 + nF 1), sq_nonneg (nF 1 + nF 2), sq_nonneg (nF 0), sq_nonneg (nF 1), sq_nonneg (nF 2)]
  · rename_i hs
    constructor
    · simp; ring
    · simp
      intro h0
      apply hs
      rw [h0]
      positivity

/-- The first component and the other components of the wave with speed `c`, and of the one with speed `-c`. -/
theorem eigenvectorsTransposed_det (d : Nat) (hd : d = 1 ∨ d = 2 ∨ d = 3) (c : K) (hc : c ≠ 0) (nF : Fin d → K)
    (h : nF ⬝ᵥ nF = 1) : (Acoustics.eigenvectorsTransposed d c nF).det ≠ 0 := by
  rcases hd with rfl | rfl | rfl
  · refine det_ne_zero_of_right _ !![1 / 2, -1 / 2; nF 0 / (2 * c), nF 0 / (2 * c)] ?_
    simp [dotProduct] at h
    ext i j
    fin_cases i <;> fin_cases j <;> simp [Acoustics.eigenvectorsTransposed, Matrix.mul_apply, Fin.sum_univ_succ] <;> field_simp <;>
      linear_combination h
  · refine det_ne_zero_of_right _ !![0, 1 / 2, -1 / 2; -nF 1, nF 0 / (2 * c), nF 0 / (2 * c); nF 0, nF 1 / (2 * c), nF 1 / (2 * c)] ?_
    simp [dotProduct, Fin.sum_univ_succ] at h
    ext i j
    fin_cases i <;> fin_cases j <;> simp [Acoustics.eigenvectorsTransposed, Matrix.mul_apply, Fin.sum_univ_succ] <;>
      field_simp <;> first | ring1 | linear_combination h | linear_combination 2 * h
  · obtain ⟨h1, h2⟩ := tangential_props nF h
    generalize hs : Acoustics.tangential nF = s at h1 h2
    simp only [dotProduct, Fin.sum_univ_succ, Fin.sum_univ_zero] at h h1 h2
    simp at h h1 h2
    obtain ⟨q, hq⟩ : ∃ q, q = s 0 * s 0 + (s 1 * s 1 + s 2 * s 2) := ⟨_, rfl⟩
    rw [← hq] at h2
    refine det_ne_zero_of_right _ (Matrix.of ![
      ![0, 0, 1 / 2, -1 / 2],
      ![s 0 / q, (nF 1 * s 2 - nF 2 * s 1) / q, nF 0 / (2 * c), nF 0 / (2 * c)],
      ![s 1 / q, (nF 2 * s 0 - nF 0 * s 2) / q, nF 1 / (2 * c), nF 1 / (2 * c)],
      ![s 2 / q, (nF 0 * s 1 - nF 1 * s 0) / q, nF 2 / (2 * c), nF 2 / (2 * c)]]) ?_
    ext i j
    fin_cases i <;> fin_cases j <;>
      simp [Acoustics.eigenvectorsTransposed, Matrix.mul_apply, Fin.sum_univ_succ, hs] <;> field_simp <;>
      first | ring1 | linear_combination h | linear_combination 2 * h | linear_combination h1 | linear_combination c * h1 | linear_combination -hq |
        linear_combination (s 0 * s 0 + (s 1 * s 1 + s 2 * s 2)) * h - (s 0 * nF 0 + (s 1 * nF 1 + s 2 * nF 2)) * h1 - hq

/-- The rows that belong to the speeds `c` and `-c`. -/
theorem eigenvectorsTransposed_rows (d : Nat) (hd : d = 1 ∨ d = 2 ∨ d = 3) (c : K) (nF : Fin d → K) :
    Acoustics.eigenvectorsTransposed d c nF ⟨d - 1, by omega⟩ = Fin.cons 1 (fun j => c * nF j) ∧
    Acoustics.eigenvectorsTransposed d c nF (Fin.last d) = Fin.cons (-1) (fun j => c * nF j) := by
  rcases hd with rfl | rfl | rfl
  all_goals
    constructor <;> ext i <;> fin_cases i <;> rfl

/-- The other rows are orthogonal to the normal, and have no first component. -/
theorem eigenvectorsTransposed_rest (d : Nat) (hd : d = 1 ∨ d = 2 ∨ d = 3) (c : K) (nF : Fin d → K) (h : nF ⬝ᵥ nF = 1)
    (r : Fin (d + 1)) (hr : r.val < d - 1) :
    Acoustics.eigenvectorsTransposed d c nF r 0 = 0 ∧ ∑ j : Fin d, Acoustics.eigenvectorsTransposed d c nF r j.succ * nF j = 0 := by
  rcases hd with rfl | rfl | rfl
  · simp at hr
  · obtain rfl : r = 0 := by ext; simp; omega
    simp [Acoustics.eigenvectorsTransposed, Fin.sum_univ_succ]
    ring
  · obtain ⟨h1, h2⟩ := tangential_props nF h
    simp only [dotProduct, Fin.sum_univ_succ, Fin.sum_univ_zero] at h1
    simp at h1
    rcases (by rcases (by omega : r.val = 0 ∨ r.val = 1) with h | h; exacts [.inl (Fin.ext h), .inr (Fin.ext h)] : r = 0 ∨ r = 1) with rfl | rfl
    · simp [Acoustics.eigenvectorsTransposed, Fin.sum_univ_succ]
      linear_combination h1
    · simp [Acoustics.eigenvectorsTransposed, Fin.sum_univ_succ]
      ring

theorem cons_rows_mul (c : K) (hc : c ≠ 0) (nF : Fin d → K) (h : nF ⬝ᵥ nF = 1) (e e' : K) :
    (Fin.cons e (fun j => c * nF j) : Fin (d + 1) → K) ⬝ᵥ (Fin.cons e' (fun j => nF j / (2 * c)) : Fin (d + 1) → K)
      = e * e' + 1 / 2 := by
  rw [dotProduct, Fin.sum_univ_succ]
  simp only [Fin.cons_zero, Fin.cons_succ]
  congr 1
  rw [← h, dotProduct, Finset.sum_div]
  refine Finset.sum_congr rfl fun j _ => ?_
  field_simp

theorem rest_mul (c : K) (nF : Fin d → K) (row : Fin (d + 1) → K) (e' : K)
    (h0 : row 0 = 0) (h1 : ∑ j : Fin d, row j.succ * nF j = 0) :
    row ⬝ᵥ (Fin.cons e' (fun j => nF j / (2 * c)) : Fin (d + 1) → K) = 0 := by
  rw [dotProduct, Fin.sum_univ_succ]
  simp only [Fin.cons_zero, Fin.cons_succ, h0, zero_mul, zero_add]
  have : ∀ j, row (Fin.succ j) * (nF j / (2 * c)) = row j.succ * nF j / (2 * c) := fun j => by ring
  rw [Finset.sum_congr rfl fun j _ => this j, ← Finset.sum_div, h1, zero_div]

theorem eigenvectorsTransposed_mul (d : Nat) (hd : d = 1 ∨ d = 2 ∨ d = 3) (c : K) (hc : c ≠ 0) (nF : Fin d → K)
    (h : nF ⬝ᵥ nF = 1) :
    Acoustics.eigenvectorsTransposed d c nF *ᵥ (Fin.cons (1 / 2) fun j => nF j / (2 * c)) = Pi.single ⟨d - 1, by omega⟩ 1 ∧
    Acoustics.eigenvectorsTransposed d c nF *ᵥ (Fin.cons (-1 / 2) fun j => nF j / (2 * c)) = Pi.single (Fin.last d) 1 := by
  have hr := eigenvectorsTransposed_rows d hd c nF
  constructor
  all_goals
    ext r
    rw [Matrix.mulVec]
    rcases (by omega : r.val < d - 1 ∨ r.val = d - 1 ∨ r.val = d) with hlt | heq | heq
    · obtain ⟨h0, h1⟩ := eigenvectorsTransposed_rest d hd c nF h r hlt
      rw [rest_mul c nF _ _ h0 h1, Pi.single_eq_of_ne]
      intro hh
      have := congrArg Fin.val hh
      simp at this
      omega
    · have hre : r = ⟨d - 1, by omega⟩ := Fin.ext heq
      rw [hre, hr.1, cons_rows_mul c hc nF h]
      first
      | rw [Pi.single_eq_same]; norm_num
      | rw [Pi.single_eq_of_ne]
        · norm_num
        · intro hh
          have := congrArg Fin.val hh
          simp at this
          omega
    · obtain rfl : r = Fin.last d := Fin.ext heq
      rw [hr.2, cons_rows_mul c hc nF h]
      first
      | rw [Pi.single_eq_same]; norm_num
      | rw [Pi.single_eq_of_ne]
        · norm_num
        · intro hh
          have := congrArg Fin.val hh
          simp at this
          omega

theorem acoustic_twice (c : K) (nF : Fin d → K) (h : nF ⬝ᵥ nF = 1) (u : Fin (d + 1) → K) :
    acousticNormalFlux c nF (acousticNormalFlux c nF u) 0 = c ^ 2 * u 0 := by
  rw [acousticNormalFlux_zero]
  simp only [acousticNormalFlux_succ]
  calc ∑ j, c ^ 2 * u 0 * nF j * nF j = c ^ 2 * u 0 * (nF ⬝ᵥ nF) := by
        rw [dotProduct, Finset.mul_sum]
        exact Finset.sum_congr rfl fun j _ => by ring
    _ = c ^ 2 * u 0 := by rw [h, mul_one]

theorem rank_one_mulVec (c a : K) (hc : c ≠ 0) (alpha : Fin (d + 1) → K) (e : K) (nF : Fin d → K) (u : Fin (d + 1) → K)
    (i : Fin (d + 1)) :
    ((Matrix.of fun i j => a * alpha i * (Fin.cons e (fun j => nF j / (2 * c)) : Fin (d + 1) → K) j) *ᵥ u) i
      = a * alpha i * (e * u 0 + acousticNormalFlux c nF u 0 / (2 * c)) := by
  rw [Matrix.mulVec, dotProduct, acousticNormalFlux_zero, Fin.sum_univ_succ]
  simp only [Matrix.of_apply, Fin.cons_zero, Fin.cons_succ]
  rw [mul_add, Finset.sum_div, Finset.mul_sum]
  congr 1
  · ring
  · exact Finset.sum_congr rfl fun j _ => by ring

/-- The part of the flux with positive speed. -/
theorem acoustics_aPlus (d : Nat) (hd : d = 1 ∨ d = 2 ∨ d = 3) {solve : Acoustics.Solve K} (hs : Solves solve) (c : K)
    (hc : c ≠ 0) (nF : Fin d → K) (h : nF ⬝ᵥ nF = 1) (u : Fin (d + 1) → K) :
    Acoustics.aPlus solve c nF *ᵥ u
      = (1 / (2 * c)) • (acousticNormalFlux c nF (acousticNormalFlux c nF u) + c • acousticNormalFlux c nF u) := by
  have hb := solves_eq hs _ _ _ (eigenvectorsTransposed_det d hd c hc nF h) (eigenvectorsTransposed_mul d hd c hc nF h).1
  unfold Acoustics.aPlus
  simp only [hb, (eigenvectorsTransposed_rows d hd c nF).1]
  ext i
  rw [rank_one_mulVec c c hc]
  simp only [Pi.smul_apply, Pi.add_apply, smul_eq_mul]
  refine Fin.cases ?_ (fun k => ?_) i
  · rw [acoustic_twice c nF h, Fin.cons_zero]
    field_simp
    try ring
  · rw [acousticNormalFlux_succ, acousticNormalFlux_succ, Fin.cons_succ]
    field_simp
    try ring

/-- The part of the flux with negative speed. -/
theorem acoustics_aMinus (d : Nat) (hd : d = 1 ∨ d = 2 ∨ d = 3) {solve : Acoustics.Solve K} (hs : Solves solve) (c : K)
    (hc : c ≠ 0) (nF : Fin d → K) (h : nF ⬝ᵥ nF = 1) (u : Fin (d + 1) → K) :
    Acoustics.aMinus solve c nF *ᵥ u
      = (1 / (2 * c)) • (-acousticNormalFlux c nF (acousticNormalFlux c nF u) + c • acousticNormalFlux c nF u) := by
  have hb := solves_eq hs _ _ _ (eigenvectorsTransposed_det d hd c hc nF h) (eigenvectorsTransposed_mul d hd c hc nF h).2
  unfold Acoustics.aMinus
  simp only [hb, (eigenvectorsTransposed_rows d hd c nF).2]
  ext i
  rw [rank_one_mulVec c (-c) hc]
  simp only [Pi.smul_apply, Pi.add_apply, Pi.neg_apply, smul_eq_mul]
  refine Fin.cases ?_ (fun k => ?_) i
  · rw [acoustic_twice c nF h, Fin.cons_zero]
    field_simp
    try ring
  · rw [acousticNormalFlux_succ, acousticNormalFlux_succ, Fin.cons_succ]
    field_simp
    try ring

/-! ### Maxwell -/

/-- The flux of Maxwell's equations through a surface as matrix. -/
def maxwellMatrix (eps mu : K) (nF : Fin 3 → K) : Matrix (Fin 6) (Fin 6) K :=
  !![0, 0, 0, 0, nF 2 / mu, -nF 1 / mu;
     0, 0, 0, -nF 2 / mu, 0, nF 0 / mu;
     0, 0, 0, nF 1 / mu, -nF 0 / mu, 0;
     0, -nF 2 / eps, nF 1 / eps, 0, 0, 0;
     nF 2 / eps, 0, -nF 0 / eps, 0, 0, 0;
     -nF 1 / eps, nF 0 / eps, 0, 0, 0, 0]

theorem maxwellNormalFlux_eq (eps mu : K) (nF : Fin 3 → K) (u : Fin 6 → K) :
    maxwellNormalFlux eps mu nF u = maxwellMatrix eps mu nF *ᵥ u := by
  ext i
  fin_cases i <;>
    simp [maxwellNormalFlux, maxwellMatrix, cross_apply, dPart, bPart, Matrix.mulVec, dotProduct, Fin.sum_univ_succ] <;> ring

theorem reIm_props (nF : Fin 3 → K) (h : nF ⬝ᵥ nF = 1) :
    let re := (Maxwell.reIm nF).1
    let im := (Maxwell.reIm nF).2
    (nF 1 * re 2 - nF 2 * re 1 = im 0 ∧ nF 2 * re 0 - nF 0 * re 2 = im 1 ∧ nF 0 * re 1 - nF 1 * re 0 = im 2) ∧
    (nF 1 * im 2 - nF 2 * im 1 = -re 0 ∧ nF 2 * im 0 - nF 0 * im 2 = -re 1 ∧ nF 0 * im 1 - nF 1 * im 0 = -re 2) ∧
    re 0 * im 0 + re 1 * im 1 + re 2 * im 2 = 0 ∧ re 0 * nF 0 + re 1 * nF 1 + re 2 * nF 2 = 0 ∧
    im 0 * nF 0 + im 1 * nF 1 + im 2 * nF 2 = 0 ∧
    re 0 * re 0 + re 1 * re 1 + re 2 * re 2 = im 0 * im 0 + im 1 * im 1 + im 2 * im 2 ∧
    im 0 * im 0 + im 1 * im 1 + im 2 * im 2 ≠ 0 := by
  simp only [dotProduct, Fin.sum_univ_succ, Fin.sum_univ_zero] at h
  simp at h
  unfold Maxwell.reIm
  simp only
  split
  · rename_i hc
    have hc2 : nF 2 * nF 2 ≤ 1 / 4 := by
      have := abs_lt.mp hc
      nlinarith
    refine ⟨⟨?_, ?_, ?_⟩, ⟨?_, ?_, ?_⟩, ?_, ?_, ?_, ?_, ?_⟩ <;> simp <;>
      first
      | ring1 | linear_combination h | linear_combination -h | linear_combination nF 2 * h | linear_combination -nF 2 * h
      | linear_combination (nF 2 * nF 2 - 1) * h | (intro h0; nlinarith)
  · rename_i hc
    have hc2 : 1 / 4 ≤ nF 2 * nF 2 := by
      rw [not_lt] at hc
      have := mul_self_le_mul_self (by norm_num) hc
      rw [abs_mul_abs_self] at this
      linarith
    refine ⟨⟨?_, ?_, ?_⟩, ⟨?_, ?_, ?_⟩, ?_, ?_, ?_, ?_, ?_⟩ <;> simp <;>
      first
      | ring1 | linear_combination h | linear_combination -h | linear_combination nF 1 * h | linear_combination -nF 1 * h
      | linear_combination (nF 1 * nF 1 - 1) * h | (intro h0; nlinarith)

theorem det_ne_zero_of_left {k : Nat} (M L : Matrix (Fin k) (Fin k) K) (h : L * M = 1) : M.det ≠ 0 := by
  intro h0
  have := congrArg Matrix.det h
  rw [Matrix.det_mul, h0, Matrix.det_one, mul_zero] at this
  exact zero_ne_one this

/-- The root of a product. -/
theorem rootOf_mul {sqrt : K → K} {a b : K} (ha : RootOf sqrt a) (hb : RootOf sqrt b) (hab : RootOf sqrt (a * b)) :
    sqrt (a * b) = sqrt a * sqrt b := by
  have h : sqrt (a * b) * sqrt (a * b) = (sqrt a * sqrt b) * (sqrt a * sqrt b) := by
    rw [hab.1]
    calc a * b = (sqrt a * sqrt a) * (sqrt b * sqrt b) := by rw [ha.1, hb.1]
      _ = _ := by ring
  exact (mul_self_inj hab.2 (mul_nonneg ha.2 hb.2)).mp h

/-- The eigenvalues. -/
def maxwellSpeeds (s : K) : Fin 6 → K := ![s, s, -s, -s, 0, 0]

theorem maxwell_eigenvectors (sqrt : K → K) (eps mu : K) (he : RootOf sqrt eps) (hm : RootOf sqrt mu) (he0 : eps ≠ 0)
    (hm0 : mu ≠ 0) (nF : Fin 3 → K) (h : nF ⬝ᵥ nF = 1) :
    maxwellMatrix eps mu nF * Maxwell.eigenvectors sqrt eps mu nF
      = Maxwell.eigenvectors sqrt eps mu nF * Matrix.diagonal (maxwellSpeeds (1 / (sqrt eps * sqrt mu))) := by
  obtain ⟨⟨h1, h2, h3⟩, ⟨h4, h5, h6⟩, -, -, -, -, -⟩ := reIm_props nF h
  unfold Maxwell.eigenvectors
  simp only at h1 h2 h3 h4 h5 h6 ⊢
  have e0 : sqrt eps ≠ 0 := fun hh => he0 (by rw [← he.1, hh, zero_mul])
  have m0 : sqrt mu ≠ 0 := fun hh => hm0 (by rw [← hm.1, hh, zero_mul])
  generalize (Maxwell.reIm nF).1 = re at *
  generalize (Maxwell.reIm nF).2 = im at *
  have he1 := he.1
  have hm1 := hm.1
  generalize sqrt eps = e at *
  generalize sqrt mu = m at *
  subst he1 hm1
  ext i j
  fin_cases i <;> fin_cases j <;>
    simp [maxwellMatrix, maxwellSpeeds, Matrix.mul_apply, Fin.sum_univ_succ, Matrix.diagonal_apply] <;> field_simp <;>
    first
    | ring1 | linear_combination h1 | linear_combination h2 | linear_combination h3 | linear_combination h4
    | linear_combination h5 | linear_combination h6 | linear_combination -h1 | linear_combination -h2
    | linear_combination -h3 | linear_combination -h4 | linear_combination -h5 | linear_combination -h6 | skip

set_option maxHeartbeats 1000000 in
theorem maxwell_eigenvectors_det (sqrt : K → K) (eps mu : K) (he : RootOf sqrt eps) (hm : RootOf sqrt mu) (he0 : eps ≠ 0)
    (hm0 : mu ≠ 0) (nF : Fin 3 → K) (h : nF ⬝ᵥ nF = 1) : (Maxwell.eigenvectors sqrt eps mu nF).det ≠ 0 := by
  obtain ⟨-, -, h1, h2, h3, h4, h5⟩ := reIm_props nF h
  unfold Maxwell.eigenvectors
  simp only at h1 h2 h3 h4 h5 ⊢
  have e0 : sqrt eps ≠ 0 := fun hh => he0 (by rw [← he.1, hh, zero_mul])
  have m0 : sqrt mu ≠ 0 := fun hh => hm0 (by rw [← hm.1, hh, zero_mul])
  generalize (Maxwell.reIm nF).1 = re at *
  generalize (Maxwell.reIm nF).2 = im at *
  generalize sqrt eps = e at *
  generalize sqrt mu = m at *
  obtain ⟨q, hq⟩ : ∃ q, q = im 0 * im 0 + im 1 * im 1 + im 2 * im 2 := ⟨_, rfl⟩
  rw [← hq] at h4 h5
  simp only [dotProduct, Fin.sum_univ_succ, Fin.sum_univ_zero] at h
  simp at h
  refine det_ne_zero_of_left _ !![
    re 0 / (2 * q * e), re 1 / (2 * q * e), re 2 / (2 * q * e), im 0 / (2 * q * m), im 1 / (2 * q * m), im 2 / (2 * q * m);
    -im 0 / (2 * q * e), -im 1 / (2 * q * e), -im 2 / (2 * q * e), re 0 / (2 * q * m), re 1 / (2 * q * m), re 2 / (2 * q * m);
    im 0 / (2 * q * e), im 1 / (2 * q * e), im 2 / (2 * q * e), re 0 / (2 * q * m), re 1 / (2 * q * m), re 2 / (2 * q * m);
    re 0 / (2 * q * e), re 1 / (2 * q * e), re 2 / (2 * q * e), -im 0 / (2 * q * m), -im 1 / (2 * q * m), -im 2 / (2 * q * m);
    nF 0 / e, nF 1 / e, nF 2 / e, 0, 0, 0;
    0, 0, 0, nF 0 / m, nF 1 / m, nF 2 / m] ?_
  ext i j
  fin_cases i <;> fin_cases j <;>
    simp [Matrix.mul_apply, Fin.sum_univ_succ] <;> field_simp <;>
    first
    | ring1 | linear_combination h | linear_combination h1 | linear_combination h2 | linear_combination h3
    | linear_combination -h1 | linear_combination -h2 | linear_combination -h3 | linear_combination h4 - hq
    | linear_combination 2 * h1 | linear_combination -2 * h1 | linear_combination h4 + hq | linear_combination -h4 - hq | skip

/-- A matrix with eigenvalues `s`, `-s` and 0. -/
theorem diagonalised_parts (M R W : Matrix (Fin 6) (Fin 6) K) (s : K) (hs : s ≠ 0)
    (hMR : M * R = R * Matrix.diagonal (maxwellSpeeds s)) (hW : R * W = 1) :
    R * Matrix.diagonal ![s, s, 0, 0, 0, 0] * W = (1 / (2 * s)) • (M * M + s • M) ∧
    R * Matrix.diagonal ![0, 0, -s, -s, 0, 0] * W = (1 / (2 * s)) • (-(M * M) + s • M) := by
  have hM : M = R * Matrix.diagonal (maxwellSpeeds s) * W := by
    rw [← hMR, Matrix.mul_assoc, hW, Matrix.mul_one]
  have hWR : W * R = 1 := mul_eq_one_comm.mp hW
  have hMM : M * M = R * (Matrix.diagonal (maxwellSpeeds s) * Matrix.diagonal (maxwellSpeeds s)) * W := by
    rw [hM]
    calc R * diagonal (maxwellSpeeds s) * W * (R * diagonal (maxwellSpeeds s) * W)
        = R * diagonal (maxwellSpeeds s) * (W * R) * diagonal (maxwellSpeeds s) * W := by simp only [Matrix.mul_assoc]
      _ = _ := by rw [hWR]; simp only [Matrix.mul_assoc, Matrix.mul_one]
  constructor
  · rw [hMM]
    rw [hM]
    rw [← Matrix.smul_mul, ← Matrix.mul_smul, ← Matrix.add_mul, ← Matrix.mul_add, ← Matrix.smul_mul, ← Matrix.mul_smul]
    congr 2
    rw [Matrix.diagonal_mul_diagonal, ← Matrix.diagonal_smul, Matrix.diagonal_add, ← Matrix.diagonal_smul]
    congr 1
    ext i
    fin_cases i <;> simp [maxwellSpeeds] <;> field_simp <;> ring
  · rw [hMM]
    rw [hM]
    rw [← Matrix.smul_mul, ← Matrix.mul_smul, ← Matrix.neg_mul, ← Matrix.mul_neg, ← Matrix.add_mul, ← Matrix.mul_add,
      ← Matrix.smul_mul, ← Matrix.mul_smul]
    congr 2
    rw [Matrix.diagonal_mul_diagonal, ← Matrix.diagonal_smul, Matrix.diagonal_neg, Matrix.diagonal_add,
      ← Matrix.diagonal_smul]
    congr 1
    ext i
    fin_cases i <;> simp [maxwellSpeeds] <;> field_simp <;> ring

end
end Verif
