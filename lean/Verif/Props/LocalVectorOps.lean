import Verif.Proofs.LocalVectorOps
import Mathlib.Algebra.Order.BigOperators.Ring.Finset
import Mathlib.Algebra.Order.BigOperators.Group.Finset
import Mathlib.Algebra.Order.Ring.Rat
import Mathlib.Algebra.Order.Field.Basic
import Mathlib.Tactic.Linarith
import Mathlib.Tactic.Ring
import Mathlib.Analysis.Real.Sqrt
/-
Theorems about the arithmetic of local vectors (C224).
-/
namespace Verif

open LocalVectorOps LocalVectorOps.Spec Finset

variable {K : Type}

/-- C224, updates: if the other vector is at least as long, `axpy` and `+=` compute the linear combination in every entry and keep the size,
also if the other vector is the vector itself; if it is shorter, they read outside of it. `*=` and the assignment of a number act on every
entry; `resize` keeps the entries that fit and appends zeros; `assign` gives so many equal entries. -/
theorem C224_updates [Ring K] (v w : List K) (alpha : K) :
    (v.length ≤ w.length → ∃ r s, axpy alpha v w = some r ∧ Entries v r (fun i => v.getD i 0 + alpha * w.getD i 0) ∧
      add v w = some s ∧ Entries v s (fun i => v.getD i 0 + w.getD i 0)) ∧
    (w.length < v.length → axpy alpha v w = none ∧ add v w = none) ∧
    Entries v (scale alpha v) (fun i => alpha * v.getD i 0) ∧ Entries v (fill alpha v) (fun _ => alpha) ∧
    (∀ n, (resize n v).length = n ∧ ∀ i, i < n → (resize n v)[i]? = some (v.getD i 0)) ∧
    (∀ n, (assign n alpha v).length = n ∧ ∀ i, i < n → (assign n alpha v)[i]? = some alpha) := by
  refine ⟨?_, ?_, ?_, ?_, ?_, ?_⟩
  · intro h
    obtain ⟨r, h1, h2, h3⟩ := transform_spec (fun a b => a + alpha * b) v w h
    obtain ⟨s, h1', h2', h3'⟩ := transform_spec (· + ·) v w h
    exact ⟨r, s, h1, ⟨h2, fun i hi => h3 i _ _ (get_getD 0 v i hi) (get_getD 0 w i (by omega))⟩, h1', h2',
      fun i hi => h3' i _ _ (get_getD 0 v i hi) (get_getD 0 w i (by omega))⟩
  · intro h
    exact ⟨transform_short _ v w h, transform_short _ v w h⟩
  · refine ⟨by simp [scale], fun i hi => ?_⟩
    unfold scale
    rw [List.getElem?_map, get_getD 0 v i hi]; rfl
  · refine ⟨by simp [fill], fun i hi => ?_⟩
    unfold fill
    rw [List.getElem?_map, get_getD 0 v i hi]; rfl
  · intro n
    refine ⟨by simp [resize]; omega, fun i hi => ?_⟩
    unfold resize
    by_cases hv : i < v.length
    · rw [List.getElem?_append_left (by simp; omega), List.getElem?_take_of_lt hi, get_getD 0 v i hv]
    · rw [List.getElem?_append_right (by simp; omega), List.getElem?_replicate, if_pos (by simp; omega),
        List.getD_eq_getElem?_getD, List.getElem?_eq_none (by omega)]
      rfl
  · intro n
    refine ⟨by simp [assign], fun i hi => ?_⟩
    unfold assign
    rw [List.getElem?_replicate, if_pos hi]

/-- C224, products: `dot` is the Euclidean product of as many entries as the vector has, undefined if the other vector is shorter; `two_norm`
is always defined, and is the square root of the product of the vector with itself. -/
theorem C224_products [Ring K] (sqrt : K → K) (v w : List K) :
    (v.length ≤ w.length → dot v w = some (∑ i ∈ range v.length, v.getD i 0 * w.getD i 0)) ∧ (w.length < v.length → dot v w = none) ∧
    twoNorm sqrt v = some (sqrt (∑ i ∈ range v.length, v.getD i 0 * v.getD i 0)) := by
  refine ⟨fun h => ?_, fun h => innerProduct_short v w 0 h, ?_⟩
  · have := innerProduct_spec v w 0 h
    rw [zero_add] at this
    exact this
  · unfold twoNorm
    rw [innerProduct_spec v v 0 (le_refl _), zero_add]
    rfl

/-- C224, geometry: for vectors of the same size, `dot` is symmetric and linear with respect to `axpy`, `axpy` followed by `axpy` with the
opposite factor restores the vector, the norm vanishes for the zero vector only, and satisfies the inequality of Cauchy and Schwarz and the
triangle inequality. -/
theorem C224_geometry [Field K] [LinearOrder K] [IsStrictOrderedRing K] (sqrt : K → K)
    (hs : ∀ a, 0 ≤ a → 0 ≤ sqrt a ∧ sqrt a * sqrt a = a) (v w u : List K) (hw : w.length = v.length) (hu : u.length = v.length) (alpha : K) :
    dot v w = dot w v ∧
    (∃ r p q, axpy alpha v w = some r ∧ dot v u = some p ∧ dot w u = some q ∧ dot r u = some (p + alpha * q) ∧
      axpy (-alpha) r w = some v) ∧
    (twoNorm sqrt v = some 0 ↔ ∀ x ∈ v, x = 0) ∧
    (∃ p m n, dot v w = some p ∧ twoNorm sqrt v = some m ∧ twoNorm sqrt w = some n ∧ |p| ≤ m * n) ∧
    (∃ r m n k, add v w = some r ∧ twoNorm sqrt v = some m ∧ twoNorm sqrt w = some n ∧ twoNorm sqrt r = some k ∧ k ≤ m + n) := by
  have hvw := (C224_products sqrt v w).1 hw.ge
  have hwv := (C224_products sqrt w v).1 hw.le
  have hvu := (C224_products sqrt v u).1 hu.ge
  have hwu := (C224_products sqrt w u).1 (by omega)
  have nv := (C224_products sqrt v v).2.2
  have nw := (C224_products sqrt w w).2.2
  obtain ⟨r, s, hr, ⟨hr1, hr2⟩, hsum, hs1, hs2⟩ := (C224_updates v w alpha).1 hw.ge
  have hrd : ∀ i, i < v.length → r.getD i 0 = v.getD i 0 + alpha * w.getD i 0 := by
    intro i hi
    have := hr2 i hi
    rw [get_getD 0 r i (by omega)] at this
    exact Option.some.inj this
  have hsd : ∀ i, i < v.length → s.getD i 0 = v.getD i 0 + w.getD i 0 := by
    intro i hi
    have := hs2 i hi
    rw [get_getD 0 s i (by omega)] at this
    exact Option.some.inj this
  have sq : ∀ (x : List K), 0 ≤ ∑ i ∈ range x.length, x.getD i 0 * x.getD i 0 :=
    fun x => Finset.sum_nonneg fun i _ => mul_self_nonneg _
  have hcs : |∑ i ∈ range v.length, v.getD i 0 * w.getD i 0| ≤
      sqrt (∑ i ∈ range v.length, v.getD i 0 * v.getD i 0) * sqrt (∑ i ∈ range w.length, w.getD i 0 * w.getD i 0) := by
    have h1 := hs _ (sq v)
    have h2 := hs _ (sq w)
    apply abs_le_of_sq_le_sq _ (mul_nonneg h1.1 h2.1)
    have := Finset.sum_mul_sq_le_sq_mul_sq (range v.length) (fun i => v.getD i 0) (fun i => w.getD i 0)
    refine le_trans this ?_
    rw [mul_pow, pow_two (sqrt _), pow_two (sqrt _), h1.2, h2.2, hw]
    simp only [pow_two]
    exact le_refl _
  refine ⟨?_, ?_, ?_, ?_, ?_⟩
  · rw [hvw, hwv, hw]
    simp only [mul_comm]
  · refine ⟨r, _, _, hr, hvu, hwu, ?_, ?_⟩
    · rw [(C224_products sqrt r u).1 (by omega), hr1, hw, Finset.mul_sum, ← Finset.sum_add_distrib]
      congr 1
      refine Finset.sum_congr rfl fun i hi => ?_
      rw [hrd i (Finset.mem_range.1 hi)]
      ring
    · obtain ⟨t, _, ht, ⟨ht1, ht2⟩, -⟩ := (C224_updates r w (-alpha)).1 (by omega)
      rw [ht]
      congr 1
      apply List.ext_getElem?
      intro i
      by_cases hi : i < v.length
      · rw [ht2 i (by omega)]
        dsimp only
        rw [hrd i hi, get_getD 0 v i hi]
        congr 1
        ring
      · rw [List.getElem?_eq_none (by omega), List.getElem?_eq_none (by omega)]
  · rw [nv, Option.some.injEq]
    have h1 := hs _ (sq v)
    constructor
    · intro h
      have h0 : ∑ i ∈ range v.length, v.getD i 0 * v.getD i 0 = 0 := by rw [← h1.2, h, zero_mul]
      rw [Finset.sum_eq_zero_iff_of_nonneg fun i _ => mul_self_nonneg _] at h0
      intro x hx
      obtain ⟨i, hi, rfl⟩ := List.mem_iff_getElem.1 hx
      have := h0 i (Finset.mem_range.2 hi)
      rw [List.getD_eq_getElem?_getD, List.getElem?_eq_getElem hi] at this
      exact mul_self_eq_zero.1 this
    · intro h
      have h0 : ∑ i ∈ range v.length, v.getD i 0 * v.getD i 0 = 0 := by
        refine Finset.sum_eq_zero fun i hi => ?_
        rw [List.getD_eq_getElem?_getD, List.getElem?_eq_getElem (Finset.mem_range.1 hi)]
        rw [Option.getD_some, h _ (List.getElem_mem _), zero_mul]
      rw [h0] at h1 ⊢
      exact mul_self_eq_zero.1 h1.2
  · exact ⟨_, _, _, hvw, nv, nw, hcs⟩
  · refine ⟨s, _, _, _, hsum, nv, nw, (C224_products sqrt s s).2.2, ?_⟩
    have h1 := hs _ (sq v)
    have h2 := hs _ (sq w)
    have h3 := hs _ (sq s)
    refine le_of_sq_le_sq ?_ (add_nonneg h1.1 h2.1)
    have e : sqrt (∑ i ∈ range s.length, s.getD i 0 * s.getD i 0) ^ 2 = ∑ i ∈ range v.length, v.getD i 0 * v.getD i 0 +
        2 * ∑ i ∈ range v.length, v.getD i 0 * w.getD i 0 + ∑ i ∈ range w.length, w.getD i 0 * w.getD i 0 := by
      rw [pow_two, h3.2, hs1, hw, Finset.mul_sum, ← Finset.sum_add_distrib, ← Finset.sum_add_distrib]
      refine Finset.sum_congr rfl fun i hi => ?_
      rw [hsd i (Finset.mem_range.1 hi)]
      ring
    have := le_of_abs_le hcs
    rw [e]
    nlinarith [h1.2, h2.2]

example : axpy (2 : ℚ) [1, 2] [3, 4] = some [7, 10] ∧ axpy (2 : ℚ) [1, 2] [3] = none ∧ dot ([1, 2] : List ℚ) [3, 4, 5] = some 11 := by
  decide +kernel

/-- The reals with their square root meet the hypotheses. -/
example : (∀ a : ℝ, 0 ≤ a → 0 ≤ Real.sqrt a ∧ Real.sqrt a * Real.sqrt a = a) ∧ ([3, 4] : List ℝ).length = ([1, 2] : List ℝ).length :=
  ⟨fun a h => ⟨Real.sqrt_nonneg a, Real.mul_self_sqrt h⟩, rfl⟩

end Verif
