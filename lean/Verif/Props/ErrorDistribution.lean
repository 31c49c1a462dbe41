import Verif.Proofs.ErrorDistribution
import Mathlib.Algebra.Order.Ring.Rat
import Mathlib.Algebra.Field.Rat
/-
C217: the report of the distribution of the errors.
-/
namespace Verif
open Adaptivity

variable {K : Type} [Field K] [LinearOrder K] [IsStrictOrderedRing K]

theorem row_eq (x : List K) (bins k : Nat) (hk : k < bins) :
    (errorDistribution x bins).rows[k]? =
      (let b := binIter x (oneNorm x) 30 ⟨((k + 1 : Nat) : K) / (bins : K), 0, infNorm x * (1 + 1 / 100000000), 0⟩
       some (countLe x b.eta, b.eta, if oneNorm x = 0 then none else some (sumLe x b.eta / oneNorm x))) := by
  unfold errorDistribution
  simp only [binSteps_eq, startBins, List.map_map, List.getElem?_map]
  rw [List.getElem?_range hk]
  simp

/-- **C217.** There is a row for every bin. It gives the number of elements with error at most the threshold and the fraction of the total error they
carry. With `m` the largest error, the threshold is the midpoint of an interval of length `(1 + 1e-8) m / 2^29` in `[0, (1 + 1e-8) m]` whose left end
is zero or has at most the target fraction `(k+1)/bins` of the error at or below it, and whose right end is `(1 + 1e-8) m` or has more. -/
theorem C217_error_distribution (x : List K) (bins : Nat) (m : K) (hm : ∀ e, e ∈ x → |e| ≤ m)
    (hm' : (∃ e, e ∈ x ∧ |e| = m) ∨ (x = [] ∧ m = 0)) :
    (errorDistribution x bins).elements = x.length ∧ (errorDistribution x bins).maxError = m ∧
    (errorDistribution x bins).total = (x.map fun e => |e|).sum ∧ (errorDistribution x bins).rows.length = bins ∧
    ∀ k, k < bins → ∃ eta, (errorDistribution x bins).rows[k]? = some ((x.filter fun e => decide (e ≤ eta)).length, eta,
        if (x.map fun e => |e|).sum = 0 then none else some ((x.filter fun e => decide (e ≤ eta)).sum / (x.map fun e => |e|).sum)) ∧
      ∃ l r, 0 ≤ l ∧ r ≤ m * (1 + 1 / 10 ^ 8) ∧ r - l = m * (1 + 1 / 10 ^ 8) / 2 ^ 29 ∧ eta = (l + r) / 2 ∧
        (l = 0 ∨ (x.filter fun e => decide (e ≤ l)).sum ≤ ((k : K) + 1) / bins * (x.map fun e => |e|).sum) ∧
        (r = m * (1 + 1 / 10 ^ 8) ∨ ((k : K) + 1) / bins * (x.map fun e => |e|).sum < (x.filter fun e => decide (e ≤ r)).sum) := by
  have hi := infNorm_eq x m hm hm'
  refine ⟨rfl, hi, oneNorm_eq x, ?_, fun k hk => ?_⟩
  · simp [errorDistribution, binSteps_eq, startBins]
  · have hm0 : 0 ≤ m := by rw [← hi]; exact infNorm_nonneg x
    have e8 : (1 : K) + 1 / 100000000 = 1 + 1 / 10 ^ 8 := by norm_num
    rw [row_eq x bins k hk]
    simp only [sumLe_eq, countLe_eq, oneNorm_eq, hi, e8]
    refine ⟨_, rfl, ?_⟩
    have hm1 : 0 ≤ m * (1 + 1 / 10 ^ 8) := by positivity
    obtain ⟨l, r, h1, h2, h3, h4, h5, h6⟩ := binIter_bracket x (x.map fun e => |e|).sum (m * (1 + 1 / 10 ^ 8)) hm1 29 0
      ⟨((k + 1 : Nat) : K) / (bins : K), 0, m * (1 + 1 / 10 ^ 8), 0⟩ (le_refl _) (le_refl _) (by simp) (Or.inl rfl) (Or.inl rfl)
    simp only [sumLe_eq, Nat.cast_add, Nat.cast_one, Nat.zero_add] at h3 h4 h5 h6 ⊢
    exact ⟨l, r, h1, h2, h3, h4, h5, h6⟩

/-- **C217.** Thresholds and numbers of elements do not decrease with the bin. -/
theorem C217_monotone (x : List K) (bins k k' : Nat) (hk : k ≤ k') (c c' : Nat) (eta eta' : K) (s s' : Option K)
    (h : (errorDistribution x bins).rows[k]? = some (c, eta, s)) (h' : (errorDistribution x bins).rows[k']? = some (c', eta', s')) :
    eta ≤ eta' ∧ c ≤ c' ∧ ((∀ e ∈ x, 0 ≤ e) → ∀ f f', s = some f → s' = some f' → f ≤ f') := by
  have hlen : (errorDistribution x bins).rows.length = bins := by simp [errorDistribution, binSteps_eq, startBins]
  have hk' : k' < bins := by
    have := (List.getElem?_eq_some_iff.mp h').1
    omega
  rw [row_eq x bins k (by omega)] at h
  rw [row_eq x bins k' hk'] at h'
  simp only [Option.some.injEq, Prod.mk.injEq] at h h'
  obtain ⟨rfl, rfl, rfl⟩ := h
  obtain ⟨rfl, rfl, rfl⟩ := h'
  have hm : 0 ≤ infNorm x * (1 + 1 / 100000000) := mul_nonneg (infNorm_nonneg x) (by norm_num)
  have hb : (0 : K) < bins := by exact_mod_cast (by omega : 0 < bins)
  have heta : (binIter x (oneNorm x) 30 ⟨((k + 1 : Nat) : K) / (bins : K), 0, infNorm x * (1 + 1 / 100000000), 0⟩).eta
      ≤ (binIter x (oneNorm x) 30 ⟨((k' + 1 : Nat) : K) / (bins : K), 0, infNorm x * (1 + 1 / 100000000), 0⟩).eta := by
    have ht : ((k + 1 : Nat) : K) / (bins : K) ≤ ((k' + 1 : Nat) : K) / (bins : K) := by
      apply div_le_div_of_nonneg_right _ hb.le
      exact_mod_cast (by omega : k + 1 ≤ k' + 1)
    exact binIter_before x (oneNorm x) (oneNorm_nonneg x) 30 ⟨((k + 1 : Nat) : K) / (bins : K), 0, infNorm x * (1 + 1 / 100000000), 0⟩
      ⟨((k' + 1 : Nat) : K) / (bins : K), 0, infNorm x * (1 + 1 / 100000000), 0⟩ ht hm hm (Or.inl ⟨rfl, rfl⟩) (le_refl _)
  generalize (binIter x (oneNorm x) 30 ⟨((k + 1 : Nat) : K) / (bins : K), 0, infNorm x * (1 + 1 / 100000000), 0⟩).eta = a at *
  generalize (binIter x (oneNorm x) 30 ⟨((k' + 1 : Nat) : K) / (bins : K), 0, infNorm x * (1 + 1 / 100000000), 0⟩).eta = b at *
  refine ⟨heta, ?_, ?_⟩
  · rw [countLe_eq, countLe_eq]
    have hsub : (x.filter fun e => decide (e ≤ a)).Sublist (x.filter fun e => decide (e ≤ b)) :=
      List.monotone_filter_right x (fun e he => by simp at he ⊢; exact he.trans heta)
    exact hsub.length_le
  · intro hnn f f' hf hf'
    split at hf
    · cases hf
    · split at hf'
      · cases hf'
      · cases hf; cases hf'
        apply div_le_div_of_nonneg_right _ (oneNorm_nonneg x)
        rw [sumLe_eq, sumLe_eq]
        clear * - hnn heta
        induction x with
        | nil => simp
        | cons e x ih =>
          have ih := ih (fun e he => hnn e (List.mem_cons_of_mem _ he))
          have he : 0 ≤ e := hnn e (by simp)
          by_cases h1 : e ≤ a
          · have h2 := h1.trans heta
            simp only [List.filter_cons, h1, h2, decide_true, if_true, List.sum_cons]
            linarith
          · by_cases h2 : e ≤ b
            · simp only [List.filter_cons, h1, h2, decide_true, decide_false, if_true, List.sum_cons]
              simp only [Bool.false_eq_true, if_false]
              linarith
            · simp only [List.filter_cons, h1, h2, decide_false]
              simpa using ih

/-- **C217.** The last bin contains all elements, and all of the error if no error is negative. -/
theorem C217_last_bin (x : List K) (bins c : Nat) (eta : K) (s : Option K) (hb : 1 ≤ bins)
    (h : (errorDistribution x bins).rows[bins - 1]? = some (c, eta, s)) :
    c = x.length ∧ (∀ e ∈ x, e ≤ eta) ∧ ((∀ e ∈ x, 0 ≤ e) → (∃ e ∈ x, e ≠ 0) → s = some 1) := by
  rw [row_eq x bins (bins - 1) (by omega)] at h
  simp only [Option.some.injEq, Prod.mk.injEq] at h
  obtain ⟨rfl, rfl, rfl⟩ := h
  have hb' : (bins : K) ≠ 0 := by exact_mod_cast (by omega : bins ≠ 0)
  have ht : ((bins - 1 + 1 : Nat) : K) / (bins : K) = 1 := by rw [Nat.sub_add_cancel hb]; exact div_self hb'
  rw [ht, binIter_all x _ 29 _ (fun eta => by rw [one_mul]; exact sumLe_le x eta)]
  simp only [sub_zero]
  have hle : ∀ e ∈ x, e ≤ infNorm x * (1 + 1 / 100000000) - infNorm x * (1 + 1 / 100000000) / 2 ^ (29 + 1) := by
    intro e he
    have h1 : |e| ≤ infNorm x := (infNorm_fold x 0).2.1 e he
    have h2 := le_abs_self e
    have h3 := infNorm_nonneg x
    have h4 : infNorm x * (1 + 1 / 100000000) - infNorm x * (1 + 1 / 100000000) / 2 ^ (29 + 1)
        = infNorm x + infNorm x * ((1 + 1 / 100000000) - (1 + 1 / 100000000) / 2 ^ 30 - 1) := by ring
    have h5 : 0 ≤ infNorm x * ((1 + 1 / 100000000) - (1 + 1 / 100000000) / 2 ^ 30 - 1) := mul_nonneg h3 (by norm_num)
    linarith
  have hf : (x.filter fun e => decide (e ≤ infNorm x * (1 + 1 / 100000000) - infNorm x * (1 + 1 / 100000000) / 2 ^ (29 + 1))) = x :=
    List.filter_eq_self.mpr fun e he => by simpa using hle e he
  refine ⟨by rw [countLe_eq, hf], hle, fun hnn ⟨e, he, hne⟩ => ?_⟩
  have hsum : oneNorm x = x.sum := by
    rw [oneNorm_eq]
    congr 1
    conv_rhs => rw [← List.map_id x]
    exact List.map_congr_left fun a ha => abs_of_nonneg (hnn a ha)
  have hpos : oneNorm x ≠ 0 := by
    intro h0
    rw [oneNorm_eq] at h0
    have : |e| ≤ (x.map fun e => |e|).sum :=
      List.single_le_sum (fun a ha => by obtain ⟨b, _, rfl⟩ := List.mem_map.1 ha; exact abs_nonneg b) _ (List.mem_map.2 ⟨e, he, rfl⟩)
    rw [h0] at this
    exact hne (abs_eq_zero.mp (le_antisymm this (abs_nonneg e)))
  rw [if_neg hpos, sumLe_eq, hf, hsum, div_self (by rw [← hsum]; exact hpos)]

/-- Errors 1, 2, 3, 4 in two bins: the first bin ends between 2 and 3, the last contains all. -/
example : ((errorDistribution ([1, 4, 2, 3] : List ℚ) 2).rows.map fun r => (r.1, r.2.2)) = [(2, some (3 / 10)), (4, some 1)] := by decide +kernel

example : ∃ e ∈ ([1, 4, 2, 3] : List ℚ), |e| = 4 := ⟨4, by simp, by decide +kernel⟩

end Verif
