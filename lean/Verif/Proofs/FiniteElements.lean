import Verif.Spec.FiniteElements
import Mathlib.LinearAlgebra.Lagrange
import Mathlib.Algebra.Polynomial.Derivative
import Mathlib.Algebra.BigOperators.Field
import Mathlib.Tactic.Ring
import Mathlib.Tactic.FieldSimp
import Mathlib.Tactic.LinearCombination
import Mathlib.Data.List.GetD
namespace Verif.FE
open Polynomial Spec

/-! ### Indices -/

theorem qkSize_eq (k d : Nat) : qkSize k d = (k + 1) ^ d := by
  match d with
  | 0 => simp [qkSize]
  | 1 => simp [qkSize]
  | n + 2 =>
    rw [qkSize, qkSize_eq k (n + 1)]
    by_cases hk : k = 0
    · simp [hk]
    · rw [if_neg hk]; ring

theorem multiindex_length (k d i : Nat) : (multiindex k d i).length = d := by
  induction d generalizing i with
  | zero => rfl
  | succ d ih => simp [multiindex, ih]

theorem multiindex_le (k d i : Nat) : ∀ a ∈ multiindex k d i, a ≤ k := by
  induction d generalizing i with
  | zero => simp [multiindex]
  | succ d ih =>
    intro a ha
    simp only [multiindex, List.mem_cons] at ha
    rcases ha with rfl | ha
    · exact Nat.le_of_lt_succ (Nat.mod_lt _ (Nat.succ_pos k))
    · exact ih _ a ha

theorem multiindex_injective (k d i i' : Nat) (h : i < (k + 1) ^ d) (h' : i' < (k + 1) ^ d)
    (he : multiindex k d i = multiindex k d i') : i = i' := by
  induction d generalizing i i' with
  | zero => simp at h h'; omega
  | succ d ih =>
    simp only [multiindex, List.cons.injEq] at he
    have hdiv : ∀ i, i < (k + 1) ^ (d + 1) → i / (k + 1) < (k + 1) ^ d := by
      intro i hi
      rw [Nat.div_lt_iff_lt_mul (Nat.succ_pos k)]
      rwa [pow_succ] at hi
    have := ih _ _ (hdiv i h) (hdiv i' h') he.2
    rw [← Nat.div_add_mod i (k + 1), ← Nat.div_add_mod i' (k + 1), this, he.1]

theorem multiindex_surjective (k d : Nat) (alpha : List Nat) (hl : alpha.length = d) (hk : ∀ a ∈ alpha, a ≤ k) :
    ∃ i < (k + 1) ^ d, multiindex k d i = alpha := by
  induction alpha generalizing d with
  | nil => subst hl; exact ⟨0, by simp, rfl⟩
  | cons a alpha ih =>
    subst hl
    obtain ⟨i, hi, he⟩ := ih alpha.length rfl fun a ha => hk a (by simp [ha])
    have ha : a < k + 1 := Nat.lt_succ_of_le (hk a (by simp))
    refine ⟨a + (k + 1) * i, ?_, ?_⟩
    · rw [List.length_cons, pow_succ, mul_comm _ (k + 1)]
      calc a + (k + 1) * i < (k + 1) + (k + 1) * i := Nat.add_lt_add_right ha _
        _ = (k + 1) * (i + 1) := by ring
        _ ≤ (k + 1) * (k + 1) ^ alpha.length := Nat.mul_le_mul_left _ hi
    · rw [List.length_cons, multiindex, Nat.add_mul_mod_self_left, Nat.mod_eq_of_lt ha,
        Nat.add_mul_div_left _ _ (Nat.succ_pos k), Nat.div_eq_of_lt ha, Nat.zero_add, he]

theorem multiindex_getD_le (k d i j : Nat) : (multiindex k d i).getD j 0 ≤ k := by
  by_cases h : j < (multiindex k d i).length
  · rw [List.getD_eq_getElem _ _ h]
    exact multiindex_le k d i _ (List.getElem_mem h)
  · rw [List.getD_eq_default _ _ (Nat.le_of_not_lt h)]
    exact Nat.zero_le _

/-- Two indices below the size are equal if all entries of their multiindices are. -/
theorem multiindex_ext (k d i i' : Nat) (h : i < (k + 1) ^ d) (h' : i' < (k + 1) ^ d)
    (he : ∀ j < d, (multiindex k d i).getD j 0 = (multiindex k d i').getD j 0) : i = i' := by
  refine multiindex_injective k d i i' h h' (List.ext_getElem ?_ ?_)
  · rw [multiindex_length, multiindex_length]
  · intro j h1 h2
    have hj : j < d := by rwa [multiindex_length] at h1
    have := he j hj
    rwa [List.getD_eq_getElem _ _ h1, List.getD_eq_getElem _ _ h2] at this

section Field
variable {K : Type} [Field K]

/-! ### Loops as sums and products -/

theorem foldl_mul_range (f : Nat → K) (n : Nat) (a : K) :
    (List.range n).foldl (fun r j => r * f j) a = a * ∏ j ∈ Finset.range n, f j := by
  induction n with
  | zero => simp
  | succ n ih => rw [List.range_succ, List.foldl_append, ih, Finset.prod_range_succ]; simp [mul_assoc]

theorem foldl_ite_mul_range (c : Nat → Prop) [DecidablePred c] (f : Nat → K) (n : Nat) (a : K) :
    (List.range n).foldl (fun r j => if c j then r * f j else r) a = a * ∏ j ∈ Finset.range n, if c j then f j else 1 := by
  rw [← foldl_mul_range]
  congr 1
  funext r j
  split <;> simp

theorem foldl_ite_add_range (c : Nat → Prop) [DecidablePred c] (f : Nat → K) (n : Nat) (a : K) :
    (List.range n).foldl (fun r j => if c j then r + f j else r) a = a + ∑ j ∈ Finset.range n, if c j then f j else 0 := by
  induction n with
  | zero => simp
  | succ n ih => rw [List.range_succ, List.foldl_append, ih, Finset.sum_range_succ]; simp; split <;> ring

/-- Sums over all indices of products over the directions. -/
theorem sum_tensor (k d : Nat) (F : Nat → Nat → K) :
    ∑ i ∈ Finset.range ((k + 1) ^ d), ∏ j ∈ Finset.range d, F j ((multiindex k d i).getD j 0) =
      ∏ j ∈ Finset.range d, ∑ a ∈ Finset.range (k + 1), F j a := by
  induction d generalizing F with
  | zero => simp
  | succ d ih =>
    rw [Finset.prod_range_succ', ← ih fun j => F (j + 1), Finset.sum_mul_sum, pow_succ, mul_comm, ← Finset.sum_product']
    symm
    refine Finset.sum_bij' (fun x _ => x.2 + (k + 1) * x.1) (fun i _ => (i / (k + 1), i % (k + 1))) ?_ ?_ ?_ ?_ ?_
    · rintro ⟨i, a⟩ h
      simp only [Finset.mem_product, Finset.mem_range] at h ⊢
      calc a + (k + 1) * i < (k + 1) + (k + 1) * i := Nat.add_lt_add_right h.2 _
        _ = (k + 1) * (i + 1) := by ring
        _ ≤ (k + 1) * (k + 1) ^ d := Nat.mul_le_mul_left _ h.1
    · intro i h
      simp only [Finset.mem_product, Finset.mem_range] at h ⊢
      refine ⟨?_, Nat.mod_lt _ (Nat.succ_pos k)⟩
      rw [Nat.div_lt_iff_lt_mul (Nat.succ_pos k), mul_comm]
      exact h
    · rintro ⟨i, a⟩ h
      simp only [Finset.mem_product, Finset.mem_range] at h
      simp only [Prod.mk.injEq]
      rw [Nat.add_mul_mod_self_left, Nat.mod_eq_of_lt h.2, Nat.add_mul_div_left _ _ (Nat.succ_pos k), Nat.div_eq_of_lt h.2,
        Nat.zero_add]
      exact ⟨rfl, rfl⟩
    · intro i _
      exact Nat.mod_add_div i (k + 1)
    · rintro ⟨i, a⟩ h
      simp only [Finset.mem_product, Finset.mem_range] at h
      rw [Finset.prod_range_succ', multiindex, Nat.add_mul_mod_self_left, Nat.mod_eq_of_lt h.2,
        Nat.add_mul_div_left _ _ (Nat.succ_pos k), Nat.div_eq_of_lt h.2, Nat.zero_add]
      rfl

theorem tensorFunction_length (k d : Nat) (p : Nat → Nat → K) : (tensorFunction k d p).length = (k + 1) ^ d := by
  simp [tensorFunction, qkSize_eq]

theorem tensorFunction_getElem? (k d : Nat) (p : Nat → Nat → K) (i : Nat) (h : i < (k + 1) ^ d) :
    (tensorFunction k d p)[i]? = some (∏ j ∈ Finset.range d, p j ((multiindex k d i).getD j 0)) := by
  unfold tensorFunction
  rw [List.getElem?_map, qkSize_eq, List.getElem?_range h]
  simp only [Option.map_some, Option.some.injEq]
  rw [foldl_mul_range, one_mul]

theorem tensorFunction_eq (k d : Nat) (p : Nat → Nat → K) : tensorFunction k d p =
    (List.range ((k + 1) ^ d)).map fun i => ∏ j ∈ Finset.range d, p j ((multiindex k d i).getD j 0) := by
  unfold tensorFunction
  rw [qkSize_eq]
  refine List.map_congr_left fun i _ => ?_
  dsimp only
  rw [foldl_mul_range, one_mul]

theorem tensorJacobian_getElem? (k d : Nat) (p dp : Nat → Nat → K) (i j : Nat) (h : i < (k + 1) ^ d) (hj : j < d) :
    ∃ g, (tensorJacobian k d p dp)[i]? = some g ∧ g.length = d ∧ g[j]? = some (dp j ((multiindex k d i).getD j 0) *
      ∏ l ∈ Finset.range d, if l ≠ j then p l ((multiindex k d i).getD l 0) else 1) := by
  unfold tensorJacobian
  rw [List.getElem?_map, qkSize_eq, List.getElem?_range h]
  refine ⟨_, rfl, by simp, ?_⟩
  rw [List.getElem?_map, List.getElem?_range hj]
  simp only [Option.map_some, Option.some.injEq]
  rw [foldl_ite_mul_range]

theorem combination_range (c : List K) (n : Nat) (f : Nat → K) (h : c.length = n) :
    combination c ((List.range n).map f) = ∑ i ∈ Finset.range n, c.getD i 0 * f i := by
  unfold combination
  induction n generalizing c f with
  | zero => simp
  | succ n ih =>
    cases c with
    | nil => simp at h
    | cons a c =>
      rw [List.range_succ_eq_map, List.map_cons, List.map_map, List.zipWith_cons_cons, List.sum_cons,
        ih c (f ∘ Nat.succ) (by simpa using h), Finset.sum_range_succ']
      simp [add_comm]

/-! ### Lagrange polynomials -/

theorem lobattoP_eq (xi : Nat → K) (k i : Nat) (x : K) :
    lobattoP xi k i x = ∏ j ∈ Finset.range (k + 1), if j ≠ i then (x - xi j) / (xi i - xi j) else 1 := by
  unfold lobattoP
  rw [foldl_ite_mul_range, one_mul]

theorem lobattoDp_eq (xi : Nat → K) (k i : Nat) (x : K) :
    lobattoDp xi k i x = ∑ j ∈ Finset.range (k + 1), if j ≠ i then
      1 / (xi i - xi j) * ∏ l ∈ Finset.range (k + 1), if l ≠ i ∧ l ≠ j then (x - xi l) / (xi i - xi l) else 1 else 0 := by
  unfold lobattoDp
  rw [foldl_ite_add_range (fun j => j ≠ i) (fun j => (List.range (k + 1)).foldl (fun prod l =>
        if l ≠ i ∧ l ≠ j then prod * ((x - xi l) / (xi i - xi l)) else prod) (1 / (xi i - xi j))), zero_add]
  refine Finset.sum_congr rfl fun j _ => ?_
  by_cases h : j ≠ i
  · rw [if_pos h, if_pos h, foldl_ite_mul_range]
  · rw [if_neg h, if_neg h]

/-- The polynomial. -/
noncomputable def lagrangePoly (xi : Nat → K) (k i : Nat) : K[X] :=
  ∏ j ∈ Finset.range (k + 1), if j ≠ i then C (1 / (xi i - xi j)) * (X - C (xi j)) else 1

theorem lagrangePoly_eval (xi : Nat → K) (k i : Nat) (x : K) : (lagrangePoly xi k i).eval x = lobattoP xi k i x := by
  rw [lobattoP_eq, lagrangePoly, eval_prod]
  refine Finset.prod_congr rfl fun j _ => ?_
  split
  · simp; ring
  · simp

theorem lagrangePoly_derivative (xi : Nat → K) (k i : Nat) (x : K) :
    (derivative (lagrangePoly xi k i)).eval x = lobattoDp xi k i x := by
  rw [lobattoDp_eq, lagrangePoly, derivative_prod_finset, eval_finsetSum]
  refine Finset.sum_congr rfl fun j hj => ?_
  by_cases h : j ≠ i
  · rw [if_pos h, if_pos h, eval_mul, eval_prod]
    simp only [derivative_mul, derivative_C, zero_mul, derivative_sub, derivative_X, sub_zero, mul_one, zero_add, eval_C]
    rw [mul_comm]
    congr 1
    rw [← Finset.mul_prod_erase _ _ hj, if_neg (by simp), one_mul]
    refine Finset.prod_congr rfl fun l hl => ?_
    have hlj : l ≠ j := Finset.ne_of_mem_erase hl
    by_cases hli : l ≠ i
    · rw [if_pos hli, if_pos ⟨hli, hlj⟩]; simp; ring
    · rw [if_neg hli, if_neg (fun h => hli h.1)]; simp
  · rw [if_neg h, if_neg h]; simp

theorem lagrangePoly_degree (xi : Nat → K) (k i : Nat) (hi : i ≤ k) : (lagrangePoly xi k i).natDegree ≤ k := by
  unfold lagrangePoly
  refine (natDegree_prod_le _ _).trans ?_
  calc ∑ j ∈ Finset.range (k + 1), ((if j ≠ i then C (1 / (xi i - xi j)) * (X - C (xi j)) else 1 : K[X])).natDegree
      ≤ ∑ j ∈ Finset.range (k + 1), if j ≠ i then 1 else 0 := by
        refine Finset.sum_le_sum fun j _ => ?_
        split
        · refine (natDegree_C_mul_le _ _).trans ?_
          rw [natDegree_X_sub_C]
        · simp
    _ = k := by
        have hm : i ∈ Finset.range (k + 1) := Finset.mem_range.2 (Nat.lt_succ_of_le hi)
        rw [← Finset.add_sum_erase _ _ hm]
        simp only [ne_eq, not_true_eq_false, if_false, zero_add]
        rw [Finset.sum_congr rfl (g := fun _ => 1) fun j hj => if_pos (Finset.ne_of_mem_erase hj)]
        simp [Finset.card_erase_of_mem hm]

theorem lobattoP_nodal (xi : Nat → K) (k : Nat) (hxi : ∀ i ≤ k, ∀ j ≤ k, xi i = xi j → i = j) (i j : Nat) (hi : i ≤ k) (hj : j ≤ k) :
    lobattoP xi k i (xi j) = if i = j then 1 else 0 := by
  rw [lobattoP_eq]
  by_cases h : i = j
  · subst h
    rw [if_pos rfl]
    refine Finset.prod_eq_one fun l hl => ?_
    split
    · rename_i hli
      refine div_self (sub_ne_zero.2 fun he => hli ?_)
      exact (hxi i hi l (Nat.le_of_lt_succ (Finset.mem_range.1 hl)) he).symm
    · rfl
  · rw [if_neg h]
    refine Finset.prod_eq_zero (Finset.mem_range.2 (Nat.lt_succ_of_le hj)) ?_
    rw [if_pos (Ne.symm h)]
    simp

theorem lagrange_reproduces (xi : Nat → K) (k : Nat) (hxi : ∀ i ≤ k, ∀ j ≤ k, xi i = xi j → i = j) (g : K[X])
    (hg : g.natDegree ≤ k) (x : K) : ∑ a ∈ Finset.range (k + 1), g.eval (xi a) * lobattoP xi k a x = g.eval x := by
  have : g = ∑ a ∈ Finset.range (k + 1), C (g.eval (xi a)) * lagrangePoly xi k a := by
    refine eq_of_degrees_lt_of_eval_index_eq (s := Finset.range (k + 1)) (v := xi) ?_ ?_ ?_ ?_
    · intro a ha b hb h
      exact hxi a (Nat.le_of_lt_succ (by simpa using ha)) b (Nat.le_of_lt_succ (by simpa using hb)) h
    · rw [Finset.card_range]
      exact lt_of_le_of_lt degree_le_natDegree (by exact_mod_cast Nat.lt_succ_of_le hg)
    · rw [Finset.card_range]
      refine lt_of_le_of_lt (degree_sum_le _ _) ?_
      rw [Finset.sup_lt_iff (by exact WithBot.bot_lt_coe _)]
      intro a ha
      refine lt_of_le_of_lt degree_le_natDegree ?_
      exact_mod_cast Nat.lt_succ_of_le ((natDegree_C_mul_le _ _).trans (lagrangePoly_degree xi k a (Nat.le_of_lt_succ (Finset.mem_range.1 ha))))
    · intro b hb
      rw [eval_finsetSum]
      have hb' : b ≤ k := Nat.le_of_lt_succ (Finset.mem_range.1 hb)
      rw [Finset.sum_eq_single b]
      · rw [eval_mul, eval_C, lagrangePoly_eval, lobattoP_nodal xi k hxi b b hb' hb', if_pos rfl, mul_one]
      · intro a ha hab
        rw [eval_mul, eval_C, lagrangePoly_eval, lobattoP_nodal xi k hxi a b (Nat.le_of_lt_succ (Finset.mem_range.1 ha)) hb',
          if_neg hab, mul_zero]
      · intro h; exact absurd hb h
  conv_rhs => rw [this]
  rw [eval_finsetSum]
  refine Finset.sum_congr rfl fun a _ => ?_
  rw [eval_mul, eval_C, lagrangePoly_eval]

variable [CharZero K]

theorem lagrangeP_eq (k i : Nat) (x : K) (hk : k ≠ 0) :
    lagrangeP k i x = lobattoP (fun j => (j : K) / (k : K)) k i x := by
  unfold lagrangeP
  rw [foldl_ite_mul_range, one_mul, lobattoP_eq]
  refine Finset.prod_congr rfl fun j _ => ?_
  split
  · have hk' : (k : K) ≠ 0 := Nat.cast_ne_zero.2 hk
    rw [← mul_div_mul_left (x - (j : K) / k) _ hk']
    congr 1
    · field_simp
    · field_simp
  · rfl

theorem lagrangeDp_eq (k i : Nat) (x : K) (hk : k ≠ 0) :
    lagrangeDp k i x = lobattoDp (fun j => (j : K) / (k : K)) k i x := by
  have hk' : (k : K) ≠ 0 := Nat.cast_ne_zero.2 hk
  unfold lagrangeDp
  rw [foldl_ite_add_range (fun j => j ≠ i) (fun j => (List.range (k + 1)).foldl (fun prod l =>
        if l ≠ i ∧ l ≠ j then prod * (((k : K) * x - (l : K)) / ((i : K) - (l : K))) else prod) ((k : K) / ((i : K) - (j : K)))),
    zero_add, lobattoDp_eq]
  refine Finset.sum_congr rfl fun j _ => ?_
  split
  · rw [foldl_ite_mul_range]
    congr 1
    · rw [← sub_div, one_div_div]
    · refine Finset.prod_congr rfl fun l _ => ?_
      split
      · rw [← mul_div_mul_left (x - (l : K) / k) _ hk']
        congr 1
        · field_simp
        · field_simp
      · rfl
  · rfl

theorem equidistant_injective (k : Nat) (hk : k ≠ 0) : ∀ i ≤ k, ∀ j ≤ k, (i : K) / (k : K) = (j : K) / (k : K) → i = j := by
  intro i _ j _ h
  have hk' : (k : K) ≠ 0 := Nat.cast_ne_zero.2 hk
  rw [div_left_inj' hk'] at h
  exact_mod_cast h

end Field
end Verif.FE
