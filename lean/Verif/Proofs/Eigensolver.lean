import Verif.Spec.Eigensolver
import Mathlib.Tactic.Ring
import Mathlib.Tactic.FieldSimp
import Mathlib.Tactic.LinearCombination
import Mathlib.Algebra.BigOperators.Ring.Finset
import Mathlib.Logic.Equiv.Fin.Basic
/-
Helpers for the eigensolver.
-/
namespace Verif.Eigensolver

open Spec Finset

variable {K : Type} [Field K] {N b : Nat}

theorem pos_div (I : Fin N) (i : Fin b) : (pos I i).divNat = I := by
  apply Fin.ext
  show (I.val * b + i.val) / b = I.val
  have hb : 0 < b := i.pos
  rw [Nat.mul_comm, Nat.mul_add_div hb, Nat.div_eq_of_lt i.isLt, Nat.add_zero]

theorem pos_mod (I : Fin N) (i : Fin b) : (pos I i).modNat = i := by
  apply Fin.ext
  show (I.val * b + i.val) % b = i.val
  rw [Nat.mul_comm, Nat.mul_add_mod, Nat.mod_eq_of_lt i.isLt]

theorem pos_surj (k : Fin (N * b)) : pos k.divNat k.modNat = k := by
  apply Fin.ext
  show k.val / b * b + k.val % b = k.val
  exact Nat.div_add_mod' k.val b

theorem pos_eq_iff (I J : Fin N) (i j : Fin b) : pos I i = pos J j ↔ I = J ∧ i = j := by
  constructor
  · intro h
    exact ⟨by rw [← pos_div I i, h, pos_div], by rw [← pos_mod I i, h, pos_mod]⟩
  · rintro ⟨rfl, rfl⟩; rfl

omit [Field K] in
theorem inner_fold (r : Blocks K N b) (I : Fin N) (J : Fin N) (j : Fin b) : ∀ (l : List (Fin b)) (v : Flat K N b),
    l.foldl (fun v i => assign v (pos I i) (r I i)) v (pos J j) = if J = I ∧ j ∈ l then r J j else v (pos J j)
  | [], v => by simp
  | i :: l, v => by
    rw [List.foldl_cons, inner_fold r I J j l]
    unfold assign
    simp only [pos_eq_iff]
    by_cases h : J = I
    · subst h
      by_cases hj : j ∈ l
      · simp [hj]
      · by_cases hji : j = i
        · subst hji; simp
        · simp [hj, hji]
    · simp [h]

omit [Field K] in
theorem outer_fold (r : Blocks K N b) (J : Fin N) (j : Fin b) : ∀ (l : List (Fin N)) (v : Flat K N b),
    l.foldl (fun v block => (List.finRange b).foldl (fun v i => assign v (pos block i) (r block i)) v) v (pos J j) =
      if J ∈ l then r J j else v (pos J j)
  | [], v => by simp
  | I :: l, v => by
    rw [List.foldl_cons, outer_fold r J j l, inner_fold]
    by_cases h : J ∈ l
    · simp [h]
    · by_cases hJ : J = I
      · subst hJ; simp
      · simp [h, hJ]

omit [Field K] in
/-- Every element of the array is overwritten. -/
theorem toArray_pos (r : Blocks K N b) (v : Flat K N b) (J : Fin N) (j : Fin b) : toArray r v (pos J j) = r J j := by
  unfold toArray
  rw [outer_fold, if_pos (List.mem_finRange J)]

theorem flat_pos (M : BlockMat K N b) (I J : Fin N) (i j : Fin b) : flat M (pos I i) (pos J j) = entry M I J i j := by
  unfold flat entry
  rw [pos_div, pos_div, pos_mod, pos_mod]
  cases M I J <;> rfl

theorem sum_pos (f : Fin (N * b) → K) : ∑ l, f l = ∑ J, ∑ j, f (pos J j) := by
  rw [← Fintype.sum_prod_type', ← Equiv.sum_comp finProdFinEquiv f]
  refine Finset.sum_congr rfl fun p _ => ?_
  congr 1
  apply Fin.ext
  show p.2.val + b * p.1.val = p.1.val * b + p.2.val
  ring

/-- The product of a block matrix is that of the flat matrix. -/
theorem mv_flat (M : BlockMat K N b) (x : Flat K N b) (I : Fin N) (i : Fin b) :
    mv M (toBlocks x) I i = ∑ l, flat M (pos I i) l * x l := by
  rw [sum_pos]
  unfold mv toBlocks
  simp only [flat_pos]

theorem axpy_flat (alpha : K) (A B S : BlockMat K N b) (h : axpy alpha A B = some S) (k l : Fin (N * b)) :
    flat S k l = flat A k l + alpha * flat B k l := by
  unfold axpy at h
  split at h
  · rename_i hp
    injection h with h
    subst h
    unfold flat
    dsimp only
    cases hA : A k.divNat l.divNat with
    | none =>
      rw [hp _ _ hA]
      simp
    | some a =>
      cases hB : B k.divNat l.divNat with
      | none => simp
      | some m => simp
  · cases h

/-- An eigenvector of the operator given to ARPACK is one of the pencil. -/
theorem op_eigenpair (solve : BlockMat K N b → Blocks K N b → Blocks K N b) (A B S : BlockMat K N b) (sigma mu : K)
    (hS : axpy (-sigma) A B = some S) (hsol : Solves solve A B sigma) (x w : Flat K N b) (hmu : mu ≠ 0)
    (h : ∀ k, multMv solve S B x w k = mu * x k) : Eigenpair A B (unshift sigma mu) x := by
  have hf := axpy_flat (-sigma) A B S hS
  obtain ⟨h1, -⟩ := hsol S (fun k l => by rw [hf]; ring)
  have hb : solve S (mv B (toBlocks x)) = toBlocks fun k => mu * x k := by
    funext I i
    have := h (pos I i)
    unfold multMv at this
    rw [toArray_pos] at this
    exact this
  intro k
  obtain ⟨I, i, rfl⟩ : ∃ I i, pos I i = k := ⟨_, _, pos_surj k⟩
  have h2 := h1 (mv B (toBlocks x)) I i
  rw [hb] at h2
  have h3 : ∑ J, ∑ j, entry S I J i j * toBlocks (fun k => mu * x k) J j = mv S (toBlocks fun k => mu * x k) I i := rfl
  rw [h3, mv_flat, mv_flat] at h2
  simp only [hf] at h2
  have h4 : ∑ l, (flat A (pos I i) l + -sigma * flat B (pos I i) l) * (mu * x l) =
      mu * (∑ l, flat A (pos I i) l * x l) - sigma * mu * ∑ l, flat B (pos I i) l * x l := by
    rw [Finset.mul_sum, Finset.mul_sum, ← Finset.sum_sub_distrib]
    exact Finset.sum_congr rfl fun l _ => by ring
  rw [h4] at h2
  unfold unshift
  field_simp
  linear_combination h2

/-- Conversely, a generalised eigenvector is one of the operator. -/
theorem eigenpair_op (solve : BlockMat K N b → Blocks K N b → Blocks K N b) (A B S : BlockMat K N b) (sigma lambda : K)
    (hS : axpy (-sigma) A B = some S) (hsol : Solves solve A B sigma) (x : Flat K N b) (hx : x ≠ 0)
    (h : Eigenpair A B lambda x) : lambda ≠ sigma ∧ ∀ w k, multMv solve S B x w k = 1 / (lambda - sigma) * x k := by
  have hf := axpy_flat (-sigma) A B S hS
  obtain ⟨-, h2⟩ := hsol S (fun k l => by rw [hf]; ring)
  -- `S x = (lambda - sigma) B x`
  have hSx : ∀ (c : K) I i, mv S (toBlocks fun k => c * x k) I i = c * ((lambda - sigma) * mv B (toBlocks x) I i) := by
    intro c I i
    rw [mv_flat, mv_flat]
    simp only [hf]
    have h4 : ∑ l, (flat A (pos I i) l + -sigma * flat B (pos I i) l) * (c * x l) =
        c * ((∑ l, flat A (pos I i) l * x l) - sigma * ∑ l, flat B (pos I i) l * x l) := by
      rw [Finset.mul_sum, ← Finset.sum_sub_distrib, Finset.mul_sum]
      exact Finset.sum_congr rfl fun l _ => by ring
    rw [h4, h (pos I i)]
    ring
  have hne : lambda ≠ sigma := by
    intro e
    apply hx
    have h0 : mv S (toBlocks x) = fun _ _ => 0 := by
      funext I i
      have := hSx 1 I i
      simp only [one_mul] at this
      rw [this, e, sub_self, zero_mul]
    have hz : mv S (fun _ _ => 0) = fun _ _ => 0 := by
      funext I i
      unfold mv
      simp
    have e1 : toBlocks x = (fun _ _ => 0 : Blocks K N b) := by
      rw [← h2 (toBlocks x), ← h2 (fun _ _ => 0)]
      show solve S (mv S (toBlocks x)) = solve S (mv S fun _ _ => 0)
      rw [h0, hz]
    funext k
    have := congrFun (congrFun e1 k.divNat) k.modNat
    unfold toBlocks at this
    rw [pos_surj] at this
    exact this
  refine ⟨hne, fun w k => ?_⟩
  have hd : lambda - sigma ≠ 0 := sub_ne_zero.2 hne
  obtain ⟨I, i, rfl⟩ : ∃ I i, pos I i = k := ⟨_, _, pos_surj k⟩
  unfold multMv
  rw [toArray_pos]
  have e : mv B (toBlocks x) = mv S (toBlocks fun k => 1 / (lambda - sigma) * x k) := by
    funext I i
    rw [hSx, ← mul_assoc, one_div, inv_mul_cancel₀ hd, one_mul]
  rw [e]
  have := h2 (toBlocks fun k => 1 / (lambda - sigma) * x k)
  have h3 := congrFun (congrFun this I) i
  exact h3

end Verif.Eigensolver
