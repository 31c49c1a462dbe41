import Verif.Model.LocalVectorOps
import Verif.Spec.LocalVectorOps
import Mathlib.Algebra.BigOperators.Intervals
import Mathlib.Algebra.BigOperators.Group.List.Basic
import Mathlib.Tactic.Abel
/-
Helpers for the arithmetic of local vectors.
-/
namespace Verif.LocalVectorOps

open Spec Finset

variable {K : Type} [Ring K]

omit [Ring K] in
theorem transform_spec (op : K → K → K) : ∀ (v w : List K), v.length ≤ w.length →
    ∃ r, transform op v w = some r ∧ r.length = v.length ∧ ∀ (i : Nat) (a b : K), v[i]? = some a → w[i]? = some b → r[i]? = some (op a b)
  | [], w, _ => ⟨[], rfl, rfl, by intro i a b h; simp at h⟩
  | a :: as, [], h => by simp at h
  | a :: as, b :: bs, h => by
    obtain ⟨r, h1, h2, h3⟩ := transform_spec op as bs (by simpa using h)
    refine ⟨op a b :: r, by simp [transform, h1], by simp [h2], ?_⟩
    intro i x y hx hy
    cases i with
    | zero => simp at hx hy ⊢; rw [hx, hy]
    | succ i => simp at hx hy ⊢; exact h3 i x y hx hy

omit [Ring K] in
theorem transform_short (op : K → K → K) : ∀ (v w : List K), w.length < v.length → transform op v w = none
  | [], w, h => by simp at h
  | a :: as, [], _ => rfl
  | a :: as, b :: bs, h => by simp [transform, transform_short op as bs (by simpa using h)]

theorem innerProduct_spec : ∀ (v w : List K) (acc : K), v.length ≤ w.length → innerProduct v w acc = some (acc + euclid v.length v w)
  | [], w, acc, _ => by simp [innerProduct, euclid]
  | a :: as, [], acc, h => by simp at h
  | a :: as, b :: bs, acc, h => by
    unfold innerProduct
    rw [innerProduct_spec as bs _ (by simpa using h)]
    unfold euclid
    rw [List.length_cons, Finset.sum_range_succ']
    simp only [List.getD_cons_succ, List.getD_cons_zero]
    congr 1
    abel

theorem innerProduct_short : ∀ (v w : List K) (acc : K), w.length < v.length → innerProduct v w acc = none
  | [], w, acc, h => by simp at h
  | a :: as, [], acc, _ => rfl
  | a :: as, b :: bs, acc, h => by
    unfold innerProduct
    exact innerProduct_short as bs _ (by simpa using h)

omit [Ring K] in
theorem get_getD (d : K) (v : List K) (i : Nat) (h : i < v.length) : v[i]? = some (v.getD i d) := by
  rw [List.getD_eq_getElem?_getD, List.getElem?_eq_getElem h]; rfl

end Verif.LocalVectorOps
