import Mathlib.Data.List.Basic
import Mathlib.Tactic.Linarith
import Mathlib.Algebra.BigOperators.Group.List.Basic

/-! Prefix sums of a function on the natural numbers. -/
namespace Verif.PSums

/-- `f 0 + ... + f (n-1)`. -/
def psum (f : Nat → Nat) (n : Nat) : Nat := ((List.range n).map f).sum

@[simp] theorem psum_zero (f : Nat → Nat) : psum f 0 = 0 := rfl

theorem psum_succ (f : Nat → Nat) (n : Nat) : psum f (n + 1) = psum f n + f n := by
  simp [psum, List.range_succ]

theorem psum_congr {f g : Nat → Nat} {n : Nat} (h : ∀ i, i < n → f i = g i) : psum f n = psum g n := by
  unfold psum
  congr 1
  apply List.map_congr_left
  intro i hi
  exact h i (List.mem_range.1 hi)

theorem psum_mono (f : Nat → Nat) {r s : Nat} (h : r ≤ s) : psum f r ≤ psum f s := by
  induction s with
  | zero => have : r = 0 := by omega
            subst this; exact le_refl _
  | succ s ih =>
    rcases Nat.lt_or_ge s r with h1 | h1
    · have : r = s + 1 := by omega
      subst this; exact le_refl _
    · rw [psum_succ]; exact le_trans (ih h1) (Nat.le_add_right _ _)

theorem psum_add_lt (f : Nat → Nat) {n r k : Nat} (hr : r < n) (hk : k < f r) :
    psum f r + k < psum f n := by
  have := psum_mono f (r := r + 1) (s := n) hr
  rw [psum_succ] at this; omega

theorem psum_exists (f : Nat → Nat) (n p : Nat) (hp : p < psum f n) :
    ∃ r k, r < n ∧ k < f r ∧ p = psum f r + k := by
  induction n with
  | zero => simp at hp
  | succ n ih =>
    by_cases h : p < psum f n
    · obtain ⟨r, k, h1, h2, h3⟩ := ih h
      exact ⟨r, k, by omega, h2, h3⟩
    · rw [psum_succ] at hp
      exact ⟨n, p - psum f n, by omega, by omega, by omega⟩

theorem psum_inj (f : Nat → Nat) {r k r' k' : Nat} (hk : k < f r) (hk' : k' < f r')
    (h : psum f r + k = psum f r' + k') : r = r' ∧ k = k' := by
  rcases Nat.lt_trichotomy r r' with h1 | h1 | h1
  · have := psum_mono f (r := r + 1) (s := r') h1
    rw [psum_succ] at this; omega
  · subst h1; omega
  · have := psum_mono f (r := r' + 1) (s := r) h1
    rw [psum_succ] at this; omega

theorem psum_mul (f g : Nat → Nat) (m n : Nat) (h : ∀ i, i < n → f i = g i * m) :
    psum f n = psum g n * m := by
  induction n with
  | zero => simp
  | succ n ih =>
    rw [psum_succ, psum_succ, ih (fun i hi => h i (by omega)), h n (by omega), Nat.add_mul]

theorem psum_pos (f : Nat → Nat) {n i : Nat} (hi : i < n) (h : 0 < f i) : 0 < psum f n := by
  have := psum_add_lt f hi h; omega

theorem sum_eq_psum (l : List Nat) : l.sum = psum (fun i => l.getD i 0) l.length := by
  unfold psum
  congr 1
  apply List.ext_getElem?
  intro k
  by_cases hk : k < l.length
  · rw [List.getElem?_map, List.getElem?_range hk, List.getElem?_eq_getElem hk]
    simp [List.getD, List.getElem?_eq_getElem hk]
  · rw [List.getElem?_eq_none (by omega), List.getElem?_eq_none (by simp; omega)]

end Verif.PSums
