import Mathlib.Data.List.Basic
import Mathlib.Tactic.Linarith

/-! Generic list lemmas shared by several proof files. -/
namespace Verif.ListAux

theorem getElem?_flatMap_range {α : Type*} (rows cols : Nat) (f : Nat → Nat → α) (i j : Nat)
    (hi : i < rows) (hj : j < cols) :
    ((List.range rows).flatMap fun i => (List.range cols).map (f i))[i * cols + j]? = some (f i j) := by
  induction rows with
  | zero => omega
  | succ n ih =>
    have hlen : ∀ m, ((List.range m).flatMap fun i => (List.range cols).map (f i)).length = m * cols := by
      intro m
      induction m with
      | zero => simp
      | succ m ihm => rw [List.range_succ, List.flatMap_append, List.length_append, ihm]; simp [Nat.add_mul]
    rw [List.range_succ, List.flatMap_append]
    by_cases h : i < n
    · rw [List.getElem?_append_left]
      · exact ih h
      · rw [hlen]
        calc i * cols + j < i * cols + cols := by omega
          _ = (i + 1) * cols := by rw [Nat.add_mul]; omega
          _ ≤ n * cols := Nat.mul_le_mul_right _ h
    · have : i = n := by omega
      subst this
      rw [List.getElem?_append_right (by rw [hlen]; omega), hlen]
      simp [hj]

theorem length_flatMap_range {α : Type*} (rows cols : Nat) (f : Nat → Nat → α) :
    ((List.range rows).flatMap fun i => (List.range cols).map (f i)).length = rows * cols := by
  induction rows with
  | zero => simp
  | succ m ihm => rw [List.range_succ, List.flatMap_append, List.length_append, ihm]; simp [Nat.add_mul]

end Verif.ListAux

namespace Verif.ListAux

/-- Prefix sums of lengths of blocks `g 0, g 1, ...`. -/
def pre {α : Type*} (g : Nat → List α) : Nat → Nat
  | 0 => 0
  | r + 1 => pre g r + (g r).length

variable {α : Type*}

theorem length_flatMap (g : Nat → List α) (n : Nat) : ((List.range n).flatMap g).length = pre g n := by
  induction n with
  | zero => rfl
  | succ n ih => rw [List.range_succ, List.flatMap_append, List.length_append, ih]; simp [pre]

theorem pre_mono (g : Nat → List α) {r s : Nat} (h : r ≤ s) : pre g r ≤ pre g s := by
  induction s with
  | zero => have : r = 0 := by omega
            subst this; exact le_refl _
  | succ s ih =>
    rcases Nat.lt_or_ge s r with h1 | h1
    · have : r = s + 1 := by omega
      subst this; exact le_refl _
    · exact le_trans (ih h1) (Nat.le_add_right _ _)

theorem pre_add_lt (g : Nat → List α) {n r k : Nat} (hr : r < n) (hk : k < (g r).length) :
    pre g r + k < pre g n := by
  have := pre_mono g (r := r + 1) (s := n) hr
  simp only [pre] at this; omega

theorem pre_congr {β : Type*} (g : Nat → List α) (g' : Nat → List β) (n : Nat)
    (h : ∀ i, i < n → (g i).length = (g' i).length) : pre g n = pre g' n := by
  induction n with
  | zero => rfl
  | succ n ih => simp [pre, ih (fun i hi => h i (by omega)), h n (by omega)]

theorem getElem?_flatMap (g : Nat → List α) (n r k : Nat) (hr : r < n) (hk : k < (g r).length) :
    ((List.range n).flatMap g)[pre g r + k]? = (g r)[k]? := by
  induction n with
  | zero => omega
  | succ n ih =>
    rw [List.range_succ, List.flatMap_append]
    by_cases h : r < n
    · rw [List.getElem?_append_left, ih h]
      rw [length_flatMap]; exact pre_add_lt g h hk
    · have : r = n := by omega
      subst this
      rw [List.getElem?_append_right (by rw [length_flatMap]; omega), length_flatMap]
      simp

/-- Every position below the total length lies in exactly one block. -/
theorem exists_block (g : Nat → List α) (n p : Nat) (hp : p < pre g n) :
    ∃ r k, r < n ∧ k < (g r).length ∧ p = pre g r + k := by
  induction n with
  | zero => simp [pre] at hp
  | succ n ih =>
    by_cases h : p < pre g n
    · obtain ⟨r, k, h1, h2, h3⟩ := ih h
      exact ⟨r, k, by omega, h2, h3⟩
    · simp only [pre] at hp
      exact ⟨n, p - pre g n, by omega, by omega, by omega⟩

theorem block_inj (g : Nat → List α) {r k r' k' : Nat} (hk : k < (g r).length)
    (hk' : k' < (g r').length) (h : pre g r + k = pre g r' + k') : r = r' ∧ k = k' := by
  rcases Nat.lt_trichotomy r r' with h1 | h1 | h1
  · have := pre_mono g (r := r + 1) (s := r') h1
    simp only [pre] at this; omega
  · subst h1; omega
  · have := pre_mono g (r := r' + 1) (s := r) h1
    simp only [pre] at this; omega

theorem slice_flatMap (g : Nat → List α) (n r : Nat) (hr : r < n) :
    (((List.range n).flatMap g).drop (pre g r)).take (g r).length = g r := by
  apply List.ext_getElem?
  intro k
  rw [List.getElem?_take]
  split
  · rename_i hk
    rw [List.getElem?_drop, getElem?_flatMap g n r k hr hk]
  · rename_i hk
    rw [List.getElem?_eq_none (by omega)]

theorem ext_flatMap (g : Nat → List α) (n : Nat) (l : List α) (hl : l.length = pre g n)
    (h : ∀ r k, r < n → k < (g r).length → l[pre g r + k]? = (g r)[k]?) :
    l = (List.range n).flatMap g := by
  apply List.ext_getElem?
  intro p
  by_cases hp : p < pre g n
  · obtain ⟨r, k, h1, h2, rfl⟩ := exists_block g n p hp
    rw [h r k h1 h2, getElem?_flatMap g n r k h1 h2]
  · rw [List.getElem?_eq_none (by omega), List.getElem?_eq_none (by rw [length_flatMap]; omega)]

theorem set_flatMap (g : Nat → List α) (n r k : Nat) (v : α) (hr : r < n) (hk : k < (g r).length) :
    ((List.range n).flatMap g).set (pre g r + k) v
      = (List.range n).flatMap (fun i => if i = r then (g r).set k v else g i) := by
  have hlen : ∀ i, (if i = r then (g r).set k v else g i).length = (g i).length := by
    intro i; split
    · rename_i h; subst h; simp
    · rfl
  have hp : ∀ i, pre (fun i => if i = r then (g r).set k v else g i) i = pre g i :=
    fun i => pre_congr _ _ _ (fun j _ => hlen j)
  apply ext_flatMap
  · rw [List.length_set, length_flatMap, hp]
  · intro r' k' hr' hk'
    rw [hlen] at hk'
    rw [hp, List.getElem?_set]
    by_cases h : pre g r + k = pre g r' + k'
    · obtain ⟨rfl, rfl⟩ := block_inj g hk hk' h
      rw [if_pos rfl, if_pos (by rw [length_flatMap]; exact pre_add_lt g hr hk)]
      simp [hk]
    · rw [if_neg h, getElem?_flatMap g n r' k' hr' hk']
      by_cases h' : r' = r
      · subst h'
        have : k ≠ k' := fun e => h (by rw [e])
        simp [this]
      · simp [h']

end Verif.ListAux
