import Verif.Spec.FiniteElementMaps
import Verif.Proofs.OPBMultiindex
import Mathlib.Tactic.Ring
import Mathlib.Tactic.IntervalCases
import Mathlib.Data.Nat.Choose.Sum
import Mathlib.Data.Nat.Factorial.BigOperators
/-
Helper lemmas for the finite element maps.
-/
namespace Verif.FEM
open Spec
open FE (setAt)

/-! ### Sizes -/

theorem gt_eq_simplex (a b : Nat) : (gtSimplex a).eq (gtSimplex b) = decide (a = b) := by
  simp [GeometryType.eq, gtSimplex, Bool.beq_eq_decide_eq]

theorem gtCube_id (d : Nat) : (gtCube d).id / 2 = 2 ^ (d - 1) - 1 := by
  rw [gtCube]
  dsimp only
  split
  · obtain ⟨e, rfl⟩ : ∃ e, d = e + 1 := ⟨d - 1, by omega⟩
    rw [pow_succ, Nat.add_sub_cancel]
    have := Nat.one_le_two_pow (n := e)
    omega
  · have : d - 1 = 0 := by omega
    rw [this]; rfl

theorem gt_eq_cube (a b : Nat) : (gtCube a).eq (gtCube b) = decide (a = b) := by
  rw [GeometryType.eq, gtCube_id, gtCube_id]
  by_cases h : a = b
  · subst h; simp [gtCube]
  · simp [gtCube, h]

theorem gt_eq_cube_simplex0 (a : Nat) : (gtCube a).eq (gtSimplex 0) = decide (a = 0) := by
  have : gtSimplex 0 = gtCube 0 := rfl
  rw [this, gt_eq_cube]

theorem gt_eq_cube_simplex1 (a : Nat) : (gtCube a).eq (gtSimplex 1) = decide (a = 1) := by
  have : gtSimplex 1 = gtCube 1 := rfl
  rw [this, gt_eq_cube]

theorem choose_two_sub (k : Nat) : (k - 2) * (k - 1) / 2 = (k - 1).choose 2 := by
  rw [Nat.choose_two_right, Nat.mul_comm]
  rfl

theorem choose_three (n : Nat) : (n + 2) * (n + 1) * n / 6 = (n + 2).choose 3 := by
  rw [Nat.choose_eq_descFactorial_div_factorial]
  congr 1
  simp [Nat.descFactorial]
  ring

theorem choose_three_sub (k : Nat) (hk : k ≠ 0) : (k - 3) * (k - 2) * (k - 1) / 6 = (k - 1).choose 3 := by
  rcases Nat.lt_or_ge k 4 with h | h
  · interval_cases k <;> first | exact absurd rfl hk | decide
  · obtain ⟨n, rfl⟩ : ∃ n, k = n + 3 := ⟨k - 3, by omega⟩
    have := choose_three n
    rw [show n + 3 - 1 = n + 2 by omega, ← this]
    congr 1
    rw [show n + 3 - 3 = n by omega, show n + 3 - 2 = n + 1 by omega]
    ring

theorem pk1_consistent (k : Nat) : Consistent 1 (simplexSub 1) ((k + 1).choose 1) (pk1 k) := by
  refine ⟨?_, ?_, ?_, rfl⟩
  · simp [simplexSub, pk1, gt_eq_simplex, List.range_succ]
    split <;> omega
  · intro c hc
    interval_cases c <;> simp [simplexSub, pk1, gt_eq_simplex, List.range_succ]
    · split <;> omega
    · split <;> omega
  · simp [pk1]


theorem pk1d_consistent (k : Nat) : Consistent 1 (simplexSub 1) ((k + 1).choose 1) (pk1dRuntime k) := by
  refine ⟨?_, ?_, ?_, rfl⟩
  · simp [simplexSub, pk1dRuntime, gtSimplex, List.range_succ]
    split <;> omega
  · intro c hc
    interval_cases c <;> simp [simplexSub, pk1dRuntime, gtSimplex, List.range_succ]
    · split <;> omega
    · split <;> omega
  · simp [pk1dRuntime]

theorem pk2_consistent (k : Nat) : Consistent 2 (simplexSub 2) ((k + 2).choose 2) (pk2 k) := by
  refine ⟨?_, ?_, ?_, rfl⟩
  · have h : ((simplexSub 2).map fun s => (pk2 k).size s.2).sum =
        (if k > 2 then (k - 2) * (k - 1) / 2 else if k = 0 then 1 else 0) + 3 * (if k > 1 then k - 1 else 0) +
          3 * (if k > 0 then 1 else 0) := by
      simp [simplexSub, pk2, gt_eq_simplex, List.range_succ]
      ring_nf
      simp only [ite_mul, Nat.zero_mul, Nat.one_mul]
    rw [h, choose_two_sub]
    rcases Nat.lt_or_ge k 3 with h | h
    · interval_cases k <;> decide
    · obtain ⟨m, rfl⟩ : ∃ m, k = m + 1 := ⟨k - 1, by omega⟩
      rw [if_pos (by omega), if_pos (by omega), if_pos (by omega)]
      simp only [Nat.add_sub_cancel, show m + 1 + 2 = m + 1 + 1 + 1 by omega, Nat.choose_succ_succ', Nat.choose_one_right,
        Nat.choose_zero_right, Nat.reduceAdd]
      ring
  · intro c hc
    have h2 := choose_two_sub k
    have h3 : 2 < k → 0 < (k - 1).choose 2 := fun h => Nat.choose_pos (by omega)
    interval_cases c <;> simp [simplexSub, pk2, gt_eq_simplex, List.range_succ] <;> (try rw [h2])
    · split
      · rename_i h; simp [h, h3 h]
      · split <;> omega
    · split <;> omega
    · split <;> omega
  · rw [pk2]
    dsimp only
    rw [Nat.choose_two_right, Nat.mul_comm]
    rfl

theorem pk3_consistent (k : Nat) : Consistent 3 (simplexSub 3) ((k + 3).choose 3) (pk3 k) := by
  refine ⟨?_, ?_, ?_, rfl⟩
  · have h : ((simplexSub 3).map fun s => (pk3 k).size s.2).sum =
        (if k = 0 then 1 else (k - 3) * (k - 2) * (k - 1) / 6) + 4 * (if k > 2 then (k - 2) * (k - 1) / 2 else 0) +
          6 * (if k > 1 then k - 1 else 0) + 4 * (if k > 0 then 1 else 0) := by
      simp [simplexSub, pk3, gt_eq_simplex, List.range_succ, show Nat.choose 4 2 = 6 from rfl]
      ring_nf
      simp only [ite_mul, Nat.zero_mul, Nat.one_mul]
    rw [h]
    rcases Nat.lt_or_ge k 3 with h | h
    · interval_cases k <;> decide
    · obtain ⟨m, rfl⟩ : ∃ m, k = m + 1 := ⟨k - 1, by omega⟩
      rw [if_neg (by omega), if_pos (by omega), if_pos (by omega), if_pos (by omega), choose_three_sub _ (by omega), choose_two_sub]
      simp only [Nat.add_sub_cancel, show m + 1 + 3 = m + 1 + 1 + 1 + 1 by omega, Nat.choose_succ_succ', Nat.choose_one_right,
        Nat.choose_zero_right, Nat.reduceAdd]
      ring
  · intro c hc
    have h2 := choose_two_sub k
    have h3 : 2 < k → 0 < (k - 1).choose 2 := fun h => Nat.choose_pos (by omega)
    have h5 : 3 < k → 0 < (k - 1).choose 3 := fun h => Nat.choose_pos (by omega)
    have h6 : ¬ 3 < k → (k - 1).choose 3 = 0 := fun h => Nat.choose_eq_zero_of_lt (by omega)
    interval_cases c <;> simp [simplexSub, pk3, gt_eq_simplex, List.range_succ, show Nat.choose 4 2 = 6 from rfl] <;> (try rw [h2])
    · by_cases h : k = 0
      · simp [h]
      · rw [if_neg h, choose_three_sub k h]
        by_cases h' : 3 < k
        · simp [h', h5 h']
        · simp [h', h, h6 h']
    · split
      · rename_i h; simp [h, h3 h]
      · omega
    · split <;> omega
    · split <;> omega
  · rw [pk3]
    dsimp only
    rw [show k + 3 = (k + 1) + 2 by omega, ← choose_three]
    exact le_of_eq (congrArg (· / 6) (by ring))

theorem sum_flatMap_replicate (l : List Nat) (cnt : Nat → Nat) (g : Nat → GeometryType) (f : GeometryType → Nat) :
    ((l.flatMap fun c => List.replicate (cnt c) (c, g c)).map fun s => f s.2).sum = (l.map fun c => cnt c * f (g c)).sum := by
  induction l with
  | nil => rfl
  | cons a l ih => simp [ih]

theorem cube_codims (d : Nat) (m : Sizes) (h : ∀ c ≤ d, m.hasDOFs c = true ↔ 0 < m.size (gtCube (d - c))) :
    ∀ c ≤ d, m.hasDOFs c = true ↔ ∃ s ∈ cubeSub d, s.1 = c ∧ 0 < m.size s.2 := by
  intro c hc
  rw [h c hc]
  constructor
  · intro hp
    refine ⟨(c, gtCube (d - c)), ?_, rfl, hp⟩
    rw [cubeSub, List.mem_flatMap]
    refine ⟨c, by simp; omega, ?_⟩
    rw [List.mem_replicate]
    exact ⟨Nat.ne_of_gt (Nat.mul_pos (Nat.choose_pos hc) (by positivity)), rfl⟩
  · rintro ⟨s, hs, rfl, hp⟩
    rw [cubeSub, List.mem_flatMap] at hs
    obtain ⟨c', _, hs⟩ := hs
    rw [List.mem_replicate] at hs
    obtain ⟨_, rfl⟩ := hs
    exact hp

theorem simplex_codims (d : Nat) (m : Sizes) (h : ∀ c ≤ d, m.hasDOFs c = true ↔ 0 < m.size (gtSimplex (d - c))) :
    ∀ c ≤ d, m.hasDOFs c = true ↔ ∃ s ∈ simplexSub d, s.1 = c ∧ 0 < m.size s.2 := by
  intro c hc
  rw [h c hc]
  constructor
  · intro hp
    refine ⟨(c, gtSimplex (d - c)), ?_, rfl, hp⟩
    rw [simplexSub, List.mem_flatMap]
    refine ⟨c, by simp; omega, ?_⟩
    rw [List.mem_replicate]
    exact ⟨Nat.ne_of_gt (Nat.choose_pos (by omega)), rfl⟩
  · rintro ⟨s, hs, rfl, hp⟩
    rw [simplexSub, List.mem_flatMap] at hs
    obtain ⟨c', _, hs⟩ := hs
    rw [List.mem_replicate] at hs
    obtain ⟨_, rfl⟩ := hs
    exact hp

theorem cube_total (d : Nat) (f : GeometryType → Nat) :
    ((cubeSub d).map fun s => f s.2).sum = ∑ c ∈ Finset.range (d + 1), d.choose c * 2 ^ c * f (gtCube (d - c)) := by
  rw [cubeSub, sum_flatMap_replicate, OPB.sum_map_range]

theorem simplex_total (d : Nat) (f : GeometryType → Nat) :
    ((simplexSub d).map fun s => f s.2).sum =
      ∑ c ∈ Finset.range (d + 1), (d + 1).choose (d + 1 - c) * f (gtSimplex (d - c)) := by
  rw [simplexSub, sum_flatMap_replicate, OPB.sum_map_range]

theorem qk_max (k d : Nat) : (qk k d).maxLocalSize = (k + 1) ^ d := OPB.qkSize_eq d k

theorem qk1_consistent (d : Nat) : Consistent d (cubeSub d) (2 ^ d) (qk 1 d) := by
  refine ⟨?_, cube_codims d _ ?_, (qk_max 1 d).ge, rfl⟩
  · rw [cube_total, Finset.sum_range_succ, Finset.sum_eq_zero]
    · simp [qk, gt_eq_cube_simplex0]
    · intro c hc
      have := Finset.mem_range.1 hc
      simp [qk, gt_eq_cube_simplex0]
      omega
  · intro c hc
    simp [qk, gt_eq_cube_simplex0]
    split <;> omega

theorem qk2_consistent (d : Nat) : Consistent d (cubeSub d) (3 ^ d) (qk 2 d) := by
  refine ⟨?_, cube_codims d _ ?_, (qk_max 2 d).ge, rfl⟩
  · rw [cube_total]
    have := add_pow 2 1 d
    rw [show (2 : Nat) + 1 = 3 from rfl] at this
    rw [this]
    refine Finset.sum_congr rfl fun c _ => ?_
    simp [qk]
    ring
  · intro c hc
    simp [qk]

/-- Degrees of freedom on the cell only. -/
theorem cell_consistent_cube (d n : Nat) (m : Sizes) (h1 : ∀ c, m.hasDOFs c = decide (c = 0))
    (h2 : ∀ a, a ≤ d → m.size (gtCube a) = if a = d then n else 0) (h3 : m.maxLocalSize = n) (hn : 0 < n)
    (h4 : m.fixedSize = true) :
    Consistent d (cubeSub d) n m := by
  refine ⟨?_, cube_codims d _ ?_, h3.ge, h4⟩
  · rw [cube_total, Finset.sum_range_succ', Finset.sum_eq_zero]
    · rw [h2 _ (by omega)]; simp
    · intro c hc
      have := Finset.mem_range.1 hc
      rw [h2 _ (by omega), if_neg (by omega)]; simp
  · intro c hc
    rw [h1, h2 _ (by omega), decide_eq_true_iff]
    split <;> omega

theorem cell_consistent_simplex (d n : Nat) (m : Sizes) (h1 : ∀ c, m.hasDOFs c = decide (c = 0))
    (h2 : ∀ a, a ≤ d → m.size (gtSimplex a) = if a = d then n else 0) (h3 : m.maxLocalSize = n) (hn : 0 < n)
    (h4 : m.fixedSize = true) :
    Consistent d (simplexSub d) n m := by
  refine ⟨?_, simplex_codims d _ ?_, h3.ge, h4⟩
  · rw [simplex_total, Finset.sum_range_succ', Finset.sum_eq_zero]
    · rw [h2 _ (by omega)]; simp
    · intro c hc
      have := Finset.mem_range.1 hc
      rw [h2 _ (by omega), if_neg (by omega)]; simp
  · intro c hc
    rw [h1, h2 _ (by omega), decide_eq_true_iff]
    split <;> omega

theorem geometryType_cube (d : Nat) : ∃ g, geometryTypeFromBasicType .cube d = some g ∧ g = gtCube d := by
  refine ⟨gtCube d, ?_, rfl⟩
  by_cases h : d > 1
  · simp [geometryTypeFromBasicType, gtCube, h]
  · simp [geometryTypeFromBasicType, gtCube, h]

theorem geometryType_simplex (d : Nat) : geometryTypeFromBasicType .simplex d = some (gtSimplex d) := by
  by_cases h : d > 1
  · simp [geometryTypeFromBasicType, gtSimplex, h]
  · simp [geometryTypeFromBasicType, gtSimplex, h]

theorem power_consistent (r d n : Nat) (sub : List (Nat × GeometryType)) (m : Sizes) (hr : 0 < r) (h : Consistent d sub n m) :
    Consistent d sub (r * n) (power r m) := by
  refine ⟨?_, ?_, ?_, h.fixedSize⟩
  · rw [← h.total, ← List.sum_map_mul_left]
    rfl
  · intro c hc
    have := h.codims c hc
    rw [show (power r m).hasDOFs = m.hasDOFs from rfl, this]
    refine exists_congr fun s => ?_
    rw [show (power r m).size s.2 = r * m.size s.2 from rfl, Nat.mul_pos_iff_of_pos_left hr]
  · exact Nat.mul_le_mul le_rfl h.bound

end Verif.FEM
