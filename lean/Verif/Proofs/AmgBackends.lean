import Verif.Model.AmgBackends
import Mathlib.Tactic.Ring
import Mathlib.Tactic.Linarith
import Mathlib.Tactic.NoncommRing
import Mathlib.Tactic.Abel
import Mathlib.LinearAlgebra.Matrix.Symmetric
import Mathlib.Algebra.Order.Field.Basic
set_option linter.unusedSectionVars false
namespace Verif.AmgBackends

open Matrix

section
variable {K ι κ : Type} [CommRing K] [Fintype ι] [Fintype κ]

/-- Correction with an approximate inverse. -/
def relaxP (A B : Matrix ι ι K) (b x : ι → K) : ι → K := x + B *ᵥ (b - A *ᵥ x)

variable [DecidableEq ι]

/-- One correction after the other, as matrices. -/
def thenP (A X Y : Matrix ι ι K) : Matrix ι ι K := X + Y - Y * A * X

theorem thenP_assoc (A X Y Z : Matrix ι ι K) : thenP A (thenP A X Y) Z = thenP A X (thenP A Y Z) := by
  unfold thenP; noncomm_ring

theorem thenP_transpose (A X Y : Matrix ι ι K) (hA : A.IsSymm) : (thenP A X Y)ᵀ = thenP A Yᵀ Xᵀ := by
  unfold thenP
  rw [transpose_sub, transpose_add, transpose_mul, transpose_mul, hA.eq, ← Matrix.mul_assoc, add_comm]

def powP (A S : Matrix ι ι K) : Nat → Matrix ι ι K
  | 0 => 0
  | n + 1 => thenP A (powP A S n) S

theorem zero_thenP (A X : Matrix ι ι K) : thenP A 0 X = X := by simp [thenP]
theorem thenP_zero (A X : Matrix ι ι K) : thenP A X 0 = X := by simp [thenP]

theorem powP_succ' (A S : Matrix ι ι K) (n : Nat) : powP A S (n + 1) = thenP A S (powP A S n) := by
  induction n with
  | zero => simp [powP, zero_thenP, thenP_zero]
  | succ n ih => rw [powP, ih, thenP_assoc, ← ih, powP]

theorem powP_transpose (A S : Matrix ι ι K) (hA : A.IsSymm) (hS : S.IsSymm) (n : Nat) : (powP A S n)ᵀ = powP A S n := by
  induction n with
  | zero => simp [powP]
  | succ n ih => rw [powP, thenP_transpose _ _ _ hA, ih, hS.eq, ← powP_succ', powP]

theorem relaxP_matrix (A X Y : Matrix ι ι K) (b : ι → K) : relaxP A Y b (X *ᵥ b) = thenP A X Y *ᵥ b := by
  unfold relaxP thenP
  rw [sub_mulVec, add_mulVec, mulVec_sub, mulVec_mulVec, mulVec_mulVec]; abel

theorem relaxP_iterate (A S : Matrix ι ι K) (X : Matrix ι ι K) (b : ι → K) (n : Nat) :
    (relaxP A S b)^[n] (X *ᵥ b) = thenP A X (powP A S n) *ᵥ b := by
  induction n with
  | zero => simp [powP, thenP_zero]
  | succ n ih => rw [Function.iterate_succ_apply', ih, relaxP_matrix, thenP_assoc, ← powP]

/-- The invariant of the loops: the defect belongs to the correction made so far. -/
def Inv (A : Matrix ι ι K) (x b : ι → K) (s : (ι → K) × (ι → K)) (y : ι → K) : Prop := s.1 = x + y ∧ s.2 = b - A *ᵥ y

theorem smoothStep_inv (A S : Matrix ι ι K) (dg : (ι → K) → (ι → K) → ι → K) (hS : ∀ d, dg 0 d = S *ᵥ d) (x b : ι → K)
    (s : (ι → K) × (ι → K)) (y : ι → K) (h : Inv A x b s y) : Inv A x b (smoothStep A dg s) (relaxP A S b y) := by
  obtain ⟨h1, h2⟩ := h
  refine ⟨?_, ?_⟩
  · simp only [smoothStep, relaxP, h1, h2, hS]; abel
  · simp only [smoothStep, relaxP, h2, hS, mulVec_add]; abel

theorem smooth_inv (A S : Matrix ι ι K) (dg : (ι → K) → (ι → K) → ι → K) (hS : ∀ d, dg 0 d = S *ᵥ d) (n : Int) (x b : ι → K)
    (s : (ι → K) × (ι → K)) (y : ι → K) (h : Inv A x b s y) :
    Inv A x b (smooth A dg n s) ((relaxP A S b)^[n.toNat] y) := by
  unfold smooth
  induction n.toNat with
  | zero => simpa using h
  | succ k ih => rw [Function.iterate_succ_apply', Function.iterate_succ_apply']; exact smoothStep_inv A S dg hS x b _ _ ih

theorem coarseStep_inv (A : Matrix ι ι K) (P : Matrix ι κ K) (C : Matrix κ κ K) (cg : (κ → K) → (κ → K) → κ → K)
    (hC : ∀ d, cg 0 d = C *ᵥ d) (x b : ι → K) (s : (ι → K) × (ι → K)) (y : ι → K) (h : Inv A x b s y) :
    Inv A x b (coarseStep A P cg s) (relaxP A (P * C * Pᵀ) b y) := by
  obtain ⟨h1, h2⟩ := h
  refine ⟨?_, ?_⟩
  · simp only [coarseStep, relaxP, h1, h2, hC, mulVec_mulVec, Matrix.mul_assoc]; abel
  · simp only [coarseStep, relaxP, h2, hC, mulVec_add, mulVec_mulVec, Matrix.mul_assoc]; abel

theorem hybrid_relax (A S : Matrix ι ι K) (P : Matrix ι κ K) (C : Matrix κ κ K) (dg : (ι → K) → (ι → K) → ι → K)
    (cg : (κ → K) → (κ → K) → κ → K) (hS : ∀ d, dg 0 d = S *ᵥ d) (hC : ∀ d, cg 0 d = C *ᵥ d) (n1 n2 : Int) (x b : ι → K) :
    hybridApply A P dg cg n1 n2 x b =
      x + (relaxP A S b)^[n2.toNat] (relaxP A (P * C * Pᵀ) b ((relaxP A S b)^[n1.toNat] 0)) :=
  (smooth_inv A S dg hS n2 x b _ _ (coarseStep_inv A P C cg hC x b _ _
    (smooth_inv A S dg hS n1 x b (x, b) 0 ⟨by simp, by simp⟩))).1

theorem hybrid_matrix (A S T : Matrix ι ι K) (n1 n2 : Nat) (b : ι → K) :
    (relaxP A S b)^[n2] (relaxP A T b ((relaxP A S b)^[n1] 0)) =
      thenP A (thenP A (powP A S n1) T) (powP A S n2) *ᵥ b := by
  have h := relaxP_iterate A S 0 b n1
  rw [zero_mulVec, zero_thenP] at h
  rw [h, relaxP_matrix, relaxP_iterate]

theorem hybrid_symm (A S T : Matrix ι ι K) (hA : A.IsSymm) (hS : S.IsSymm) (hT : T.IsSymm) (n : Nat) :
    (thenP A (thenP A (powP A S n) T) (powP A S n)).IsSymm := by
  unfold Matrix.IsSymm
  rw [thenP_transpose _ _ _ hA, thenP_transpose _ _ _ hA, powP_transpose _ _ hA hS, hT.eq, thenP_assoc]

/-- Error propagation. -/
theorem relaxP_error (A B : Matrix ι ι K) (u x : ι → K) : u - relaxP A B (A *ᵥ u) x = (1 - B * A) *ᵥ (u - x) := by
  unfold relaxP
  rw [sub_mulVec, one_mulVec, ← mulVec_sub, mulVec_mulVec]; abel

theorem relaxP_iterate_error (A B : Matrix ι ι K) (u x : ι → K) (n : Nat) :
    u - (relaxP A B (A *ᵥ u))^[n] x = ((1 - B * A) ^ n) *ᵥ (u - x) := by
  induction n with
  | zero => simp
  | succ n ih => rw [Function.iterate_succ_apply', relaxP_error, ih, mulVec_mulVec, pow_succ']
end

section
variable {K ι κ : Type} [Field K] [LinearOrder K] [IsStrictOrderedRing K] [Fintype ι] [Fintype κ] [DecidableEq ι]

/-- Twice the decrease of the energy. -/
def gainP (A : Matrix ι ι K) (b x : ι → K) : K := 2 * (x ⬝ᵥ b) - x ⬝ᵥ A *ᵥ x

theorem symm_dot (A : Matrix ι ι K) (hA : A.IsSymm) (x y : ι → K) : x ⬝ᵥ A *ᵥ y = y ⬝ᵥ A *ᵥ x := by
  rw [dotProduct_mulVec, ← mulVec_transpose, hA.eq, dotProduct_comm]

theorem gain_relax (A B : Matrix ι ι K) (hA : A.IsSymm) (b x : ι → K) :
    gainP A b (relaxP A B b x) = gainP A b x +
      (2 * ((B *ᵥ (b - A *ᵥ x)) ⬝ᵥ (b - A *ᵥ x)) - (B *ᵥ (b - A *ᵥ x)) ⬝ᵥ A *ᵥ (B *ᵥ (b - A *ᵥ x))) := by
  unfold gainP relaxP
  generalize hv : B *ᵥ (b - A *ᵥ x) = v
  rw [mulVec_add, dotProduct_add, add_dotProduct, add_dotProduct, add_dotProduct, dotProduct_sub, symm_dot A hA x v]
  ring

theorem gain_mono (A B : Matrix ι ι K) (hA : A.IsSymm) (hB : ∀ d, (B *ᵥ d) ⬝ᵥ A *ᵥ (B *ᵥ d) ≤ 2 * ((B *ᵥ d) ⬝ᵥ d)) (b x : ι → K) :
    gainP A b x ≤ gainP A b (relaxP A B b x) := by
  rw [gain_relax A B hA]
  have := hB (b - A *ᵥ x)
  linarith

theorem gain_strict (A S : Matrix ι ι K) (hA : A.IsSymm) (hpos : ∀ x, x ≠ 0 → 0 < x ⬝ᵥ A *ᵥ x)
    (hS : ∀ d, d ≠ 0 → (S *ᵥ d) ⬝ᵥ A *ᵥ (S *ᵥ d) < 2 * ((S *ᵥ d) ⬝ᵥ d)) (b x : ι → K) (hb : b ≠ 0) (hx : 0 ≤ gainP A b x) :
    0 < gainP A b (relaxP A S b x) := by
  rw [gain_relax A S hA]
  by_cases hd : b - A *ᵥ x = 0
  · rw [hd]
    have e : A *ᵥ x = b := (sub_eq_zero.mp hd).symm
    have hx0 : x ≠ 0 := by
      rintro rfl
      rw [mulVec_zero] at e
      exact hb e.symm
    have := hpos x hx0
    simp only [mulVec_zero, dotProduct_zero, gainP, ← e]
    linarith
  · have := hS _ hd
    linarith

theorem gain_iterate (A S : Matrix ι ι K) (hA : A.IsSymm) (hpos : ∀ x, x ≠ 0 → 0 < x ⬝ᵥ A *ᵥ x)
    (hS : ∀ d, d ≠ 0 → (S *ᵥ d) ⬝ᵥ A *ᵥ (S *ᵥ d) < 2 * ((S *ᵥ d) ⬝ᵥ d)) (b x : ι → K) (hb : b ≠ 0) (hx : 0 ≤ gainP A b x) (n : Nat) :
    0 ≤ gainP A b ((relaxP A S b)^[n] x) ∧ (0 < gainP A b x ∨ 0 < n → 0 < gainP A b ((relaxP A S b)^[n] x)) := by
  induction n with
  | zero => simpa using hx
  | succ n ih =>
    have := gain_strict A S hA hpos hS b _ hb ih.1
    rw [Function.iterate_succ_apply']
    exact ⟨this.le, fun _ => this⟩

theorem coarse_bound (A : Matrix ι ι K) (P : Matrix ι κ K) (C : Matrix κ κ K)
    (hC : ∀ c, (C *ᵥ c) ⬝ᵥ (Pᵀ * A * P) *ᵥ (C *ᵥ c) ≤ 2 * ((C *ᵥ c) ⬝ᵥ c)) (d : ι → K) :
    ((P * C * Pᵀ) *ᵥ d) ⬝ᵥ A *ᵥ ((P * C * Pᵀ) *ᵥ d) ≤ 2 * (((P * C * Pᵀ) *ᵥ d) ⬝ᵥ d) := by
  have h := hC (Pᵀ *ᵥ d)
  have e1 : (P * C * Pᵀ) *ᵥ d = P *ᵥ (C *ᵥ (Pᵀ *ᵥ d)) := by simp only [mulVec_mulVec, Matrix.mul_assoc]
  have e2 : ∀ w : κ → K, ∀ y : ι → K, (P *ᵥ w) ⬝ᵥ y = w ⬝ᵥ Pᵀ *ᵥ y := fun w y => by
    rw [dotProduct_mulVec, vecMul_transpose]
  rw [e1, e2, e2]
  simpa only [mulVec_mulVec, Matrix.mul_assoc] using h

theorem hybrid_positive (A S : Matrix ι ι K) (P : Matrix ι κ K) (C : Matrix κ κ K) (hA : A.IsSymm)
    (hpos : ∀ x, x ≠ 0 → 0 < x ⬝ᵥ A *ᵥ x)
    (hS : ∀ d, d ≠ 0 → (S *ᵥ d) ⬝ᵥ A *ᵥ (S *ᵥ d) < 2 * ((S *ᵥ d) ⬝ᵥ d))
    (hC : ∀ c, (C *ᵥ c) ⬝ᵥ (Pᵀ * A * P) *ᵥ (C *ᵥ c) ≤ 2 * ((C *ᵥ c) ⬝ᵥ c)) (n1 n2 : Nat) (hn : 1 ≤ n1 + n2) (b : ι → K) (hb : b ≠ 0) :
    0 < b ⬝ᵥ (relaxP A S b)^[n2] (relaxP A (P * C * Pᵀ) b ((relaxP A S b)^[n1] 0)) := by
  have g0 : gainP A b 0 = 0 := by simp [gainP]
  obtain ⟨h1, h1'⟩ := gain_iterate A S hA hpos hS b 0 hb g0.ge n1
  have h2 := gain_mono A (P * C * Pᵀ) hA (coarse_bound A P C hC) b ((relaxP A S b)^[n1] 0)
  obtain ⟨_, h3'⟩ := gain_iterate A S hA hpos hS b _ hb (h1.trans h2) n2
  have h : 0 < gainP A b ((relaxP A S b)^[n2] (relaxP A (P * C * Pᵀ) b ((relaxP A S b)^[n1] 0))) := by
    apply h3'
    by_cases hz : 0 < n1
    · exact Or.inl (lt_of_lt_of_le (h1' (Or.inr hz)) h2)
    · exact Or.inr (by omega)
  generalize (relaxP A S b)^[n2] (relaxP A (P * C * Pᵀ) b ((relaxP A S b)^[n1] 0)) = x at h
  have hx : 0 ≤ x ⬝ᵥ A *ᵥ x := by
    by_cases hx : x = 0
    · simp [hx]
    · exact (hpos x hx).le
  unfold gainP at h
  rw [dotProduct_comm b x]
  linarith
end

/-! ### The embedding -/

section
variable {K Pt : Type}

theorem foldl_assign {α β : Type} [DecidableEq α] [DecidableEq β] (f : α → β → K) (l : List ((α × β) × K)) (m : α → β → K)
    (hl : ∀ e ∈ l, e.2 = f e.1.1 e.1.2) (j : α) (i : β) :
    l.foldl (fun m e j i => if (j, i) = e.1 then e.2 else m j i) m j i =
      if ∃ e ∈ l, e.1 = (j, i) then f j i else m j i := by
  induction l generalizing m with
  | nil => simp
  | cons e l ih =>
    rw [List.foldl_cons, ih _ fun e' he' => hl e' (List.mem_cons_of_mem _ he')]
    by_cases h : ∃ e' ∈ l, e'.1 = (j, i)
    · rw [if_pos h, if_pos]
      obtain ⟨e', h1, h2⟩ := h
      exact ⟨e', List.mem_cons_of_mem _ h1, h2⟩
    · rw [if_neg h]
      by_cases he : (j, i) = e.1
      · rw [if_pos he, if_pos ⟨e, List.mem_cons_self, he.symm⟩, hl e List.mem_cons_self, ← he]
      · rw [if_neg he, if_neg]
        rintro ⟨e', h1, h2⟩
        rcases List.mem_cons.mp h1 with rfl | h1
        · exact he h2.symm
        · exact h ⟨e', h1, h2⟩

/-- The value of an entry of the local matrix. -/
def entryP [Zero K] (leaves : List (LeafPair K Pt)) (j : VIndex leaves) (i : UIndex leaves) : K :=
  if j.1 = i.1 then (leaves.get j.1).interpolate ((leaves.get i.1).shape i.2) j.2 else 0

theorem localProlongation_eq [Zero K] (leaves : List (LeafPair K Pt)) (j : VIndex leaves) (i : UIndex leaves) :
    localProlongation leaves j i = entryP leaves j i := by
  unfold localProlongation
  rw [foldl_assign (entryP leaves)]
  · by_cases h : j.1 = i.1
    · obtain ⟨l, j⟩ := j
      obtain ⟨l', i⟩ := i
      obtain rfl : l = l' := h
      rw [if_pos]
      refine ⟨((⟨l, j⟩, ⟨l, i⟩), (leaves.get l).interpolate ((leaves.get l).shape i) j), ?_, rfl⟩
      simp only [List.mem_flatMap, List.mem_finRange, true_and, leafEntries, List.mem_map]
      exact ⟨l, i, j, rfl⟩
    · rw [if_neg]
      · simp [entryP, h]
      · rintro ⟨e, he, hh⟩
        simp only [List.mem_flatMap, List.mem_finRange, true_and, leafEntries, List.mem_map] at he
        obtain ⟨l, i', j', rfl⟩ := he
        rw [Prod.mk.injEq] at hh
        exact h (by rw [← hh.1, ← hh.2])
  · intro e he
    simp only [List.mem_flatMap, List.mem_finRange, true_and, leafEntries, List.mem_map] at he
    obtain ⟨l, i', j', rfl⟩ := he
    simp [entryP]

theorem prolongation_eq {ι κ : Type} [DecidableEq ι] [DecidableEq κ] [CommRing K] (cells : List (Cell K Pt ι κ)) (i : ι) (k : κ) :
    prolongation cells i k =
      (cells.map fun c => ∑ j, ∑ l, if c.vIndex j = i ∧ c.uIndex l = k then entryP c.leaves j l else 0).sum := by
  suffices h : ∀ m : Matrix ι κ K,
      (cells.foldl (fun m c => m + Matrix.of fun i k => ∑ j, ∑ l, if c.vIndex j = i ∧ c.uIndex l = k then localProlongation c.leaves j l else 0) m) i k =
        m i k + (cells.map fun c => ∑ j, ∑ l, if c.vIndex j = i ∧ c.uIndex l = k then entryP c.leaves j l else 0).sum by
    have := h 0
    simpa [prolongation] using this
  induction cells with
  | nil => intro m; simp
  | cons c cs ih =>
    intro m
    rw [List.foldl_cons, ih, List.map_cons, List.sum_cons, Matrix.add_apply, Matrix.of_apply, add_assoc]
    simp only [localProlongation_eq]
end
end Verif.AmgBackends
