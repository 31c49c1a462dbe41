import Verif.Model.ErrorDistribution
import Verif.Proofs.Adaptivity
import Mathlib.Tactic.NormNum
import Mathlib.Algebra.Order.Field.Basic
import Mathlib.Data.List.GetD
/-
Lemmas about the report of the error distribution.
-/
namespace Verif.Adaptivity
variable {K : Type} [Field K] [LinearOrder K]

theorem sumLe_eq (x : List K) (eta : K) : sumLe x eta = (x.filter fun e => decide (e ≤ eta)).sum := by
  have : ∀ s, x.foldl (fun s e => if e ≤ eta then s + e else s) s = s + (x.filter fun e => decide (e ≤ eta)).sum := by
    induction x with
    | nil => simp
    | cons e x ih =>
      intro s
      rw [List.foldl_cons, ih]
      by_cases h : e ≤ eta
      · simp [h, add_assoc]
      · simp [h]
  unfold sumLe
  rw [this, zero_add]

theorem countLe_eq (x : List K) (eta : K) : countLe x eta = (x.filter fun e => decide (e ≤ eta)).length := by
  have : ∀ s, x.foldl (fun c e => if e ≤ eta then c + 1 else c) s = s + (x.filter fun e => decide (e ≤ eta)).length := by
    induction x with
    | nil => simp
    | cons e x ih =>
      intro s
      rw [List.foldl_cons, ih]
      by_cases h : e ≤ eta
      · simp [h]; omega
      · simp [h]
  unfold countLe
  rw [this, Nat.zero_add]

/-- A bin after `n` steps. -/
def binIter (x : List K) (total : K) : Nat → Bin K → Bin K
  | 0, b => b
  | n + 1, b => binIter x total n (binStep x total b)

theorem binSteps_eq (x : List K) (total : K) (n : Nat) (bs : List (Bin K)) : binSteps x total n bs = bs.map (binIter x total n) := by
  induction n generalizing bs with
  | zero => simp [binSteps, show binIter x total 0 = id from funext fun _ => rfl]
  | succ n ih => rw [binSteps, ih, List.map_map]; rfl

theorem binStep_target (x : List K) (total : K) (b : Bin K) : (binStep x total b).target = b.target := by
  unfold binStep; dsimp only; split <;> rfl

variable [IsStrictOrderedRing K]

/-- The bins `a` and `b` are in the same interval or `a` is to the left of `b`. -/
def Before (a b : Bin K) : Prop := (a.left = b.left ∧ a.right = b.right) ∨ a.right ≤ b.left

omit [IsStrictOrderedRing K] in
theorem binStep_cases (x : List K) (total : K) (b : Bin K) :
    (binStep x total b).eta = 1 / 2 * (b.left + b.right) ∧
    ((sumLe x (1 / 2 * (b.left + b.right)) ≤ b.target * total ∧ (binStep x total b).left = 1 / 2 * (b.left + b.right) ∧ (binStep x total b).right = b.right) ∨
     (¬ sumLe x (1 / 2 * (b.left + b.right)) ≤ b.target * total ∧ (binStep x total b).left = b.left ∧ (binStep x total b).right = 1 / 2 * (b.left + b.right))) := by
  unfold binStep; dsimp only
  split
  · rename_i h; exact ⟨rfl, Or.inl ⟨h, rfl, rfl⟩⟩
  · rename_i h; exact ⟨rfl, Or.inr ⟨h, rfl, rfl⟩⟩

theorem binStep_order (x : List K) (total : K) (b : Bin K) (h : b.left ≤ b.right) :
    b.left ≤ (binStep x total b).left ∧ (binStep x total b).left ≤ (binStep x total b).eta ∧ (binStep x total b).eta ≤ (binStep x total b).right ∧
    (binStep x total b).right ≤ b.right ∧ (binStep x total b).right - (binStep x total b).left = (b.right - b.left) / 2 := by
  obtain ⟨h0, ⟨_, h1, h2⟩ | ⟨_, h1, h2⟩⟩ := binStep_cases x total b <;> rw [h0, h1, h2] <;>
    refine ⟨?_, ?_, ?_, ?_, ?_⟩ <;> linarith

theorem binStep_before (x : List K) (total : K) (ht : 0 ≤ total) (a b : Bin K) (hab : a.target ≤ b.target) (ha : a.left ≤ a.right) (hb : b.left ≤ b.right)
    (h : Before a b) : Before (binStep x total a) (binStep x total b) ∧ (binStep x total a).eta ≤ (binStep x total b).eta := by
  have oa := binStep_order x total a ha
  have ob := binStep_order x total b hb
  rcases h with ⟨h1, h2⟩ | h
  · obtain ⟨a0, ca⟩ := binStep_cases x total a
    obtain ⟨b0, cb⟩ := binStep_cases x total b
    have hmul : a.target * total ≤ b.target * total := mul_le_mul_of_nonneg_right hab ht
    rw [h1, h2] at a0 ca
    refine ⟨?_, by rw [a0, b0]⟩
    rcases ca with ⟨p, l, r⟩ | ⟨p, l, r⟩ <;> rcases cb with ⟨q, l', r'⟩ | ⟨q, l', r'⟩
    · exact Or.inl ⟨by rw [l, l'], by rw [r, r']⟩
    · exact absurd (p.trans hmul) q
    · exact Or.inr (by rw [r, l'])
    · exact Or.inl ⟨by rw [l, l'], by rw [r, r']⟩
  · refine ⟨Or.inr ?_, ?_⟩ <;> linarith [oa.2.2.1, oa.2.2.2.1, ob.1, ob.2.1]

theorem binIter_before (x : List K) (total : K) (ht : 0 ≤ total) (n : Nat) (a b : Bin K) (hab : a.target ≤ b.target) (ha : a.left ≤ a.right)
    (hb : b.left ≤ b.right) (h : Before a b) (he : a.eta ≤ b.eta) : (binIter x total n a).eta ≤ (binIter x total n b).eta := by
  induction n generalizing a b with
  | zero => exact he
  | succ n ih =>
    have hs := binStep_before x total ht a b hab ha hb h
    have oa := binStep_order x total a ha
    have ob := binStep_order x total b hb
    exact ih _ _ (by rw [binStep_target, binStep_target]; exact hab) (oa.2.1.trans oa.2.2.1) (ob.2.1.trans ob.2.2.1) hs.1 hs.2

/-- After at least one step: `eta` is the midpoint of an interval that brackets the target. -/
theorem binIter_bracket (x : List K) (total m : K) (hm : 0 ≤ m) (n k : Nat) (b : Bin K) (hl : 0 ≤ b.left) (hr : b.right ≤ m)
    (hw : b.right - b.left = m / 2 ^ k) (h1 : b.left = 0 ∨ sumLe x b.left ≤ b.target * total) (h2 : b.right = m ∨ b.target * total < sumLe x b.right) :
    ∃ l r, 0 ≤ l ∧ r ≤ m ∧ r - l = m / 2 ^ (k + n) ∧ (binIter x total (n + 1) b).eta = (l + r) / 2 ∧
      (l = 0 ∨ sumLe x l ≤ b.target * total) ∧ (r = m ∨ b.target * total < sumLe x r) := by
  induction n generalizing k b with
  | zero =>
    refine ⟨b.left, b.right, hl, hr, hw, ?_, h1, h2⟩
    show (binStep x total b).eta = _
    rw [(binStep_cases x total b).1]; ring
  | succ n ih =>
    have hle : b.left ≤ b.right := by
      have : 0 ≤ m / 2 ^ k := by positivity
      linarith
    have o := binStep_order x total b hle
    have hw' : (binStep x total b).right - (binStep x total b).left = m / 2 ^ (k + 1) := by
      rw [o.2.2.2.2, hw, pow_succ]; field_simp
    obtain ⟨l, r, g⟩ := ih (k + 1) (binStep x total b) (hl.trans o.1) (o.2.2.2.1.trans hr) hw'
      (by
        rw [binStep_target]
        rcases (binStep_cases x total b).2 with ⟨p, l, r⟩ | ⟨p, l, r⟩
        · rw [l]; exact Or.inr p
        · rw [l]; exact h1)
      (by
        rw [binStep_target]
        rcases (binStep_cases x total b).2 with ⟨p, l, r⟩ | ⟨p, l, r⟩
        · rw [r]; exact h2
        · rw [r]; exact Or.inr (not_le.mp p))
    rw [binStep_target, show k + 1 + n = k + (n + 1) by omega] at g
    exact ⟨l, r, g⟩

/-- If no sum exceeds the target, the left end moves in every step. -/
theorem binIter_all (x : List K) (total : K) (n : Nat) (b : Bin K) (h : ∀ eta, sumLe x eta ≤ b.target * total) :
    (binIter x total (n + 1) b).eta = b.right - (b.right - b.left) / 2 ^ (n + 1) := by
  induction n generalizing b with
  | zero =>
    show (binStep x total b).eta = _
    rw [(binStep_cases x total b).1]; ring
  | succ n ih =>
    show (binIter x total (n + 1) (binStep x total b)).eta = _
    rw [ih _ (by rw [binStep_target]; exact h)]
    rcases (binStep_cases x total b).2 with ⟨p, l, r⟩ | ⟨p, l, r⟩
    · rw [l, r, pow_succ 2 (n + 1)]; field_simp; ring
    · exact absurd (h _) p

theorem sumLe_le (x : List K) (eta : K) : sumLe x eta ≤ oneNorm x := by
  rw [sumLe_eq, oneNorm_eq]
  induction x with
  | nil => simp
  | cons e x ih =>
    by_cases h : e ≤ eta
    · simp only [List.filter_cons, h, decide_true, if_true, List.sum_cons, List.map_cons]
      exact add_le_add (le_abs_self e) ih
    · simp only [List.filter_cons, h, decide_false, List.map_cons, List.sum_cons]
      simp only [Bool.false_eq_true, if_false]
      have := abs_nonneg e
      linarith

theorem oneNorm_nonneg (x : List K) : 0 ≤ oneNorm x := by
  rw [oneNorm_eq]
  apply List.sum_nonneg
  intro a ha
  obtain ⟨e, _, rfl⟩ := List.mem_map.1 ha
  exact abs_nonneg e

end Verif.Adaptivity
