import Verif.Spec.Adaptivity
import Mathlib.Algebra.Order.BigOperators.Group.List
import Mathlib.Tactic.Ring
import Mathlib.Tactic.Linarith
import Mathlib.Tactic.FieldSimp
/-
Helper lemmas about marking and time adaptation (C40 - C42).
-/
namespace Verif.Adaptivity

open Spec

variable {K : Type} [Field K] [LinearOrder K] [IsStrictOrderedRing K]

theorem absK_eq (a : K) : absK a = |a| := by
  unfold absK
  split
  · rename_i h; rw [abs_of_neg h]
  · rename_i h; rw [abs_of_nonneg (not_lt.1 h)]

theorem oneNorm_eq (x : List K) : oneNorm x = (x.map fun e => |e|).sum := by
  have : ∀ s, x.foldl (fun s e => s + absK e) s = s + (x.map fun e => |e|).sum := by
    induction x with
    | nil => simp
    | cons e x ih => intro s; rw [List.foldl_cons, ih, absK_eq]; simp [add_assoc]
  unfold oneNorm
  rw [this, zero_add]

theorem infNorm_fold (x : List K) (m : K) :
    m ≤ x.foldl (fun m e => if m < absK e then absK e else m) m ∧
    (∀ e, e ∈ x → |e| ≤ x.foldl (fun m e => if m < absK e then absK e else m) m) ∧
    (x.foldl (fun m e => if m < absK e then absK e else m) m = m ∨
      ∃ e, e ∈ x ∧ |e| = x.foldl (fun m e => if m < absK e then absK e else m) m) := by
  induction x generalizing m with
  | nil => simp
  | cons e x ih =>
    rw [List.foldl_cons]
    have hm : m ≤ (if m < absK e then absK e else m) := by split <;> [exact le_of_lt ‹_›; exact le_refl _]
    have he : |e| ≤ (if m < absK e then absK e else m) := by
      rw [← absK_eq]
      split <;> [exact le_refl _; exact not_lt.1 ‹_›]
    obtain ⟨h1, h2, h3⟩ := ih (if m < absK e then absK e else m)
    refine ⟨hm.trans h1, ?_, ?_⟩
    · intro a ha
      rcases List.mem_cons.1 ha with rfl | ha
      · exact he.trans h1
      · exact h2 a ha
    · rcases h3 with h3 | ⟨a, ha, h3⟩
      · rw [h3]
        by_cases hc : m < absK e
        · rw [if_pos hc]; exact Or.inr ⟨e, by simp, (absK_eq e).symm⟩
        · rw [if_neg hc]; exact Or.inl rfl
      · exact Or.inr ⟨a, List.mem_cons_of_mem _ ha, h3⟩

/-- `m` is the largest absolute value in the list (zero if the list is empty). -/
theorem infNorm_eq (x : List K) (m : K) (h1 : ∀ e, e ∈ x → |e| ≤ m) (h2 : (∃ e, e ∈ x ∧ |e| = m) ∨ (x = [] ∧ m = 0)) : infNorm x = m := by
  obtain ⟨h3, h4, h5⟩ := infNorm_fold x 0
  rcases h2 with ⟨e, he, rfl⟩ | ⟨rfl, rfl⟩
  · refine le_antisymm ?_ (h4 e he)
    rcases h5 with h5 | ⟨a, ha, h5⟩
    · unfold infNorm; rw [h5]; exact abs_nonneg e
    · unfold infNorm; rw [← h5]; exact h1 a ha
  · rfl

theorem infNorm_nonneg (x : List K) : 0 ≤ infNorm x := (infNorm_fold x 0).1

omit [IsStrictOrderedRing K] in
theorem sumAlpha_eq (w : K → K) (x : List K) (eta : K) : sumAlpha w x eta = ((x.filter fun e => decide (eta ≤ e)).map w).sum := by
  have : ∀ s, x.foldl (fun s e => if eta ≤ e then s + w e else s) s = s + ((x.filter fun e => decide (eta ≤ e)).map w).sum := by
    induction x with
    | nil => simp
    | cons e x ih =>
      intro s
      rw [List.foldl_cons, ih]
      by_cases h : eta ≤ e
      · simp [h, add_assoc]
      · simp [h]
  unfold sumAlpha
  rw [this, zero_add]

omit [IsStrictOrderedRing K] in
theorem sumBeta_eq (w : K → K) (x : List K) (eta : K) : sumBeta w x eta = ((x.filter fun e => decide (e < eta)).map w).sum := by
  have : ∀ s, x.foldl (fun s e => if e < eta then s + w e else s) s = s + ((x.filter fun e => decide (e < eta)).map w).sum := by
    induction x with
    | nil => simp
    | cons e x ih =>
      intro s
      rw [List.foldl_cons, ih]
      by_cases h : e < eta
      · simp [h, add_assoc]
      · simp [h]
  unfold sumBeta
  rw [this, zero_add]

omit [LinearOrder K] [IsStrictOrderedRing K] in
theorem sum_ones (x : List K) : (x.map fun _ => (1 : K)).sum = (x.length : K) := by
  induction x with
  | nil => simp
  | cons e x ih => simp [ih, add_comm]

/-- Invariant of the bisection after `k` steps. -/
structure Inv (w : K → K) (x : List K) (alpha beta total m : K) (k : Nat) (b : Bisection K) : Prop where
  a0 : 0 ≤ b.alphaLeft
  a1 : b.alphaLeft ≤ b.alphaRight
  a2 : b.alphaRight ≤ m
  a3 : b.alphaRight - b.alphaLeft = m / 2 ^ k
  a4 : b.alphaLeft = 0 ∨ sumAlpha w x b.alphaLeft > alpha * total
  a5 : b.alphaRight = m ∨ sumAlpha w x b.alphaRight ≤ alpha * total
  b0 : 0 ≤ b.betaLeft
  b1 : b.betaLeft ≤ b.betaRight
  b2 : b.betaRight ≤ m
  b3 : b.betaRight - b.betaLeft = m / 2 ^ k
  b4 : b.betaLeft = 0 ∨ sumBeta w x b.betaLeft ≤ beta * total
  b5 : b.betaRight = m ∨ sumBeta w x b.betaRight > beta * total

/-- The thresholds are ends of the intervals. -/
def Ends (b : Bisection K) : Prop :=
  (b.etaAlpha = b.alphaLeft ∨ b.etaAlpha = b.alphaRight) ∧ (b.etaBeta = b.betaLeft ∨ b.etaBeta = b.betaRight)

theorem bisect_spec (w : K → K) (x : List K) (alpha beta total m : K) (n k : Nat) (b : Bisection K) (hb : Inv w x alpha beta total m k b)
    (hn : 1 ≤ n ∨ Ends b) :
    ((close alpha (sumAlpha w x (bisect w x alpha beta total n b).etaAlpha) total = true ∧
      close beta (sumBeta w x (bisect w x alpha beta total n b).etaBeta) total = true) ∧
      (0 ≤ (bisect w x alpha beta total n b).etaAlpha ∧ (bisect w x alpha beta total n b).etaAlpha ≤ m) ∧
      (0 ≤ (bisect w x alpha beta total n b).etaBeta ∧ (bisect w x alpha beta total n b).etaBeta ≤ m)) ∨
    (Inv w x alpha beta total m (k + n) (bisect w x alpha beta total n b) ∧ Ends (bisect w x alpha beta total n b)) := by
  induction n generalizing k b with
  | zero =>
    rcases hn with hn | hn
    · omega
    · exact Or.inr ⟨hb, hn⟩
  | succ n ih =>
    simp only [bisect]
    have hma : b.alphaLeft ≤ (b.alphaLeft + b.alphaRight) / 2 := by linarith [hb.a1]
    have hma' : (b.alphaLeft + b.alphaRight) / 2 ≤ b.alphaRight := by linarith [hb.a1]
    have hmb : b.betaLeft ≤ (b.betaLeft + b.betaRight) / 2 := by linarith [hb.b1]
    have hmb' : (b.betaLeft + b.betaRight) / 2 ≤ b.betaRight := by linarith [hb.b1]
    have hpow : (m / 2 ^ k : K) / 2 = m / 2 ^ (k + 1) := by rw [pow_succ, div_div]
    split
    · rename_i hc
      rw [Bool.and_eq_true] at hc
      exact Or.inl ⟨hc, ⟨hb.a0.trans hma, hma'.trans hb.a2⟩, ⟨hb.b0.trans hmb, hmb'.trans hb.b2⟩⟩
    · rw [show k + (n + 1) = (k + 1) + n by omega]
      refine ih (k + 1) _ ?_ (Or.inr ?_)
      · by_cases ha : sumAlpha w x ((b.alphaLeft + b.alphaRight) / 2) > alpha * total <;>
          by_cases hbt : sumBeta w x ((b.betaLeft + b.betaRight) / 2) > beta * total <;>
          simp only [ha, hbt, if_true, if_false] <;>
          exact
          { a0 := by first | exact hb.a0 | exact hb.a0.trans hma
            a1 := by first | exact hma | exact hma'
            a2 := by first | exact hb.a2 | exact hma'.trans hb.a2
            a3 := by dsimp only; rw [← hpow, ← hb.a3]; ring
            a4 := by first | exact Or.inr ha | exact hb.a4
            a5 := by first | exact Or.inr (not_lt.1 ha) | exact hb.a5
            b0 := by first | exact hb.b0 | exact hb.b0.trans hmb
            b1 := by first | exact hmb | exact hmb'
            b2 := by first | exact hb.b2 | exact hmb'.trans hb.b2
            b3 := by dsimp only; rw [← hpow, ← hb.b3]; ring
            b4 := by first | exact Or.inr (not_lt.1 hbt) | exact hb.b4
            b5 := by first | exact Or.inr hbt | exact hb.b5 }
      · refine ⟨?_, ?_⟩
        · dsimp only
          split <;> simp
        · dsimp only
          split <;> simp

theorem close_iff (alpha sum total : K) : close alpha sum total = true ↔ total ≠ 0 ∧ |alpha - sum / total| ≤ 1 / 100 := by
  unfold close
  rw [decide_eq_true_iff, absK_eq]

theorem bisect_init (w : K → K) (x : List K) (alpha beta total m : K) (hm : infNorm x = m) :
    Inv w x alpha beta total m 0 ⟨0, infNorm x, 0, infNorm x, 0, 0⟩ := by
  have := infNorm_nonneg x
  rw [hm] at this
  rw [hm]
  exact ⟨le_refl _, this, le_refl _, by simp, Or.inl rfl, Or.inl rfl, le_refl _, this, le_refl _, by simp, Or.inl rfl, Or.inl rfl⟩

/-- What the bisection returns, for any weight of errors. -/
theorem bisect_result (w : K → K) (x : List K) (alpha beta total m : K) (hm : infNorm x = m) :
    let b := bisect w x alpha beta total 20 ⟨0, infNorm x, 0, infNorm x, 0, 0⟩
    (0 ≤ b.etaAlpha ∧ b.etaAlpha ≤ m) ∧ (0 ≤ b.etaBeta ∧ b.etaBeta ≤ m) ∧
    ((total ≠ 0 ∧ Met alpha (sumAlpha w x b.etaAlpha) total ∧ Met beta (sumBeta w x b.etaBeta) total) ∨
      (BracketsAbove (sumAlpha w x) alpha total m b.etaAlpha ∧ BracketsBelow (sumBeta w x) beta total m b.etaBeta)) := by
  intro b
  rcases bisect_spec w x alpha beta total m 20 0 _ (bisect_init w x alpha beta total m hm) (Or.inl (by omega)) with ⟨⟨h1, h2⟩, h3, h4⟩ | ⟨h, he⟩
  · exact ⟨h3, h4, Or.inl ⟨((close_iff ..).1 h1).1, ((close_iff ..).1 h1).2, ((close_iff ..).1 h2).2⟩⟩
  · refine ⟨?_, ?_, Or.inr ⟨?_, ?_⟩⟩
    · rcases he.1 with he | he
      · exact ⟨he ▸ h.a0, he ▸ (h.a1.trans h.a2)⟩
      · exact ⟨he ▸ (h.a0.trans h.a1), he ▸ h.a2⟩
    · rcases he.2 with he | he
      · exact ⟨he ▸ h.b0, he ▸ (h.b1.trans h.b2)⟩
      · exact ⟨he ▸ (h.b0.trans h.b1), he ▸ h.b2⟩
    · exact ⟨_, _, h.a0, h.a1, h.a2, h.a3, he.1, h.a4, h.a5⟩
    · exact ⟨_, _, h.b0, h.b1, h.b2, h.b3, he.2, h.b4, h.b5⟩

/-! ### Marking -/

omit [IsStrictOrderedRing K] in
theorem mem_markGrid (refine coarsen : K) (lo hi : Int) (i : Nat) (cs : List (Cell K)) (mk : Int) (j : Nat) :
    (mk, j) ∈ markGrid refine coarsen lo hi i cs ↔
    ∃ k c, cs[k]? = some c ∧ j = i + k ∧
      ((mk = 1 ∧ refine ≤ c.error ∧ c.level < hi) ∨ (mk = -1 ∧ c.error ≤ coarsen ∧ lo < c.level)) := by
  induction cs generalizing i with
  | nil => simp [markGrid]
  | cons c cs ih =>
    simp only [markGrid, List.mem_append, ih]
    constructor
    · rintro (h | h | ⟨k, d, h1, h2, h3⟩)
      · split at h
        · simp only [List.mem_singleton, Prod.mk.injEq] at h
          exact ⟨0, c, rfl, by omega, Or.inl ⟨h.1, ‹_›⟩⟩
        · simp at h
      · split at h
        · simp only [List.mem_singleton, Prod.mk.injEq] at h
          exact ⟨0, c, rfl, by omega, Or.inr ⟨h.1, ‹_›⟩⟩
        · simp at h
      · exact ⟨k + 1, d, by simpa using h1, by omega, h3⟩
    · rintro ⟨k, d, h1, h2, h3⟩
      cases k with
      | zero =>
        obtain rfl : c = d := by simpa using h1
        rcases h3 with ⟨rfl, h⟩ | ⟨rfl, h⟩
        · left; rw [if_pos h]; simp [h2]
        · right; left; rw [if_pos h]; simp [h2]
      | succ k => exact Or.inr (Or.inr ⟨k, d, by simpa using h1, by omega, h3⟩)

omit [IsStrictOrderedRing K] in
theorem mem_markForCoarsening (refine coarsen : K) (i : Nat) (cs : List (Cell K)) (mk : Int) (j : Nat) :
    (mk, j) ∈ markForCoarsening refine coarsen i cs ↔
    ∃ k c, cs[k]? = some c ∧ j = i + k ∧ mk = -1 ∧ (refine ≤ c.error ∨ c.error ≤ coarsen) := by
  induction cs generalizing i with
  | nil => simp [markForCoarsening]
  | cons c cs ih =>
    simp only [markForCoarsening, List.mem_append, ih]
    constructor
    · rintro (h | h | ⟨k, d, h1, h2, h3⟩)
      · split at h
        · simp only [List.mem_singleton, Prod.mk.injEq] at h
          exact ⟨0, c, rfl, by omega, h.1, Or.inl ‹_›⟩
        · simp at h
      · split at h
        · simp only [List.mem_singleton, Prod.mk.injEq] at h
          exact ⟨0, c, rfl, by omega, h.1, Or.inr ‹_›⟩
        · simp at h
      · exact ⟨k + 1, d, by simpa using h1, by omega, h3⟩
    · rintro ⟨k, d, h1, h2, rfl, h3⟩
      cases k with
      | zero =>
        obtain rfl : c = d := by simpa using h1
        rcases h3 with h | h
        · left; rw [if_pos h]; simp [h2]
        · right; left; rw [if_pos h]; simp [h2]
      | succ k => exact Or.inr (Or.inr ⟨k, d, by simpa using h1, by omega, rfl, h3⟩)

/-! ### Time adaptation -/

theorem model_sum (p : Params K) (a : Args K) :
    oneNorm (a.cells.map Cell.error) + p.scaling * oneNorm a.etaTime = estimate p a := by
  unfold estimate
  rw [oneNorm_eq, oneNorm_eq, List.map_map]
  rfl

omit [LinearOrder K] [IsStrictOrderedRing K] in
theorem model_allowed (p : Params K) (a : Args K) : p.tol * p.tol * (a.energy + p.minEnergyRate * a.dt) = allowed p a := by
  unfold allowed
  rw [pow_two]

theorem evaluate_accept (p : Params K) (m : Int) (a : Args K) (s : Strategy K) :
    ((evaluate p m a s).accept = true ↔ Acceptable p a) ∧
    (evaluate p m a s).accumulated = s.accumulated + (open Classical in if Acceptable p a then estimate p a else 0) := by
  unfold evaluate Acceptable
  dsimp only
  rw [model_sum, model_allowed]
  by_cases h0 : p.noAdapt = true
  · simp [h0]
  · by_cases h1 : estimate p a ≤ allowed p a
    · simp only [h0, h1, if_true, or_true]
      refine ⟨?_, ?_⟩ <;> (repeat' split) <;> simp_all
    · simp only [h0, h1, if_false, or_self]
      refine ⟨?_, ?_⟩ <;> (repeat' split) <;> simp_all

/-- The remaining effects on a rejected step. -/
theorem evaluate_rejected (p : Params K) (m : Int) (a : Args K) (s : Strategy K) (hr : ¬ Acceptable p a) :
    ((evaluate p m a s).newDt = p.decreaseFactor * a.dt ∧ (evaluate p m a s).adaptDt = true ∧ (evaluate p m a s).haveDecreased = true) ∨
    ((evaluate p m a s).newDt = p.increaseFactor * a.dt ∧ (evaluate p m a s).adaptDt = true ∧ s.haveDecreased = false ∧
      (evaluate p m a s).haveDecreased = false) ∨
    ((evaluate p m a s).newDt = a.dt ∧ (evaluate p m a s).adaptDt = false ∧ s.haveDecreased = true ∧
      (evaluate p m a s).haveDecreased = true) := by
  unfold Acceptable at hr
  simp only [not_or] at hr
  unfold evaluate
  dsimp only
  rw [model_sum, model_allowed]
  rw [if_neg hr.1, if_neg hr.2]
  split
  · exact Or.inl ⟨rfl, rfl, rfl⟩
  · split
    · cases hs : s.haveDecreased
      · exact Or.inr (Or.inl ⟨rfl, rfl, rfl, rfl⟩)
      · exact Or.inr (Or.inr ⟨rfl, rfl, rfl, rfl⟩)
    · exact Or.inl ⟨rfl, rfl, rfl⟩

/-- Accepted steps do not change the flag, and do not decrease the step. -/
theorem evaluate_accepted (p : Params K) (m : Int) (a : Args K) (s : Strategy K) (hr : Acceptable p a) :
    (evaluate p m a s).haveDecreased = s.haveDecreased ∧
    ((evaluate p m a s).newDt = a.dt ∨ (evaluate p m a s).newDt = p.increaseFactor * a.dt) := by
  unfold Acceptable at hr
  unfold evaluate
  dsimp only
  rw [model_sum, model_allowed]
  by_cases h0 : p.noAdapt = true
  · simp [h0]
  · have h1 : estimate p a ≤ allowed p a := by rcases hr with hr | hr <;> [exact absurd hr h0; exact hr]
    simp only [h0, h1, if_true]
    refine ⟨?_, ?_⟩ <;> (repeat' split) <;> simp_all

theorem run_accumulated (es : List (Event K)) (s : Strategy K) : (run s es).accumulated = s.accumulated + acceptedErrors es := by
  unfold run
  induction es generalizing s with
  | nil => simp [acceptedErrors]
  | cons e es ih =>
    rw [List.foldl_cons, ih]
    cases e with
    | start => simp [step, startTimeStep, acceptedErrors]
    | evaluate p m a =>
      simp only [step, acceptedErrors]
      rw [(evaluate_accept p m a s).2]
      ring

/-- Without start of a new step the flag stays set. -/
theorem run_haveDecreased (es : List (Event K)) (s : Strategy K) (hn : ∀ e, e ∈ es → e ≠ .start) (h : s.haveDecreased = true) :
    (run s es).haveDecreased = true := by
  unfold run
  induction es generalizing s with
  | nil => exact h
  | cons e es ih =>
    rw [List.foldl_cons]
    refine ih _ (fun e he => hn e (List.mem_cons_of_mem _ he)) ?_
    cases e with
    | start => exact absurd rfl (hn .start (by simp))
    | evaluate p m a =>
      simp only [step]
      by_cases hr : Acceptable p a
      · rw [(evaluate_accepted p m a s hr).1, h]
      · rcases evaluate_rejected p m a s hr with h1 | h1 | h1
        · exact h1.2.2
        · rw [h] at h1; exact absurd h1.2.2.1 (by simp)
        · exact h1.2.2.2

end Verif.Adaptivity
