import Verif.Spec.OldNewton
import Verif.Proofs.Newton
import Mathlib.Tactic.Ring
import Mathlib.Tactic.Linarith
import Mathlib.Algebra.Module.Basic
/-
Helper lemmas for the deprecated Newton solver.
-/
namespace Verif.OldNewton

open Verif.Newton (ltF leF ratioGt)
open Verif.Newton.Spec (Lt Le Sufficient)
open Spec

variable {K X : Type} [Field K] [LinearOrder K] [IsStrictOrderedRing K] [AddCommGroup X] [Module K X]

omit [IsStrictOrderedRing K] in
theorem oLt_iff (a b : Option K) : ltF a b = true ↔ Lt a b := by
  unfold ltF Lt
  rcases a with _ | a <;> rcases b with _ | b <;> simp

omit [IsStrictOrderedRing K] in
theorem oLe_iff (a b : Option K) : leF a b = true ↔ Le a b := by
  unfold leF Le
  rcases a with _ | a <;> rcases b with _ | b <;> simp

omit [IsStrictOrderedRing K] in
theorem oLt_irrefl (a : Option K) : ¬ Lt a a := by
  rintro ⟨x, y, hx, hy, h⟩
  rw [hx] at hy
  cases hy
  exact lt_irrefl _ h

omit [IsStrictOrderedRing K] in
theorem oLt_trans {a b c : Option K} (h1 : Lt a b) (h2 : Lt b c) : Lt a c := by
  obtain ⟨x, y, hx, hy, h⟩ := h1
  obtain ⟨y', z, hy', hz, h'⟩ := h2
  rw [hy] at hy'
  cases hy'
  exact ⟨x, z, hx, hz, lt_trans h h'⟩

omit [IsStrictOrderedRing K] in
/-- If `a < b`, everything that is not below `b` is not below `a`. -/
theorem not_lt_of_lt {a b c : Option K} (h : Lt a b) (hc : ¬ Lt c b) : ¬ Lt c a := fun h' => hc (oLt_trans h' h)

omit [IsStrictOrderedRing K] [LinearOrder K] in
theorem point_point (P : Problem K X) (hi : Idempotent P) (hn : Bool) (x : X) : point P hn (point P hn x) = point P hn x := by
  unfold point
  cases hn
  · rfl
  · exact hi x

omit [IsStrictOrderedRing K] [LinearOrder K] in
theorem evalDefect_solution (P : Problem K X) (q : Params K) (hn : Bool) (x : X) :
    (evalDefect P q hn x).solution = point P hn x := rfl

omit [IsStrictOrderedRing K] [LinearOrder K] in
theorem evalDefect_defect (P : Problem K X) (q : Params K) (hn : Bool) (x : X) :
    (evalDefect P q hn x).defect = P.norm q.useMaxNorm (point P hn x) := rfl

omit [IsStrictOrderedRing K] in
theorem raised_none {s : LS K X} : raised s = none ↔ s.defect ≠ none := by
  unfold raised
  by_cases h : s.defect = none <;> simp [h]

omit [IsStrictOrderedRing K] in
theorem raised_some {s : LS K X} {e : Error} : raised s = some e ↔ s.defect = none ∧ e = .defect := by
  unfold raised
  by_cases h : s.defect = none
  · simp only [h, if_true, Option.some.injEq, true_and]
    exact eq_comm
  · simp [h]

/-- What the trials before the `k`-th have found. -/
def Best (P : Problem K X) (q : Params K) (hn : Bool) (x z : X) (k : Nat) (bl : K) (bd : Option K) : Prop :=
  (bl = 0 ∧ bd = P.norm q.useMaxNorm x ∧ ∀ j, j < k → ¬ Lt (P.norm q.useMaxNorm (trial P q hn x z j)) (P.norm q.useMaxNorm x)) ∨
  (bl ≠ 0 ∧ ∃ i, i < k ∧ bl = q.dampingFactor ^ i ∧ bd = P.norm q.useMaxNorm (trial P q hn x z i) ∧ Lt bd (P.norm q.useMaxNorm x) ∧
    ∀ j, j < k → ¬ Lt (P.norm q.useMaxNorm (trial P q hn x z j)) bd)

omit [IsStrictOrderedRing K] in
theorem best_step (P : Problem K X) (q : Params K) (hn : Bool) (x z : X) (k : Nat) (bl : K) (bd : Option K)
    (hx : point P hn x = x) (h : Best P q hn x z k bl bd) :
    let better := ltF (P.norm q.useMaxNorm (trial P q hn x z k)) bd
    Best P q hn x z (k + 1) (if better then q.dampingFactor ^ k else bl)
      (if better then P.norm q.useMaxNorm (trial P q hn x z k) else bd) := by
  intro better
  by_cases hb : better = true
  · have hlt := (oLt_iff _ _).1 hb
    rw [if_pos hb, if_pos hb]
    have key : Lt (P.norm q.useMaxNorm (trial P q hn x z k)) (P.norm q.useMaxNorm x) := by
      rcases h with ⟨_, h, _⟩ | ⟨_, i, _, _, _, h, _⟩
      · rwa [h] at hlt
      · exact oLt_trans hlt h
    refine Or.inr ⟨?_, k, Nat.lt_succ_self k, rfl, rfl, key, ?_⟩
    · intro h0
      have : trial P q hn x z k = x := by
        unfold trial
        rw [h0, zero_smul, sub_zero, hx]
      rw [this] at key
      exact oLt_irrefl _ key
    · intro j hj
      rcases Nat.lt_succ_iff_lt_or_eq.1 hj with hj | rfl
      · rcases h with ⟨_, h, h'⟩ | ⟨_, i, _, _, _, _, h'⟩
        · exact not_lt_of_lt key (h' j hj)
        · exact not_lt_of_lt hlt (h' j hj)
      · exact oLt_irrefl _
  · rw [if_neg hb, if_neg hb]
    have hlt : ¬ Lt (P.norm q.useMaxNorm (trial P q hn x z k)) bd := fun h => hb ((oLt_iff _ _).2 h)
    rcases h with ⟨h0, h, h'⟩ | ⟨h0, i, hi, h1, h2, h3, h'⟩
    · refine Or.inl ⟨h0, h, fun j hj => ?_⟩
      rcases Nat.lt_succ_iff_lt_or_eq.1 hj with hj | rfl
      · exact h' j hj
      · rwa [h] at hlt
    · refine Or.inr ⟨h0, i, Nat.lt_succ_of_lt hi, h1, h2, h3, fun j hj => ?_⟩
      rcases Nat.lt_succ_iff_lt_or_eq.1 hj with hj | rfl
      · exact h' j hj
      · exact hlt

omit [IsStrictOrderedRing K] in
theorem trials_zero (P : Problem K X) (q : Params K) (hn : Bool) (x z : X) (pd : Option K) (l bl : K) (bd : Option K) :
    trials P q hn x z pd 0 l bl bd =
      if leF (P.norm q.useMaxNorm (point P hn (x - l • z))) (pd.map fun d => (1 - l / 4) * d) = true then
        (evalDefect P q hn (x - l • z), none)
      else giveUp P q hn x z (evalDefect P q hn (x - l • z)) l
        (if ltF (P.norm q.useMaxNorm (point P hn (x - l • z))) bd = true then l else bl) := rfl

omit [IsStrictOrderedRing K] in
theorem trials_succ (P : Problem K X) (q : Params K) (hn : Bool) (x z : X) (pd : Option K) (n : Nat) (l bl : K) (bd : Option K) :
    trials P q hn x z pd (n + 1) l bl bd =
      if leF (P.norm q.useMaxNorm (point P hn (x - l • z))) (pd.map fun d => (1 - l / 4) * d) = true then
        (evalDefect P q hn (x - l • z), none)
      else trials P q hn x z pd n (l * q.dampingFactor)
        (if ltF (P.norm q.useMaxNorm (point P hn (x - l • z))) bd = true then l else bl)
        (if ltF (P.norm q.useMaxNorm (point P hn (x - l • z))) bd = true then P.norm q.useMaxNorm (point P hn (x - l • z)) else bd) := rfl

omit [IsStrictOrderedRing K] in
/-- The trials from the `k`-th on. -/
theorem trials_spec (P : Problem K X) (q : Params K) (hn : Bool) (hi : Idempotent P) (x z : X) (hx : point P hn x = x)
    (hd : P.norm q.useMaxNorm x ≠ none) (hs : q.strategy ≠ .noLineSearch) (hl : ¬ Lt (P.norm q.useMaxNorm x) (some q.absLimit)) :
    ∀ (n k : Nat) (bl : K) (bd : Option K), k + n + 1 = max q.lineSearchMaxIterations 1 → Best P q hn x z k bl bd →
      (∀ j, j < k → ¬ Sufficient (P.norm q.useMaxNorm x) (P.norm q.useMaxNorm (trial P q hn x z j)) (q.dampingFactor ^ j)) →
      let out := trials P q hn x z (P.norm q.useMaxNorm x) n (q.dampingFactor ^ k) bl bd
      LineSearchOutcome P q hn x z out.1.solution out.1.defect out.2 := by
  intro n
  induction n with
  | zero =>
    intro k bl bd hk hb hns
    have hk : k + 1 = max q.lineSearchMaxIterations 1 := hk
    rw [trials_zero]
    by_cases hsuf : leF (P.norm q.useMaxNorm (point P hn (x - q.dampingFactor ^ k • z)))
        ((P.norm q.useMaxNorm x).map fun d => (1 - q.dampingFactor ^ k / 4) * d) = true
    · rw [if_pos hsuf]
      have hsuf' := (oLe_iff _ _).1 hsuf
      refine ⟨rfl, point_point P hi hn _, Or.inl rfl, fun _ => ⟨?_, Or.inr (Or.inl ⟨hs, k, ?_, rfl, hsuf', hns⟩)⟩, by simp, by simp⟩
      · obtain ⟨a, b, ha, _⟩ := hsuf'
        change P.norm q.useMaxNorm (point P hn (x - q.dampingFactor ^ k • z)) ≠ none
        rw [ha]
        simp
      · omega
    · rw [if_neg hsuf]
      have hnsuf : ¬ Sufficient (P.norm q.useMaxNorm x) (P.norm q.useMaxNorm (trial P q hn x z k)) (q.dampingFactor ^ k) :=
        fun h => hsuf ((oLe_iff _ _).2 h)
      have hall : ∀ j, j < max q.lineSearchMaxIterations 1 →
          ¬ Sufficient (P.norm q.useMaxNorm x) (P.norm q.useMaxNorm (trial P q hn x z j)) (q.dampingFactor ^ j) := by
        intro j hj
        rw [← hk] at hj
        rcases Nat.lt_succ_iff_lt_or_eq.1 hj with hj | rfl
        · exact hns j hj
        · exact hnsuf
      have hb' : Best P q hn x z (k + 1)
          (if ltF (P.norm q.useMaxNorm (point P hn (x - q.dampingFactor ^ k • z))) bd = true then q.dampingFactor ^ k else bl)
          (if ltF (P.norm q.useMaxNorm (point P hn (x - q.dampingFactor ^ k • z))) bd = true then
            P.norm q.useMaxNorm (point P hn (x - q.dampingFactor ^ k • z)) else bd) := best_step P q hn x z k bl bd hx hb
      generalize (if ltF (P.norm q.useMaxNorm (point P hn (x - q.dampingFactor ^ k • z))) bd = true then q.dampingFactor ^ k
        else bl) = bl' at hb' ⊢
      generalize (if ltF (P.norm q.useMaxNorm (point P hn (x - q.dampingFactor ^ k • z))) bd = true then
        P.norm q.useMaxNorm (point P hn (x - q.dampingFactor ^ k • z)) else bd) = bd' at hb'
      rw [hk] at hb'
      have restored : evalDefect P q hn x = ⟨x, P.norm q.useMaxNorm x⟩ := by
        change (⟨point P hn x, P.norm q.useMaxNorm (point P hn x)⟩ : LS K X) = _
        rw [hx]
      have hr : raised (⟨x, P.norm q.useMaxNorm x⟩ : LS K X) = none := raised_none.2 hd
      unfold giveUp
      rcases hst : q.strategy with _ | _ | _
      · exact absurd hst hs
      · simp only [restored, hr, Option.getD_none]
        exact ⟨rfl, hx, Or.inr (Or.inl rfl), by simp, fun _ => ⟨hs, hl, rfl, hall, by simp [hst]⟩, by simp⟩
      · simp only [restored, hr, Option.getD_none]
        rcases hb' with ⟨h0, h1, h2⟩ | ⟨h0, i, hi1, h1, h2, h3, h4⟩
        · rw [if_pos h0]
          exact ⟨rfl, hx, Or.inr (Or.inl rfl), by simp, fun _ => ⟨hs, hl, rfl, hall, fun _ => h2⟩, by simp⟩
        · rw [if_neg h0]
          have fin : P.norm q.useMaxNorm (trial P q hn x z i) ≠ none := by
            rw [← h2]
            obtain ⟨a, b, ha, _⟩ := h3
            rw [ha]
            simp
          by_cases hne : bl' ≠ q.dampingFactor ^ k
          · rw [if_pos hne]
            have e1 : evalDefect P q hn (x - bl' • z) = ⟨trial P q hn x z i, P.norm q.useMaxNorm (trial P q hn x z i)⟩ := by
              rw [h1]
              rfl
            rw [e1, raised_none.2 fin]
            refine ⟨rfl, point_point P hi hn _, Or.inl rfl, fun _ => ⟨fin, Or.inr (Or.inr ⟨hst, hall, i, hi1, rfl, ?_, ?_⟩)⟩, by simp, by simp⟩
            · rw [← h2]; exact h3
            · rw [← h2]; exact h4
          · rw [if_neg hne]
            have hne := not_not.1 hne
            have e1 : trial P q hn x z i = trial P q hn x z k := by
              unfold trial
              rw [← h1, hne]
            rw [e1] at fin h2
            refine ⟨rfl, point_point P hi hn _, Or.inl rfl, fun _ => ⟨fin, Or.inr (Or.inr ⟨hst, hall, k, by omega, rfl, ?_, ?_⟩)⟩, by simp, by simp⟩
            · change Lt (P.norm q.useMaxNorm (trial P q hn x z k)) _
              rw [← h2]; exact h3
            · change ∀ j, _ → ¬ Lt _ (P.norm q.useMaxNorm (trial P q hn x z k))
              rw [← h2]; exact h4
  | succ n ih =>
    intro k bl bd hk hb hns
    rw [trials_succ]
    by_cases hsuf : leF (P.norm q.useMaxNorm (point P hn (x - q.dampingFactor ^ k • z)))
        ((P.norm q.useMaxNorm x).map fun d => (1 - q.dampingFactor ^ k / 4) * d) = true
    · rw [if_pos hsuf]
      have hsuf' := (oLe_iff _ _).1 hsuf
      refine ⟨rfl, point_point P hi hn _, Or.inl rfl, fun _ => ⟨?_, Or.inr (Or.inl ⟨hs, k, ?_, rfl, hsuf', hns⟩)⟩, by simp, by simp⟩
      · obtain ⟨a, b, ha, _⟩ := hsuf'
        change P.norm q.useMaxNorm (point P hn (x - q.dampingFactor ^ k • z)) ≠ none
        rw [ha]
        simp
      · omega
    · rw [if_neg hsuf]
      have hnsuf : ¬ Sufficient (P.norm q.useMaxNorm x) (P.norm q.useMaxNorm (trial P q hn x z k)) (q.dampingFactor ^ k) :=
        fun h => hsuf ((oLe_iff _ _).2 h)
      have hb' := best_step P q hn x z k bl bd hx hb
      have := ih (k + 1) _ _ (by omega) hb' (by
        intro j hj
        rcases Nat.lt_succ_iff_lt_or_eq.1 hj with hj | rfl
        · exact hns j hj
        · exact hnsuf)
      rw [pow_succ] at this
      exact this

omit [IsStrictOrderedRing K] in
/-- The line search. -/
theorem lineSearch_spec (P : Problem K X) (q : Params K) (hn : Bool) (hi : Idempotent P) (x z : X) (hx : point P hn x = x)
    (hd : P.norm q.useMaxNorm x ≠ none) :
    let out := lineSearch P q hn (P.norm q.useMaxNorm x) ⟨x, P.norm q.useMaxNorm x⟩ z
    LineSearchOutcome P q hn x z out.1.solution out.1.defect out.2 := by
  intro out
  by_cases hc : q.strategy = .noLineSearch ∨ ltF (P.norm q.useMaxNorm x) (some q.absLimit) = true
  · have ho : out = (evalDefect P q hn (x - (1 : K) • z), raised (evalDefect P q hn (x - (1 : K) • z))) := by
      change lineSearch P q hn (P.norm q.useMaxNorm x) ⟨x, P.norm q.useMaxNorm x⟩ z = _
      unfold lineSearch
      rw [if_pos hc]
    rw [one_smul] at ho
    have hc' : q.strategy = .noLineSearch ∨ Lt (P.norm q.useMaxNorm x) (some q.absLimit) := hc.imp id (oLt_iff _ _).1
    rw [ho]
    rcases Option.eq_none_or_eq_some (raised (evalDefect P q hn (x - z))) with h | ⟨e, h⟩
    · exact ⟨rfl, point_point P hi hn _, Or.inl h, fun _ => ⟨raised_none.1 h, Or.inl ⟨hc', rfl⟩⟩, by simp [h], by simp [h]⟩
    · obtain ⟨h1, rfl⟩ := raised_some.1 h
      exact ⟨rfl, point_point P hi hn _, Or.inr (Or.inr h), by simp [h], by simp [h], fun _ => ⟨hc', rfl, h1⟩⟩
  · have ho : out = trials P q hn x z (P.norm q.useMaxNorm x) (q.lineSearchMaxIterations - 1) 1 0 (P.norm q.useMaxNorm x) := by
      change lineSearch P q hn (P.norm q.useMaxNorm x) ⟨x, P.norm q.useMaxNorm x⟩ z = _
      unfold lineSearch
      rw [if_neg hc]
    have h1 := trials_spec P q hn hi x z hx hd (fun h => hc (Or.inl h)) (fun h => hc (Or.inr ((oLt_iff _ _).2 h)))
      (q.lineSearchMaxIterations - 1) 0 0 (P.norm q.useMaxNorm x) (by omega)
      (Or.inl ⟨rfl, rfl, fun j hj => absurd hj (Nat.not_lt_zero j)⟩) (fun j hj => absurd hj (Nat.not_lt_zero j))
    rw [pow_zero] at h1
    rw [ho]
    exact h1

end Verif.OldNewton
