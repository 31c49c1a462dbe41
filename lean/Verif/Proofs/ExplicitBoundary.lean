import Verif.Model.ExplicitBoundary
import Verif.Props.OneStepMethod
/-
Lemmas about the explicit method with boundary function.
-/
namespace Verif.OneStep
variable {D K M : Type} [Field K] [LinearOrder K]

theorem initInterpolate_other (c : D → Bool) (f : Nat → D → K) (s r : Nat) (mem : Nat → D → K) (i : Nat) (h : i ≠ r) :
    initInterpolate c f s r mem i = mem i := by
  simp [initInterpolate, gridInterpolate, upd, h]

theorem initInterpolate_constrained (c : D → Bool) (f : Nat → D → K) (s r : Nat) (mem : Nat → D → K) (d : D) (h : c d = true) :
    initInterpolate c f s r mem r d = f r d := by
  simp [initInterpolate, gridInterpolate, upd, copyFree, h]

/-- The step after the first stage is the selected one. -/
theorem bStage_dt (E : BEnv D K M) (S : BSt D K) (r : Nat) (h : r ≠ 1) : (bStage E S r).dt = S.dt := by
  simp [bStage, h]

theorem bStage_dt_one (E : BEnv D K M) (S : BSt D K) : (bStage E S 1).dt = chooseDt E.suggested S.dt := by
  simp [bStage]

theorem bStage_other (E : BEnv D K M) (S : BSt D K) (r i : Nat) (h : i ≠ r) (h' : i ≠ r - 1) : (bStage E S r).mem i = S.mem i := by
  simp only [bStage]
  rw [upd, if_neg h, initInterpolate_other _ _ _ _ _ _ h, upd, if_neg h']

theorem bStage_prev (E : BEnv D K M) (S : BSt D K) (r : Nat) (h : 1 ≤ r) : (bStage E S r).mem (r - 1) = E.pre (S.mem (r - 1)) := by
  simp only [bStage]
  rw [upd, if_neg (by omega), initInterpolate_other _ _ _ _ _ _ (by omega), upd, if_pos rfl]

/-- The stage `r` sees the final values of the earlier stages; its own value solves the stage equation before the limiter. -/
theorem bStage_self (E : BEnv D K M) (S : BSt D K) (r : Nat) :
    ∃ (y : Nat → D → K) (v : D → K), (∀ i, i < r → y i = (bStage E S r).mem i) ∧
      (∀ d, E.constrained d = true → y r d = E.bvals (E.time + E.scheme.d r * E.dt) d) ∧
      (bStage E S r).mem r = E.post v ∧
      ∃ u0, v = fun d => y r d - E.ls (E.asm r y).1 u0
        (fun d => if E.constrained d then 0 else E.act (E.asm r y).1 (y r) d - ((E.asm r y).2.2 d + (bStage E S r).dt * (E.asm r y).2.1 d)) d := by
  refine ⟨initInterpolate E.constrained (fun r => E.bvals (E.time + E.scheme.d r * E.dt)) E.scheme.s r
      (upd S.mem (r - 1) (E.pre (S.mem (r - 1)))), _, ?_, ?_, ?_, S.update, rfl⟩
  · intro i hi
    simp only [bStage]
    rw [upd, if_neg (by omega)]
  · intro d hd
    exact initInterpolate_constrained _ _ _ _ _ _ hd
  · simp only [bStage]
    rw [upd, if_pos rfl]

/-- The stage equations, before the limiter. -/
def Solved (E : BEnv D K M) (dt' : K) (X : Nat → D → K) (r : Nat) (v : D → K) : Prop :=
  ∃ (y : Nat → D → K) (u0 : D → K), (∀ i, i < r → y i = X i) ∧
    (∀ d, E.constrained d = true → y r d = E.bvals (E.time + E.scheme.d r * E.dt) d) ∧
    v = fun d => y r d - E.ls (E.asm r y).1 u0
        (fun d => if E.constrained d then 0 else E.act (E.asm r y).1 (y r) d - ((E.asm r y).2.2 d + dt' * (E.asm r y).2.1 d)) d

theorem bFold (E : BEnv D K M) (dt' : K) : ∀ (n r : Nat) (S : BSt D K), 1 ≤ r → r + n = E.scheme.s + 1 →
    (r ≠ 1 → S.dt = dt') → (r = 1 → chooseDt E.suggested S.dt = dt') →
    (∀ i, i < r - 1 → ((List.range' r n).foldl (bStage E) S).mem i = S.mem i) ∧
    (1 ≤ n → ((List.range' r n).foldl (bStage E) S).mem (r - 1) = E.pre (S.mem (r - 1)) ∧ ((List.range' r n).foldl (bStage E) S).dt = dt') ∧
    (∀ k, r ≤ k → k ≤ E.scheme.s → ∃ v, Solved E dt' ((List.range' r n).foldl (bStage E) S).mem k v ∧
      ((List.range' r n).foldl (bStage E) S).mem k = if k < E.scheme.s then E.pre (E.post v) else E.post v) := by
  intro n
  induction n with
  | zero => intro r S _ h _ _; exact ⟨fun i _ => rfl, fun h => by omega, fun k h1 h2 => by omega⟩
  | succ n ih =>
    intro r S h1 hr hdt hdt1
    rw [List.range'_succ, List.foldl_cons]
    have hd : (bStage E S r).dt = dt' := by
      by_cases h : r = 1
      · subst h; rw [bStage_dt_one]; exact hdt1 rfl
      · rw [bStage_dt _ _ _ h]; exact hdt h
    obtain ⟨g1, g2, g3⟩ := ih (r + 1) (bStage E S r) (by omega) (by omega) (fun _ => hd) (fun h => by omega)
    simp only [Nat.add_sub_cancel] at g1 g2
    refine ⟨fun i hi => by rw [g1 i (by omega), bStage_other _ _ _ _ (by omega) (by omega)], fun _ => ⟨?_, ?_⟩, fun k hk1 hk2 => ?_⟩
    · rw [g1 _ (by omega), bStage_prev _ _ _ h1]
    · rcases Nat.eq_zero_or_pos n with rfl | hn
      · exact hd
      · exact (g2 hn).2
    · rcases Nat.lt_or_ge r k with hlt | hge
      · exact g3 k hlt hk2
      · obtain rfl : k = r := by omega
        obtain ⟨y, v, h2, h3, h4, u0, h5⟩ := bStage_self E S k
        rw [hd] at h5
        refine ⟨v, ⟨y, u0, fun i hi => ?_, h3, h5⟩, ?_⟩
        · rw [g1 i hi, h2 i hi]
        · rcases Nat.eq_zero_or_pos n with rfl | hn
          · rw [if_neg (by omega)]; exact h4
          · rw [if_pos (by omega), (g2 hn).1, h4]

end Verif.OneStep
