import Verif.Spec.Newton
import Mathlib.Algebra.Order.Field.Basic
import Mathlib.Algebra.Order.Ring.Basic
import Mathlib.Tactic.Linarith
/-
Helper lemmas for the line search and the Newton loop.
-/
namespace Verif.Newton

open Spec

variable {K X : Type} [Field K] [LinearOrder K]

theorem ltF_iff (a b : Option K) : ltF a b = true ↔ Lt a b := by
  unfold ltF Lt
  cases a <;> cases b <;> simp

theorem leF_iff (a b : Option K) : leF a b = true ↔ Le a b := by
  unfold leF Le
  cases a <;> cases b <;> simp

theorem Lt_trans {a b c : Option K} (h : Lt a b) (h' : Lt b c) : Lt a c := by
  obtain ⟨x, y, rfl, rfl, h⟩ := h
  obtain ⟨y', z, e, rfl, h'⟩ := h'
  cases e
  exact ⟨x, z, rfl, rfl, lt_trans h h'⟩

theorem Lt_irrefl {a : Option K} : ¬ Lt a a := by
  rintro ⟨x, y, rfl, e, h⟩
  cases e
  exact lt_irrefl _ h

variable [AddCommGroup X] [Module K X]

/-- The trial with index `k`. -/
def trial (x c : X) (d : K) (k : Nat) : X := x - (d ^ k) • c

/-- Invariant of the loop of the line search. -/
structure HRInv (defect : X → Option K) (d : K) (x c : X) (i : Nat) (s : HR K X) : Prop where
  lam : s.lambda = d ^ i
  sol : s.cur.solution = x
  unconv : s.converged = false
  insuff : ∀ j, j < i → ¬ Sufficient (defect x) (defect (trial x c d j)) (d ^ j)
  best : (s.bestLambda = 0 ∧ s.bestDefect = defect x ∧ ∀ j, j < i → ¬ Lt (defect (trial x c d j)) (defect x)) ∨
    ∃ k, k < i ∧ s.bestLambda = d ^ k ∧ s.bestDefect = defect (trial x c d k) ∧ Lt s.bestDefect (defect x) ∧
      ∀ j, j < i → ¬ Lt (defect (trial x c d j)) s.bestDefect

theorem hrLoop_spec (P : Problem K X) (d : K) (x c : X) : ∀ (m i : Nat) (s : HR K X),
    HRInv P.defect d x c i s →
    let t := hrLoop P c d ⟨x, P.defect x⟩ m s
    (t.converged = true ∧ ∃ k, k < i + m ∧ t.cur = ⟨trial x c d k, P.defect (trial x c d k)⟩ ∧
      Sufficient (P.defect x) (P.defect (trial x c d k)) (d ^ k) ∧
      ∀ j, j < k → ¬ Sufficient (P.defect x) (P.defect (trial x c d j)) (d ^ j)) ∨
    (HRInv P.defect d x c (i + m) t)
  | 0, i, s, h => by
    right
    exact h
  | m + 1, i, s, h => by
    intro t
    have ht : trial x c d i = s.cur.solution - s.lambda • c := by rw [h.lam, h.sol]; rfl
    by_cases hs : Sufficient (P.defect x) (P.defect (trial x c d i)) (d ^ i)
    · left
      have hl : leF (update P (s.cur.solution - s.lambda • c)).defect
          ((⟨x, P.defect x⟩ : LS K X).defect.map fun d => (1 - s.lambda / 4) * d) = true := by
        rw [leF_iff, ← ht, h.lam]; exact hs
      have e : t = { s with cur := update P (s.cur.solution - s.lambda • c), converged := true } := by
        show hrLoop P c d _ (m + 1) s = _
        unfold hrLoop
        dsimp only
        rw [if_pos hl]
      rw [e]
      refine ⟨rfl, i, by omega, ?_, hs, h.insuff⟩
      rw [← ht]
      rfl
    · have hl : ¬ leF (update P (s.cur.solution - s.lambda • c)).defect
          ((⟨x, P.defect x⟩ : LS K X).defect.map fun d => (1 - s.lambda / 4) * d) = true := by
        rw [leF_iff, ← ht, h.lam]; exact hs
      have hd : (update P (s.cur.solution - s.lambda • c)).defect = P.defect (trial x c d i) := by rw [ht]; rfl
      have e : t = hrLoop P c d ⟨x, P.defect x⟩ m
          { (if ltF (P.defect (trial x c d i)) s.bestDefect then
              { s with bestDefect := P.defect (trial x c d i), bestLambda := s.lambda } else s) with
            cur := ⟨x, P.defect (trial x c d i)⟩, lambda := s.lambda * d } := by
        show hrLoop P c d _ (m + 1) s = _
        conv_lhs => unfold hrLoop
        dsimp only
        rw [if_neg hl, hd]
        split <;> rfl
      have hin : ∀ j, j < i + 1 → ¬ Sufficient (P.defect x) (P.defect (trial x c d j)) (d ^ j) := by
        intro j hj
        rcases Nat.lt_succ_iff_lt_or_eq.1 hj with h' | rfl
        · exact h.insuff j h'
        · exact hs
      have key := hrLoop_spec P d x c m (i + 1)
        { (if ltF (P.defect (trial x c d i)) s.bestDefect then
              { s with bestDefect := P.defect (trial x c d i), bestLambda := s.lambda } else s) with
            cur := ⟨x, P.defect (trial x c d i)⟩, lambda := s.lambda * d } ?_
      · rw [← e] at key
        rw [show i + (m + 1) = i + 1 + m by omega]
        exact key
      · by_cases hb : Lt (P.defect (trial x c d i)) s.bestDefect
        · rw [if_pos ((ltF_iff _ _).2 hb)]
          refine ⟨by rw [pow_succ, ← h.lam], rfl, h.unconv, hin, Or.inr ⟨i, by omega, h.lam, rfl, ?_, ?_⟩⟩
          · rcases h.best with ⟨-, b, -⟩ | ⟨k, -, -, -, b, -⟩
            · rw [b] at hb; exact hb
            · exact Lt_trans hb b
          · intro j hj hlt
            rcases Nat.lt_succ_iff_lt_or_eq.1 hj with h' | rfl
            · rcases h.best with ⟨-, b, b'⟩ | ⟨k, -, -, -, -, b'⟩
              · rw [b] at hb; exact b' j h' (Lt_trans hlt hb)
              · exact b' j h' (Lt_trans hlt hb)
            · exact Lt_irrefl hlt
        · rw [if_neg (by rw [ltF_iff]; exact hb)]
          refine ⟨by rw [pow_succ, ← h.lam], rfl, h.unconv, hin, ?_⟩
          rcases h.best with ⟨b0, b, b'⟩ | ⟨k, k0, k1, k2, k3, b'⟩
          · left
            refine ⟨b0, b, ?_⟩
            intro j hj
            rcases Nat.lt_succ_iff_lt_or_eq.1 hj with h' | rfl
            · exact b' j h'
            · rw [b] at hb; exact hb
          · right
            refine ⟨k, by omega, k1, k2, k3, ?_⟩
            intro j hj
            rcases Nat.lt_succ_iff_lt_or_eq.1 hj with h' | rfl
            · exact b' j h'
            · exact hb

variable [IsStrictOrderedRing K]

theorem pow_ne_of_lt {d : K} (h0 : 0 < d) (h1 : d ≠ 1) {k n : Nat} (h : k < n) : d ^ k ≠ d ^ n := by
  intro e
  obtain ⟨m, rfl⟩ := Nat.exists_eq_add_of_lt h
  rw [show k + m + 1 = k + (m + 1) by omega, pow_add] at e
  have hk : d ^ k ≠ 0 := pow_ne_zero _ h0.ne'
  have h2 : d ^ (m + 1) = 1 := by
    have := mul_left_cancel₀ hk (e.symm.trans (mul_one (d ^ k)).symm)
    exact this
  exact h1 ((pow_eq_one_iff_of_nonneg h0.le (by omega)).1 h2)

theorem hackbuschReusken_spec (P : Problem K X) (abs : K) (n : Nat) (d : K) (best : Bool) (x c : X) (h0 : 0 < d) (h1 : d ≠ 1) :
    let out := hackbuschReusken P abs n d best ⟨x, P.defect x⟩ c
    LineSearchOutcome P.defect abs n d best x c out.1.solution out.1.defect (out.2 = none) := by
  intro out
  by_cases ha : Lt (P.defect x) (some abs)
  · have e : out = (update P (x - (1 : K) • c), none) := by
      show hackbuschReusken P abs n d best ⟨x, P.defect x⟩ c = _
      unfold hackbuschReusken
      rw [if_pos ((ltF_iff _ _).2 ha)]
    rw [e]
    exact ⟨rfl, fun _ => Or.inl ⟨ha, rfl⟩, fun h => absurd rfl h⟩
  · have e : out = _ := rfl
    revert e
    show hackbuschReusken P abs n d best ⟨x, P.defect x⟩ c = out → _
    generalize out = o
    intro e
    unfold hackbuschReusken at e
    rw [if_neg (by rw [ltF_iff]; exact ha)] at e
    dsimp only at e
    have key := hrLoop_spec P d x c n 0 ⟨⟨x, P.defect x⟩, 1, 0, P.defect x, false⟩
      ⟨by simp, rfl, rfl, by intro j hj; omega, Or.inl ⟨rfl, rfl, by intro j hj; omega⟩⟩
    dsimp only at key
    rw [Nat.zero_add] at key
    revert e key
    generalize hrLoop P c d ⟨x, P.defect x⟩ n ⟨⟨x, P.defect x⟩, 1, 0, P.defect x, false⟩ = t
    intro e key
    rcases key with ⟨hc, k, hk, hcur, hsuff, hfirst⟩ | hi
    · rw [if_pos hc] at e
      subst e
      rw [hcur]
      exact ⟨rfl, fun _ => Or.inr (Or.inl ⟨k, hk, rfl, hsuff, hfirst⟩), fun h => absurd rfl h⟩
    · rw [if_neg (by rw [hi.unconv]; simp)] at e
      by_cases hb : best = false
      · rw [if_pos hb] at e
        subst e
        refine ⟨rfl, fun h => (by cases h), fun _ => ⟨rfl, hi.insuff, ?_⟩⟩
        intro h; rw [hb] at h; cases h
      · rw [if_neg hb] at e
        rcases hi.best with ⟨b0, b1, b2⟩ | ⟨k, k0, k1, k2, k3, b2⟩
        · rw [if_pos b0] at e
          subst e
          exact ⟨rfl, fun h => (by cases h), fun _ => ⟨rfl, hi.insuff, fun _ => b2⟩⟩
        · rw [if_neg (by rw [k1]; exact pow_ne_zero _ h0.ne')] at e
          rw [if_pos (by rw [k1, hi.lam]; exact pow_ne_of_lt h0 h1 k0)] at e
          subst e
          refine ⟨rfl, fun _ => Or.inr (Or.inr ⟨by simpa using hb, hi.insuff, k, k0, by rw [k1]; rfl, ?_, ?_⟩),
            fun h => absurd rfl h⟩
          · show Lt (P.defect _) _
            rw [k1]; rw [k2] at k3; exact k3
          · intro j hj
            show ¬ Lt _ (P.defect (x - t.bestLambda • c))
            rw [k1]; rw [k2] at b2; exact b2 j hj

/-! ### The Newton loop -/

theorem lineSearch_consistent (P : Problem K X) (q : Params K) (hq : Damped q) (x c : X) :
    (lineSearch P q ⟨x, P.defect x⟩ c).1.defect = P.defect (lineSearch P q ⟨x, P.defect x⟩ c).1.solution := by
  unfold lineSearch
  unfold Damped at hq
  split
  · rfl
  · rename_i n d b e
    rw [e] at hq
    exact (hackbuschReusken_spec P q.absoluteLimit n d b x c hq.1 hq.2).consistent

omit [IsStrictOrderedRing K] in
theorem lineSearch_fuel (P : Problem K X) (q : Params K) (l : LS K X) (c : X) :
    ∀ e, (lineSearch P q l c).2 = some e → some e ≠ some .outOfFuel := by
  intro e h
  have : (lineSearch P q l c).2 = none ∨ (lineSearch P q l c).2 = some .lineSearch := by
    unfold lineSearch hackbuschReusken
    split
    · exact Or.inl rfl
    · split
      · exact Or.inl rfl
      · dsimp only
        split
        · exact Or.inl rfl
        · split
          · exact Or.inr rfl
          · split
            · exact Or.inr rfl
            · split <;> exact Or.inl rfl
  rcases this with h' | h' <;> rw [h] at h'
  · cases h'
  · rw [h']; simp

omit [LinearOrder K] [IsStrictOrderedRing K] [AddCommGroup X] [Module K X] in
theorem divF_eq (a b : Option K) : divF a b = quotient a b := by
  cases a <;> cases b <;> rfl

omit [Field K] [LinearOrder K] [IsStrictOrderedRing K] [AddCommGroup X] [Module K X] in
theorem linearIterations_append (l l' : List (Ev K X)) :
    linearIterations (l ++ l') = linearIterations l + linearIterations l' := by
  induction l with
  | nil => simp [linearIterations]
  | cons e l ih => cases e <;> simp [linearIterations, ih] <;> omega

omit [Field K] [LinearOrder K] [IsStrictOrderedRing K] [AddCommGroup X] [Module K X] in
theorem solves_append (l l' : List (Ev K X)) : solves (l ++ l') = solves l + solves l' := by
  induction l with
  | nil => simp [solves]
  | cons e l ih => cases e <;> simp [solves, ih] <;> omega

/-- Invariant of the Newton loop; `x0` is the initial guess. -/
structure NInv (P : Problem K X) (q : Params K) (x0 : X) (s : State K X) : Prop where
  first : s.result.firstDefect = (P.defect x0)
  defect : s.result.defect = P.defect s.solution
  iters : s.result.iterations = solves s.log
  le : s.result.iterations ≤ bound q
  red : 0 < s.result.iterations → s.result.reduction = quotient (P.defect s.solution) (P.defect x0)
  unconv : s.result.converged = false
  linit : s.result.linearIterations = linearIterations s.log
  start : s.result.iterations = 0 → s.solution = x0
  prev : ∃ z, s.previousDefect = P.defect z

/-- What holds when the loop is left. -/
structure NPost (P : Problem K X) (q : Params K) (x0 : X) (out : State K X × Option Error) : Prop where
  first : out.1.result.firstDefect = (P.defect x0)
  defect : out.1.result.defect = P.defect out.1.solution
  le : solves out.1.log ≤ bound q
  fuel : out.2 ≠ some .outOfFuel
  success : out.2 = none → out.1.result.converged = true ∧ Criterion q (P.defect x0) (P.defect out.1.solution) ∧
    out.1.result.iterations = solves out.1.log ∧
    (0 < out.1.result.iterations → out.1.result.reduction = quotient (P.defect out.1.solution) (P.defect x0)) ∧
    (q.forceIteration = true → 0 < out.1.result.iterations)
  failure : out.2 ≠ none → out.1.result.converged = false
  linit : out.1.result.linearIterations = linearIterations out.1.log

omit [IsStrictOrderedRing K] in
theorem prepareStep_fields (P : Problem K X) (q : Params K) (s s' : State K X)
    (h : prepareStep P q s = .ok s' ∨ prepareStep P q s = .error s') :
    s'.solution = s.solution ∧ s'.result = s.result ∧ s'.previousDefect = s.previousDefect ∧ solves s'.log = solves s.log ∧
    linearIterations s'.log = linearIterations s.log := by
  unfold prepareStep at h
  split at h
  · split at h
    · rcases h with h | h
      · cases h; simp [solves_append, solves, linearIterations_append, linearIterations]
      · cases h
    · rcases h with h | h
      · cases h
      · cases h; simp [solves_append, solves, linearIterations_append, linearIterations]
  · rcases h with h | h
    · cases h; exact ⟨rfl, rfl, rfl, rfl, rfl⟩
    · cases h

/-- The possible outcomes of the termination check. -/
theorem terminate_cases (q : Params K) (r : Result K) (hr : r.converged = false) :
    (∃ e, terminate q r = (r, .error e) ∧ e = .terminate ∧ q.maxIterations ≤ r.iterations) ∨
    (terminate q r = ({ r with converged := true }, .ok true) ∧ Criterion q r.firstDefect r.defect ∧
      ¬ (q.forceIteration = true ∧ r.iterations = 0)) ∨
    (terminate q r = (r, .ok false) ∧ r.iterations < bound q) := by
  unfold terminate
  by_cases hf : (q.forceIteration && r.iterations == 0) = true
  · rw [if_pos hf]
    right; right
    refine ⟨rfl, ?_⟩
    simp only [Bool.and_eq_true, beq_iff_eq] at hf
    unfold bound
    rw [hf.1, hf.2, if_pos rfl]
    exact lt_of_lt_of_le Nat.zero_lt_one (le_max_right _ _)
  · rw [if_neg hf]
    dsimp only
    have hf' : ¬ (q.forceIteration = true ∧ r.iterations = 0) := by
      simpa only [Bool.and_eq_true, beq_iff_eq] using hf
    by_cases hc : (ltF r.defect (some q.absoluteLimit) || ltF r.defect (r.firstDefect.map (· * q.reduction))) = true
    · right; left
      rw [hc, if_neg (by simp)]
      refine ⟨rfl, ?_, hf'⟩
      rw [Bool.or_eq_true, ltF_iff, ltF_iff] at hc
      exact hc
    · rw [Bool.not_eq_true] at hc
      rw [hc]
      have hr' : { r with converged := false } = r := by rw [← hr]
      by_cases hm : q.maxIterations ≤ r.iterations
      · left
        rw [if_pos ⟨hm, rfl⟩, hr']
        exact ⟨_, rfl, rfl, hm⟩
      · right; right
        rw [if_neg (fun h => hm h.1), hr']
        refine ⟨rfl, ?_⟩
        unfold bound
        split
        · exact lt_of_lt_of_le (by omega) (le_max_left _ _)
        · omega

theorem loop_spec (P : Problem K X) (q : Params K) (hq : Damped q) (x0 : X) : ∀ (n : Nat) (s : State K X),
    NInv P q x0 s → bound q + 1 ≤ n + s.result.iterations → NPost P q x0 (loop P q n s)
  | 0, s, h, hn => by
    have := h.le
    omega
  | n + 1, s, h, hn => by
    unfold loop
    rcases terminate_cases q s.result h.unconv with ⟨e, ht, he, hm⟩ | ⟨ht, hc, hf⟩ | ⟨ht, hlt⟩
    · rw [ht]
      dsimp only
      refine ⟨h.first, h.defect, h.iters ▸ h.le, by rw [he]; simp, fun h => by (cases h), fun _ => h.unconv, h.linit⟩
    · rw [ht]
      dsimp only
      refine ⟨h.first, h.defect, h.iters ▸ h.le, by simp, fun _ => ⟨rfl, ?_, h.iters, h.red, ?_⟩, fun h => absurd rfl h, h.linit⟩
      · rw [← h.first, ← h.defect]; exact hc
      · intro hforce
        exact Nat.pos_of_ne_zero fun h => hf ⟨hforce, h⟩
    · rw [ht]
      dsimp only
      split
      · rename_i s' hp
        obtain ⟨h1, h2, h3, h4, h5⟩ := prepareStep_fields P q _ _ (Or.inr hp)
        dsimp only at h1 h2 h3 h4 h5
        refine ⟨by rw [h2]; exact h.first, by rw [h2, h1]; exact h.defect, by rw [h4]; exact h.iters ▸ h.le, by simp,
          fun h => by (cases h), fun _ => by rw [h2]; exact h.unconv,
          by rw [h2, h5]; exact h.linit⟩
      · rename_i s' hp
        obtain ⟨h1, h2, h3, h4, h5⟩ := prepareStep_fields P q _ _ (Or.inl hp)
        dsimp only at h1 h2 h3 h4 h5
        have hsol : solves (s'.log ++ [Ev.linearSolve (s'.jacobian.getD none) s'.solution
            (linearReduction q s'.result s'.previousDefect)
            (P.solve (s'.jacobian.getD none) s'.solution (linearReduction q s'.result s'.previousDefect)).2.2]) = s.result.iterations + 1 := by
          rw [solves_append, h4, h.iters]; rfl
        have hlin : s'.result.linearIterations +
            (P.solve (s'.jacobian.getD none) s'.solution (linearReduction q s'.result s'.previousDefect)).2.2 =
            linearIterations (s'.log ++ [Ev.linearSolve (s'.jacobian.getD none) s'.solution
            (linearReduction q s'.result s'.previousDefect)
            (P.solve (s'.jacobian.getD none) s'.solution (linearReduction q s'.result s'.previousDefect)).2.2]) := by
          rw [linearIterations_append, h5, h2, h.linit]; rfl
        split
        · refine ⟨by simp only [h2]; exact h.first, by simp only [h2, h1]; exact h.defect, ?_, by simp,
            fun h => by (cases h), fun _ => by simp only [h2]; exact h.unconv, hlin⟩
          show solves (s'.log ++ [Ev.linearSolve (s'.jacobian.getD none) s'.solution
            (linearReduction q s'.result s'.previousDefect)
            (P.solve (s'.jacobian.getD none) s'.solution (linearReduction q s'.result s'.previousDefect)).2.2]) ≤ _
          omega
        · have hd : s'.result.defect = P.defect s'.solution := by rw [h2, h1]; exact h.defect
          have hcons := lineSearch_consistent P q hq s'.solution
            (P.solve (s'.jacobian.getD none) s'.solution (linearReduction q s'.result s'.previousDefect)).2.1
          have hnf := lineSearch_fuel P q ⟨s'.solution, s'.result.defect⟩
            (P.solve (s'.jacobian.getD none) s'.solution (linearReduction q s'.result s'.previousDefect)).2.1
          rw [← hd] at hcons
          revert hcons hnf
          generalize lineSearch P q ⟨s'.solution, s'.result.defect⟩
            (P.solve (s'.jacobian.getD none) s'.solution (linearReduction q s'.result s'.previousDefect)).2.1 = ls
          intro hcons hnf
          split
          · rename_i e he
            refine ⟨by simp only [h2]; exact h.first, hcons, ?_, ?_, fun h => by (cases h), fun _ => by simp only [h2]; exact h.unconv, hlin⟩
            · show solves (s'.log ++ [Ev.linearSolve (s'.jacobian.getD none) s'.solution
            (linearReduction q s'.result s'.previousDefect)
            (P.solve (s'.jacobian.getD none) s'.solution (linearReduction q s'.result s'.previousDefect)).2.2]) ≤ _
              omega
            · exact hnf e he
          · refine loop_spec P q hq x0 n _ ⟨?_, hcons, ?_, ?_, ?_, ?_, hlin, fun h => absurd h (Nat.succ_ne_zero _), ⟨_, hd⟩⟩ ?_
            · simp only [h2]; exact h.first
            · show s'.result.iterations + 1 = solves (s'.log ++ [Ev.linearSolve (s'.jacobian.getD none) s'.solution
            (linearReduction q s'.result s'.previousDefect)
            (P.solve (s'.jacobian.getD none) s'.solution (linearReduction q s'.result s'.previousDefect)).2.2])
              rw [hsol, h2]
            · show s'.result.iterations + 1 ≤ _
              rw [h2]; exact hlt
            · intro _
              dsimp only
              rw [hcons, h2, h.first, divF_eq]
            · simp only [h2]; exact h.unconv
            · show _ ≤ n + (s'.result.iterations + 1)
              rw [h2]; omega

/-! ### What the log contains -/

/-- The event logged by the linear solve of an iteration whose state after `prepareStep` is `s'`. -/
def solveEv (P : Problem K X) (q : Params K) (s' : State K X) : Ev K X :=
  .linearSolve (s'.jacobian.getD none) s'.solution (linearReduction q s'.result s'.previousDefect)
    (P.solve (s'.jacobian.getD none) s'.solution (linearReduction q s'.result s'.previousDefect)).2.2

omit [IsStrictOrderedRing K] in
theorem prepareStep_log (P : Problem K X) (q : Params K) (s s' : State K X)
    (h : prepareStep P q s = .ok s' ∨ prepareStep P q s = .error s') :
    s'.log = s.log ∨ s'.log = s.log ++ [.assemble s.solution] := by
  unfold prepareStep at h
  split at h
  · split at h
    · rcases h with h | h
      · cases h; exact Or.inr rfl
      · cases h
    · rcases h with h | h
      · cases h
      · cases h; exact Or.inr rfl
  · rcases h with h | h
    · cases h; exact Or.inl rfl
    · cases h

/-- Every event in the log satisfies `Q` if the events of each iteration do. -/
theorem loop_log (P : Problem K X) (q : Params K) (hq : Damped q) (x0 : X) (Q : Ev K X → Prop) (hass : ∀ x, Q (.assemble x))
    (hstep : ∀ s s', NInv P q x0 s → terminate q s.result = (s.result, .ok false) → prepareStep P q s = .ok s' →
      Q (solveEv P q s')) : ∀ (n : Nat) (s : State K X),
    NInv P q x0 s → (∀ e ∈ s.log, Q e) → ∀ e ∈ (loop P q n s).1.log, Q e
  | 0, s, _, hs => hs
  | n + 1, s, h, hs => by
    unfold loop
    rcases terminate_cases q s.result h.unconv with ⟨e, ht, he, hm⟩ | ⟨ht, hc, hf⟩ | ⟨ht, hlt⟩
    · rw [ht]; exact hs
    · rw [ht]; exact hs
    · rw [ht]
      dsimp only
      split
      · rename_i s' hp
        rcases prepareStep_log P q _ _ (Or.inr hp) with hl | hl
        · rw [hl]; exact hs
        · rw [hl]
          intro e he
          rcases List.mem_append.1 he with he | he
          · exact hs e he
          · rw [List.mem_singleton.1 he]; exact hass _
      · rename_i s' hp
        obtain ⟨h1, h2, h3, h4, h5⟩ := prepareStep_fields P q _ _ (Or.inl hp)
        dsimp only at h1 h2 h3 h4 h5
        have hev := hstep s s' h ht hp
        have hlog : ∀ e ∈ s'.log ++ [solveEv P q s'], Q e := by
          intro e he
          rcases List.mem_append.1 he with he | he
          · rcases prepareStep_log P q _ _ (Or.inl hp) with hl | hl
            · rw [hl] at he; exact hs e he
            · rw [hl] at he
              rcases List.mem_append.1 he with he | he
              · exact hs e he
              · rw [List.mem_singleton.1 he]; exact hass _
          · rw [List.mem_singleton.1 he]; exact hev
        split
        · exact hlog
        · have hd : s'.result.defect = P.defect s'.solution := by rw [h2, h1]; exact h.defect
          have hcons := lineSearch_consistent P q hq s'.solution
            (P.solve (s'.jacobian.getD none) s'.solution (linearReduction q s'.result s'.previousDefect)).2.1
          rw [← hd] at hcons
          revert hcons
          generalize lineSearch P q ⟨s'.solution, s'.result.defect⟩
            (P.solve (s'.jacobian.getD none) s'.solution (linearReduction q s'.result s'.previousDefect)).2.1 = ls
          intro hcons
          split
          · exact hlog
          · refine loop_log P q hq x0 Q hass hstep n _ ⟨?_, hcons, ?_, ?_, ?_, ?_, ?_, fun h => absurd h (Nat.succ_ne_zero _), ⟨_, hd⟩⟩ hlog
            · simp only [h2]; exact h.first
            · show s'.result.iterations + 1 = solves (s'.log ++ [solveEv P q s'])
              rw [solves_append, h4, h2, h.iters]; rfl
            · show s'.result.iterations + 1 ≤ _
              rw [h2]; exact hlt
            · intro _
              dsimp only
              rw [hcons, h2, h.first, divF_eq]
            · simp only [h2]; exact h.unconv
            · show s'.result.linearIterations + _ = linearIterations (s'.log ++ [solveEv P q s'])
              rw [linearIterations_append, h5, show s'.result.linearIterations = linearIterations s.log by rw [h2, h.linit]]; rfl

omit [IsStrictOrderedRing K] in
/-- The log only grows. -/
theorem loop_prefix (P : Problem K X) (q : Params K) : ∀ (n : Nat) (s : State K X), s.log <+: (loop P q n s).1.log
  | 0, s => List.prefix_refl _
  | n + 1, s => by
    unfold loop
    dsimp only
    split
    · exact List.prefix_refl _
    · exact List.prefix_refl _
    · split
      · rename_i s' hp
        rcases prepareStep_log P q _ _ (Or.inr hp) with hl | hl
        · rw [hl]; exact List.prefix_refl _
        · rw [hl]; exact List.prefix_append _ _
      · rename_i s' hp
        have hpre : s.log <+: s'.log := by
          rcases prepareStep_log P q _ _ (Or.inl hp) with hl | hl
          · rw [hl]; exact List.prefix_refl _
          · rw [hl]; exact List.prefix_append _ _
        split
        · exact hpre.trans (List.prefix_append _ _)
        · split
          · exact hpre.trans (List.prefix_append _ _)
          · refine List.IsPrefix.trans ?_ (loop_prefix P q n _)
            exact hpre.trans (List.prefix_append _ _)

theorem not_criterion (q : Params K) (r : Result K) (hr : r.converged = false) (h : terminate q r = (r, .ok false)) :
    (q.forceIteration = true ∧ r.iterations = 0) ∨ ¬ Criterion q r.firstDefect r.defect := by
  unfold terminate at h
  by_cases hf : (q.forceIteration && r.iterations == 0) = true
  · left; simpa using hf
  · right
    rw [if_neg hf] at h
    dsimp only at h
    split at h
    · injection h with h1 h2
      cases h2
    · intro hc
      have : (ltF r.defect (some q.absoluteLimit) || ltF r.defect (r.firstDefect.map (· * q.reduction))) = true := by
        rw [Bool.or_eq_true, ltF_iff, ltF_iff]; exact hc
      rw [this] at h
      injection h with h1 h2
      cases h2

/-- The loop ends before the fuel does, for any line search. -/
theorem loop_fuel (P : Problem K X) (q : Params K) : ∀ (n : Nat) (s : State K X),
    s.result.iterations = solves s.log → s.result.iterations ≤ bound q → s.result.converged = false →
    bound q + 1 ≤ n + s.result.iterations →
    (loop P q n s).2 ≠ some .outOfFuel ∧ solves (loop P q n s).1.log ≤ bound q
  | 0, s, _, hle, _, hn => by omega
  | n + 1, s, hit, hle, hun, hn => by
    unfold loop
    rcases terminate_cases q s.result hun with ⟨e, ht, he, hm⟩ | ⟨ht, hc, hf⟩ | ⟨ht, hlt⟩
    · rw [ht]
      exact ⟨by rw [he]; simp, hit ▸ hle⟩
    · rw [ht]
      exact ⟨by simp, hit ▸ hle⟩
    · rw [ht]
      dsimp only
      split
      · rename_i s' hp
        obtain ⟨h1, h2, h3, h4, h5⟩ := prepareStep_fields P q _ _ (Or.inr hp)
        exact ⟨by simp, by rw [h4]; exact hit ▸ hle⟩
      · rename_i s' hp
        obtain ⟨h1, h2, h3, h4, h5⟩ := prepareStep_fields P q _ _ (Or.inl hp)
        dsimp only at h1 h2 h3 h4 h5
        have hsol : solves (s'.log ++ [solveEv P q s']) = s.result.iterations + 1 := by
          rw [solves_append, h4, hit]; rfl
        have hb : solves (s'.log ++ [solveEv P q s']) ≤ bound q := by omega
        split
        · exact ⟨by simp, hb⟩
        · have hnf := lineSearch_fuel P q ⟨s'.solution, s'.result.defect⟩
            (P.solve (s'.jacobian.getD none) s'.solution (linearReduction q s'.result s'.previousDefect)).2.1
          revert hnf
          generalize lineSearch P q ⟨s'.solution, s'.result.defect⟩
            (P.solve (s'.jacobian.getD none) s'.solution (linearReduction q s'.result s'.previousDefect)).2.1 = ls
          intro hnf
          split
          · rename_i e he
            exact ⟨hnf e he, hb⟩
          · refine loop_fuel P q n _ ?_ ?_ ?_ ?_
            · show s'.result.iterations + 1 = solves (s'.log ++ [solveEv P q s'])
              rw [hsol, h2]
            · show s'.result.iterations + 1 ≤ _
              rw [h2]; exact hlt
            · simp only [h2]; exact hun
            · show _ ≤ n + (s'.result.iterations + 1)
              rw [h2]; omega

/-! ### `apply` -/

theorem apply_fuel (P : Problem K X) (q : Params K) (kept : Option (Option X)) (x : X) :
    (apply P q kept x).2 ≠ some .outOfFuel ∧ solves (apply P q kept x).1.log ≤ bound q := by
  have h := loop_fuel P q (q.maxIterations + 2)
    ⟨x, { Result.clear with defect := P.defect x, firstDefect := P.defect x }, P.defect x, kept.orElse fun _ => some none, []⟩
    rfl (Nat.zero_le _) rfl (by
      unfold bound
      dsimp only [Result.clear]
      split <;> omega)
  unfold apply
  dsimp only
  split
  · split
    · exact h
    · exact ⟨by simp, h.2⟩
  · exact h

theorem init_inv (P : Problem K X) (q : Params K) (x : X) (j : Option (Option X)) :
    NInv P q x ⟨x, { Result.clear with defect := P.defect x, firstDefect := P.defect x }, P.defect x, j, []⟩ := by
  refine ⟨rfl, rfl, rfl, Nat.zero_le _, ?_, rfl, rfl, fun _ => rfl, ⟨x, rfl⟩⟩
  intro h
  exact absurd h (Nat.lt_irrefl 0)

theorem apply_spec (P : Problem K X) (q : Params K) (hq : Damped q) (kept : Option (Option X)) (x : X) :
    NPost P q x (apply P q kept x) := by
  have h := loop_spec P q hq x (q.maxIterations + 2) _ (init_inv P q x (kept.orElse fun _ => some none)) (by
    unfold bound
    dsimp only [Result.clear]
    split <;> omega)
  unfold apply
  dsimp only
  split
  · split
    · exact h
    · rename_i h' _
      exact ⟨h.first, h.defect, h.le, by simp, fun _ => h.success h', fun h => absurd rfl h, h.linit⟩
  · exact h

omit [IsStrictOrderedRing K] in
theorem apply_log_eq (P : Problem K X) (q : Params K) (kept : Option (Option X)) (x : X) :
    (apply P q kept x).1.log = (loop P q (q.maxIterations + 2)
      ⟨x, { Result.clear with defect := P.defect x, firstDefect := P.defect x }, P.defect x, kept.orElse fun _ => some none, []⟩).1.log := by
  unfold apply
  dsimp only
  split
  · split <;> rfl
  · rfl

theorem apply_log (P : Problem K X) (q : Params K) (hq : Damped q) (kept : Option (Option X)) (x : X) (Q : Ev K X → Prop)
    (hass : ∀ x, Q (.assemble x))
    (hstep : ∀ s s', NInv P q x s → terminate q s.result = (s.result, .ok false) → prepareStep P q s = .ok s' →
      Q (solveEv P q s')) : ∀ e ∈ (apply P q kept x).1.log, Q e := by
  rw [apply_log_eq]
  exact loop_log P q hq x Q hass hstep _ _ (init_inv P q x _) (by simp)

omit [Field K] [LinearOrder K] [IsStrictOrderedRing K] [AddCommGroup X] [Module K X] in
theorem prefix_head {l : List (Ev K X)} {l' : List (Ev K X)} {e : Ev K X} {t : List (Ev K X)} (h : l <+: l') (hl : l = e :: t) :
    ∃ t, l' = e :: t := by
  obtain ⟨r, rfl⟩ := h
  rw [hl]
  exact ⟨t ++ r, rfl⟩

omit [IsStrictOrderedRing K] in
theorem first_assembly (P : Problem K X) (q : Params K) (n : Nat) (s : State K X)
    (hr : ratioGt s.result.defect s.previousDefect q.reassembleThreshold = true) (hl : s.log = []) :
    (loop P q n s).1.log = [] ∨ ∃ l, (loop P q n s).1.log = .assemble s.solution :: l := by
  cases n with
  | zero => exact Or.inl hl
  | succ n =>
    have ht : (terminate q s.result).1.defect = s.result.defect := by
      unfold terminate
      split
      · rfl
      · dsimp only; split <;> rfl
    unfold loop
    dsimp only
    split
    · exact Or.inl hl
    · exact Or.inl hl
    · right
      unfold prepareStep
      dsimp only
      rw [ht, if_pos hr, hl]
      split
      · rename_i hp
        split at hp
        · cases hp
        · cases hp; exact ⟨[], rfl⟩
      · rename_i hp
        split at hp
        · cases hp
          dsimp only
          split
          · exact ⟨_, rfl⟩
          · split
            · exact ⟨_, rfl⟩
            · exact prefix_head (loop_prefix P q n _) rfl
        · cases hp

end Verif.Newton
