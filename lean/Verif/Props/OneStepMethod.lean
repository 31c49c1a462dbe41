import Verif.Proofs.OneStepMethod
import Verif.Props.OneStepOperator
import Mathlib.Algebra.Order.Archimedean.Basic
import Mathlib.Data.Rat.Floor
/-
C25, C26, C67-C70: time-stepping loops and time controllers.
-/
namespace Verif
open OneStep Finset

section stats
variable {σ X T : Type} [AddCommMonoid T]

theorem apply_completed (m : OSM T) (E : Env σ X T) (mem : Nat → X) (st : σ) :
    Completed (m.apply E mem st).2.1.log ↔ (m.apply E mem st).1 = .success := by
  obtain ⟨new, h1, _, h3⟩ := stageLoop_log E E.s 1 ⟨mem, st, Stats.zero, [.preStep]⟩
  have hnot : (stageLoop E E.s 1 ⟨mem, st, Stats.zero, [.preStep]⟩).2.log.getLast? ≠ some .postStep := by
    intro hc
    have := List.mem_of_getLast? hc
    rw [h1] at this
    simp [h3] at this
  unfold OSM.apply Completed
  generalize stageLoop E E.s 1 ⟨mem, st, Stats.zero, [.preStep]⟩ = out at *
  obtain ⟨e, R⟩ := out
  cases e
  · simp
  · simpa using hnot
  · simpa using hnot

theorem apply_stats (m : OSM T) (E : Env σ X T) (mem : Nat → X) (st : σ) (h : (m.apply E mem st).1 ≠ .exception) :
    (m.apply E mem st).2.2.total = m.total.addStep ((solves (m.apply E mem st).2.1.log).foldl Stats.addSolve Stats.zero) ∧
    (m.apply E mem st).2.2.successful = (if (m.apply E mem st).1 = .success then
      m.successful.addStep ((solves (m.apply E mem st).2.1.log).foldl Stats.addSolve Stats.zero) else m.successful) ∧
    (m.apply E mem st).2.2.step = (if (m.apply E mem st).1 = .success then m.step + 1 else m.step) := by
  obtain ⟨new, h1, h2, h3⟩ := stageLoop_log E E.s 1 ⟨mem, st, Stats.zero, [.preStep]⟩
  have hacc : (stageLoop E E.s 1 ⟨mem, st, Stats.zero, [.preStep]⟩).2.acc
      = (solves (stageLoop E E.s 1 ⟨mem, st, Stats.zero, [.preStep]⟩).2.log).foldl Stats.addSolve Stats.zero := by
    rw [h2, h1, solves_append]; rfl
  unfold OSM.apply at *
  generalize stageLoop E E.s 1 ⟨mem, st, Stats.zero, [.preStep]⟩ = out at *
  obtain ⟨e, R⟩ := out
  cases e
  · simp only [if_true] at *
    rw [solves_append, solves_append, solves_frees, List.append_nil]
    have : solves [(Ev.postStep : Ev X T)] = [] := rfl
    rw [this, List.append_nil, hacc]
    simp
  · simp only at *
    rw [hacc]; simp
  · simp at h

/-- Sum of statistics. -/
def addStats (a b : Stats T) : Stats T :=
  ⟨a.timesteps + b.timesteps, a.assemblerTime + b.assemblerTime, a.linearSolverTime + b.linearSolverTime,
   a.linearIterations + b.linearIterations, a.nonlinearIterations + b.nonlinearIterations⟩

theorem addStats_cons (a : Stats T) (log : List (Ev X T)) (logs : List (List (Ev X T))) :
    addStats (a.addStep ((solves log).foldl Stats.addSolve Stats.zero)) (statsOf logs) = addStats a (statsOf (log :: logs)) := by
  rw [foldl_addSolve]
  simp only [addStats, statsOf, Stats.addStep, Stats.zero, List.flatMap_cons, List.map_append, List.sum_append, List.length_cons,
    Stats.mk.injEq, zero_add, add_assoc, and_true, true_and]
  omega

theorem applyAll_stats (calls : List (Env σ X T × (Nat → X))) : ∀ (m : OSM T) (st : σ),
    (∀ o ∈ (m.applyAll st calls).1, o.1 ≠ .exception) →
    (m.applyAll st calls).2.total = addStats m.total (statsOf ((m.applyAll st calls).1.map (·.2))) ∧
    (m.applyAll st calls).2.successful = addStats m.successful
      (statsOf (((m.applyAll st calls).1.map (·.2)).filter fun l => Completed l)) ∧
    (m.applyAll st calls).2.step = m.step + (((m.applyAll st calls).1.map (·.2)).filter fun l => Completed l).length := by
  induction calls with
  | nil => intro m st _; simp [OSM.applyAll, addStats, statsOf]
  | cons c calls ih =>
    intro m st h
    simp only [OSM.applyAll] at h ⊢
    obtain ⟨a1, a2, a3⟩ := apply_stats m c.1 c.2 st (h ((m.apply c.1 c.2 st).1, (m.apply c.1 c.2 st).2.1.log) (by simp))
    obtain ⟨b1, b2, b3⟩ := ih (m.apply c.1 c.2 st).2.2 (m.apply c.1 c.2 st).2.1.st (fun o ho => h o (by simp [ho]))
    have hc := apply_completed m c.1 c.2 st
    refine ⟨?_, ?_, ?_⟩
    · rw [b1, a1, List.map_cons, addStats_cons]
    · rw [b2, a2, List.map_cons, List.filter_cons]
      by_cases hs : (m.apply c.1 c.2 st).1 = .success
      · rw [if_pos hs, if_pos (by simpa using hc.mpr hs), addStats_cons]
      · rw [if_neg hs, if_neg (by simpa using fun h => hs (hc.mp h))]
    · rw [b3, a3, List.map_cons, List.filter_cons]
      by_cases hs : (m.apply c.1 c.2 st).1 = .success
      · rw [if_pos hs, if_pos (by simpa using hc.mpr hs), List.length_cons]; omega
      · rw [if_neg hs, if_neg (by simpa using fun h => hs (hc.mp h))]

/-- **C25.** After any sequence of steps that succeed or fail in the solver (with any schemes, stage vectors and solver behaviour): the
total statistics are those of all attempts, the successful statistics those of exactly the completed attempts, and the step number is one
more than the number of completed steps. -/
theorem C25_statistics_partial (calls : List (Env σ X T × (Nat → X))) (st : σ) :
    let out := (OSM.init : OSM T).applyAll st calls
    (∀ o ∈ out.1, o.1 ≠ .exception) →
    out.2.total = statsOf (out.1.map (·.2)) ∧
    out.2.successful = statsOf ((out.1.map (·.2)).filter fun l => Completed l) ∧
    out.2.step = ((out.1.map (·.2)).filter fun l => Completed l).length + 1 ∧
    out.1.length = calls.length := by
  intro out h
  obtain ⟨h1, h2, h3⟩ := applyAll_stats calls OSM.init st h
  refine ⟨?_, ?_, ?_, ?_⟩
  · rw [h1]; simp [addStats, OSM.init, Stats.zero, out]
  · rw [h2]; simp [addStats, OSM.init, Stats.zero, out]
  · rw [h3]; simp [OSM.init, out, Nat.add_comm]
  · have : ∀ (m : OSM T) (st : σ), (m.applyAll st calls).1.length = calls.length := by
      clear h1 h2 h3 h out
      induction calls with
      | nil => intro m st; rfl
      | cons c calls ih => intro m st; simp [OSM.applyAll, ih]
    exact this _ _

/-- **C25 (resume).** After any history, also with exceptions, a method that is given the result of another one with `setResult` continues like that one:
same step number and statistics. -/
theorem C25_resume (calls : List (Env σ X T × (Nat → X))) (st : σ) :
    let out := (OSM.init : OSM T).applyAll st calls
    OSM.setResult out.2.total out.2.successful = out.2 := by
  intro out
  have key : ∀ (m : OSM T) (st : σ), m.step = m.successful.timesteps + 1 →
      (m.applyAll st calls).2.step = (m.applyAll st calls).2.successful.timesteps + 1 := by
    induction calls with
    | nil => intro m st h; exact h
    | cons c calls ih =>
      intro m st h
      refine ih _ _ ?_
      unfold OSM.apply
      generalize stageLoop c.1 c.1.s 1 ⟨c.2, st, Stats.zero, [.preStep]⟩ = o
      obtain ⟨e, R⟩ := o
      cases e <;> simp [Stats.addStep, h]
  have h := key OSM.init st rfl
  unfold OSM.setResult
  rw [← h]

end stats

/-- An environment with two stages, in which the constant part of the second one cannot be assembled. -/
def throwing : Env Unit Nat Nat := ⟨2, fun r _ => decide (r = 1), initPlain 2, fun _ _ _ x => ((), true, x + 1, ⟨1, 2, 3, 4⟩)⟩

/-- **C25** is false of the code if the assembler throws: an attempt whose second stage cannot be assembled is not counted, nor are the
solver iterations of its first stage. -/
theorem C25_statistics_false :
    ¬ ∀ (calls : List (Env Unit Nat Nat × (Nat → Nat))),
      ((OSM.init : OSM Nat).applyAll () calls).2.total
        = statsOf (((OSM.init : OSM Nat).applyAll () calls).1.map (·.2)) := by
  intro h
  have := h [(throwing, fun _ => 0)]
  revert this
  decide

section memory
variable {σ X T : Type} [AddCommMonoid T]

/-- **C67.** Unless an exception other than one of the solver leaves it, a step frees every vector it allocates, exactly once. -/
theorem C67_no_leak_partial (m : OSM T) (E : Env σ X T) (mem : Nat → X) (st : σ)
    (h : (m.apply E mem st).1 ≠ .exception) : heapAfter (m.apply E mem st).2.1.log [] = some [] := by
  obtain ⟨g1, g2⟩ := stageLoop_heap E E.s 1 ⟨mem, st, Stats.zero, [.preStep]⟩ (le_refl _) (by omega) [] rfl (by simp)
  unfold OSM.apply at *
  generalize stageLoop E E.s 1 ⟨mem, st, Stats.zero, [.preStep]⟩ = out at *
  obtain ⟨e, R⟩ := out
  cases e
  · obtain ⟨h', k1, k2⟩ := g1 rfl
    simp only at *
    rw [heapAfter_append, heapAfter_append, k1, Option.bind_some, heapAfter_frees _ _ k2 (k2.nodup_iff.mpr List.nodup_range')]
    rfl
  · exact g2 rfl
  · simp at h

/-- **C67** is false of the code for other exceptions: the vectors of the previous stages are leaked. -/
theorem C67_no_leak_false :
    ¬ ∀ (m : OSM Nat) (E : Env Unit Nat Nat) (mem : Nat → Nat), heapAfter (m.apply E mem ()).2.1.log [] = some [] := by
  intro h
  have := h OSM.init throwing (fun _ => 0)
  revert this
  decide

/-- The step with an initial guess in `xnew` and without boundary function. -/
def plainEnv (s : Nat) (preStageOk : Nat → List X → Bool) (solve : σ → Nat → List X → X → σ × Bool × X × PDERes T) : Env σ X T :=
  ⟨s, preStageOk, initPlain s, solve⟩

/-- The step with boundary function. -/
def boundaryEnv {D K : Type} (s : Nat) (constrained : D → Bool) (f : Nat → D → K) (preStageOk : Nat → List (D → K) → Bool)
    (solve : σ → Nat → List (D → K) → (D → K) → σ × Bool × (D → K) × PDERes T) : Env σ (D → K) T :=
  ⟨s, preStageOk, initInterpolate constrained f s, solve⟩

theorem initPlain_other (s r : Nat) (mem : Nat → X) (i : Nat) (h : i ≠ r) : initPlain s r mem i = mem i := by
  unfold initPlain; split <;> split <;> simp [upd, h]

theorem initInterpolate_other {D K : Type} (c : D → Bool) (f : Nat → D → K) (s r : Nat) (mem : Nat → D → K) (i : Nat) (h : i ≠ r) :
    initInterpolate c f s r mem i = mem i := by
  unfold initInterpolate gridInterpolate; simp [upd, h]

theorem apply_success_mem (m : OSM T) (E : Env σ X T) (hinit : ∀ r mem i, i ≠ r → E.initStage r mem i = mem i) (mem : Nat → X)
    (st : σ) (h : (m.apply E mem st).1 = .success) :
    (m.apply E mem st).2.1.mem 0 = mem 0 ∧
    ∀ k, 1 ≤ k → k ≤ E.s → ∃ (mem' : Nat → X) (st' : σ),
      (∀ i, i < k → mem' i = (m.apply E mem st).2.1.mem i) ∧ (∀ i, k ≤ i → mem' i = mem i) ∧
      (m.apply E mem st).2.1.mem k
        = (E.solve st' k ((List.range k).map (m.apply E mem st).2.1.mem) (E.initStage k mem' k)).2.2.1 ∧
      (E.solve st' k ((List.range k).map (m.apply E mem st).2.1.mem) (E.initStage k mem' k)).2.1 = true ∧
      Ev.preStage k ((List.range k).map (m.apply E mem st).2.1.mem) ∈ (m.apply E mem st).2.1.log ∧
      ∃ res, Ev.solve k (E.initStage k mem' k) ((m.apply E mem st).2.1.mem k) res true ∈ (m.apply E mem st).2.1.log := by
  have hloop : (stageLoop E E.s 1 ⟨mem, st, Stats.zero, [.preStep]⟩).1 = .success := by
    unfold OSM.apply at h
    generalize stageLoop E E.s 1 ⟨mem, st, Stats.zero, [.preStep]⟩ = out at *
    obtain ⟨e, R⟩ := out
    cases e <;> simp_all
  obtain ⟨g1, g2, g3⟩ := stageLoop_mem E hinit E.s 1 ⟨mem, st, Stats.zero, [.preStep]⟩ (by omega) hloop
  unfold OSM.apply
  generalize stageLoop E E.s 1 ⟨mem, st, Stats.zero, [.preStep]⟩ = out at *
  obtain ⟨e, R⟩ := out
  simp only at hloop
  subst hloop
  refine ⟨g1 0 (by omega), fun k h1 h2 => ?_⟩
  obtain ⟨mem', st', e1, e2, e3, e4, e5, e6⟩ := g3 k h1 h2
  exact ⟨mem', st', e1, e2, e3, e4, by simp only at e5 ⊢; simp [e5], _, by simp only at e6 ⊢; simp only [List.mem_append]; exact Or.inl (Or.inl e6)⟩

/-- **C68.** In a successful step without boundary function, with `x` the final content of the stage vectors: `xold` is unchanged,
stage `r` is assembled with exactly the previous stages, and solved starting from the initial guess in `xnew` (first stage) or from the
previous stage; `xnew` is the result of the last stage. -/
theorem C68_stages (m : OSM T) (s : Nat) (preStageOk : Nat → List X → Bool)
    (solve : σ → Nat → List X → X → σ × Bool × X × PDERes T) (mem : Nat → X) (st : σ)
    (h : (m.apply (plainEnv s preStageOk solve) mem st).1 = .success) :
    let x := (m.apply (plainEnv s preStageOk solve) mem st).2.1.mem
    let log := (m.apply (plainEnv s preStageOk solve) mem st).2.1.log
    x 0 = mem 0 ∧ ∀ r, 1 ≤ r → r ≤ s →
      Ev.preStage r ((List.range r).map x) ∈ log ∧
      ∃ res, Ev.solve r (if r = 1 then mem s else x (r - 1)) (x r) res true ∈ log := by
  intro x log
  obtain ⟨h0, hk⟩ := apply_success_mem m (plainEnv s preStageOk solve) (fun r mem i hi => initPlain_other s r mem i hi) mem st h
  refine ⟨h0, fun r h1 h2 => ?_⟩
  obtain ⟨mem', st', e1, e2, _, _, e5, res, e6⟩ := hk r h1 h2
  refine ⟨e5, res, ?_⟩
  have hg : (plainEnv s preStageOk solve).initStage r mem' r = if r = 1 then mem s else x (r - 1) := by
    simp only [plainEnv, initPlain]
    by_cases hr1 : r = 1
    · subst hr1
      by_cases hs : 1 = s
      · simp only [if_pos hs, gt_iff_lt, lt_irrefl, if_false, if_true]
        rw [← hs]; exact e2 1 (le_refl _)
      · simp only [if_neg hs, gt_iff_lt, lt_irrefl, if_false, if_true, upd]
        exact e2 s h2
    · have hx : mem' (r - 1) = x (r - 1) := e1 (r - 1) (by omega)
      have hgt : r > 1 := by omega
      by_cases hs : r = s
      · simp only [if_pos hs, if_pos hgt, if_neg hr1, upd, if_true]; exact hx
      · simp only [if_neg hs, if_pos hgt, if_neg hr1, upd, if_true]; exact hx
  rw [← hg]
  exact e6

/-- **C68** with boundary function: the stage is solved starting from the initial guess (or the previous stage) in which the
constrained DOFs are replaced by the interpolation of the boundary function at the time of the stage. (Also if there is only one stage,
when `xnew` is both source and destination.) -/
theorem C68_stages_with_boundary {D K : Type} (m : OSM T) (s : Nat) (constrained : D → Bool) (f : Nat → D → K)
    (preStageOk : Nat → List (D → K) → Bool) (solve : σ → Nat → List (D → K) → (D → K) → σ × Bool × (D → K) × PDERes T)
    (mem : Nat → D → K) (st : σ)
    (h : (m.apply (boundaryEnv s constrained f preStageOk solve) mem st).1 = .success) :
    let x := (m.apply (boundaryEnv s constrained f preStageOk solve) mem st).2.1.mem
    let log := (m.apply (boundaryEnv s constrained f preStageOk solve) mem st).2.1.log
    x 0 = mem 0 ∧ ∀ r, 1 ≤ r → r ≤ s →
      Ev.preStage r ((List.range r).map x) ∈ log ∧
      ∃ res, Ev.solve r (fun d => if constrained d then f r d else (if r = 1 then mem s else x (r - 1)) d) (x r) res true ∈ log := by
  intro x log
  obtain ⟨h0, hk⟩ := apply_success_mem m (boundaryEnv s constrained f preStageOk solve)
    (fun r mem i hi => initInterpolate_other constrained f s r mem i hi) mem st h
  refine ⟨h0, fun r h1 h2 => ?_⟩
  obtain ⟨mem', st', e1, e2, _, _, e5, res, e6⟩ := hk r h1 h2
  refine ⟨e5, res, ?_⟩
  have hg : (boundaryEnv s constrained f preStageOk solve).initStage r mem' r
      = fun d => if constrained d then f r d else (if r = 1 then mem s else x (r - 1)) d := by
    funext d
    simp only [boundaryEnv, initInterpolate, gridInterpolate]
    by_cases hr1 : r = 1
    · subst hr1
      have e : mem' s = mem s := e2 s h2
      by_cases hs : s = 1
      · subst hs
        simp only [if_true, upd, copyFree, Option.getD_some, e]
        cases constrained d <;> simp
      · simp only [if_true, upd, copyFree, if_neg hs, Option.getD_none, e]
        cases constrained d <;> simp
    · have hx : mem' (r - 1) = x (r - 1) := e1 (r - 1) (by omega)
      have hne : r - 1 ≠ r := by omega
      simp only [if_neg hr1, upd, copyFree, if_neg hne, Option.getD_none, if_true, hx]
      cases constrained d <;> simp
  rw [← hg]
  exact e6

/-- **C69.** A successful implicit step satisfies all stage equations of the scheme: if the solver reports success only if the residual of
the stage (with the constant part assembled from the previous stages) vanishes, then the final stage vectors satisfy
`∑_{s ≤ r} (a_rs f1 R1(x_s, t + d_s dt) + b_rs f0 R0(x_s, t + d_s dt)) = 0` for every stage `r`. -/
theorem C69_step_satisfies_scheme {K V : Type} [Field K] [LinearOrder K] [IsStrictOrderedRing K] [AddCommGroup V] [Module K V]
    (m : OSM T) (S : Scheme K) (time dt : K) (mode : DTMode) (R0 R1 : Op K X V) (trace : List (Kind × Nat)) (st0 : St K X V)
    (E : Env σ X T) (hs : E.s = S.s) (hinit : ∀ r mem i, i ≠ r → E.initStage r mem i = mem i)
    (hsolve : ∀ st r xs guess, (E.solve st r xs guess).2.1 = true → ∀ x : Nat → X, (List.range r).map x = xs →
      x r = (E.solve st r xs guess).2.2.1 →
      residual ⟨S, time, dt, mode, r⟩ R0 R1 (preStage ⟨S, time, dt, mode, r⟩ true R0 R1 x trace st0).res0 trace (x r) 0 = 0)
    (ha : ∀ r, 1 ≤ r → r ≤ S.s → S.a r r = 1) (ht : ∀ r, 1 ≤ r → r ≤ S.s → NoTinyCoefficients S r) (hp : NoPostSkeleton R1)
    (mem : Nat → X) (st : σ) (h : (m.apply E mem st).1 = .success) :
    ∀ r, 1 ≤ r → r ≤ S.s → schemeResidual ⟨S, time, dt, mode, r⟩ R0 R1 trace (m.apply E mem st).2.1.mem = 0 := by
  intro r h1 h2
  obtain ⟨_, hk⟩ := apply_success_mem m E hinit mem st h
  obtain ⟨mem', st', _, _, e3, e4, _⟩ := hk r h1 (by omega)
  have := hsolve _ _ _ _ e4 (m.apply E mem st).2.1.mem rfl e3
  rw [C23_residual_is_scheme_formula_partial ⟨S, time, dt, mode, r⟩ R0 R1 _ trace st0 0 (ha r h1 h2) (ht r h1 h2) hp, zero_add] at this
  exact this

end memory

/-! ### Time controllers -/

section controllers
variable {K : Type} [Field K] [LinearOrder K] [IsStrictOrderedRing K]

/-- The size of a step taken with the CFL controller. -/
def cflStep (cfl target bound time dt : K) : K := chooseDt (cflSuggest cfl target bound time) dt

/-- The sequence of times reached, starting at `t0`, with the bounds reported by the operators and the time steps given by the user. -/
def times (cfl target t0 : K) (bound dt : Nat → K) : Nat → K
  | 0 => t0
  | n + 1 => times cfl target t0 bound dt n + cflStep cfl target (bound n) (times cfl target t0 bound dt n) (dt n)

theorem cflStep_bounds (cfl target bound time dt mu : K) (hm : 0 < mu) (hs : mu ≤ cfl * bound) (hd : mu ≤ dt) (ht : time ≤ target) :
    0 ≤ cflStep cfl target bound time dt ∧ time + cflStep cfl target bound time dt ≤ target ∧
    cflStep cfl target bound time dt ≤ cfl * bound ∧ cflStep cfl target bound time dt ≤ dt ∧
    (time + cflStep cfl target bound time dt = target ∨ mu / 2 ≤ cflStep cfl target bound time dt) := by
  unfold cflStep chooseDt cflSuggest
  dsimp only
  split
  · rename_i h
    rcases le_total (cfl * bound) dt with hle | hle
    · rw [min_eq_left hle]; exact ⟨by linarith, by linarith, le_refl _, hle, Or.inr (by linarith)⟩
    · rw [min_eq_right hle]; exact ⟨by linarith, by linarith, hle, le_refl _, Or.inr (by linarith)⟩
  · rename_i h
    split
    · rename_i h'
      rcases le_total (1/2 * (target - time)) dt with hle | hle
      · rw [min_eq_left hle]; exact ⟨by linarith, by linarith, by linarith, hle, Or.inr (by linarith)⟩
      · rw [min_eq_right hle]; exact ⟨by linarith, by linarith, by linarith, le_refl _, Or.inr (by linarith)⟩
    · rename_i h'
      rcases le_total (target - time) dt with hle | hle
      · rw [min_eq_left hle]; exact ⟨by linarith, by linarith, by linarith, hle, Or.inl (by ring)⟩
      · rw [min_eq_right hle]; exact ⟨by linarith, by linarith, by linarith, le_refl _, Or.inr (by linarith)⟩

/-- **C26.** With the CFL controller and given time steps and bounds that stay above some positive value: no step passes the target, no step
exceeds the CFL bound or the given step, and after finitely many steps the target is reached exactly. -/
theorem C26_cfl_controller_partial [Archimedean K] (cfl target t0 mu : K) (bound dt : Nat → K) (hm : 0 < mu)
    (hb : ∀ n, mu ≤ cfl * bound n) (hd : ∀ n, mu ≤ dt n) (h0 : t0 ≤ target) :
    (∀ n, times cfl target t0 bound dt n ≤ times cfl target t0 bound dt (n + 1) ∧ times cfl target t0 bound dt n ≤ target ∧
      times cfl target t0 bound dt (n + 1) - times cfl target t0 bound dt n ≤ cfl * bound n ∧
      times cfl target t0 bound dt (n + 1) - times cfl target t0 bound dt n ≤ dt n) ∧
    ∃ N, ∀ n, N ≤ n → times cfl target t0 bound dt n = target := by
  have hle : ∀ n, times cfl target t0 bound dt n ≤ target := by
    intro n
    induction n with
    | zero => exact h0
    | succ n ih => exact (cflStep_bounds cfl target (bound n) _ (dt n) mu hm (hb n) (hd n) ih).2.1
  refine ⟨fun n => ?_, ?_⟩
  · obtain ⟨b1, b2, b3, b4, b5⟩ := cflStep_bounds cfl target (bound n) (times cfl target t0 bound dt n) (dt n) mu hm (hb n) (hd n) (hle n)
    refine ⟨by simp only [times]; linarith, hle n, by simp only [times]; linarith, by simp only [times]; linarith⟩
  · have hprog : ∀ n : Nat, times cfl target t0 bound dt n = target ∨ t0 + n * (mu / 2) ≤ times cfl target t0 bound dt n := by
      intro n
      induction n with
      | zero => right; simp [times]
      | succ n ih =>
        obtain ⟨b1, b2, b3, b4, b5⟩ := cflStep_bounds cfl target (bound n) (times cfl target t0 bound dt n) (dt n) mu hm (hb n) (hd n) (hle n)
        rcases ih with ih | ih
        · left
          have : times cfl target t0 bound dt (n + 1) = times cfl target t0 bound dt n
            + cflStep cfl target (bound n) (times cfl target t0 bound dt n) (dt n) := rfl
          rw [ih] at this b1 b2 b5
          linarith
        · rcases b5 with b5 | b5
          · left; exact b5
          · right
            simp only [times]
            push_cast
            linarith
    obtain ⟨N, hN⟩ := exists_nat_gt ((target - t0) / (mu / 2))
    refine ⟨N, fun n hn => ?_⟩
    rcases hprog n with h | h
    · exact h
    · exfalso
      have h2 : target - t0 < N * (mu / 2) := by rwa [div_lt_iff₀ (by linarith)] at hN
      have h3 : (N : K) ≤ n := by exact_mod_cast hn
      have h4 : (N : K) * (mu / 2) ≤ n * (mu / 2) := mul_le_mul_of_nonneg_right h3 (by linarith)
      have := hle n
      linarith

/-- The sequence of times if the step returned by `apply` is used as the given step of the next call (`dt = method.apply(time,dt,...)`), with
operators that impose no restriction (`suggestTimestep(dt)` is `dt`, the default). Returns time and step. -/
def feedback (cfl target t0 dt0 : K) : Nat → K × K
  | 0 => (t0, dt0)
  | n + 1 =>
    let p := feedback cfl target t0 dt0 n
    let step := cflStep cfl target p.2 p.1 p.2
    (p.1 + step, step)

end controllers

/-- **C26** is false of the code if the selected step is fed back: with the CFL number 1/2 and operators without restriction the step is halved
in every call and the target is never reached. -/
theorem C26_cfl_controller_false : ∀ n, (feedback (1/2 : ℚ) 10 0 1 n).1 < 1 := by
  have h : ∀ n, (feedback (1/2 : ℚ) 10 0 1 n).1 + (feedback (1/2 : ℚ) 10 0 1 n).2 = 1 ∧ 0 < (feedback (1/2 : ℚ) 10 0 1 n).2 := by
    intro n
    induction n with
    | zero => simp [feedback]
    | succ n ih =>
      obtain ⟨h1, h2⟩ := ih
      have hstep : cflStep (1/2 : ℚ) 10 (feedback (1/2 : ℚ) 10 0 1 n).2 (feedback (1/2 : ℚ) 10 0 1 n).1 (feedback (1/2 : ℚ) 10 0 1 n).2
          = 1/2 * (feedback (1/2 : ℚ) 10 0 1 n).2 := by
        unfold cflStep chooseDt cflSuggest
        dsimp only
        rw [if_pos (by linarith), min_eq_left (by linarith)]
      simp only [feedback, hstep]
      constructor
      · linarith
      · linarith
  intro n
  obtain ⟨h1, h2⟩ := h n
  linarith

/-- The hypotheses of C26 can be met. -/
example : ∃ N, ∀ n, N ≤ n → times (9/10 : ℚ) 1 0 (fun _ => 1/3) (fun _ => 1) n = 1 :=
  (C26_cfl_controller_partial (9/10 : ℚ) 1 0 (3/10) (fun _ => 1/3) (fun _ => 1) (by norm_num) (fun _ => by norm_num)
    (fun _ => by norm_num) (by norm_num)).2

/-! ### The explicit method -/

section explicit
variable {K X V M : Type} [Field K] [LinearOrder K] [IsStrictOrderedRing K] [AddCommGroup V] [Module K V] [AddCommGroup M] [Module K M]

/-- A time-independent operator. -/
def Autonomous {K X V : Type} (R : Op K X V) : Prop := ∀ k e t t' x, R k e t x = R k e t' x

theorem form_autonomous (R : Op K X V) (h : Autonomous R) (trace : List (Kind × Nat)) (t t' : K) (x : X) :
    form R trace t x = form R trace t' x := by
  unfold form
  congr 1
  exact List.map_congr_left fun c _ => h _ _ _ _ _

theorem explicit_fold (P : Setting K) (R0 R1 : Op K X V) (J1 : Op K X M) (ls : M → V → X → X) (trace : List (Kind × Nat)) (dt : K)
    (st : St K X V) : ∀ (n r : Nat) (x : Nat → X), r + n = P.scheme.s + 1 →
    (∀ i, i < r → (List.range' r n).foldl (explicitStage P R0 R1 J1 ls trace dt st) x i = x i) ∧
    ∀ k, r ≤ k → k ≤ P.scheme.s → ∃ y : Nat → X, (∀ i, i < k → y i = (List.range' r n).foldl (explicitStage P R0 R1 J1 ls trace dt st) x i) ∧
      (List.range' r n).foldl (explicitStage P R0 R1 J1 ls trace dt st) x k
        = ls (explicitJacobianResidual { P with stage := k } R0 R1 J1 y trace st 0).1
            ((explicitJacobianResidual { P with stage := k } R0 R1 J1 y trace st 0).2.2
              + dt • (explicitJacobianResidual { P with stage := k } R0 R1 J1 y trace st 0).2.1) (y k) := by
  intro n
  induction n with
  | zero => intro r x h; exact ⟨fun i _ => rfl, fun k h1 h2 => by omega⟩
  | succ n ih =>
    intro r x h
    rw [List.range'_succ, List.foldl_cons]
    obtain ⟨g1, g2⟩ := ih (r + 1) (explicitStage P R0 R1 J1 ls trace dt st x r) (by omega)
    have hother : ∀ i, i ≠ r → explicitStage P R0 R1 J1 ls trace dt st x r i = x i := by
      intro i hi
      unfold explicitStage
      simp only [upd, if_neg hi]
      exact initPlain_other _ _ _ _ hi
    refine ⟨fun i hi => by rw [g1 i (by omega), hother i (by omega)], fun k h1 h2 => ?_⟩
    rcases Nat.lt_or_ge r k with hlt | hge
    · exact g2 k hlt h2
    · obtain rfl : k = r := by omega
      refine ⟨initPlain P.scheme.s k x, fun i hi => ?_, ?_⟩
      · rw [g1 i (by omega), hother i (by omega), initPlain_other _ _ _ _ (by omega)]
      · rw [g1 k (by omega)]
        unfold explicitStage
        simp [upd]

/-- **C70.** A step of the explicit method satisfies all stage equations of the scheme with the selected time step, if the linear solver solves
the systems with the temporal operator exactly, the temporal operator is linear with volume terms only, and either the controller keeps the
given step or both operators do not depend on time. -/
theorem C70_explicit_step_partial (S : Scheme K) (time dt suggested : K) (R0 R1 : Op K X V) (J1 : Op K X M) (act : M →+ (X → V))
    (ls : M → V → X → X) (trace : List (Kind × Nat)) (st : St K X V) (x : Nat → X)
    (hls : ∀ t y b g, act (-form J1 trace t y) (ls (-form J1 trace t y) b g) = b)
    (hlin : ∀ k e t y z, act (J1 k e t y) z = R1 k e t z)
    (hv : ∀ k e t x, k ≠ .uvVolume → k ≠ .vVolume → J1 k e t x = 0)
    (hdt : (explicitApply S time dt suggested R0 R1 J1 ls trace st x).2 = dt ∨ (Autonomous R0 ∧ Autonomous R1))
    (ha : ∀ r, 1 ≤ r → r ≤ S.s → S.a r r = 1) (hb : ∀ r, 1 ≤ r → r ≤ S.s → S.b r r = 0)
    (ht : ∀ r, 1 ≤ r → r ≤ S.s → NoTinyCoefficients S r) :
    ∀ r, 1 ≤ r → r ≤ S.s →
      schemeResidual ⟨S, time, (explicitApply S time dt suggested R0 R1 J1 ls trace st x).2, .multiplyOperator0ByDT, r⟩ R0 R1 trace
        (explicitApply S time dt suggested R0 R1 J1 ls trace st x).1 = 0 := by
  intro r h1 h2
  have hfold := (explicit_fold ⟨S, time, dt, .doNotAssembleDT, 0⟩ R0 R1 J1 ls trace (chooseDt suggested dt) st S.s 1 x
    (by simp only; omega)).2 r h1 h2
  obtain ⟨y, hy, hk⟩ := hfold
  have hx : (explicitApply S time dt suggested R0 R1 J1 ls trace st x).1
      = (List.range' 1 S.s).foldl (explicitStage ⟨S, time, dt, .doNotAssembleDT, 0⟩ R0 R1 J1 ls trace (chooseDt suggested dt) st) x := rfl
  have hnd : (explicitApply S time dt suggested R0 R1 J1 ls trace st x).2 = chooseDt suggested dt := rfl
  rw [hnd] at hdt
  rw [hx, hnd]
  generalize (List.range' 1 S.s).foldl (explicitStage ⟨S, time, dt, .doNotAssembleDT, 0⟩ R0 R1 J1 ls trace (chooseDt suggested dt) st) x
    = z at *
  generalize chooseDt suggested dt = nd at *
  rw [C66_explicit_parts_partial ⟨S, time, dt, .doNotAssembleDT, r⟩ R0 R1 J1 y trace st 0 hv (ht r h1 h2)] at hk
  simp only [factors, mul_one, zero_sub] at hk
  have hact := hls (time + S.d r * dt) (y r)
    (∑ s ∈ range r, S.a r s • form R1 trace (time + S.d s * dt) (y s) + nd • ∑ s ∈ range r, S.b r s • form R0 trace (time + S.d s * dt) (y s))
    (y r)
  rw [← hk] at hact
  have hform : ∀ t u w, act (form J1 trace t u) w = form R1 trace t w := by
    intro t u w
    clear hact hk hls hx hnd
    induction trace with
    | nil => simp [form]
    | cons c trace ih => rw [form_cons, form_cons, map_add, Pi.add_apply, ih, hlin]
  rw [map_neg, Pi.neg_apply, hform] at hact
  -- replace the times
  have t1 : ∀ s w, form R1 trace (time + S.d s * dt) w = form R1 trace (time + S.d s * nd) w := by
    intro s w
    rcases hdt with hd | ⟨_, hd⟩
    · rw [hd]
    · exact form_autonomous R1 hd trace _ _ w
  have t0 : ∀ s w, form R0 trace (time + S.d s * dt) w = form R0 trace (time + S.d s * nd) w := by
    intro s w
    rcases hdt with hd | ⟨hd, _⟩
    · rw [hd]
    · exact form_autonomous R0 hd trace _ _ w
  unfold schemeResidual
  simp only [factors, mul_one]
  rw [sum_range_succ, ha r h1 h2, hb r h1 h2, zero_mul, zero_smul, add_zero, one_smul, sum_add_distrib]
  have e1 : ∑ s ∈ range r, S.a r s • form R1 trace (time + S.d s * dt) (y s)
      = ∑ s ∈ range r, S.a r s • form R1 trace (time + S.d s * nd) (z s) := by
    refine sum_congr rfl fun s hs => ?_
    rw [t1, hy s (mem_range.mp hs)]
  have e0 : nd • ∑ s ∈ range r, S.b r s • form R0 trace (time + S.d s * dt) (y s)
      = ∑ s ∈ range r, (S.b r s * nd) • form R0 trace (time + S.d s * nd) (z s) := by
    rw [smul_sum]
    refine sum_congr rfl fun s hs => ?_
    rw [t0, hy s (mem_range.mp hs), smul_smul, mul_comm]
  rw [e1, e0, t1] at hact
  rw [← hact]
  abel

end explicit

/-- **C70** is false of the code if the controller shortens the step of a time-dependent problem: the stages are evaluated at the times of the
given step. (Heun's scheme for `u' = -t`, given step 1 and suggestion 1/2.) -/
theorem C70_explicit_step_false :
    ¬ ∀ (S : Scheme ℚ) (time dt suggested : ℚ) (R0 R1 J1 : Op ℚ ℚ ℚ) (ls : ℚ → ℚ → ℚ → ℚ) (trace : List (Kind × Nat))
        (st : St ℚ ℚ ℚ) (x : Nat → ℚ),
      (∀ t y b g, -form J1 trace t y * ls (-form J1 trace t y) b g = b) → (∀ k e t y z, J1 k e t y * z = R1 k e t z) →
      (∀ k e t x, k ≠ .uvVolume → k ≠ .vVolume → J1 k e t x = 0) →
      ∀ r, 1 ≤ r → r ≤ S.s →
        schemeResidual ⟨S, time, (explicitApply S time dt suggested R0 R1 J1 ls trace st x).2, .multiplyOperator0ByDT, r⟩ R0 R1 trace
          (explicitApply S time dt suggested R0 R1 J1 ls trace st x).1 = 0 := by
  intro h
  have := h heun 0 1 (1/2) (fun _ _ t _ => t) (fun k _ _ x => if k = .uvVolume then x else 0)
    (fun k _ _ _ => if k = .uvVolume then 1 else 0) (fun A b _ => b / A) [(.uvVolume, 0)]
    ⟨⟨0, 0, 0⟩, ⟨0, 0, 0⟩, 0, 0⟩ (fun _ => 0)
    (by intro t y b g; simp [form, div_neg])
    (by intro k e t y z; split <;> simp)
    (by intro k e t x h1 _; simp [h1]) 2 (by norm_num) (by simp [heun])
  revert this
  decide +kernel

/-- A mass term `u` and its derivative, as volume terms. -/
def demoMass : Op ℚ ℚ ℚ := fun k _ _ x => if k = .uvVolume then x else 0
def demoMassJ : Op ℚ ℚ ℚ := fun k _ _ _ => if k = .uvVolume then 1 else 0
def demoReaction : Op ℚ ℚ ℚ := fun _ _ _ x => x
def demoAct : ℚ →+ (ℚ → ℚ) :=
  { toFun := fun A x => A * x, map_zero' := by funext x; simp, map_add' := by intro A B; funext x; simp [add_mul] }

/-- The hypotheses of C70 are met by Heun's scheme for `u' = -u` with a shortened step. -/
example (st : St ℚ ℚ ℚ) (x : Nat → ℚ) : ∀ r, 1 ≤ r → r ≤ (heun : Scheme ℚ).s →
    schemeResidual ⟨heun, 0, (explicitApply (heun : Scheme ℚ) 0 1 (1/2) demoReaction demoMass demoMassJ (fun A b _ => b / A)
        [(.uvVolume, 0)] st x).2, .multiplyOperator0ByDT, r⟩ demoReaction demoMass [(.uvVolume, 0)]
      (explicitApply (heun : Scheme ℚ) 0 1 (1/2) demoReaction demoMass demoMassJ (fun A b _ => b / A) [(.uvVolume, 0)] st x).1 = 0 := by
  have hS := C23_builtin_schemes (0 : ℚ) (1415/1000) (435/1000) (Or.inl rfl) (Or.inr (by norm_num)) (by norm_num) (by norm_num)
    (by norm_num) (by norm_num) heun (by simp)
  refine C70_explicit_step_partial (heun : Scheme ℚ) 0 1 (1/2) demoReaction demoMass demoMassJ demoAct _ _ st x
    ?_ ?_ ?_ (Or.inr ⟨fun _ _ _ _ _ => rfl, fun _ _ _ _ _ => rfl⟩) (fun r h1 h2 => (hS r h1 h2).1) ?_ (fun r h1 h2 => (hS r h1 h2).2)
  · intro t y b g; simp [form, demoMassJ, demoAct, div_neg]
  · intro k e t y z; simp only [demoAct, demoMassJ, demoMass]; split <;> simp
  · intro k e t x h1 _; simp [demoMassJ, h1]
  · intro r h1 h2; simp only [heun] at h2; interval_cases r <;> simp [Scheme.b, heun]

/-- Steps that succeed and steps that fail in the solver: the hypotheses of C25, C67 and C68 can be met. The solver (whose state counts its
calls) fails in its third call, which is the first stage of the second step. -/
def countingEnv : Env Nat Nat Nat :=
  plainEnv 2 (fun _ _ => true) (fun n _ _ x => (n + 1, decide (n ≠ 2), x + 1, ⟨1, 1, n, 2⟩))

example : let out := (OSM.init : OSM Nat).applyAll 0 [(countingEnv, fun _ => 5), (countingEnv, fun _ => 5), (countingEnv, fun _ => 5)]
    (∀ o ∈ out.1, o.1 ≠ .exception) ∧ out.2.total.timesteps = 3 ∧ out.2.successful.timesteps = 2 ∧
    out.2.total.linearIterations = 0 + 1 + 2 + 3 + 4 ∧ out.2.successful.linearIterations = 0 + 1 + 3 + 4 ∧
    (OSM.setResult out.2.total out.2.successful).step = 3 := by decide

/-- A solver for one step of the implicit Euler method for `u' = -u` with step 1: the hypotheses of C69 can be met by a step that succeeds. -/
def eulerEnv : Env Unit ℚ Nat :=
  plainEnv 1 (fun _ _ => true) (fun _ r xs _ => ((), decide (r = 1), xs.getD 0 0 / 2, ⟨0, 0, 0, 0⟩))

example : ((OSM.init : OSM Nat).apply eulerEnv (fun _ => 4) ()).1 = .success ∧
    schemeResidual ⟨implicitEuler, 0, 1, .multiplyOperator0ByDT, 1⟩ demoReaction demoMass [(.uvVolume, 0)]
      ((OSM.init : OSM Nat).apply eulerEnv (fun _ => 4) ()).2.1.mem = 0 := by
  have hS := C23_builtin_schemes (0 : ℚ) (1415/1000) (435/1000) (Or.inl rfl) (Or.inr (by norm_num)) (by norm_num) (by norm_num)
    (by norm_num) (by norm_num) implicitEuler (by simp)
  have hp : NoPostSkeleton demoMass := by intro k e t x h; rcases h with rfl | rfl <;> simp [demoMass]
  have hsuc : ((OSM.init : OSM Nat).apply eulerEnv (fun _ => 4) ()).1 = .success := by decide
  refine ⟨hsuc, ?_⟩
  refine C69_step_satisfies_scheme OSM.init (implicitEuler : Scheme ℚ) 0 1 .multiplyOperator0ByDT demoReaction demoMass
    [(.uvVolume, 0)] ⟨⟨0, 0, 0⟩, ⟨0, 0, 0⟩, 0, 0⟩ eulerEnv rfl (fun r mem i hi => initPlain_other 1 r mem i hi) ?_
    (fun r h1 h2 => (hS r h1 h2).1) (fun r h1 h2 => (hS r h1 h2).2) hp _ _ hsuc 1 (le_refl _) (le_refl _)
  intro st r xs guess hok x hxs hxr
  have hr : r = 1 := by simpa [eulerEnv, plainEnv] using hok
  subst hr
  rw [C23_residual_is_scheme_formula_partial ⟨implicitEuler, 0, 1, .multiplyOperator0ByDT, 1⟩ _ _ x _ _ 0
    (hS 1 (le_refl _) (le_refl _)).1 (hS 1 (le_refl _) (le_refl _)).2 hp]
  have hx : x 1 = x 0 / 2 := by rw [hxr, ← hxs]; simp [eulerEnv, plainEnv]
  simp [schemeResidual, sum_range_succ, form, demoMass, demoReaction, factors, Scheme.a, Scheme.b, implicitEuler, oneStepTheta, hx]

end Verif
