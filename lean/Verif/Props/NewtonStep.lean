import Verif.Proofs.NewtonStep
/-
C249: implicit time steps of nonlinear problems with Newton's method.
-/
namespace Verif
open Constraints Assembly ConstrainedSolve NewtonSolve NewtonStep TransientSolve
open OneStep (Kind Setting St Scheme DTMode OSM PDERes NoTinyCoefficients factors)
open LocalOp.FEM (SolvableStages)

section
variable {I K : Type} [DecidableEq I] [Fintype I] [Field K] [LinearOrder K] [IsStrictOrderedRing K]

/-- **C249 (stage).** A stage of a nonlinear parabolic problem with Dirichlet constraints, `x` are the earlier stages: if Newton's method returns, its solution has the
Dirichlet values of the guess and satisfies the equation of the scheme up to the reported defect `d`, for all test functions; `d` is below the absolute limit or the
wanted fraction of the first defect; and the distance to a vector that satisfies the equation exactly is at most `d / (f1 mu)`. -/
theorem C249_stage (t : Trafo I K) (h : Admissible t) (hdir : ∀ k row, (k, row) ∈ t.rows → row = []) (symmetric : Bool) (ci0 : Nat → I)
    (pattern : List (PatternPart I)) (L0 L1 : LocalParts I K) (trace : List (Kind × Nat)) (mu : K) (hmu : 0 < mu) (he : Evolution t pattern L0 L1 trace mu)
    (norm : (I → K) → K) (solve : Matrix I K → (I → K) → Option K → Bool × (I → K) × Nat) (unassembled : (I → K) → Option K → Bool × (I → K) × Nat)
    (q : Newton.Params K) (hq : SolverSetup t norm solve q) (S : Scheme K) (time dt : K) (hdt : 0 < dt) (mode : DTMode) (r : Nat) (ha : S.a r r = 1)
    (hb : 0 ≤ S.b r r) (ht : NoTinyCoefficients S r) (st : St K (I → K) (I → K)) (x : Nat → I → K) (kept : Option (Option (I → K))) (guess : I → K)
    (hret : (Newton.apply (stageProblem t symmetric ci0 pattern ⟨S, time, dt, mode, r⟩ L0 L1 trace (stageConst t ⟨S, time, dt, mode, r⟩ L0 L1 trace x st) norm solve
      unassembled) q kept guess).2 = none) :
    let s := (Newton.apply (stageProblem t symmetric ci0 pattern ⟨S, time, dt, mode, r⟩ L0 L1 trace (stageConst t ⟨S, time, dt, mode, r⟩ L0 L1 trace x st) norm solve
      unassembled) q kept guess).1
    (∀ k, t.Dirichlet k → s.solution k = guess k) ∧
    ∃ d, s.result.defect = some d ∧
      (d < q.absoluteLimit ∨
        d < norm (stageResidual t ⟨S, time, dt, mode, r⟩ L0 L1 (stageConst t ⟨S, time, dt, mode, r⟩ L0 L1 trace x st) trace guess) * q.reduction) ∧
      (∀ w, Homogeneous t w → |stageForm ⟨S, time, dt, mode, r⟩ L0 L1 trace (OneStep.upd x r s.solution) w| ≤ d * norm w) ∧
      ∀ y, (∀ k, t.Dirichlet k → y k = guess k) →
        (∀ w, Homogeneous t w → stageForm ⟨S, time, dt, mode, r⟩ L0 L1 trace (OneStep.upd x r y) w = 0) →
        (factors mode dt).2 * mu * norm (fun k => s.solution k - y k) ≤ d := by
  intro s
  have hs : s = (Newton.apply (stageProblem t symmetric ci0 pattern ⟨S, time, dt, mode, r⟩ L0 L1 trace (stageConst t ⟨S, time, dt, mode, r⟩ L0 L1 trace x st) norm
    solve unassembled) q kept guess).1 := rfl
  clear_value s
  have htb := (ht r (le_refl _)).2
  have hf : 0 < (factors mode dt).2 := by cases mode <;> simp [factors, hdt]
  generalize hP : (⟨S, time, dt, mode, r⟩ : Setting K) = P at *
  have hPs : P.stage = r := by rw [← hP]
  have hPS : P.scheme = S := by rw [← hP]
  have hPd : P.dt = dt := by rw [← hP]
  have hPm : P.mode = mode := by rw [← hP]
  have htb' : P.scheme.b P.stage P.stage = 0 ∨ |P.scheme.b P.stage P.stage| > 1 / 1000000 := by rw [hPs, hPS]; exact htb
  have ht' : NoTinyCoefficients P.scheme P.stage := by rw [hPs, hPS]; exact ht
  have ha' : P.scheme.a P.stage P.stage = 1 := by rw [hPs, hPS]; exact ha
  generalize hc : stageConst t P L0 L1 trace x st = c at *
  have hform : ∀ y w, Homogeneous t w →
      form (stageParts P L0 L1 trace ++ [constPart (ci0 0) c]) y w = stageForm P L0 L1 trace (OneStep.upd x r y) w := by
    intro y w hw
    have e := stage_form h (ci0 0) P L0 L1 he.noPost trace (OneStep.upd x r y) st ha' ht' w hw
    have e1 : OneStep.upd x r y P.stage = y := by rw [hPs]; simp [OneStep.upd]
    have e2 : stageConst t P L0 L1 trace (OneStep.upd x r y) st = c := by
      rw [← hc]
      refine const_congr t P L0 L1 trace _ _ st ht' fun s hs => ?_
      unfold OneStep.upd
      rw [if_neg (by omega)]
    rw [e1, e2] at e
    exact e
  have hfit := fits t pattern P L0 L1 trace (he.fits0 _) (he.fits1 _) (ci0 0) c
  have hmono := stage_monotone t P L0 L1 he.noPost trace htb' (by rw [hPs, hPS]; exact hb) (by rw [hPd]; exact hdt) mu (he.mass _) (he.monotone _) (ci0 0) c
  rw [hPm, hPd] at hmono
  have hres : ∀ y, stageResidual t P L0 L1 c trace y = residual t (stageParts P L0 L1 trace ++ [constPart (ci0 0) c]) y :=
    fun y => stage_residual (ci0 0) P L0 L1 he.noPost trace c y htb'
  have heq := stageProblem_eq t symmetric ci0 pattern P L0 L1 he.noPost trace c norm solve unassembled htb' (ci0 0)
  rw [heq] at hret hs
  have h1 := C246_dirichlet t h symmetric ci0 pattern (stageParts P L0 L1 trace ++ [constPart (ci0 0) c]) hfit norm solve hq.keeps unassembled q hq.noForce hq.positive
    hq.reassembles kept guess
  have h0 := (C28_newton_partial (problem t symmetric ci0 pattern (stageParts P L0 L1 trace ++ [constPart (ci0 0) c]) norm solve unassembled) q hq.damped kept
    guess).2.1
  obtain ⟨d, a1, a2, a3⟩ := C246_error t h hdir symmetric ci0 pattern (stageParts P L0 L1 trace ++ [constPart (ci0 0) c]) hfit ((factors mode dt).2 * mu)
    (mul_pos hf hmu) hmono norm hq.norm solve hq.keeps unassembled q hq.damped hq.noForce hq.positive hq.reassembles kept guess hret
  rw [← hs] at h0 h1 a1 a3
  refine ⟨h1, d, a1, by rw [hres]; exact a2, fun w hw => ?_, fun y hy1 hy2 => a3 y ⟨dirichlet_conforming hdir y, fun w hw => ?_⟩ hy1⟩
  · rw [← hform _ w hw]
    have e := form_le h (stageParts P L0 L1 trace ++ [constPart (ci0 0) c]) norm hq.norm s.solution w hw
    have e2 : d = norm (residual t (stageParts P L0 L1 trace ++ [constPart (ci0 0) c]) s.solution) := Option.some.inj (a1.symm.trans h0)
    rw [e2]
    exact e
  · rw [hform _ w hw]
    exact hy2 w hw

/-- **C249 (step).** `OneStepMethod::apply` with a boundary function and Newton's method as solver, for a nonlinear parabolic problem: if it succeeds, the old value is
kept, and the vectors of all stages have the Dirichlet values of the time of their stage and satisfy the equations of the scheme up to a defect for which the Newton
solver is content; each is as close to a vector that satisfies its equation exactly as this defect says. -/
theorem C249_step {T : Type} [Add T] [Zero T] (t : Trafo I K) (h : Admissible t) (hdir : ∀ k row, (k, row) ∈ t.rows → row = []) (symmetric : Bool) (ci0 : Nat → I)
    (pattern : List (PatternPart I)) (L0 L1 : LocalParts I K) (trace : List (Kind × Nat)) (mu : K) (hmu : 0 < mu) (he : Evolution t pattern L0 L1 trace mu)
    (norm : (I → K) → K) (solve : Matrix I K → (I → K) → Option K → Bool × (I → K) × Nat) (unassembled : (I → K) → Option K → Bool × (I → K) × Nat)
    (q : Newton.Params K) (hq : SolverSetup t norm solve q) (S : Scheme K) (hS : SolvableStages S) (time dt : K) (hdt : 0 < dt) (mode : DTMode)
    (st0 : St K (I → K) (I → K)) (g : K → I → K) (stats : Newton.Result K → PDERes T) (o : OSM T) (mem : Nat → I → K) (kept : Option (Option (I → K)))
    (hsucc : (o.apply (newtonEnv t symmetric ci0 pattern S time dt mode L0 L1 trace st0 norm solve unassembled q g stats) mem kept).1 = .success) :
    let x := (o.apply (newtonEnv t symmetric ci0 pattern S time dt mode L0 L1 trace st0 norm solve unassembled q g stats) mem kept).2.1.mem
    x 0 = mem 0 ∧ ∀ r, 1 ≤ r → r ≤ S.s →
      (∀ k, t.Dirichlet k → x r k = g (time + S.d r * dt) k) ∧
      ∃ d guess, IsGuess t (g (time + S.d r * dt)) (if r = 1 then mem S.s else x (r - 1)) guess ∧
        d ≤ tolerance q (norm (stageResidual t ⟨S, time, dt, mode, r⟩ L0 L1 (stageConst t ⟨S, time, dt, mode, r⟩ L0 L1 trace x st0) trace guess)) ∧
        (∀ w, Homogeneous t w → |stageForm ⟨S, time, dt, mode, r⟩ L0 L1 trace x w| ≤ d * norm w) ∧
        ∀ y, (∀ k, t.Dirichlet k → y k = g (time + S.d r * dt) k) →
          (∀ w, Homogeneous t w → stageForm ⟨S, time, dt, mode, r⟩ L0 L1 trace (OneStep.upd x r y) w = 0) →
          (factors mode dt).2 * mu * norm (fun k => x r k - y k) ≤ d := by
  intro x
  let E : OneStep.Env (Option (Option (I → K))) (I → K) T :=
    newtonEnv t symmetric ci0 pattern S time dt mode L0 L1 trace st0 norm solve unassembled q g stats
  let R0 : OneStep.Run (Option (Option (I → K))) (I → K) T := ⟨mem, kept, OneStep.Stats.zero, [.preStep]⟩
  have hloop : (OneStep.stageLoop E E.s 1 R0).1 = .success ∧ x = (OneStep.stageLoop E E.s 1 R0).2.mem := by
    unfold OneStep.OSM.apply at hsucc
    have hx : x = (o.apply E mem kept).2.1.mem := rfl
    unfold OneStep.OSM.apply at hx
    generalize hr : OneStep.stageLoop E E.s 1 R0 = out at *
    obtain ⟨e, R⟩ := out
    cases e
    · exact ⟨rfl, hx⟩
    · cases hsucc
    · cases hsucc
  let Good : Nat → (Nat → I → K) → Prop := fun r x =>
      (∀ k, t.Dirichlet k → x r k = g (time + S.d r * dt) k) ∧
      ∃ d guess, IsGuess t (g (time + S.d r * dt)) (if r = 1 then mem S.s else x (r - 1)) guess ∧
        d ≤ tolerance q (norm (stageResidual t ⟨S, time, dt, mode, r⟩ L0 L1 (stageConst t ⟨S, time, dt, mode, r⟩ L0 L1 trace x st0) trace guess)) ∧
        (∀ w, Homogeneous t w → |stageForm ⟨S, time, dt, mode, r⟩ L0 L1 trace x w| ≤ d * norm w) ∧
        ∀ y, (∀ k, t.Dirichlet k → y k = g (time + S.d r * dt) k) →
          (∀ w, Homogeneous t w → stageForm ⟨S, time, dt, mode, r⟩ L0 L1 trace (OneStep.upd x r y) w = 0) →
          (factors mode dt).2 * mu * norm (fun k => x r k - y k) ≤ d
  have key := loop_success E (fun _ _ => rfl)
    (fun r mem i hi => initInterpolate_other (fun k => (find? k t.rows).isSome) (fun r => g (time + S.d r * dt)) S.s r mem i hi) mem
    (fun r m => 1 ≤ r → r ≤ S.s → Good r m) ?_ ?_ E.s 1 R0 (le_refl 1) (by omega) (fun _ => rfl) (fun q _ hq => by omega) hloop.1
  · rw [hloop.2]
    exact ⟨key.2 0 (by omega), fun r h1 h2 => key.1 r h1 h2 h1 h2⟩
  · rintro r m m' hm hg h1 h2
    obtain ⟨g1, d, guess, g2, g3, g4, g5⟩ := hg h1 h2
    obtain ⟨-, -, ht⟩ := hS r h1 h2
    have e1 : m r = m' r := hm r (le_refl r)
    have e2 : m (r - 1) = m' (r - 1) := hm (r - 1) (by omega)
    have e3 : stageConst t ⟨S, time, dt, mode, r⟩ L0 L1 trace m st0 = stageConst t ⟨S, time, dt, mode, r⟩ L0 L1 trace m' st0 :=
      const_congr t ⟨S, time, dt, mode, r⟩ L0 L1 trace m m' st0 ht fun s hs => hm s (le_of_lt hs)
    refine ⟨fun k hk => by rw [← e1]; exact g1 k hk, d, guess, by rw [← e2]; exact g2, by rw [← e3]; exact g3, fun w hw => ?_, fun y hy1 hy2 => ?_⟩
    · rw [← stage_congr ⟨S, time, dt, mode, r⟩ L0 L1 trace m m' hm]
      exact g4 w hw
    · rw [← e1]
      refine g5 y hy1 fun w hw => ?_
      rw [← hy2 w hw]
      refine stage_congr ⟨S, time, dt, mode, r⟩ L0 L1 trace _ _ (fun s hs => ?_) w
      unfold OneStep.upd
      split
      · rfl
      · exact hm s hs
  · intro st r m h1 h2 h0 hok _ _
    obtain ⟨ha, hb, ht⟩ := hS r h1 h2
    have hgs := guess_spec h (fun r => g (time + S.d r * dt)) S.s r m h2 h1
    generalize hguess : OneStep.initInterpolate (fun k => (find? k t.rows).isSome) (fun r => g (time + S.d r * dt)) S.s r m r = guess at hgs
    have hcon : stageConst t ⟨S, time, dt, mode, r⟩ L0 L1 trace (fun s => ((List.range r).map m).getD s fun _ => 0) st0 =
        stageConst t ⟨S, time, dt, mode, r⟩ L0 L1 trace m st0 := by
      refine const_congr t ⟨S, time, dt, mode, r⟩ L0 L1 trace _ _ st0 ht fun s hs => ?_
      have hs' : s < r := hs
      simp [List.getD_eq_getElem?_getD, hs']
    have hE : E.solve st r ((List.range r).map m) (E.initStage r m r) =
        (let out := Newton.apply (stageProblem t symmetric ci0 pattern ⟨S, time, dt, mode, r⟩ L0 L1 trace
            (stageConst t ⟨S, time, dt, mode, r⟩ L0 L1 trace m st0) norm solve unassembled) q (st.map fun _ => none) guess
         (out.1.jacobian, out.2.isNone, out.1.solution, stats out.1.result)) := by
      rw [← hcon, ← hguess]
      rfl
    rw [hE] at hok ⊢
    dsimp only at hok ⊢
    obtain ⟨b1, d, b2, b3, b4, b5⟩ := C249_stage t h hdir symmetric ci0 pattern L0 L1 trace mu hmu he norm solve unassembled q hq S time dt hdt mode r ha hb ht st0 m
      (st.map fun _ => none) guess (by simpa using hok)
    generalize (Newton.apply (stageProblem t symmetric ci0 pattern ⟨S, time, dt, mode, r⟩ L0 L1 trace
            (stageConst t ⟨S, time, dt, mode, r⟩ L0 L1 trace m st0) norm solve unassembled) q (st.map fun _ => none) guess).1.solution = x' at *
    have hu : OneStep.upd m r x' r = x' := by simp [OneStep.upd]
    have hD : ∀ k, t.Dirichlet k → guess k = g (time + S.d r * dt) k := fun k hk => (hgs k).1 ⟨_, hk⟩
    have hcon2 : stageConst t ⟨S, time, dt, mode, r⟩ L0 L1 trace (OneStep.upd m r x') st0 = stageConst t ⟨S, time, dt, mode, r⟩ L0 L1 trace m st0 := by
      refine const_congr t ⟨S, time, dt, mode, r⟩ L0 L1 trace _ _ st0 ht fun s hs => ?_
      have hs' : s < r := hs
      unfold OneStep.upd
      rw [if_neg (by omega)]
    refine ⟨fun k hk => by rw [hu]; exact (b1 k hk).trans (hD k hk), d, guess, ?_, ?_, b4, fun y hy1 hy2 => ?_⟩
    · have e : (if r = 1 then mem S.s else OneStep.upd m r x' (r - 1)) = if r = 1 then m S.s else m (r - 1) := by
        by_cases hr : r = 1
        · rw [if_pos hr, if_pos hr, h0 hr]
        · rw [if_neg hr, if_neg hr]
          unfold OneStep.upd
          rw [if_neg (by omega)]
      rw [e]
      exact hgs
    · rw [hcon2]
      exact le_of_lt (b3.elim (fun h => lt_max_of_lt_left h) fun h => lt_max_of_lt_right h)
    · rw [hu]
      refine b5 y (fun k hk => (hy1 k hk).trans (hD k hk).symm) fun w hw => ?_
      rw [← hy2 w hw]
      refine stage_congr ⟨S, time, dt, mode, r⟩ L0 L1 trace _ _ (fun s hs => ?_) w
      unfold OneStep.upd
      split <;> rfl

/-- **C249 (accumulation).** Implicit Euler steps with Newton's method for a nonlinear parabolic problem whose temporal operator is a mass operator: after any number of
successful steps of any sizes, in the norm of the mass operator, the computed vector is at most as far from the exact solution of the discrete equations as in the beginning,
plus what each step adds: the defect with which the Newton solver was content in that step, divided by `f1 sigma`. -/
theorem C249_history {T : Type} [Add T] [Zero T] (t : Trafo I K) (h : Admissible t) (hdir : ∀ k row, (k, row) ∈ t.rows → row = []) (symmetric : Bool) (ci0 : Nat → I)
    (pattern : List (PatternPart I)) (L0 L1 : LocalParts I K) (trace : List (Kind × Nat)) (mu : K) (hmu : 0 < mu) (he : Evolution t pattern L0 L1 trace mu)
    (norm : (I → K) → K) (solve : Matrix I K → (I → K) → Option K → Bool × (I → K) × Nat) (unassembled : (I → K) → Option K → Bool × (I → K) × Nat)
    (q : Newton.Params K) (hq : SolverSetup t norm solve q) (mode : DTMode)
    (m : (I → K) → (I → K) → K) (N : (I → K) → K) (sigma : K) (hsigma : 0 < sigma) (hm : Mass t m norm N sigma) (hL1 : ∀ τ x w, form (partsAt L1 trace τ) x w = m x w)
    (st0 : St K (I → K) (I → K)) (g : K → I → K) (stats : Newton.Result K → PDERes T) (o : Nat → OSM T) (mem : Nat → Nat → I → K)
    (kept : Nat → Option (Option (I → K))) (times : Nat → K) (htimes : ∀ k, times k < times (k + 1)) (n : Nat)
    (hsucc : ∀ k, k < n → ((o k).apply (newtonEnv t symmetric ci0 pattern OneStep.implicitEuler (times k) (times (k + 1) - times k) mode L0 L1 trace st0 norm solve
      unassembled q g stats) (mem k) (kept k)).1 = .success)
    (x : Nat → I → K) (hold : ∀ k, k < n → mem k 0 = x k)
    (hnew : ∀ k, k < n → x (k + 1) = ((o k).apply (newtonEnv t symmetric ci0 pattern OneStep.implicitEuler (times k) (times (k + 1) - times k) mode L0 L1 trace st0 norm
      solve unassembled q g stats) (mem k) (kept k)).2.1.mem 1)
    (y : Nat → I → K) (hyD : ∀ k, k < n → ∀ i, t.Dirichlet i → y (k + 1) i = g (times (k + 1)) i)
    (hy : ∀ k, k < n → ∀ w, Homogeneous t w →
      stageForm ⟨OneStep.implicitEuler, times k, times (k + 1) - times k, mode, 1⟩ L0 L1 trace (two (y k) (y (k + 1))) w = 0) :
    ∃ tol : Nat → K,
      (∀ k, k < n → ∃ guess, IsGuess t (g (times (k + 1))) (mem k 1) guess ∧
        tol k = tolerance q (norm (stageResidual t ⟨OneStep.implicitEuler, times k, times (k + 1) - times k, mode, 1⟩ L0 L1
          (stageConst t ⟨OneStep.implicitEuler, times k, times (k + 1) - times k, mode, 1⟩ L0 L1 trace (two (x k) (x (k + 1))) st0) trace guess))) ∧
      N (fun i => x n i - y n i) ≤
        N (fun i => x 0 i - y 0 i) + ∑ k ∈ Finset.range n, tol k / ((factors mode (times (k + 1) - times k)).2 * sigma) := by
  have hstep : ∀ k, k < n → ∃ tol, (∃ guess, IsGuess t (g (times (k + 1))) (mem k 1) guess ∧
      tol = tolerance q (norm (stageResidual t ⟨OneStep.implicitEuler, times k, times (k + 1) - times k, mode, 1⟩ L0 L1
          (stageConst t ⟨OneStep.implicitEuler, times k, times (k + 1) - times k, mode, 1⟩ L0 L1 trace (two (x k) (x (k + 1))) st0) trace guess))) ∧
      N (fun i => x (k + 1) i - y (k + 1) i) ≤ N (fun i => x k i - y k i) + tol / ((factors mode (times (k + 1) - times k)).2 * sigma) := by
    intro k hk
    have hdt : 0 < times (k + 1) - times k := sub_pos.mpr (htimes k)
    have htime : times k + OneStep.implicitEuler.d 1 * (times (k + 1) - times k) = times (k + 1) := by rw [euler_d]; ring
    obtain ⟨a0, a1⟩ := C249_step t h hdir symmetric ci0 pattern L0 L1 trace mu hmu he norm solve unassembled q hq OneStep.implicitEuler euler_stages (times k)
      (times (k + 1) - times k) hdt mode st0 g stats (o k) (mem k) (kept k) (hsucc k hk)
    obtain ⟨b1, d, guess, b2, b3, b4, -⟩ := a1 1 (le_refl 1) (le_refl 1)
    generalize hX : ((o k).apply (newtonEnv t symmetric ci0 pattern OneStep.implicitEuler (times k) (times (k + 1) - times k) mode L0 L1 trace st0 norm
      solve unassembled q g stats) (mem k) (kept k)).2.1.mem = X at *
    have hX0 : X 0 = x k := a0.trans (hold k hk)
    have hX1 : X 1 = x (k + 1) := by rw [hnew k hk, hX]
    have hXs : ∀ s, s ≤ 1 → X s = two (x k) (x (k + 1)) s := by
      intro s hs
      interval_cases s
      · exact hX0
      · exact hX1
    rw [htime] at b1 b2
    have hcon := const_congr t ⟨OneStep.implicitEuler, times k, times (k + 1) - times k, mode, 1⟩ L0 L1 trace X (two (x k) (x (k + 1))) st0
      (euler_stages 1 (le_refl 1) (le_refl 1)).2.2 fun s hs => hXs s (le_of_lt hs)
    rw [hcon] at b3
    refine ⟨_, ⟨guess, b2, rfl⟩, ?_⟩
    have hpos : ∀ f, 0 ≤ tolerance q f := fun f => le_trans hq.positive.le (le_max_left _ _)
    refine euler_step t hdir (times k) (times (k + 1) - times k) hdt mode L0 L1 trace (he.monotone _)
      m norm N sigma hsigma hm hL1 hq.norm (x k) (x (k + 1)) (y k) (y (k + 1)) _ (hpos _) (fun i hi => ?_) (fun w hw => ?_) (hy k hk)
    · rw [← hX1, b1 i hi, hyD k hk i hi]
    · have e := b4 w hw
      rw [stage_congr ⟨OneStep.implicitEuler, times k, times (k + 1) - times k, mode, 1⟩ L0 L1 trace X _ hXs] at e
      exact le_trans e (mul_le_mul_of_nonneg_right b3 (hq.norm w hw.2).1)
  choose! tol htol hbound using hstep
  refine ⟨tol, htol, ?_⟩
  clear htol
  induction n with
  | zero => simp
  | succ n ih =>
    rw [Finset.sum_range_succ]
    have e1 := ih (fun k hk => hsucc k (by omega)) (fun k hk => hold k (by omega)) (fun k hk => hnew k (by omega)) (fun k hk => hyD k (by omega))
      (fun k hk => hy k (by omega)) (fun k hk => hbound k (by omega))
    have e2 := hbound n (by omega)
    linarith

end

/-! An example: two degrees of freedom, the first one with a Dirichlet condition, the spatial operator of C246 with its cubic term, and a mass at the second one. -/

/-- The mass. -/
def cubicMass : Part (Fin 2) ℚ where
  nv := 2
  nu := 2
  v := fun i => Fin.ofNat 2 i
  u := fun i => Fin.ofNat 2 i
  residual := fun x i => if i = 0 then 0 else x 1
  jacobian := fun _ i j => if i = 0 then 0 else if j = 0 then 0 else 1
/-- The spatial operator. -/
def cubicSpatial : LocalParts (Fin 2) ℚ := fun k e _ => if k = .uvVolume ∧ e = 0 then some cubicPart else none
/-- The temporal operator. -/
def cubicTemporal : LocalParts (Fin 2) ℚ := fun k e _ => if k = .uvVolume ∧ e = 0 then some cubicMass else none
/-- One cell. -/
def cubicTrace : List (Kind × Nat) := [(.uvVolume, 0)]

theorem cubicMass_form (x w : Fin 2 → ℚ) : form [cubicMass] x w = w 1 * x 1 := by
  simp [form, cubicMass, List.range_succ]

theorem cubicMass_fits : PatternFits cubicTrafo cubicPattern [cubicMass] where
  valid := cubicPattern_fits.valid
  covered := by
    intro x p hp i hi j hj _
    simp only [List.map_cons, List.map_nil, List.mem_singleton] at hp
    subst hp
    have hi' : i < 2 := hi
    have hj' : j < 2 := hj
    refine ⟨_, List.mem_singleton.mpr rfl, (i, j), ?_, rfl, rfl⟩
    interval_cases i <;> interval_cases j <;> simp
  diagonal := cubicPattern_fits.diagonal

theorem cubic_evolution : Evolution cubicTrafo cubicPattern cubicSpatial cubicTemporal cubicTrace 1 where
  noPost e τ := ⟨by simp [cubicTemporal], by simp [cubicTemporal]⟩
  fits0 τ := cubicPattern_fits
  fits1 τ := cubicMass_fits
  mass τ := by
    intro x y _ _ hd
    have h0 := cubic_dirichlet x y hd
    show 1 * _ ≤ form [cubicMass] x _ - form [cubicMass] y _
    rw [cubicMass_form, cubicMass_form, Fin.sum_univ_two, h0]
    exact le_of_eq (by ring)
  monotone τ := by
    intro x y hx hy hd
    have h := cubic_monotone x y hx hy hd
    exact le_trans (mul_nonneg zero_le_one (Finset.sum_nonneg fun k _ => sq_nonneg _)) h

theorem cubic_setup : SolverSetup cubicTrafo (fun r => |r 1|) cubicSolve cubicParams :=
  ⟨cubic_norm, cubicSolve_keeps, by unfold Newton.Spec.Damped cubicParams; norm_num, rfl, by decide +kernel, by decide +kernel⟩

/-- The environment of the step from time 0 to time 1, with the boundary value `2 τ`. -/
def cubicEnv : OneStep.Env (Option (Option (Fin 2 → ℚ))) (Fin 2 → ℚ) Nat :=
  newtonEnv cubicTrafo true (fun _ => 0) cubicPattern OneStep.implicitEuler 0 (1 - 0) .multiplyOperator0ByDT cubicSpatial cubicTemporal cubicTrace
    ⟨⟨0, 0, 0⟩, ⟨0, 0, 0⟩, 0, 0⟩ (fun r => |r 1|) cubicSolve (fun _ _ => (false, 0, 0)) cubicParams (fun τ => ![2 * τ, 0]) fun r => ⟨0, 0, r.linearIterations, r.iterations⟩

/-- From the value 1 and a new vector that contains 0: the first full step is rejected. -/
theorem cubic_step : let out := (⟨0, OneStep.Stats.zero, OneStep.Stats.zero⟩ : OSM Nat).apply cubicEnv (fun s => if s = 0 then ![0, 1] else ![5, 0]) none
    out.1 = .success ∧ out.2.1.mem 1 0 = 2 ∧ out.2.1.mem 1 1 ≠ 1 := by
  decide +kernel

/-- The exact solution of the equation of the step is 1; the computed value is close to it. -/
example : let out := (⟨0, OneStep.Stats.zero, OneStep.Stats.zero⟩ : OSM Nat).apply cubicEnv (fun s => if s = 0 then ![0, 1] else ![5, 0]) none
    |out.2.1.mem 1 1 - 1| ≤ max cubicParams.absoluteLimit (3 * cubicParams.reduction) := by
  intro out
  obtain ⟨tol, h1, h2⟩ := C249_history (T := Nat) cubicTrafo cubicTrafo_admissible (fun k row hm => by
      simp only [cubicTrafo, List.mem_singleton, Prod.mk.injEq] at hm; exact hm.2) true (fun _ => 0) cubicPattern cubicSpatial cubicTemporal cubicTrace 1 one_pos
    cubic_evolution (fun r => |r 1|) cubicSolve (fun _ _ => (false, 0, 0)) cubicParams cubic_setup .multiplyOperator0ByDT (fun x w => w 1 * x 1) (fun w => |w 1|) 1 one_pos
    ⟨fun a b w => by ring, fun c a w => by ring, fun a w => by ring, fun w => abs_nonneg _, fun w => by rw [sq_abs]; ring, fun w _ => by rw [one_mul]⟩
    (fun τ x w => cubicMass_form x w) ⟨⟨0, 0, 0⟩, ⟨0, 0, 0⟩, 0, 0⟩ (fun τ => ![2 * τ, 0]) (fun r => ⟨0, 0, r.linearIterations, r.iterations⟩)
    (fun _ => ⟨0, OneStep.Stats.zero, OneStep.Stats.zero⟩) (fun _ s => if s = 0 then ![0, 1] else ![5, 0]) (fun _ => none) (fun k => k)
    (fun k => by push_cast; linarith) 1 (fun k hk => by
      obtain rfl : k = 0 := by omega
      exact cubic_step.1)
    (fun k => if k = 0 then ![0, 1] else out.2.1.mem 1) (fun k hk => by
      obtain rfl : k = 0 := by omega
      rfl)
    (fun k hk => by
      obtain rfl : k = 0 := by omega
      rfl)
    (fun k => if k = 0 then ![0, 1] else ![2, 1]) (fun k hk i hi => by
      obtain rfl : k = 0 := by omega
      simp only [cubicTrafo, Trafo.Dirichlet, List.mem_singleton, Prod.mk.injEq] at hi
      rw [hi.1]
      norm_num)
    (fun k hk w hw => by
      obtain rfl : k = 0 := by omega
      have hw0 : w 0 = 0 := hw.2 0 (by unfold Trafo.Dirichlet cubicTrafo; simp)
      rw [euler_form _ _ _ cubicSpatial cubicTemporal cubicTrace (fun x w => w 1 * x 1) (fun τ x w => cubicMass_form x w)]
      have e : ∀ τ x, form (partsAt cubicSpatial cubicTrace τ) x w = w 0 * (x 0 - x 1) + w 1 * (x 1 - x 0 + x 1 ^ 3) := fun τ x => cubic_form x w
      rw [e, hw0]
      norm_num)
  obtain ⟨guess, hg, ht⟩ := h1 0 (by omega)
  have e0 : guess = ![2, 0] := by
    funext k
    fin_cases k
    · have := (hg 0).1 ⟨[], by simp [cubicTrafo]⟩
      simpa using this
    · have := (hg 1).2 (by rintro ⟨row, hr⟩; simp [cubicTrafo] at hr)
      simpa using this
  have hc := const_congr cubicTrafo ⟨OneStep.implicitEuler, 0, 1 - 0, .multiplyOperator0ByDT, 1⟩ cubicSpatial cubicTemporal cubicTrace
    (two ![0, 1] (out.2.1.mem 1)) (two ![0, 1] ![0, 1]) ⟨⟨0, 0, 0⟩, ⟨0, 0, 0⟩, 0, 0⟩ (euler_stages 1 (le_refl 1) (le_refl 1)).2.2 (fun s hs => by
      have : s = 0 := by have hs' : s < 1 := hs; omega
      rw [this]
      rfl)
  have h3 : |stageResidual cubicTrafo ⟨OneStep.implicitEuler, 0, 1 - 0, .multiplyOperator0ByDT, 1⟩ cubicSpatial cubicTemporal
      (stageConst cubicTrafo ⟨OneStep.implicitEuler, 0, 1 - 0, .multiplyOperator0ByDT, 1⟩ cubicSpatial cubicTemporal cubicTrace (two ![0, 1] (out.2.1.mem 1))
        ⟨⟨0, 0, 0⟩, ⟨0, 0, 0⟩, 0, 0⟩) cubicTrace ![2, 0] 1| = 3 := by
    rw [hc]
    decide +kernel
  have h4 : tol 0 = tolerance cubicParams 3 := by
    rw [ht, e0, ← h3]
    norm_num
  rw [Finset.sum_range_one, h4] at h2
  simpa [OneStep.factors, tolerance] using h2

end Verif
