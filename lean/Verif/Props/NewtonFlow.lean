import Verif.Spec.NewtonFlow
import Verif.Props.TransientFlow
import Verif.Props.NewtonMesh
import Verif.Props.NewtonStep
/-
C253: implicit time steps with Newton's method for arbitrary operators, and for the instationary Navier-Stokes equations.
-/
namespace Verif
open LocalOp LocalOp.Spec Constraints ConstrainedSolve NewtonStep TransientSolve NewtonMesh
open NewtonSolve (problem)
open OneStep (Kind Setting St Scheme DTMode OSM PDERes NoTinyCoefficients factors)

section
variable {I K : Type} [DecidableEq I] [Fintype I] [Field K] [LinearOrder K] [IsStrictOrderedRing K]

theorem stage_problem_form (t : Trafo I K) (h : Admissible t) (i0 : I) (L0 L1 : LocalParts I K) (hL : NoPost L1) (trace : List (Kind × Nat)) (P : Setting K)
    (ha : P.scheme.a P.stage P.stage = 1) (ht : NoTinyCoefficients P.scheme P.stage) (st : St K (I → K) (I → K)) (x : Nat → I → K) (y w : I → K)
    (hw : Homogeneous t w) :
    form (stageParts P L0 L1 trace ++ [constPart i0 (stageConst t P L0 L1 trace x st)]) y w = stageForm P L0 L1 trace (OneStep.upd x P.stage y) w := by
  have e := stage_form h i0 P L0 L1 hL trace (OneStep.upd x P.stage y) st ha ht w hw
  have e1 : OneStep.upd x P.stage y P.stage = y := by simp [OneStep.upd]
  have e2 : stageConst t P L0 L1 trace (OneStep.upd x P.stage y) st = stageConst t P L0 L1 trace x st := by
    refine const_congr t P L0 L1 trace _ _ st ht fun s hs => ?_
    unfold OneStep.upd
    rw [if_neg (by omega)]
  rw [e1, e2] at e
  exact e

/-- **C253 (step).** `OneStepMethod::apply` with a boundary function and Newton's method as solver, for any two local operators (the temporal one without volume terms
after the skeleton) and any constraints: if it succeeds, the old value is kept, the vectors of all stages have the Dirichlet values of the time of their stage and
satisfy the equation of the scheme up to a defect for which the Newton solver is content. -/
theorem C253_step {T : Type} [Add T] [Zero T] (t : Trafo I K) (h : Admissible t) (symmetric : Bool) (ci0 : Nat → I) (pattern : List (Assembly.PatternPart I))
    (L0 L1 : LocalParts I K) (trace : List (Kind × Nat)) (hL : NoPost L1) (hf0 : ∀ τ, PatternFits t pattern (partsAt L0 trace τ))
    (hf1 : ∀ τ, PatternFits t pattern (partsAt L1 trace τ)) (norm dual : (I → K) → K) (hnorm : DualNorms norm dual)
    (solve : Assembly.Matrix I K → (I → K) → Option K → Bool × (I → K) × Nat) (unassembled : (I → K) → Option K → Bool × (I → K) × Nat)
    (q : Newton.Params K) (hq : Setup solve q) (S : Scheme K) (hS : ∀ r, 1 ≤ r → r ≤ S.s → S.a r r = 1 ∧ NoTinyCoefficients S r) (time dt : K) (mode : DTMode)
    (st0 : St K (I → K) (I → K)) (g : K → I → K) (stats : Newton.Result K → PDERes T) (o : OSM T) (mem : Nat → I → K) (kept : Option (Option (I → K)))
    (hsucc : (o.apply (newtonEnv t symmetric ci0 pattern S time dt mode L0 L1 trace st0 norm solve unassembled q g stats) mem kept).1 = .success) :
    let x := (o.apply (newtonEnv t symmetric ci0 pattern S time dt mode L0 L1 trace st0 norm solve unassembled q g stats) mem kept).2.1.mem
    x 0 = mem 0 ∧ ∀ r, 1 ≤ r → r ≤ S.s →
      (∀ k, t.Dirichlet k → x r k = g (time + S.d r * dt) k) ∧
      ∃ d guess, IsGuess t (g (time + S.d r * dt)) (if r = 1 then mem S.s else x (r - 1)) guess ∧
        d ≤ tolerance q (norm (stageResidual t ⟨S, time, dt, mode, r⟩ L0 L1 (stageConst t ⟨S, time, dt, mode, r⟩ L0 L1 trace x st0) trace guess)) ∧
        ∀ w, Homogeneous t w → |stageForm ⟨S, time, dt, mode, r⟩ L0 L1 trace x w| ≤ d * dual w := by
  intro x
  let E : OneStep.Env (Option (Option (I → K))) (I → K) T :=
    newtonEnv t symmetric ci0 pattern S time dt mode L0 L1 trace st0 norm solve unassembled q g stats
  let R0 : OneStep.Run (Option (Option (I → K))) (I → K) T := ⟨mem, kept, OneStep.Stats.zero, [.preStep]⟩
  have hloop : (OneStep.stageLoop E E.s 1 R0).1 = .success ∧ x = (OneStep.stageLoop E E.s 1 R0).2.mem := by
    unfold OneStep.OSM.apply at hsucc
    have hx : x = (o.apply E mem kept).2.1.mem := rfl
    unfold OneStep.OSM.apply at hx
    generalize hr : OneStep.stageLoop E E.s 1 R0 = out at *
    obtain ⟨e, R⟩ := out
    cases e
    · exact ⟨rfl, hx⟩
    · cases hsucc
    · cases hsucc
  let Good : Nat → (Nat → I → K) → Prop := fun r x =>
      (∀ k, t.Dirichlet k → x r k = g (time + S.d r * dt) k) ∧
      ∃ d guess, IsGuess t (g (time + S.d r * dt)) (if r = 1 then mem S.s else x (r - 1)) guess ∧
        d ≤ tolerance q (norm (stageResidual t ⟨S, time, dt, mode, r⟩ L0 L1 (stageConst t ⟨S, time, dt, mode, r⟩ L0 L1 trace x st0) trace guess)) ∧
        ∀ w, Homogeneous t w → |stageForm ⟨S, time, dt, mode, r⟩ L0 L1 trace x w| ≤ d * dual w
  have key := loop_success E (fun _ _ => rfl)
    (fun r mem i hi => OneStep.initInterpolate_other (fun k => (find? k t.rows).isSome) (fun r => g (time + S.d r * dt)) S.s r mem i hi) mem
    (fun r m => 1 ≤ r → r ≤ S.s → Good r m) ?_ ?_ E.s 1 R0 (le_refl 1) (by omega) (fun _ => rfl) (fun q _ hq => by omega) hloop.1
  · rw [hloop.2]
    exact ⟨key.2 0 (by omega), fun r h1 h2 => key.1 r h1 h2 h1 h2⟩
  · rintro r m m' hm hg h1 h2
    obtain ⟨g1, d, guess, g2, g3, g4⟩ := hg h1 h2
    obtain ⟨-, ht⟩ := hS r h1 h2
    have e1 : m r = m' r := hm r (le_refl r)
    have e2 : m (r - 1) = m' (r - 1) := hm (r - 1) (by omega)
    have e3 : stageConst t ⟨S, time, dt, mode, r⟩ L0 L1 trace m st0 = stageConst t ⟨S, time, dt, mode, r⟩ L0 L1 trace m' st0 :=
      const_congr t ⟨S, time, dt, mode, r⟩ L0 L1 trace m m' st0 ht fun s hs => hm s (le_of_lt hs)
    refine ⟨fun k hk => by rw [← e1]; exact g1 k hk, d, guess, by rw [← e2]; exact g2, by rw [← e3]; exact g3, fun w hw => ?_⟩
    rw [← stage_congr ⟨S, time, dt, mode, r⟩ L0 L1 trace m m' hm]
    exact g4 w hw
  · intro st r m h1 h2 h0 hok _ _
    obtain ⟨ha, ht⟩ := hS r h1 h2
    have hgs := guess_spec h (fun r => g (time + S.d r * dt)) S.s r m h2 h1
    generalize hguess : OneStep.initInterpolate (fun k => (find? k t.rows).isSome) (fun r => g (time + S.d r * dt)) S.s r m r = guess at hgs
    have hcon : stageConst t ⟨S, time, dt, mode, r⟩ L0 L1 trace (fun s => ((List.range r).map m).getD s fun _ => 0) st0 =
        stageConst t ⟨S, time, dt, mode, r⟩ L0 L1 trace m st0 := by
      refine const_congr t ⟨S, time, dt, mode, r⟩ L0 L1 trace _ _ st0 ht fun s hs => ?_
      have hs' : s < r := hs
      simp [List.getD_eq_getElem?_getD, hs']
    have hE : E.solve st r ((List.range r).map m) (E.initStage r m r) =
        (let out := Newton.apply (stageProblem t symmetric ci0 pattern ⟨S, time, dt, mode, r⟩ L0 L1 trace
            (stageConst t ⟨S, time, dt, mode, r⟩ L0 L1 trace m st0) norm solve unassembled) q (st.map fun _ => none) guess
         (out.1.jacobian, out.2.isNone, out.1.solution, stats out.1.result)) := by
      rw [← hcon, ← hguess]
      rfl
    rw [hE] at hok ⊢
    dsimp only at hok ⊢
    have htb : S.b r r = 0 ∨ |S.b r r| > 1 / 1000000 := (ht r (le_refl _)).2
    rw [stageProblem_eq t symmetric ci0 pattern ⟨S, time, dt, mode, r⟩ L0 L1 hL trace _ norm solve unassembled htb (ci0 0)] at hok ⊢
    obtain ⟨b1, d, b2, b3, b4⟩ := C251_defect t h symmetric ci0 pattern _
      (fits t pattern ⟨S, time, dt, mode, r⟩ L0 L1 trace (hf0 _) (hf1 _) (ci0 0) (stageConst t ⟨S, time, dt, mode, r⟩ L0 L1 trace m st0)) norm dual hnorm solve
      unassembled q hq (st.map fun _ => none) guess (by simpa using hok)
    rw [← stage_residual (ci0 0) ⟨S, time, dt, mode, r⟩ L0 L1 hL trace _ guess htb] at b3
    generalize (Newton.apply (problem t symmetric ci0 pattern (stageParts ⟨S, time, dt, mode, r⟩ L0 L1 trace ++
            [constPart (ci0 0) (stageConst t ⟨S, time, dt, mode, r⟩ L0 L1 trace m st0)]) norm solve unassembled) q (st.map fun _ => none) guess).1.solution = x' at *
    have hu : OneStep.upd m r x' r = x' := by simp [OneStep.upd]
    have hD : ∀ k, t.Dirichlet k → guess k = g (time + S.d r * dt) k := fun k hk => (hgs k).1 ⟨_, hk⟩
    have hcon2 : stageConst t ⟨S, time, dt, mode, r⟩ L0 L1 trace (OneStep.upd m r x') st0 = stageConst t ⟨S, time, dt, mode, r⟩ L0 L1 trace m st0 := by
      refine const_congr t ⟨S, time, dt, mode, r⟩ L0 L1 trace _ _ st0 ht fun s hs => ?_
      have hs' : s < r := hs
      unfold OneStep.upd
      rw [if_neg (by omega)]
    refine ⟨fun k hk => by rw [hu]; exact (b1 k hk).trans (hD k hk), d, guess, ?_, ?_, fun w hw => ?_⟩
    · have e : (if r = 1 then mem S.s else OneStep.upd m r x' (r - 1)) = if r = 1 then m S.s else m (r - 1) := by
        by_cases hr : r = 1
        · rw [if_pos hr, if_pos hr, h0 hr]
        · rw [if_neg hr, if_neg hr]
          unfold OneStep.upd
          rw [if_neg (by omega)]
      rw [e]
      exact hgs
    · rw [hcon2]
      exact le_of_lt (b3.elim (fun h => lt_max_of_lt_left h) fun h => lt_max_of_lt_right h)
    · have := b4 w hw
      rwa [stage_problem_form t h (ci0 0) L0 L1 hL trace ⟨S, time, dt, mode, r⟩ ha ht st0 m _ w hw] at this

/-- **C253 (linear problems).** If the operators are affine and the stages can be solved, and the linear solver is exact, the step succeeds from any old value. -/
theorem C253_linear {T : Type} [Add T] [Zero T] (t : Trafo I K) (h : Admissible t) (hdir : ∀ k row, (k, row) ∈ t.rows → row = []) (symmetric : Bool)
    (ci0 : Nat → I) (pattern : List (Assembly.PatternPart I)) (L0 L1 : LocalParts I K) (trace : List (Kind × Nat)) (hL : NoPost L1)
    (hf0 : ∀ τ, PatternFits t pattern (partsAt L0 trace τ)) (hf1 : ∀ τ, PatternFits t pattern (partsAt L1 trace τ))
    (ha0 : ∀ τ, ∀ p ∈ partsAt L0 trace τ, Affine p (p.jacobian fun _ => 0) (p.residual fun _ => 0))
    (ha1 : ∀ τ, ∀ p ∈ partsAt L1 trace τ, Affine p (p.jacobian fun _ => 0) (p.residual fun _ => 0))
    (norm : (I → K) → K) (hnorm : NewtonSolve.Definite norm) (solve : Assembly.Matrix I K → (I → K) → Option K → Bool × (I → K) × Nat)
    (unassembled : (I → K) → Option K → Bool × (I → K) × Nat) (q : Newton.Params K) (hq : ExactSetup solve q) (S : Scheme K)
    (hS : ∀ r, 1 ≤ r → r ≤ S.s → NoTinyCoefficients S r) (time dt : K) (mode : DTMode)
    (hreg : ∀ r, 1 ≤ r → r ≤ S.s → ∀ y, Homogeneous t y → (∀ w, Homogeneous t w →
      (factors mode dt).2 * ConstrainedSolve.bilinear (partsAt L1 trace (time + S.d r * dt)) y w +
      S.b r r * (factors mode dt).1 * ConstrainedSolve.bilinear (partsAt L0 trace (time + S.d r * dt)) y w = 0) → ∀ k, y k = 0)
    (st0 : St K (I → K) (I → K)) (g : K → I → K) (stats : Newton.Result K → PDERes T) (o : OSM T) (mem : Nat → I → K) (kept : Option (Option (I → K))) :
    (o.apply (newtonEnv t symmetric ci0 pattern S time dt mode L0 L1 trace st0 norm solve unassembled q g stats) mem kept).1 = .success := by
  let E : OneStep.Env (Option (Option (I → K))) (I → K) T :=
    newtonEnv t symmetric ci0 pattern S time dt mode L0 L1 trace st0 norm solve unassembled q g stats
  obtain ⟨R', e1, -, -⟩ := loop_all E (fun _ _ => rfl)
    (fun r mem i hi => OneStep.initInterpolate_other (fun k => (find? k t.rows).isSome) (fun r => g (time + S.d r * dt)) S.s r mem i hi)
    (fun _ _ => True) (fun _ _ _ _ _ => trivial) (by
      intro st r m h1 h2
      refine ⟨?_, trivial⟩
      have ht := hS r h1 h2
      have htb : S.b r r = 0 ∨ |S.b r r| > 1 / 1000000 := (ht r (le_refl _)).2
      have key : ∀ c guess, (Newton.apply (stageProblem t symmetric ci0 pattern ⟨S, time, dt, mode, r⟩ L0 L1 trace c norm solve unassembled) q
          (st.map fun _ => none) guess).2 = none := by
        intro c guess
        rw [stageProblem_eq t symmetric ci0 pattern ⟨S, time, dt, mode, r⟩ L0 L1 hL trace _ norm solve unassembled htb (ci0 0)]
        refine (C246_linear t h hdir symmetric ci0 pattern _ (fits t pattern ⟨S, time, dt, mode, r⟩ L0 L1 trace (hf0 _) (hf1 _) (ci0 0) c)
          (fun p => p.jacobian fun _ => 0) (fun p => p.residual fun _ => 0) ?_ ?_ norm hnorm solve hq.solves unassembled q hq.noForce hq.positive hq.reassembles
          hq.trials hq.allowed _ guess).1
        · intro p hp
          rcases List.mem_append.mp hp with hp | hp
          · obtain ⟨a, q, rfl, hq⟩ := mem_stageParts ⟨S, time, dt, mode, r⟩ L0 L1 trace p hp
            rcases hq with hq | hq
            · exact scaled_affine a q (ha0 _ q hq)
            · exact scaled_affine a q (ha1 _ q hq)
          · rw [List.mem_singleton.mp hp]
            exact const_affine _ _
        · intro y hy hw
          refine hreg r h1 h2 y hy fun w hw' => ?_
          have := hw w hw'
          unfold ConstrainedSolve.bilinear at this
          rw [form_append, form_append, constPart_form, constPart_form, stageParts_form ⟨S, time, dt, mode, r⟩ L0 L1 hL trace _ _ htb,
            stageParts_form ⟨S, time, dt, mode, r⟩ L0 L1 hL trace _ _ htb] at this
          unfold ConstrainedSolve.bilinear
          have e := OneStep.factors_eq (⟨S, time, dt, mode, r⟩ : Setting K)
          change factors mode dt = _ at e
          rw [e]
          linear_combination this
      exact Option.isNone_iff_eq_none.mpr (key _ _)) E.s 1 ⟨mem, kept, OneStep.Stats.zero, [.preStep]⟩ (le_refl 1) (by omega) (fun q _ hq => by omega)
  have e2 : OneStep.stageLoop (newtonEnv t symmetric ci0 pattern S time dt mode L0 L1 trace st0 norm solve unassembled q g stats)
      (newtonEnv t symmetric ci0 pattern S time dt mode L0 L1 trace st0 norm solve unassembled q g stats).s 1
      ⟨mem, kept, OneStep.Stats.zero, [.preStep]⟩ = (.success, R') := e1
  unfold OneStep.OSM.apply
  rw [e2]

end

section
open TaylorHood TransientFlow VectorMesh
variable {K P Q I : Type} [Field K] [LinearOrder K] [IsStrictOrderedRing K] [Inhabited I] [DecidableEq I] [Fintype I] {d N : Nat} {n m : Fin N → Nat}

/-- **C253 (Navier-Stokes).** A step of the instationary Navier-Stokes equations with Newton's method. If it succeeds, every stage has the Dirichlet values of its time and
satisfies the equation of the scheme up to a defect with which the Newton solver is content, for all test functions; and for all test pressures the loss of mass,
averaged as the scheme averages the spatial operator, is at most this defect. -/
theorem C253_flow {T : Type} [Add T] [Zero T] (s sm : Int) (pb : Transient K P Q I d n m) (t : Trafo I K) (h : Admissible t) (pressureDof : I → Bool)
    (hsep : Separated t (pb.at 0) pressureDof) (symmetric : Bool) (ci0 : Nat → I) (norm dual : (I → K) → K) (hnorm : DualNorms norm dual)
    (solve : Assembly.Matrix I K → (I → K) → Option K → Bool × (I → K) × Nat) (unassembled : (I → K) → Option K → Bool × (I → K) × Nat)
    (q : Newton.Params K) (hq : Setup solve q) (S : Scheme K) (hS : ∀ r, 1 ≤ r → r ≤ S.s → S.a r r = 1 ∧ NoTinyCoefficients S r) (time dt : K) (hdt : 0 < dt)
    (mode : DTMode) (st0 : St K (I → K) (I → K)) (g : K → I → K) (stats : Newton.Result K → PDERes T) (o : OSM T) (mem : Nat → I → K)
    (kept : Option (Option (I → K)))
    (hsucc : (o.apply (newtonEnv t symmetric ci0 pb.pattern S time dt mode (pb.spatial s) (pb.temporal sm) pb.trace st0 norm solve unassembled q g stats) mem
      kept).1 = .success) :
    let x := (o.apply (newtonEnv t symmetric ci0 pb.pattern S time dt mode (pb.spatial s) (pb.temporal sm) pb.trace st0 norm solve unassembled q g stats) mem
      kept).2.1.mem
    x 0 = mem 0 ∧ ∀ r, 1 ≤ r → r ≤ S.s →
      (∀ k, t.Dirichlet k → x r k = g (time + S.d r * dt) k) ∧
      ∃ d guess, IsGuess t (g (time + S.d r * dt)) (if r = 1 then mem S.s else x (r - 1)) guess ∧
        d ≤ tolerance q (norm (stageResidual t ⟨S, time, dt, mode, r⟩ (pb.spatial s) (pb.temporal sm)
          (stageConst t ⟨S, time, dt, mode, r⟩ (pb.spatial s) (pb.temporal sm) pb.trace x st0) pb.trace guess)) ∧
        (∀ w, Homogeneous t w → |schemeForm s sm pb ⟨S, time, dt, mode, r⟩ x w| ≤ d * dual w) ∧
        ∀ w, Homogeneous t w → (∀ k, pressureDof k = false → w k = 0) →
          (factors mode dt).1 * |∑ k ∈ Finset.range (r + 1), S.b r k * massLoss s pb (time + S.d k * dt) (x k) w| ≤ d * dual w := by
  intro x
  have hu : ∀ k, ∃ c i, pb.dof c i = k := hsep.used
  obtain ⟨h0, h1⟩ := C253_step t h symmetric ci0 pb.pattern (pb.spatial s) (pb.temporal sm) pb.trace (fun _ _ => ⟨rfl, rfl⟩) (spatial_fits s t pb hu)
    (temporal_fits sm t pb hu) norm dual hnorm solve unassembled q hq S hS time dt mode st0 g stats o mem kept hsucc
  refine ⟨h0, fun r hr hrs => ?_⟩
  obtain ⟨h2, d, guess, h3, h4, h5⟩ := h1 r hr hrs
  refine ⟨h2, d, guess, h3, h4, fun w hw => by rw [← TransientFlow.scheme_form]; exact h5 w hw, fun w hw hwp => ?_⟩
  have hal : alone pressureDof w = w := by
    funext k
    unfold alone
    cases hk : pressureDof k
    · simp [hwp k hk]
    · simp
  have hb := h5 w hw
  rw [TransientFlow.scheme_form] at hb
  unfold schemeForm at hb
  have e : ∀ k, S.a r k * (factors mode dt).2 * massForm sm pb (x k) w + S.b r k * (factors mode dt).1 * weakForm s (pb.at (time + S.d k * dt)) (x k) w =
      (factors mode dt).1 * (S.b r k * massLoss s pb (time + S.d k * dt) (x k) w) := by
    intro k
    have e1 := mass_alone t pb pressureDof hsep sm (x k) w
    have e2 := flow_mass_form s (pb.at (time + S.d k * dt)) t pressureDof (separated_at t pb pressureDof hsep _) (x k) w
    rw [hal] at e1 e2
    rw [e1, e2]
    unfold massLoss
    show S.a r k * (factors mode dt).2 * 0 + S.b r k * (factors mode dt).1 * (_ - _) = _
    rw [mul_zero, zero_add, mul_comm (S.b r k), mul_assoc]
    rfl
  rw [Finset.sum_congr rfl fun k _ => e k, ← Finset.mul_sum, abs_mul, abs_of_pos (TransientSolve.factors_pos mode dt hdt).1] at hb
  exact hb

/-- **C253 (implicit Euler).** The loss of mass does not accumulate: after a step of the implicit Euler method that succeeds, for any old value, however much mass it has
lost, the loss of mass is bounded by the tolerance of the Newton solver in this step. -/
theorem C253_euler {T : Type} [Add T] [Zero T] (s sm : Int) (pb : Transient K P Q I d n m) (t : Trafo I K) (h : Admissible t) (pressureDof : I → Bool)
    (hsep : Separated t (pb.at 0) pressureDof) (symmetric : Bool) (ci0 : Nat → I) (norm dual : (I → K) → K) (hnorm : DualNorms norm dual)
    (solve : Assembly.Matrix I K → (I → K) → Option K → Bool × (I → K) × Nat) (unassembled : (I → K) → Option K → Bool × (I → K) × Nat)
    (q : Newton.Params K) (hq : Setup solve q) (time dt : K) (hdt : 0 < dt) (mode : DTMode) (st0 : St K (I → K) (I → K)) (g : K → I → K)
    (stats : Newton.Result K → PDERes T) (o : OSM T) (mem : Nat → I → K) (kept : Option (Option (I → K)))
    (hsucc : (o.apply (newtonEnv t symmetric ci0 pb.pattern OneStep.implicitEuler time dt mode (pb.spatial s) (pb.temporal sm) pb.trace st0 norm solve unassembled q g
      stats) mem kept).1 = .success) :
    let x := (o.apply (newtonEnv t symmetric ci0 pb.pattern OneStep.implicitEuler time dt mode (pb.spatial s) (pb.temporal sm) pb.trace st0 norm solve unassembled q g
      stats) mem kept).2.1.mem
    ∃ d guess, IsGuess t (g (time + dt)) (mem 1) guess ∧
      d ≤ tolerance q (norm (stageResidual t ⟨OneStep.implicitEuler, time, dt, mode, 1⟩ (pb.spatial s) (pb.temporal sm)
        (stageConst t ⟨OneStep.implicitEuler, time, dt, mode, 1⟩ (pb.spatial s) (pb.temporal sm) pb.trace x st0) pb.trace guess)) ∧
      ∀ w, Homogeneous t w → (∀ k, pressureDof k = false → w k = 0) → (factors mode dt).1 * |massLoss s pb (time + dt) (x 1) w| ≤ d * dual w := by
  intro x
  obtain ⟨-, h1⟩ := C253_flow s sm pb t h pressureDof hsep symmetric ci0 norm dual hnorm solve unassembled q hq OneStep.implicitEuler
    (fun r h1 h2 => ⟨(euler_stages r h1 h2).1, (euler_stages r h1 h2).2.2⟩) time dt hdt mode st0 g stats o mem kept hsucc
  obtain ⟨-, d, guess, h3, h4, -, h5⟩ := h1 1 (le_refl 1) (le_refl 1)
  rw [euler_d, one_mul] at h3
  refine ⟨d, guess, h3, h4, fun w hw hwp => ?_⟩
  have e := h5 w hw hwp
  have b0 : (OneStep.implicitEuler : Scheme K).b 1 0 = 1 - 1 := rfl
  have b1 : (OneStep.implicitEuler : Scheme K).b 1 1 = 1 := rfl
  rw [Finset.sum_range_succ, Finset.sum_range_succ, Finset.sum_range_zero, b0, b1, sub_self, zero_mul, add_zero, zero_add, one_mul, euler_d, one_mul] at e
  exact e

/-- **C253 (Stokes).** Without convection, with a stable pair of spaces, an exact linear solver and a scheme with implicit stages, the step succeeds from any old
value. -/
theorem C253_stokes {T : Type} [Add T] [Zero T] (s sm : Int) (pb : Transient K P Q I d n m) (t : Trafo I K) (h : Admissible t)
    (hdir : ∀ k row, (k, row) ∈ t.rows → row = []) (pressureDof : I → Bool) (hsep : Separated t (pb.at 0) pressureDof) (hst : StableFlow s sm t pb pressureDof)
    (symmetric : Bool) (ci0 : Nat → I) (norm : (I → K) → K) (hnorm : NewtonSolve.Definite norm)
    (solve : Assembly.Matrix I K → (I → K) → Option K → Bool × (I → K) × Nat) (unassembled : (I → K) → Option K → Bool × (I → K) × Nat)
    (q : Newton.Params K) (hq : ExactSetup solve q) (S : Scheme K) (hS : ImplicitStages S) (time dt : K) (hdt : 0 < dt) (mode : DTMode)
    (st0 : St K (I → K) (I → K)) (g : K → I → K) (stats : Newton.Result K → PDERes T) (o : OSM T) (mem : Nat → I → K) (kept : Option (Option (I → K))) :
    (o.apply (newtonEnv t symmetric ci0 pb.pattern S time dt mode (pb.spatial s) (pb.temporal sm) pb.trace st0 norm solve unassembled q g stats) mem
      kept).1 = .success := by
  have hf := TransientSolve.factors_pos mode dt hdt
  have hu : ∀ k, ∃ c i, pb.dof c i = k := hsep.used
  refine C253_linear t h hdir symmetric ci0 pb.pattern (pb.spatial s) (pb.temporal sm) pb.trace (fun _ _ => ⟨rfl, rfl⟩) (spatial_fits s t pb hu)
    (temporal_fits sm t pb hu) (fun τ => spatial_affine s pb τ (hst.stokes τ)) (temporal_affine sm pb) norm hnorm solve unassembled q hq S
    (fun r h1 h2 => (hS r h1 h2).2.2) time dt mode (fun r h1 h2 y hy hw => ?_) st0 g stats o mem kept
  simp only [bilinear_spatial, bilinear_temporal] at hw
  exact stage_regular t pb pressureDof hsep s sm hst _ _ _ hf.2 (mul_pos (hS r h1 h2).2.1 hf.1) y hy hw

end

/-! A concrete case: the instationary channel of C252. -/

theorem chosenKeeps : Setup (chosenReport : Assembly.Matrix (Fin 5) ℚ → (Fin 5 → ℚ) → Option ℚ → _) cubicParams :=
  ⟨chosenReport_keeps, by unfold Newton.Spec.Damped cubicParams; norm_num, rfl, by decide +kernel, by decide +kernel⟩

example (st0 : St ℚ (Fin 5 → ℚ) (Fin 5 → ℚ)) (o : OSM Nat) (stats : Newton.Result ℚ → PDERes Nat) (mem : Nat → Fin 5 → ℚ) :
    let x := (o.apply (newtonEnv stTrafo true (fun _ => 0) stTransient.pattern OneStep.implicitEuler 0 1 .divideOperator1ByDT (stTransient.spatial 0)
      (stTransient.temporal 0) stTransient.trace st0 (fun r => ∑ k, |r k|) chosenReport (fun _ _ => (false, 0, 0)) cubicParams (fun _ _ => 7) stats) mem none).2.1.mem
    x 0 = mem 0 ∧ x 1 0 = 7 := by
  intro x
  obtain ⟨h1, h2⟩ := C253_flow 0 0 stTransient stTrafo stTrafo_admissible stPressure stTransient_separated true (fun _ => 0) _ _ sum_abs_dual chosenReport
    (fun _ _ => (false, 0, 0)) cubicParams chosenKeeps OneStep.implicitEuler (fun r h1 h2 => ⟨(implicitEuler_implicit r h1 h2).1, (implicitEuler_implicit r h1 h2).2.2⟩)
    0 1 one_pos .divideOperator1ByDT st0 (fun _ _ => 7) stats o mem none
    (C253_stokes 0 0 stTransient stTrafo stTrafo_admissible (fun _ _ h => (stTrafo_empty h).2) stPressure stTransient_separated stTransient_stable true (fun _ => 0) _
      sum_abs_definite chosenReport (fun _ _ => (false, 0, 0)) cubicParams chosenSetup OneStep.implicitEuler implicitEuler_implicit 0 1 one_pos _ st0 _ stats o mem none)
  exact ⟨h1, (h2 1 (le_refl 1) (le_refl 1)).1 0 (by unfold Trafo.Dirichlet stTrafo; simp)⟩

/-- The same with convection. -/
def nsTransient : TaylorHood.Transient ℚ ℚ Unit (Fin 5) 1 (N := 2) (fun _ => 2) fun _ => 1 :=
  { stTransient with par := fun τ c => { stTransient.par τ c with navier := true } }

theorem nsTransient_separated : TaylorHood.Separated stTrafo (nsTransient.at 0) stPressure :=
  ⟨stMesh_separated.velocity, stMesh_separated.pressure, stMesh_separated.used, stMesh_separated.rows⟩

/-- One step of size 1 of the implicit Euler method with inflow 1, from velocities 1, 0, 1: one Newton iteration leads to the velocities 1. -/
theorem nsTransient_run : let out := (OSM.init (T := Nat)).apply (newtonEnv stTrafo true (fun _ => 0) nsTransient.pattern OneStep.implicitEuler 0 1 .divideOperator1ByDT
      (nsTransient.spatial 0) (nsTransient.temporal 0) nsTransient.trace ⟨⟨0, 0, 0⟩, ⟨0, 0, 0⟩, 0, 0⟩ (fun r => ∑ k, |r k|) (trySolve ![0, -1, -1, 53 / 32, -27 / 32])
      (fun _ _ => (false, 0, 0)) cubicParams (fun _ _ => 1) fun _ => ⟨0, 0, 0, 1⟩) (fun s => if s = 0 then ![1, 0, 1, 0, 0] else ![1, 0, 0, 0, 0]) none
    out.1 = .success ∧ out.2.1.mem 1 = ![1, 1, 1, -53 / 32, 27 / 32] := by
  decide +kernel

example : ∃ d : ℚ, (∀ w, w 0 = 0 → |TaylorHood.schemeForm 0 0 nsTransient ⟨OneStep.implicitEuler, 0, 1, .divideOperator1ByDT, 1⟩
      (fun s => if s = 0 then ![1, 0, 1, 0, 0] else ![1, 1, 1, -53 / 32, 27 / 32]) w| ≤ d * ∑ k, |w k|) ∧
    ∃ guess, IsGuess stTrafo (fun _ => 1) ![1, 0, 0, 0, 0] guess := by
  obtain ⟨h0, h1⟩ := C253_flow 0 0 nsTransient stTrafo stTrafo_admissible stPressure nsTransient_separated true (fun _ => 0) _ _ sum_abs_dual _
    (fun _ _ => (false, 0, 0)) cubicParams (trySetup ![0, -1, -1, 53 / 32, -27 / 32]) OneStep.implicitEuler
    (fun r h1 h2 => ⟨(implicitEuler_implicit r h1 h2).1, (implicitEuler_implicit r h1 h2).2.2⟩) 0 1 one_pos .divideOperator1ByDT _ _ _ _ _ none nsTransient_run.1
  obtain ⟨-, d, guess, h3, -, h4, -⟩ := h1 1 (le_refl 1) (le_refl 1)
  refine ⟨d, fun w hw => ?_, guess, h3⟩
  have h5 := h4 w ((st_dirichlet w).mpr hw)
  have e : ∀ x : Nat → Fin 5 → ℚ, x 0 = ![1, 0, 1, 0, 0] → x 1 = ![1, 1, 1, -53 / 32, 27 / 32] →
      TaylorHood.schemeForm 0 0 nsTransient ⟨OneStep.implicitEuler, 0, 1, .divideOperator1ByDT, 1⟩ x w =
      TaylorHood.schemeForm 0 0 nsTransient ⟨OneStep.implicitEuler, 0, 1, .divideOperator1ByDT, 1⟩
        (fun s => if s = 0 then ![1, 0, 1, 0, 0] else ![1, 1, 1, -53 / 32, 27 / 32]) w := by
    intro x e0 e1
    unfold TaylorHood.schemeForm
    rw [Finset.sum_range_succ, Finset.sum_range_succ, Finset.sum_range_zero, Finset.sum_range_succ, Finset.sum_range_succ, Finset.sum_range_zero, e0, e1]
    rfl
  rwa [e _ h0 nsTransient_run.2] at h5

end Verif
