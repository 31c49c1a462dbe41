import Verif.Proofs.TransientSolve
import Verif.Props.FEMMesh
/-
C241: the finite element method for the instationary convection-diffusion equation: from the local operators through the instationary grid operator, the solver
and the time-stepping loop to the solution.
-/
namespace Verif
open LocalOp LocalOp.Spec LocalOp.FEM ConstrainedSolve Constraints FEMMesh TransientSolve
open OneStep (Kind Setting St Scheme DTMode OSM PDERes NoTinyCoefficients)

section
variable {K P Q I : Type} [Field K] [LinearOrder K] [IsStrictOrderedRing K] [Inhabited I] [DecidableEq I] {d N : Nat} {n : Fin N → Nat}

/-- **C241 (residual).** For any two local operators, the second without volume terms after the skeleton, and any scheme with `a_rr = 1` and no tiny
coefficients: after `preStage` with the earlier stages, the residual of the instationary grid operator is zero exactly if the equation of the scheme holds for
all test functions. -/
theorem C241_residual [Fintype I] (t : Trafo I K) (h : Admissible t) (P' : Setting K) (L0 L1 : LocalParts I K) (hL : NoPost L1) (trace : List (Kind × Nat))
    (x : Nat → I → K) (st : St K (I → K) (I → K)) (ha : P'.scheme.a P'.stage P'.stage = 1) (ht : NoTinyCoefficients P'.scheme P'.stage) :
    (∀ k, stageResidual t P' L0 L1 (stageConst t P' L0 L1 trace x st) trace (x P'.stage) k = 0) ↔
      ∀ w, Homogeneous t w → stageForm P' L0 L1 trace x w = 0 := by
  rw [stage_residual default P' L0 L1 hL trace _ _ (ht P'.stage (le_refl _)).2, C232_residual t h]
  constructor <;> intro hw w hw'
  · rw [← stage_form h default P' L0 L1 hL trace x st ha ht w hw']
    exact hw w hw'
  · rw [stage_form h default P' L0 L1 hL trace x st ha ht w hw']
    exact hw w hw'

omit [IsStrictOrderedRing K] in
/-- **C241 (weak form).** For the finite element method with the mass operator `L2` this is the scheme applied to the weak form. -/
theorem C241_weak_form (add intorderadd : Int) (scaling : K) (pb : Transient K P Q I d n) (P' : Setting K) (x : Nat → I → K) (w : I → K) :
    stageForm P' (pb.spatial add) (pb.temporal intorderadd scaling) pb.trace x w = schemeForm add intorderadd scaling pb P' x w :=
  scheme_form add intorderadd scaling pb P' x w

/-- **C241 (stage).** A stage of a parabolic problem: the solver for linear problems returns, for every guess, the function that satisfies the constraints and
the equation of the scheme and has the Dirichlet values of the guess. There is only one. -/
theorem C241_stage [Fintype I] (add intorderadd : Int) (scaling : K) (pb : Transient K P Q I d n) (t : Trafo I K) (h : Admissible t)
    (hin : ∀ τ, ConstrainedInCells t (pb.at τ)) (hp : Parabolic add intorderadd scaling t pb) (symmetric : Bool) (ci0 : Nat → I) (S : Scheme K)
    (time dt : K) (hdt : 0 < dt) (mode : DTMode) (r : Nat) (ha : S.a r r = 1) (hb : 0 ≤ S.b r r) (ht : NoTinyCoefficients S r)
    (st : St K (I → K) (I → K)) (solve : Assembly.Matrix I K → (I → K) → I → K) (hs : Exact solve) (x : Nat → I → K) (guess : I → K) :
    ∃ x', stageSolve t symmetric ci0 pb.pattern ⟨S, time, dt, mode, r⟩ (pb.spatial add) (pb.temporal intorderadd scaling) pb.trace st solve
        ((List.range r).map x) guess = some x' ∧
      (Conforming t x' ∧ (∀ k, t.Dirichlet k → x' k = guess k) ∧
        ∀ w, Homogeneous t w → schemeForm add intorderadd scaling pb ⟨S, time, dt, mode, r⟩ (OneStep.upd x r x') w = 0) ∧
      ∀ y, Conforming t y → (∀ k, t.Dirichlet k → y k = guess k) →
        (∀ w, Homogeneous t w → schemeForm add intorderadd scaling pb ⟨S, time, dt, mode, r⟩ (OneStep.upd x r y) w = 0) → y = x' := by
  have hf := factors_pos mode dt hdt
  have key := stage t h symmetric ci0 pb.pattern ⟨S, time, dt, mode, r⟩ (pb.spatial add) (pb.temporal intorderadd scaling)
    (temporal_noPost intorderadd scaling pb) pb.trace ha ht
    (by rw [parts_spatial]; exact pattern_fits add t (pb.at _) (hin _))
    (by rw [parts_temporal]; exact mass_fits intorderadd scaling t pb 0 (hin 0))
    (by rw [parts_spatial]; exact parts_affine add (pb.at _) (hp.dissipative _).conditions)
    (by rw [parts_temporal]; exact mass_affine intorderadd scaling pb)
    (by
      intro y hy hw
      simp only [parts_spatial, parts_temporal] at hw
      exact stage_regular add intorderadd scaling t pb hp _ _ _ hf.2 (mul_nonneg hb hf.1.le) y hy hw)
    st solve hs x guess
  simp only [scheme_form] at key
  exact key

/-- **C241 (step).** `OneStepMethod::apply` with a boundary function, for a parabolic problem with coefficients, sources and boundary values that depend on
time: the step succeeds, the vectors of all stages satisfy the constraints, have the boundary values of the time of their stage and solve the equations of the
scheme; the old value is kept. Any other vectors with these properties are the same. -/
theorem C241_step [Fintype I] {σ T : Type} [Add T] [Zero T] (add intorderadd : Int) (scaling : K) (pb : Transient K P Q I d n) (t : Trafo I K)
    (h : Admissible t) (hin : ∀ τ, ConstrainedInCells t (pb.at τ)) (hp : Parabolic add intorderadd scaling t pb) (symmetric : Bool) (ci0 : Nat → I)
    (S : Scheme K) (hS : SolvableStages S) (time dt : K) (hdt : 0 < dt) (mode : DTMode) (st0 : St K (I → K) (I → K))
    (solve : Assembly.Matrix I K → (I → K) → I → K) (hs : Exact solve) (g : K → I → K) (res : PDERes T) (m : OSM T) (mem : Nat → I → K) (st : σ) :
    let out := m.apply (stageEnv t symmetric ci0 pb.pattern S time dt mode (pb.spatial add) (pb.temporal intorderadd scaling) pb.trace st0 solve g res) mem st
    out.1 = .success ∧ out.2.1.mem 0 = mem 0 ∧ StepSolution add intorderadd scaling t pb S time dt mode g out.2.1.mem ∧
      ∀ y, y 0 = mem 0 → StepSolution add intorderadd scaling t pb S time dt mode g y → ∀ r, r ≤ S.s → y r = out.2.1.mem r := by
  intro out
  have hguess : ∀ r (mem : Nat → I → K) k, t.Dirichlet k →
      OneStep.initInterpolate (fun k => (find? k t.rows).isSome) (fun r => g (time + S.d r * dt)) S.s r mem r k = g (time + S.d r * dt) k := by
    intro r mem k hk
    have hf : (find? k t.rows).isSome = true := by rw [(find?_iff_mem k [] _ h.keys).mpr hk]; rfl
    unfold OneStep.initInterpolate OneStep.gridInterpolate
    simp [OneStep.upd, OneStep.copyFree, hf]
  obtain ⟨R', e1, e2, e3⟩ := loop_all
    (stageEnv t symmetric ci0 pb.pattern S time dt mode (pb.spatial add) (pb.temporal intorderadd scaling) pb.trace st0 solve g res : OneStep.Env σ (I → K) T)
    (fun _ _ => rfl) (fun r mem i hi => initInterpolate_other (fun k => (find? k t.rows).isSome) (fun r => g (time + S.d r * dt)) S.s r mem i hi)
    (fun r x => Conforming t (x r) ∧ (∀ k, t.Dirichlet k → x r k = g (time + S.d r * dt) k) ∧
      ∀ w, Homogeneous t w → schemeForm add intorderadd scaling pb ⟨S, time, dt, mode, r⟩ x w = 0)
    (by
      rintro r x y hxy ⟨h1, h2, h3⟩
      rw [← hxy r (le_refl r)]
      refine ⟨h1, h2, fun w hw => ?_⟩
      rw [← scheme_form, ← stage_congr _ _ _ _ x y hxy, scheme_form]
      exact h3 w hw)
    (by
      intro st r x h1 h2
      obtain ⟨ha, hb, ht⟩ := hS r h1 h2
      obtain ⟨x', a1, ⟨a2, a3, a4⟩, -⟩ := C241_stage add intorderadd scaling pb t h hin hp symmetric ci0 S time dt hdt mode r ha hb ht st0 solve hs x
        (OneStep.initInterpolate (fun k => (find? k t.rows).isSome) (fun r => g (time + S.d r * dt)) S.s r x r)
      have e : (stageEnv t symmetric ci0 pb.pattern S time dt mode (pb.spatial add) (pb.temporal intorderadd scaling) pb.trace st0 solve g res :
          OneStep.Env σ (I → K) T).solve st r ((List.range r).map x)
          (OneStep.initInterpolate (fun k => (find? k t.rows).isSome) (fun r => g (time + S.d r * dt)) S.s r x r) = (st, true, x', res) := by
        simp only [stageEnv, a1]
      refine ⟨?_, ?_⟩
      · exact (congrArg (fun o => o.2.1) e)
      · have e' : (stageEnv t symmetric ci0 pb.pattern S time dt mode (pb.spatial add) (pb.temporal intorderadd scaling) pb.trace st0 solve g res :
            OneStep.Env σ (I → K) T).solve st r ((List.range r).map x)
            ((stageEnv t symmetric ci0 pb.pattern S time dt mode (pb.spatial add) (pb.temporal intorderadd scaling) pb.trace st0 solve g res :
              OneStep.Env σ (I → K) T).initStage r x r) = (st, true, x', res) := e
        rw [e']
        have hu : OneStep.upd x r x' r = x' := by simp [OneStep.upd]
        simp only [hu]
        exact ⟨a2, fun k hk => (a3 k hk).trans (hguess r x k hk), a4⟩)
    S.s 1 ⟨mem, st, OneStep.Stats.zero, [.preStep]⟩ (le_refl 1) (by simp [stageEnv]; omega) (fun q _ hq => by omega)
  have hout1 : out.1 = .success := by
    simp only [out, OneStep.OSM.apply]
    have : (stageEnv t symmetric ci0 pb.pattern S time dt mode (pb.spatial add) (pb.temporal intorderadd scaling) pb.trace st0 solve g res :
      OneStep.Env σ (I → K) T).s = S.s := rfl
    rw [this, e1]
  have hout2 : out.2.1.mem = R'.mem := by
    simp only [out, OneStep.OSM.apply]
    have : (stageEnv t symmetric ci0 pb.pattern S time dt mode (pb.spatial add) (pb.temporal intorderadd scaling) pb.trace st0 solve g res :
      OneStep.Env σ (I → K) T).s = S.s := rfl
    rw [this, e1]
  rw [hout2]
  refine ⟨hout1, e3 0 (by omega), fun r h1 h2 => e2 r h1 h2, fun y hy0 hy r => ?_⟩
  induction r using Nat.strong_induction_on with
  | _ r ih =>
    intro hr
    rcases Nat.eq_zero_or_pos r with rfl | hr0
    · rw [hy0, e3 0 (by omega)]
    · obtain ⟨ha, hb, ht⟩ := hS r hr0 hr
      obtain ⟨x', -, -, a4⟩ := C241_stage add intorderadd scaling pb t h hin hp symmetric ci0 S time dt hdt mode r ha hb ht st0 solve hs y
        (g (time + S.d r * dt))
      obtain ⟨b1, b2, b3⟩ := hy r hr0 hr
      obtain ⟨c1, c2, c3⟩ := e2 r hr0 hr
      rw [a4 (y r) b1 b2 (fun w hw => ?_), ← a4 (R'.mem r) c1 c2 (fun w hw => ?_)]
      · rw [← scheme_form, stage_congr _ _ _ _ _ R'.mem _, scheme_form]
        · exact c3 w hw
        · intro s hs
          unfold OneStep.upd
          split
          · rename_i hsr
            rw [hsr]
          · rename_i hsr
            have hs' : s ≤ r := hs
            exact ih s (by omega) (by omega)
      · rw [← scheme_form, stage_congr _ _ _ _ _ y _, scheme_form]
        · exact b3 w hw
        · intro s hs
          unfold OneStep.upd
          split
          · rename_i hsr
            rw [hsr]
          · rfl

omit [IsStrictOrderedRing K] [Inhabited I] in
/-- What a step of the one-step theta method solves. -/
theorem theta_step (add intorderadd : Int) (scaling : K) (pb : Transient K P Q I d n) (t : Trafo I K) (theta time dt : K) (mode : DTMode) (g : K → I → K)
    (x : Nat → I → K) (hx : StepSolution add intorderadd scaling t pb (OneStep.oneStepTheta theta) time dt mode g x) :
    Conforming t (x 1) ∧ (∀ k, t.Dirichlet k → x 1 k = g (time + dt) k) ∧ ∀ w, Homogeneous t w →
      (OneStep.factors mode dt).2 * (massForm intorderadd scaling pb (x 1) w - massForm intorderadd scaling pb (x 0) w) +
      (OneStep.factors mode dt).1 * (theta * weakForm add (pb.at (time + dt)) (x 1) w + (1 - theta) * weakForm add (pb.at time) (x 0) w) = 0 := by
  obtain ⟨h1, h2, h3⟩ := hx 1 (le_refl 1) (le_refl 1)
  have hd0 : (OneStep.oneStepTheta theta).d 0 = 0 := rfl
  have hd1 : (OneStep.oneStepTheta theta).d 1 = 1 := rfl
  refine ⟨h1, fun k hk => ?_, fun w hw => ?_⟩
  · have := h2 k hk
    rwa [hd1, one_mul] at this
  · have := h3 w hw
    unfold schemeForm at this
    have a0 : (OneStep.oneStepTheta theta).a 1 0 = -1 := rfl
    have a1 : (OneStep.oneStepTheta theta).a 1 1 = 1 := rfl
    have b0 : (OneStep.oneStepTheta theta).b 1 0 = 1 - theta := rfl
    have b1 : (OneStep.oneStepTheta theta).b 1 1 = theta := rfl
    simp only [Finset.sum_range_succ, Finset.sum_range_zero, a0, a1, b0, b1, hd0, hd1, zero_mul, add_zero, one_mul] at this
    linear_combination this

/-- **C241 (contraction).** Two runs of the implicit Euler method with the same data and different initial values: the `L2` distance does not grow in a step of
any size, with coefficients that depend on time. -/
theorem C241_contraction (add intorderadd : Int) (scaling : K) (pb : Transient K P Q I d n) (t : Trafo I K)
    (hp : Parabolic add intorderadd scaling t pb) (time dt : K) (hdt : 0 < dt) (mode : DTMode) (g : K → I → K) (x y : Nat → I → K)
    (hx : StepSolution add intorderadd scaling t pb OneStep.implicitEuler time dt mode g x)
    (hy : StepSolution add intorderadd scaling t pb OneStep.implicitEuler time dt mode g y) :
    massForm intorderadd scaling pb (fun k => x 1 k - y 1 k) (fun k => x 1 k - y 1 k) ≤
      massForm intorderadd scaling pb (fun k => x 0 k - y 0 k) fun k => x 0 k - y 0 k := by
  obtain ⟨x1, x2, x3⟩ := theta_step add intorderadd scaling pb t 1 time dt mode g x hx
  obtain ⟨y1, y2, y3⟩ := theta_step add intorderadd scaling pb t 1 time dt mode g y hy
  have hf := factors_pos mode dt hdt
  have he : Homogeneous t fun k => x 1 k - y 1 k := ⟨conforming_sub x1 y1, fun k hk => by simp only [x2 k hk, y2 k hk, sub_self]⟩
  have ex := x3 _ he
  have ey := y3 _ he
  have hb := bilinear_sub (meshParts add (pb.at (time + dt))) _ _ (parts_affine add _ (hp.dissipative _).conditions) (x 1) (y 1) fun k => x 1 k - y 1 k
  have hc := coercive add t (pb.at (time + dt)) (hp.dissipative _) (hp.incompressible _) _ he
  have hn := energy_nonneg add (pb.at (time + dt)) (hp.dissipative _) fun k => x 1 k - y 1 k
  rw [hb] at hc
  unfold ConstrainedSolve.bilinear at hc
  simp only [form_weak] at hc
  have hm := mass_nonneg add intorderadd scaling t pb hp fun k => (x 1 k - y 1 k) - (x 0 k - y 0 k)
  have s1 := mass_sub_left intorderadd scaling pb (x 1) (y 1) fun k => x 1 k - y 1 k
  have s0 := mass_sub_left intorderadd scaling pb (x 0) (y 0) fun k => x 1 k - y 1 k
  rw [mass_sub_left intorderadd scaling pb (fun k => x 1 k - y 1 k) (fun k => x 0 k - y 0 k),
    mass_symm _ _ _ (fun k => x 1 k - y 1 k) (fun k => (x 1 k - y 1 k) - (x 0 k - y 0 k)),
    mass_symm _ _ _ (fun k => x 0 k - y 0 k) (fun k => (x 1 k - y 1 k) - (x 0 k - y 0 k)),
    mass_sub_left intorderadd scaling pb (fun k => x 1 k - y 1 k) (fun k => x 0 k - y 0 k),
    mass_sub_left intorderadd scaling pb (fun k => x 1 k - y 1 k) (fun k => x 0 k - y 0 k),
    mass_symm _ _ _ (fun k => x 1 k - y 1 k) (fun k => x 0 k - y 0 k)] at hm
  have hprod := mul_nonneg hf.1.le (hn.trans hc)
  have key : (OneStep.factors mode dt).2 * (massForm intorderadd scaling pb (fun k => x 1 k - y 1 k) (fun k => x 1 k - y 1 k) -
      massForm intorderadd scaling pb (fun k => x 0 k - y 0 k) fun k => x 1 k - y 1 k) ≤ 0 := by
    rw [s1, s0]
    linarith
  have key2 := nonpos_of_mul_nonpos_right key hf.2
  linarith

/-- **C241 (contraction, theta).** The same for the one-step theta method with `theta ≥ 1/2`, if the bilinear form is the same at both times (sources and
boundary values may change) and the initial values satisfy the constraints with equal Dirichlet values. -/
theorem C241_contraction_theta (add intorderadd : Int) (scaling : K) (pb : Transient K P Q I d n) (t : Trafo I K)
    (hp : Parabolic add intorderadd scaling t pb) (theta time dt : K) (hth : 1 / 2 ≤ theta) (hdt : 0 < dt) (mode : DTMode) (g : K → I → K)
    (hsame : ∀ x w, weakForm add (pb.at (time + dt)) x w - weakForm add (pb.at (time + dt)) (fun _ => 0) w =
      weakForm add (pb.at time) x w - weakForm add (pb.at time) (fun _ => 0) w) (x y : Nat → I → K)
    (hx0 : Conforming t (x 0)) (hy0 : Conforming t (y 0)) (hd0 : ∀ k, t.Dirichlet k → x 0 k = y 0 k)
    (hx : StepSolution add intorderadd scaling t pb (OneStep.oneStepTheta theta) time dt mode g x)
    (hy : StepSolution add intorderadd scaling t pb (OneStep.oneStepTheta theta) time dt mode g y) :
    massForm intorderadd scaling pb (fun k => x 1 k - y 1 k) (fun k => x 1 k - y 1 k) ≤
      massForm intorderadd scaling pb (fun k => x 0 k - y 0 k) fun k => x 0 k - y 0 k := by
  obtain ⟨x1, x2, x3⟩ := theta_step add intorderadd scaling pb t theta time dt mode g x hx
  obtain ⟨y1, y2, y3⟩ := theta_step add intorderadd scaling pb t theta time dt mode g y hy
  have hf := factors_pos mode dt hdt
  -- the differences
  have he1 : Homogeneous t fun k => x 1 k - y 1 k := ⟨conforming_sub x1 y1, fun k hk => by simp only [x2 k hk, y2 k hk, sub_self]⟩
  have he0 : Homogeneous t fun k => x 0 k - y 0 k := ⟨conforming_sub hx0 hy0, fun k hk => by simp only [hd0 k hk, sub_self]⟩
  set p := meshParts add (pb.at (time + dt)) with hpp
  have haff := parts_affine add (pb.at (time + dt)) (hp.dissipative _).conditions
  rw [← hpp] at haff
  set e1 : I → K := fun k => x 1 k - y 1 k with hE1
  set e0 : I → K := fun k => x 0 k - y 0 k with hE0
  -- bilinear form of the differences
  have hb1 : ∀ w, bilinear p e1 w = weakForm add (pb.at (time + dt)) (x 1) w - weakForm add (pb.at (time + dt)) (y 1) w := by
    intro w
    rw [hE1, bilinear_sub p _ _ haff]
    unfold ConstrainedSolve.bilinear
    rw [hpp]
    simp only [form_weak]
    ring
  have hb0 : ∀ w, bilinear p e0 w = weakForm add (pb.at time) (x 0) w - weakForm add (pb.at time) (y 0) w := by
    intro w
    rw [hE0, bilinear_sub p _ _ haff]
    unfold ConstrainedSolve.bilinear
    rw [hpp]
    simp only [form_weak]
    have a := hsame (x 0) w
    have b := hsame (y 0) w
    linear_combination a - b
  have heq : ∀ w, Homogeneous t w → (OneStep.factors mode dt).2 * (massForm intorderadd scaling pb e1 w - massForm intorderadd scaling pb e0 w) +
      (OneStep.factors mode dt).1 * (theta * bilinear p e1 w + (1 - theta) * bilinear p e0 w) = 0 := by
    intro w hw
    have a := x3 w hw
    have b := y3 w hw
    rw [hE1, hE0, mass_sub_left, mass_sub_left, ← hE1, ← hE0, hb1, hb0]
    linear_combination a - b
  -- linearity in the test function
  have hsplit : ∀ v, bilinear p (fun k => theta * e1 k + (1 - theta) * e0 k) v = theta * bilinear p e1 v + (1 - theta) * bilinear p e0 v := by
    intro v
    rw [bilinear_affine p _ _ haff, bilinear_affine p _ _ haff, bilinear_affine p _ _ haff, ← pair_smul_right, ← pair_smul_right, ← pair_add_right]
    refine pair_congr _ _ _ _ _ (fun _ => rfl) fun q _ i _ => ?_
    unfold localProduct
    rw [← List.sum_map_mul_left, ← List.sum_map_mul_left, ← List.sum_map_add]
    congr 1
    exact List.map_congr_left fun j _ => by ring
  have hw : Homogeneous t fun k => theta * e1 k + (1 - theta) * e0 k := by
    refine ⟨fun k row hm hn => ?_, fun k hk => by simp only [he1.2 k hk, he0.2 k hk, mul_zero, add_zero]⟩
    simp only
    rw [he1.1 k row hm hn, he0.1 k row hm hn, ← List.sum_map_mul_left, ← List.sum_map_mul_left, ← List.sum_map_add]
    congr 1
    exact List.map_congr_left fun j _ => by ring
  have hc := coercive add t (pb.at (time + dt)) (hp.dissipative _) (hp.incompressible _) _ hw
  have hn := energy_nonneg add (pb.at (time + dt)) (hp.dissipative _) fun k => theta * e1 k + (1 - theta) * e0 k
  have h0 := heq _ hw
  rw [← hpp, hsplit] at hc
  have hms : ∀ v, massForm intorderadd scaling pb v (fun k => theta * e1 k + (1 - theta) * e0 k) =
      theta * massForm intorderadd scaling pb v e1 + (1 - theta) * massForm intorderadd scaling pb v e0 := by
    intro v
    rw [mass_symm]
    have : (fun k => theta * e1 k + (1 - theta) * e0 k) = fun k => theta * e1 k - (theta - 1) * e0 k := by funext k; ring
    rw [this, mass_sub_left intorderadd scaling pb (fun k => theta * e1 k) (fun k => (theta - 1) * e0 k), mass_smul, mass_smul,
      mass_symm _ _ _ e1, mass_symm _ _ _ e0]
    ring
  rw [hms, hms] at h0
  have hm := mass_nonneg add intorderadd scaling t pb hp fun k => e1 k - e0 k
  rw [mass_sub_left intorderadd scaling pb e1 e0, mass_symm _ _ _ e1 (fun k => e1 k - e0 k), mass_symm _ _ _ e0 (fun k => e1 k - e0 k),
    mass_sub_left intorderadd scaling pb e1 e0, mass_sub_left intorderadd scaling pb e1 e0, mass_symm _ _ _ e1 e0] at hm
  rw [mass_symm _ _ _ e1 e0] at h0
  have hprod := mul_nonneg hf.1.le (hn.trans hc)
  have key : (OneStep.factors mode dt).2 * (theta * massForm intorderadd scaling pb e1 e1 + (1 - theta) * massForm intorderadd scaling pb e0 e1 -
      (theta * massForm intorderadd scaling pb e0 e1 + (1 - theta) * massForm intorderadd scaling pb e0 e0)) ≤ 0 := by linarith
  have key2 := nonpos_of_mul_nonpos_right key hf.2
  have key3 := mul_nonneg (sub_nonneg.mpr hth) hm
  nlinarith

/-- **C241 (all steps).** Many steps of the implicit Euler method of any sizes: step `j` starts at time `T j` with the result of the step before. -/
theorem C241_contraction_steps (add intorderadd : Int) (scaling : K) (pb : Transient K P Q I d n) (t : Trafo I K)
    (hp : Parabolic add intorderadd scaling t pb) (T : Nat → K) (hT : ∀ j, T j < T (j + 1)) (mode : DTMode) (g : K → I → K) (x y : Nat → Nat → I → K)
    (hx : ∀ j, StepSolution add intorderadd scaling t pb OneStep.implicitEuler (T j) (T (j + 1) - T j) mode g (x j) ∧ x (j + 1) 0 = x j 1)
    (hy : ∀ j, StepSolution add intorderadd scaling t pb OneStep.implicitEuler (T j) (T (j + 1) - T j) mode g (y j) ∧ y (j + 1) 0 = y j 1) (j : Nat) :
    massForm intorderadd scaling pb (fun k => x j 0 k - y j 0 k) (fun k => x j 0 k - y j 0 k) ≤
      massForm intorderadd scaling pb (fun k => x 0 0 k - y 0 0 k) fun k => x 0 0 k - y 0 0 k := by
  induction j with
  | zero => exact le_refl _
  | succ j ih =>
    rw [(hx j).2, (hy j).2]
    exact (C241_contraction add intorderadd scaling pb t hp (T j) _ (sub_pos.mpr (hT j)) mode g (x j) (y j) (hx j).1 (hy j).1).trans ih

omit [IsStrictOrderedRing K] [Inhabited I] in
/-- **C241 (balance).** Without Dirichlet conditions (and if the constraints of hanging nodes preserve constants), for basis functions that add up to one: the
equation of every stage is a balance of the amount of substance, where gains and losses are those of the sources, the reaction and the flow through the
boundary. -/
theorem C241_balance (add intorderadd : Int) (scaling : K) (pb : Transient K P Q I d n) (t : Trafo I K) (h1 : Homogeneous t fun _ => 1)
    (hu : PartitionOfUnity pb) (S : Scheme K) (time dt : K) (mode : DTMode) (g : K → I → K) (x : Nat → I → K)
    (hx : StepSolution add intorderadd scaling t pb S time dt mode g x) (r : Nat) (hr : 1 ≤ r) (hr' : r ≤ S.s) :
    ∑ s ∈ Finset.range (r + 1), (S.a r s * (OneStep.factors mode dt).2 * amount intorderadd scaling pb (x s) +
      S.b r s * (OneStep.factors mode dt).1 * loss add (pb.at (time + S.d s * dt)) (x s)) = 0 := by
  have key := (hx r hr hr').2.2 _ h1
  have hv : ∀ c p, value (pb.lfs c) (fun _ => 1) p = 1 := by
    intro c p
    unfold value
    simp only [one_mul]
    exact (hu c p).1
  have hg : ∀ c p, gradient (pb.geo c) (pb.lfs c) (fun _ => 1) p = 0 := by
    intro c p
    unfold gradient
    simp only [one_smul]
    rw [← Matrix.mulVec_sum, (hu c p).2, Matrix.mulVec_zero]
  have hm : ∀ y, massForm intorderadd scaling pb y (fun _ => 1) = amount intorderadd scaling pb y := by
    intro y
    unfold massForm amount
    simp only [hv, mul_one]
  have hw : ∀ τ y, weakForm add (pb.at τ) y (fun _ => 1) = loss add (pb.at τ) y := by
    intro τ y
    unfold weakForm loss
    congr 1
    · refine Finset.sum_congr rfl fun c _ => integrate_congr _ _ _ _ fun q _ => ?_
      have e1 : value ((pb.at τ).lfs c) ((pb.at τ).onCell (fun _ => 1) c) q.1 = 1 := hv c q.1
      have e2 : gradient ((pb.at τ).geo c) ((pb.at τ).lfs c) ((pb.at τ).onCell (fun _ => 1) c) q.1 = 0 := hg c q.1
      simp only [e1, e2, dotProduct_zero, mul_zero, mul_one, sub_zero, zero_add]
    · congr 1
      refine List.map_congr_left fun F _ => integrateFace_congr _ _ _ _ fun q _ => ?_
      have e1 : value ((pb.at τ).lfs F.inside) ((pb.at τ).onCell (fun _ => 1) F.inside) (F.geo.inInside q.1) = 1 := hv _ _
      unfold faceFlux
      cases F.par.bctype F.geo.center <;> simp only [e1, mul_one]
  unfold schemeForm at key
  simp only [hm, hw] at key
  exact key

/-- **C241 (schemes).** The built-in schemes meet the assumptions: the one-step theta methods (unless `theta` is within 10^-6 of 0 or 1 without being equal),
the explicit and implicit Euler methods, Heun, Shu, Runge-Kutta, Alexander of order 2 and 3 and the fractional step method. -/
theorem C241_schemes (theta r alpha : K) (ht0 : theta = 0 ∨ theta > 1 / 1000000)
    (ht1 : theta = 1 ∨ 1 - theta > 1 / 1000000) (hr1 : 141/100 < r) (hr2 : r < 142/100) (ha1 : 43/100 < alpha)
    (ha2 : alpha < 44/100) :
    ∀ S ∈ [OneStep.oneStepTheta theta, OneStep.explicitEuler, OneStep.implicitEuler, OneStep.heun, OneStep.shu3, OneStep.rk4, OneStep.alexander2 r,
      OneStep.fractionalStep r, OneStep.alexander3 alpha], SolvableStages S := by
  intro S hS k h1 hk
  obtain ⟨e1, e2⟩ := C23_builtin_schemes theta r alpha ht0 ht1 hr1 hr2 ha1 ha2 S hS k h1 hk
  refine ⟨e1, ?_, e2⟩
  have hth : 0 ≤ theta := by rcases ht0 with h | h <;> linarith
  simp only [List.mem_cons, List.not_mem_nil, or_false] at hS
  rcases hS with rfl | rfl | rfl | rfl | rfl | rfl | rfl | rfl | rfl
  · simp only [OneStep.oneStepTheta] at hk
    interval_cases k
    exact hth
  · simp only [OneStep.explicitEuler, OneStep.oneStepTheta] at hk
    interval_cases k
    exact le_refl _
  · simp only [OneStep.implicitEuler, OneStep.oneStepTheta] at hk
    interval_cases k
    exact zero_le_one
  · simp only [OneStep.heun] at hk
    interval_cases k <;> simp [OneStep.Scheme.b, OneStep.heun]
  · simp only [OneStep.shu3] at hk
    interval_cases k <;> simp [OneStep.Scheme.b, OneStep.shu3]
  · simp only [OneStep.rk4] at hk
    interval_cases k <;> simp [OneStep.Scheme.b, OneStep.rk4]
  · simp only [OneStep.alexander2] at hk
    interval_cases k <;> simp [OneStep.Scheme.b, OneStep.alexander2] <;> linarith
  · simp only [OneStep.fractionalStep] at hk
    interval_cases k <;> simp [OneStep.Scheme.b, OneStep.fractionalStep] <;> nlinarith
  · simp only [OneStep.alexander3] at hk
    interval_cases k <;> simp [OneStep.Scheme.b, OneStep.alexander3] <;> linarith

end

/-! A concrete case: the problem of C237 with a source that grows with time. -/

def femTransient : Transient ℚ ℚ Unit (Fin 3) 1 (N := 2) fun _ => 2 where
  geo := femMesh.geo
  lfs := femMesh.lfs
  dof := femMesh.dof
  par τ _ := { cdPar with f := fun _ => 5 * τ }
  boundary := [fun _ => ⟨dgLeft, 0, cdFacePar .dirichlet⟩, fun _ => ⟨cdFace, 1, cdFacePar .outflow⟩]

theorem fem_mass (x w : Fin 3 → ℚ) : massForm 0 1 femTransient x w =
    5 / 32 * (x 0 * w 0 + x 1 * w 1) + 3 / 32 * (x 0 * w 1 + x 1 * w 0) + (5 / 32 * (x 1 * w 1 + x 2 * w 2) + 3 / 32 * (x 1 * w 2 + x 2 * w 1)) := by
  simp only [massForm, integrate, femTransient, femMesh]
  simp only [value, cdGeo, cdBasis, List.map_cons, List.map_nil, List.sum_cons, List.sum_nil, Fin.sum_univ_two]
  norm_num
  ring

theorem femTransient_parabolic : Parabolic 0 0 1 femTrafo femTransient where
  dissipative _ := ⟨femMesh_elliptic.weights, femMesh_elliptic.faceWeights, femMesh_elliptic.diffusion, femMesh_elliptic.reaction,
    femMesh_elliptic.conditions⟩
  incompressible _ := ⟨femMesh_incompressible.divergence, femMesh_incompressible.boundary⟩
  massWeights := femMesh_elliptic.weights
  nonneg := zero_le_one
  definite w hw h k := by
    have h0 := fem_dirichlet w hw
    rw [fem_mass, h0] at h
    have s1 := sq_nonneg (w 1)
    have s2 := sq_nonneg (w 2 + 3 / 5 * w 1)
    have z1 : w 1 ^ 2 = 0 := le_antisymm (by nlinarith) s1
    have e1 := pow_eq_zero_iff two_ne_zero |>.mp z1
    have z2 : w 2 ^ 2 = 0 := by rw [e1] at h; nlinarith
    have e2 := pow_eq_zero_iff two_ne_zero |>.mp z2
    fin_cases k
    · exact h0
    · exact e1
    · exact e2

theorem femTransient_at : femTransient.at 1 = femMesh := by
  unfold Transient.at femTransient femMesh cdPar
  simp

theorem femTrafo_conforming (x : Fin 3 → ℚ) : Conforming femTrafo x := by
  intro k row hm hn
  simp only [femTrafo, List.mem_singleton, Prod.mk.injEq] at hm
  exact absurd hm.2 hn

/-- The theorems apply: a step of the implicit Euler method of size 1 from (7, 1, 2) leads to (7, 324205/59089, 269440/59089). -/
example (symmetric : Bool) (ci0 : Nat → Fin 3) (st0 : St ℚ (Fin 3 → ℚ) (Fin 3 → ℚ)) (m : OSM Nat) (mem : Nat → Fin 3 → ℚ) (h : mem 0 = ![7, 1, 2]) :
    (m.apply (stageEnv femTrafo symmetric ci0 femTransient.pattern OneStep.implicitEuler 0 1 .divideOperator1ByDT (femTransient.spatial 0)
      (femTransient.temporal 0 1) femTransient.trace st0 chosen (fun _ _ => 7) ⟨0, 0, 0, 1⟩) mem ()).2.1.mem 1 =
      ![7, 324205 / 59089, 269440 / 59089] := by
  obtain ⟨-, -, -, h4⟩ := C241_step (σ := Unit) 0 0 1 femTransient femTrafo femTrafo_admissible (fun _ => femMesh_constrained) femTransient_parabolic symmetric ci0
    OneStep.implicitEuler (C241_schemes (K := ℚ) 1 (1415/1000) (435/1000) (Or.inr (by norm_num)) (Or.inl rfl) (by norm_num) (by norm_num) (by norm_num)
      (by norm_num) _ (by simp)) 0 1 one_pos .divideOperator1ByDT st0 chosen chosen_exact (fun _ _ => 7) (⟨0, 0, 0, 1⟩ : PDERes Nat) m mem ()
  refine (h4 (fun s => if s = 0 then ![7, 1, 2] else ![7, 324205 / 59089, 269440 / 59089]) h.symm (fun r h1 h2 => ?_) 1 (le_refl 1)).symm
  have hr : r = 1 := le_antisymm h2 h1
  subst hr
  refine ⟨femTrafo_conforming _, fun k hk => ?_, fun w hw => ?_⟩
  · simp only [femTrafo, Trafo.Dirichlet, List.mem_singleton, Prod.mk.injEq] at hk
    rw [hk.1]
    rfl
  · have a0 : (OneStep.implicitEuler : Scheme ℚ).a 1 0 = -1 := rfl
    have a1 : (OneStep.implicitEuler : Scheme ℚ).a 1 1 = 1 := rfl
    have b0 : (OneStep.implicitEuler : Scheme ℚ).b 1 0 = 1 - 1 := rfl
    have b1 : (OneStep.implicitEuler : Scheme ℚ).b 1 1 = 1 := rfl
    have d1 : (OneStep.implicitEuler : Scheme ℚ).d 1 = 1 := rfl
    unfold schemeForm
    simp only [Finset.sum_range_succ, Finset.sum_range_zero, a0, a1, b0, b1, d1, sub_self, zero_mul, add_zero, one_mul, zero_add, OneStep.factors,
      if_true, femTransient_at, one_ne_zero, if_false]
    rw [fem_weakForm, fem_mass, fem_mass, fem_dirichlet w hw]
    change -1 * (1 / 1) * (5 / 32 * (7 * 0 + 1 * w 1) + 3 / 32 * (7 * w 1 + 1 * 0) + (5 / 32 * (1 * w 1 + 2 * w 2) + 3 / 32 * (1 * w 2 + 2 * w 1))) +
      (1 / 1 * (5 / 32 * (7 * 0 + 324205 / 59089 * w 1) + 3 / 32 * (7 * w 1 + 324205 / 59089 * 0) +
        (5 / 32 * (324205 / 59089 * w 1 + 269440 / 59089 * w 2) + 3 / 32 * (324205 / 59089 * w 2 + 269440 / 59089 * w 1))) +
      ((3 * 2 * (324205 / 59089 - 7) * (w 1 - 0) - (7 + 324205 / 59089) / 2 * (w 1 - 0) +
        2 * (5 / 32 * (7 * 0 + 324205 / 59089 * w 1) + 3 / 32 * (7 * w 1 + 324205 / 59089 * 0)) - 5 * (0 + w 1) / 4) +
        (3 * 2 * (269440 / 59089 - 324205 / 59089) * (w 2 - w 1) - (324205 / 59089 + 269440 / 59089) / 2 * (w 2 - w 1) +
        2 * (5 / 32 * (324205 / 59089 * w 1 + 269440 / 59089 * w 2) + 3 / 32 * (324205 / 59089 * w 2 + 269440 / 59089 * w 1)) - 5 * (w 1 + w 2) / 4) +
        (269440 / 59089 + 4) * w 2)) = 0
    ring

/-- Two runs with the same data. -/
example (x y : Nat → Fin 3 → ℚ) (g : ℚ → Fin 3 → ℚ) (hx : StepSolution 0 0 1 femTrafo femTransient OneStep.implicitEuler 3 (1 / 10) .multiplyOperator0ByDT g x)
    (hy : StepSolution 0 0 1 femTrafo femTransient OneStep.implicitEuler 3 (1 / 10) .multiplyOperator0ByDT g y) :
    massForm 0 1 femTransient (fun k => x 1 k - y 1 k) (fun k => x 1 k - y 1 k) ≤ massForm 0 1 femTransient (fun k => x 0 k - y 0 k) fun k => x 0 k - y 0 k :=
  C241_contraction 0 0 1 femTransient femTrafo femTransient_parabolic 3 (1 / 10) (by norm_num) _ g x y hx hy

/-- The Crank-Nicolson method: sources do not matter for the distance of two runs. -/
example (x y : Nat → Fin 3 → ℚ) (g : ℚ → Fin 3 → ℚ) (h0 : x 0 0 = y 0 0)
    (hx : StepSolution 0 0 1 femTrafo femTransient (OneStep.oneStepTheta (1 / 2)) 3 (1 / 10) .multiplyOperator0ByDT g x)
    (hy : StepSolution 0 0 1 femTrafo femTransient (OneStep.oneStepTheta (1 / 2)) 3 (1 / 10) .multiplyOperator0ByDT g y) :
    massForm 0 1 femTransient (fun k => x 1 k - y 1 k) (fun k => x 1 k - y 1 k) ≤ massForm 0 1 femTransient (fun k => x 0 k - y 0 k) fun k => x 0 k - y 0 k := by
  refine C241_contraction_theta 0 0 1 femTransient femTrafo femTransient_parabolic (1 / 2) 3 (1 / 10) (le_refl _) (by norm_num) _ g (fun x w => ?_) x y
    (femTrafo_conforming _) (femTrafo_conforming _) (fun k hk => ?_) hx hy
  · have : ∀ τ, weakForm 0 (femTransient.at τ) x w - weakForm 0 (femTransient.at τ) (fun _ => 0) w =
        bilinear (meshParts 0 (femTransient.at τ)) x w := by
      intro τ
      unfold ConstrainedSolve.bilinear
      rw [form_weak, form_weak]
    rw [this, this, bilinear_eq, bilinear_eq]
    rfl
  · simp only [femTrafo, Trafo.Dirichlet, List.mem_singleton, Prod.mk.injEq] at hk
    rw [hk.1, h0]

/-- Balance: with Neumann conditions on the left. -/
example (x : Nat → Fin 3 → ℚ) (g : ℚ → Fin 3 → ℚ) :
    let pb : Transient ℚ ℚ Unit (Fin 3) 1 (N := 2) fun _ => 2 :=
      { femTransient with boundary := [fun _ => ⟨dgLeft, 0, cdFacePar .neumann⟩, fun _ => ⟨cdFace, 1, cdFacePar .outflow⟩] }
    StepSolution 0 0 1 ⟨[], false⟩ pb OneStep.implicitEuler 3 (1 / 10) .divideOperator1ByDT g x →
      amount 0 1 pb (x 1) = amount 0 1 pb (x 0) - 1 / 10 * loss 0 (pb.at (3 + 1 / 10)) (x 1) := by
  intro pb hx
  have key := C241_balance 0 0 1 pb ⟨[], false⟩ ⟨fun k row hm => by simp at hm, fun k hk => by simp [Trafo.Dirichlet] at hk⟩
    (fun c p => ⟨by simp [pb, femTransient, femMesh, cdBasis], by funext i; simp [pb, femTransient, femMesh, cdBasis]⟩) _ 3 (1 / 10) _ g x hx 1 (le_refl 1) (le_refl 1)
  have a0 : (OneStep.implicitEuler : Scheme ℚ).a 1 0 = -1 := rfl
  have a1 : (OneStep.implicitEuler : Scheme ℚ).a 1 1 = 1 := rfl
  have b0 : (OneStep.implicitEuler : Scheme ℚ).b 1 0 = 1 - 1 := rfl
  have b1 : (OneStep.implicitEuler : Scheme ℚ).b 1 1 = 1 := rfl
  have d1 : (OneStep.implicitEuler : Scheme ℚ).d 1 = 1 := rfl
  simp only [Finset.sum_range_succ, Finset.sum_range_zero, a0, a1, b0, b1, d1, sub_self, zero_mul, add_zero, one_mul, zero_add, OneStep.factors] at key
  linear_combination (1 / 10) * key

end Verif
