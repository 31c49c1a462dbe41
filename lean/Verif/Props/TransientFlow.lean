import Verif.Proofs.TransientFlow
import Verif.Proofs.DGSolve
import Verif.Props.ConstrainedSolve
import Verif.Props.TransientSolve
import Verif.Props.VectorMesh
/-
C252: the instationary (Navier-)Stokes equations with Taylor-Hood elements: from the local operators through the grid operators, the solver and the time-stepping
loop to the flow.
-/
namespace Verif
open LocalOp LocalOp.Spec LocalOp.TaylorHood ConstrainedSolve Constraints VectorMesh TransientFlow
open OneStep (St Scheme DTMode OSM PDERes factors)

section
variable {K P Q I : Type} [Field K] [LinearOrder K] [IsStrictOrderedRing K] [Inhabited I] [DecidableEq I] {d N : Nat} {n m : Fin N → Nat}

omit [IsStrictOrderedRing K] in
/-- **C252 (assembly).** What is assembled of the spatial operator at a time is the weak form of the stationary equations with the coefficients and boundary
conditions of that time; what is assembled of the temporal operator is the integral of `ρ u·v`, whatever the pressures. -/
theorem C252_assembled (s sm : Int) (pb : Transient K P Q I d n m) (τ : K) (mesh : Mesh K P Q I d n m) (hi : mesh.isSimplex = pb.isSimplex)
    (hg : mesh.geo = pb.geo) (hp : mesh.par = pb.par τ) (hv : mesh.v = pb.v) (hq : mesh.p = pb.p) (hd : mesh.dof = pb.dof)
    (hb : mesh.boundary = pb.boundary.map fun F => F τ) (x w : I → K) :
    form (partsAt (pb.spatial s) pb.trace τ) x w = weakForm s mesh x w ∧ form (partsAt (pb.temporal sm) pb.trace τ) x w = massForm sm pb x w := by
  have e : pb.at τ = mesh := by
    cases mesh
    simp only at hi hg hp hv hq hd hb
    subst hi hg hp hv hq hd hb
    rfl
  exact ⟨by rw [form_spatial, e], form_temporal sm pb τ x w⟩

/-- **C252 (step).** `OneStepMethod::apply` for a stable Stokes problem and a scheme with implicit stages: although the temporal operator has no pressure rows, the
step succeeds, keeps the old value, and velocities and pressures of the stages are the only ones that solve the equations of the scheme. -/
theorem C252_step [Fintype I] {σ T : Type} [Add T] [Zero T] (s sm : Int) (pb : Transient K P Q I d n m) (t : Trafo I K) (ht : Admissible t)
    (pressureDof : I → Bool) (hsep : Separated t (pb.at 0) pressureDof) (hst : StableFlow s sm t pb pressureDof) (symmetric : Bool) (ci0 : Nat → I) (S : Scheme K) (hS : ImplicitStages S) (time dt : K) (hdt : 0 < dt) (mode : DTMode)
    (st0 : St K (I → K) (I → K)) (solve : Assembly.Matrix I K → (I → K) → I → K) (hs : Exact solve) (g : K → I → K) (res : PDERes T) (o : OSM T)
    (mem : Nat → I → K) (st : σ) :
    let out := o.apply (stageEnv t symmetric ci0 pb.pattern S time dt mode (pb.spatial s) (pb.temporal sm) pb.trace st0 solve g res) mem st
    out.1 = .success ∧ out.2.1.mem 0 = mem 0 ∧ StepSolution s sm t pb S time dt mode g out.2.1.mem ∧
      ∀ y, y 0 = mem 0 → StepSolution s sm t pb S time dt mode g y → ∀ r, r ≤ S.s → y r = out.2.1.mem r := by
  intro out
  have hf := TransientSolve.factors_pos mode dt hdt
  have hu : ∀ k, ∃ c i, pb.dof c i = k := hsep.used
  obtain ⟨o1, o2, o3, o4⟩ := DGSolve.step t ht symmetric ci0 pb.pattern (pb.spatial s) (pb.temporal sm) pb.trace S time dt mode st0 solve g res o mem st (by
      intro r h1 h2 x guess
      obtain ⟨ha, hb, htc⟩ := hS r h1 h2
      refine TransientSolve.stage _ ht symmetric ci0 pb.pattern ⟨S, time, dt, mode, r⟩ (pb.spatial s) (pb.temporal sm)
        (fun _ _ => ⟨rfl, rfl⟩) pb.trace ha htc ?_ ?_ ?_ ?_ ?_ st0 solve hs x guess
      · exact spatial_fits s t pb hu _
      · exact temporal_fits sm t pb hu _
      · exact spatial_affine s pb _ (hst.stokes _)
      · exact temporal_affine sm pb _
      · intro y hy hw
        simp only [bilinear_spatial, bilinear_temporal] at hw
        exact stage_regular t pb pressureDof hsep s sm hst _ _ _ hf.2 (mul_pos hb hf.1) y hy hw)
  refine ⟨o1, o2, fun r h1 h2 => ?_, fun y hy0 hy r hr => ?_⟩
  · obtain ⟨c1, c2, c3⟩ := o3 r h1 h2
    exact ⟨c1, c2, fun w hw => by rw [← scheme_form]; exact c3 w hw⟩
  · refine o4 y hy0 (fun r h1 h2 => ?_) r hr
    obtain ⟨c1, c2, c3⟩ := hy r h1 h2
    exact ⟨c1, c2, fun w hw => by rw [scheme_form]; exact c3 w hw⟩

/-- **C252 (mass).** With or without convection: if all stages are implicit, mass is conserved at the time of each stage, hence at the end of the step, provided it
is conserved initially or the scheme does not evaluate the spatial operator at the old value. -/
theorem C252_mass (s sm : Int) (pb : Transient K P Q I d n m) (t : Trafo I K) (pressureDof : I → Bool) (hsep : Separated t (pb.at 0) pressureDof)
    (S : Scheme K) (hS : ∀ r, 1 ≤ r → r ≤ S.s → 0 < S.b r r) (time dt : K) (hdt : 0 < dt) (mode : DTMode) (g : K → I → K) (x : Nat → I → K)
    (hx : StepSolution s sm t pb S time dt mode g x)
    (h0 : (∀ r, 1 ≤ r → r ≤ S.s → S.b r 0 = 0) ∨ Conserves s t pb (time + S.d 0 * dt) (x 0)) :
    ∀ r, 1 ≤ r → r ≤ S.s → Conserves s t pb (time + S.d r * dt) (x r) := by
  have hf := TransientSolve.factors_pos mode dt hdt
  intro r
  induction r using Nat.strong_induction_on with
  | _ r ih =>
    intro h1 h2 w hw
    have e := (hx r h1 h2).2.2 _ (homogeneous_alone t pressureDof hsep.rows w hw)
    unfold schemeForm at e
    simp only [mass_alone t pb pressureDof hsep, mul_zero, zero_add] at e
    simp only [flow_mass_form s _ t pressureDof (separated_at t pb pressureDof hsep _)] at e
    rw [Finset.sum_range_succ, Finset.sum_eq_zero, zero_add] at e
    · have e' := (mul_eq_zero.mp e).resolve_left (mul_pos (hS r h1 h2) hf.1).ne'
      exact (sub_eq_zero.mp e').symm
    · intro k hk
      have hk' : k < r := Finset.mem_range.mp hk
      rcases Nat.eq_zero_or_pos k with rfl | hpos
      · rcases h0 with h0 | h0
        · rw [h0 r h1 h2, zero_mul, zero_mul]
        · rw [h0 w hw]
          exact mul_eq_zero_of_right _ (sub_self _)
      · rw [ih k hk' hpos (by omega) w hw]
        exact mul_eq_zero_of_right _ (sub_self _)

/-- **C252 (contraction).** Two runs of the implicit Euler method for a stable Stokes problem with the same data and different initial velocities: the kinetic
energy of the difference does not grow in a step of any size. -/
theorem C252_contraction (s sm : Int) (pb : Transient K P Q I d n m) (t : Trafo I K) (pressureDof : I → Bool) (hsep : Separated t (pb.at 0) pressureDof)
    (hst : StableFlow s sm t pb pressureDof) (time dt : K) (hdt : 0 < dt) (mode : DTMode) (g : K → I → K) (x y : Nat → I → K)
    (hx : StepSolution s sm t pb OneStep.implicitEuler time dt mode g x) (hy : StepSolution s sm t pb OneStep.implicitEuler time dt mode g y) :
    massForm sm pb (fun k => x 1 k - y 1 k) (fun k => x 1 k - y 1 k) ≤ massForm sm pb (fun k => x 0 k - y 0 k) fun k => x 0 k - y 0 k := by
  obtain ⟨x1, x2, x3⟩ := hx 1 (le_refl 1) (le_refl 1)
  obtain ⟨y1, y2, y3⟩ := hy 1 (le_refl 1) (le_refl 1)
  have hf := TransientSolve.factors_pos mode dt hdt
  have he : Homogeneous t fun k => x 1 k - y 1 k := ⟨conforming_sub x1 y1, fun k hk => by simp only [x2 k hk, y2 k hk, sub_self]⟩
  have a0 : (OneStep.implicitEuler : Scheme K).a 1 0 = -1 := rfl
  have a1 : (OneStep.implicitEuler : Scheme K).a 1 1 = 1 := rfl
  have b0 : (OneStep.implicitEuler : Scheme K).b 1 0 = 1 - 1 := rfl
  have b1 : (OneStep.implicitEuler : Scheme K).b 1 1 = 1 := rfl
  have ex := x3 _ (homogeneous_flip t pressureDof hsep.rows _ he)
  have ey := y3 _ (homogeneous_flip t pressureDof hsep.rows _ he)
  unfold schemeForm at ex ey
  simp only [Finset.sum_range_succ, Finset.sum_range_zero, a0, a1, b0, b1, sub_self, zero_mul, add_zero, zero_add, one_mul,
    mass_flip t pb pressureDof hsep] at ex ey
  have hτ := separated_at t pb pressureDof hsep (time + (OneStep.implicitEuler : Scheme K).d 1 * dt)
  have hd := stokes_dissipation t (pb.at (time + (OneStep.implicitEuler : Scheme K).d 1 * dt)) pressureDof hτ s (hst.stokes _) fun k => x 1 k - y 1 k
  rw [← bilinear_spatial, bilinear_sub _ _ _ (spatial_affine s pb _ (hst.stokes _))] at hd
  unfold ConstrainedSolve.bilinear at hd
  simp only [form_spatial] at hd
  have hn := dissipation_nonneg t pb pressureDof hsep s sm hst (time + (OneStep.implicitEuler : Scheme K).d 1 * dt) fun k => x 1 k - y 1 k
  have hm := mass_nonneg t pb pressureDof hsep s sm hst fun k => (x 1 k - y 1 k) - (x 0 k - y 0 k)
  have s1 := mass_sub_left sm pb (x 1) (y 1) fun k => x 1 k - y 1 k
  have s0 := mass_sub_left sm pb (x 0) (y 0) fun k => x 1 k - y 1 k
  rw [mass_sub_left sm pb (fun k => x 1 k - y 1 k) (fun k => x 0 k - y 0 k),
    mass_symm _ _ (fun k => x 1 k - y 1 k) (fun k => (x 1 k - y 1 k) - (x 0 k - y 0 k)),
    mass_symm _ _ (fun k => x 0 k - y 0 k) (fun k => (x 1 k - y 1 k) - (x 0 k - y 0 k)),
    mass_sub_left sm pb (fun k => x 1 k - y 1 k) (fun k => x 0 k - y 0 k),
    mass_sub_left sm pb (fun k => x 1 k - y 1 k) (fun k => x 0 k - y 0 k),
    mass_symm _ _ (fun k => x 1 k - y 1 k) (fun k => x 0 k - y 0 k)] at hm
  have hprod := mul_nonneg hf.1.le hn
  rw [← hd] at hprod
  have key : (factors mode dt).2 * (massForm sm pb (fun k => x 1 k - y 1 k) (fun k => x 1 k - y 1 k) -
      massForm sm pb (fun k => x 0 k - y 0 k) fun k => x 1 k - y 1 k) ≤ 0 := by
    rw [s1, s0]
    linarith
  have key2 := nonpos_of_mul_nonpos_right key hf.2
  linarith

/-- **C252 (history).** Over any number of steps of any sizes, each starting from the result of the step before: with a scheme with implicit stages mass is conserved
after every step if it is so initially, with or without convection; and the kinetic energy of the difference of two runs of the implicit Euler method for a stable
Stokes problem with the same data never exceeds the initial one. -/
theorem C252_history (s sm : Int) (pb : Transient K P Q I d n m) (t : Trafo I K) (pressureDof : I → Bool) (hsep : Separated t (pb.at 0) pressureDof)
    (mode : DTMode) (g : K → I → K) (time dt : Nat → K) (hdt : ∀ i, 0 < dt i) (htime : ∀ i, time (i + 1) = time i + dt i) :
    (∀ (S : Scheme K), 1 ≤ S.s → S.d 0 = 0 → S.d S.s = 1 → (∀ r, 1 ≤ r → r ≤ S.s → 0 < S.b r r) → ∀ x : Nat → Nat → I → K,
        (∀ i, x (i + 1) 0 = x i S.s) → (∀ i, StepSolution s sm t pb S (time i) (dt i) mode g (x i)) →
        Conserves s t pb (time 0) (x 0 0) → ∀ i, Conserves s t pb (time i) (x i 0)) ∧
      (StableFlow s sm t pb pressureDof → ∀ x y : Nat → Nat → I → K, (∀ i, x (i + 1) 0 = x i 1) → (∀ i, y (i + 1) 0 = y i 1) →
        (∀ i, StepSolution s sm t pb OneStep.implicitEuler (time i) (dt i) mode g (x i)) →
        (∀ i, StepSolution s sm t pb OneStep.implicitEuler (time i) (dt i) mode g (y i)) → ∀ i,
        massForm sm pb (fun k => x i 0 k - y i 0 k) (fun k => x i 0 k - y i 0 k) ≤
          massForm sm pb (fun k => x 0 0 k - y 0 0 k) fun k => x 0 0 k - y 0 0 k) := by
  constructor
  · intro S h1 hd0 hd1 hS x hx hstep h0 i
    induction i with
    | zero => exact h0
    | succ i ih =>
      have := C252_mass s sm pb t pressureDof hsep S hS (time i) (dt i) (hdt i) mode g (x i) (hstep i)
        (Or.inr (by rw [hd0, zero_mul, add_zero]; exact ih)) S.s h1 (le_refl _)
      rw [hd1, one_mul, ← htime] at this
      rw [hx]
      exact this
  · intro hst x y hx hy sx sy i
    induction i with
    | zero => exact le_refl _
    | succ i ih =>
      rw [hx, hy]
      exact (C252_contraction s sm pb t pressureDof hsep hst (time i) (dt i) (hdt i) mode g (x i) (y i) (sx i) (sy i)).trans ih

omit [IsStrictOrderedRing K] in
/-- **C252 (explicit stages).** Why the stages have to be implicit: an explicit stage does not determine the pressure. Any pressure can be added to its vector, the
equation of the stage does not change. -/
theorem C252_explicit (s sm : Int) (pb : Transient K P Q I d n m) (t : Trafo I K) (pressureDof : I → Bool) (hsep : Separated t (pb.at 0) pressureDof)
    (S : Scheme K) (r : Nat) (hb : S.b r r = 0) (time dt : K) (mode : DTMode) (x : Nat → I → K) (z : I → K) (hz : ∀ k, pressureDof k = false → z k = 0)
    (w : I → K) :
    schemeForm s sm pb ⟨S, time, dt, mode, r⟩ (OneStep.upd x r fun k => x r k + z k) w = schemeForm s sm pb ⟨S, time, dt, mode, r⟩ x w := by
  have hv : pb.velocity (fun k => x r k + z k) = pb.velocity (x r) := by
    funext c p
    unfold Transient.velocity
    have e : ∀ i, z (pb.dof c (.inl i)) = 0 := fun i => hz _ (hsep.velocity c i)
    simp only [e, add_zero]
  unfold schemeForm
  refine Finset.sum_congr rfl fun k hk => ?_
  have hk' : k < r + 1 := Finset.mem_range.mp hk
  by_cases hkr : k = r
  · subst hkr
    have hu : OneStep.upd x k (fun i => x k i + z i) k = fun i => x k i + z i := by simp [OneStep.upd]
    simp only [hb, zero_mul, add_zero, hu]
    unfold massForm
    rw [hv]
  · have hu : OneStep.upd x r (fun i => x r i + z i) k = x k := by
      unfold OneStep.upd
      rw [if_neg hkr]
    rw [hu]

/-- **C252 (schemes).** Which of the built-in schemes have implicit stages only (the parameters are those of the constructors up to rounding), and which of these do
not evaluate the spatial operator at the old value. -/
theorem C252_schemes (theta r alpha : K) (ht0 : theta > 1 / 1000000) (ht1 : theta = 1 ∨ 1 - theta > 1 / 1000000) (hr1 : 141/100 < r) (hr2 : r < 142/100)
    (ha1 : 43/100 < alpha) (ha2 : alpha < 44/100) :
    (∀ S ∈ [OneStep.oneStepTheta theta, OneStep.implicitEuler, OneStep.alexander2 r, OneStep.fractionalStep r, OneStep.alexander3 alpha], ImplicitStages S) ∧
      ∀ S ∈ [OneStep.implicitEuler, OneStep.alexander2 r, OneStep.alexander3 alpha], ∀ k, 1 ≤ k → k ≤ S.s → S.b k 0 = 0 := by
  constructor
  · intro S hS k h1 hk
    obtain ⟨e1, e2⟩ := C23_builtin_schemes theta r alpha (Or.inr ht0) ht1 hr1 hr2 ha1 ha2 S (by
      simp only [List.mem_cons, List.not_mem_nil, or_false] at hS ⊢
      tauto) k h1 hk
    refine ⟨e1, ?_, e2⟩
    have hne : S.b k k ≠ 0 → 0 ≤ S.b k k → 0 < S.b k k := fun a b => lt_of_le_of_ne b (Ne.symm a)
    have hge := (C241_schemes theta r alpha (Or.inr ht0) ht1 hr1 hr2 ha1 ha2 S (by
      simp only [List.mem_cons, List.not_mem_nil, or_false] at hS ⊢
      tauto) k h1 hk).2.1
    refine hne ?_ hge
    simp only [List.mem_cons, List.not_mem_nil, or_false] at hS
    rcases hS with rfl | rfl | rfl | rfl | rfl
    · simp only [OneStep.oneStepTheta] at hk
      interval_cases k
      have : (OneStep.oneStepTheta theta).b 1 1 = theta := rfl
      rw [this]
      intro h
      rw [h] at ht0
      norm_num at ht0
    · simp only [OneStep.implicitEuler, OneStep.oneStepTheta] at hk
      interval_cases k
      exact one_ne_zero
    · simp only [OneStep.alexander2] at hk
      interval_cases k <;> simp [OneStep.Scheme.b, OneStep.alexander2] <;> intro h <;> linarith
    · simp only [OneStep.fractionalStep] at hk
      interval_cases k <;> simp [OneStep.Scheme.b, OneStep.fractionalStep] <;> refine ⟨?_, ?_⟩ <;> intro h <;> linarith
    · simp only [OneStep.alexander3] at hk
      interval_cases k <;> simp [OneStep.Scheme.b, OneStep.alexander3] <;> intro h <;> linarith
  · intro S hS k h1 hk
    simp only [List.mem_cons, List.not_mem_nil, or_false] at hS
    rcases hS with rfl | rfl | rfl
    · simp only [OneStep.implicitEuler, OneStep.oneStepTheta] at hk
      interval_cases k
      exact sub_self 1
    · simp only [OneStep.alexander2] at hk
      interval_cases k <;> simp [OneStep.Scheme.b, OneStep.alexander2]
    · simp only [OneStep.alexander3] at hk
      interval_cases k <;> simp [OneStep.Scheme.b, OneStep.alexander3]

end

/-! A concrete case: the channel of C250 with a force that grows with time. -/

def stTransient : Transient ℚ ℚ Unit (Fin 5) 1 (N := 2) (fun _ => 2) fun _ => 1 where
  isSimplex := stMesh.isSimplex
  geo := stMesh.geo
  v := stMesh.v
  p := stMesh.p
  dof := stMesh.dof
  par τ c := { stMesh.par c with f := fun _ _ => 5 * τ }
  rho _ _ := 1
  boundary := [fun _ => ⟨0, dgLeft, true, fun _ => .velocityDirichlet, fun _ => 0⟩, fun _ => ⟨1, cdFace, true, fun _ => .stressNeumann, fun _ _ => 2⟩]

theorem stTransient_at : stTransient.at 1 = stMesh := by
  unfold Transient.at stTransient stMesh
  simp

theorem stTransient_separated : Separated stTrafo (stTransient.at 0) stPressure :=
  ⟨stMesh_separated.velocity, stMesh_separated.pressure, stMesh_separated.used, stMesh_separated.rows⟩

theorem st_mass (x w : Fin 5 → ℚ) : massForm 0 stTransient x w =
    5 / 32 * (x 0 * w 0 + x 1 * w 1) + 3 / 32 * (x 0 * w 1 + x 1 * w 0) + (5 / 32 * (x 1 * w 1 + x 2 * w 2) + 3 / 32 * (x 1 * w 2 + x 2 * w 1)) := by
  unfold massForm
  rw [Fin.sum_univ_two]
  simp [quadrature, stTransient, stMesh, cdGeo, cdBasis, Transient.velocity, femFunction, Fin.sum_univ_two, dotProduct]
  norm_num
  ring

theorem stTransient_stable : StableFlow 0 0 stTrafo stTransient stPressure where
  stokes _ _ := rfl
  weights := stMesh_stable.weights
  massWeights c q hq := by
    have hq' : q ∈ [((1 / 4 : ℚ), (1 / 2 : ℚ)), (3 / 4, 1 / 2)] := hq
    change 0 ≤ q.2 * (1 / 2)
    fin_cases hq' <;> norm_num
  mu _ := stMesh_stable.mu
  rho _ _ := zero_le_one
  definite w hw h k hk := by
    have h0 := (st_dirichlet w).mp hw
    rw [st_mass, h0] at h
    have s1 := sq_nonneg (w 1)
    have s2 := sq_nonneg (w 2 + 3 / 5 * w 1)
    have z1 : w 1 ^ 2 = 0 := le_antisymm (by nlinarith) s1
    have e1 := pow_eq_zero_iff two_ne_zero |>.mp z1
    have z2 : w 2 ^ 2 = 0 := by rw [e1] at h; nlinarith
    have e2 := pow_eq_zero_iff two_ne_zero |>.mp z2
    fin_cases k <;> first | exact absurd hk (by decide) | assumption
  infSup _ := stMesh_stable.infSup

theorem implicitEuler_implicit : ImplicitStages (OneStep.implicitEuler : Scheme ℚ) :=
  (C252_schemes (K := ℚ) 1 (1415/1000) (435/1000) (by norm_num) (Or.inl rfl) (by norm_num) (by norm_num) (by norm_num) (by norm_num)).1 _ (by simp)

/-- The theorems apply: a step of the implicit Euler method of size 1 with inflow 7, from velocities 7, 1, 2 (which do not conserve mass), leads to a flow that does. -/
theorem stTransient_run (symmetric : Bool) (ci0 : Nat → Fin 5) (st0 : St ℚ (Fin 5 → ℚ) (Fin 5 → ℚ)) (o : OSM Nat) (mem : Nat → Fin 5 → ℚ) (h : mem 0 = ![7, 1, 2, 0, 0]) :
    (o.apply (stageEnv stTrafo symmetric ci0 stTransient.pattern OneStep.implicitEuler 0 1 .divideOperator1ByDT (stTransient.spatial 0)
      (stTransient.temporal 0) stTransient.trace st0 chosen (fun _ _ => 7) ⟨0, 0, 0, 1⟩) mem ()).2.1.mem 1 = ![7, 7, 7, 31 / 16, 67 / 32] := by
  obtain ⟨-, -, -, h4⟩ := C252_step (σ := Unit) 0 0 stTransient stTrafo stTrafo_admissible stPressure stTransient_separated
    stTransient_stable symmetric ci0 OneStep.implicitEuler implicitEuler_implicit 0 1 one_pos .divideOperator1ByDT st0 chosen chosen_exact (fun _ _ => 7)
    (⟨0, 0, 0, 1⟩ : PDERes Nat) o mem ()
  refine (h4 (fun s => if s = 0 then ![7, 1, 2, 0, 0] else ![7, 7, 7, 31 / 16, 67 / 32]) h.symm (fun r h1 h2 => ?_) 1 (le_refl 1)).symm
  have hr : r = 1 := le_antisymm h2 h1
  subst hr
  refine ⟨fun k row hm hn => absurd (stTrafo_empty hm).2 hn, fun k hk => ?_, fun w hw => ?_⟩
  · rw [(stTrafo_empty hk).1]
    rfl
  · have h0 := (st_dirichlet w).mp hw
    have a0 : (OneStep.implicitEuler : Scheme ℚ).a 1 0 = -1 := rfl
    have a1 : (OneStep.implicitEuler : Scheme ℚ).a 1 1 = 1 := rfl
    have b0 : (OneStep.implicitEuler : Scheme ℚ).b 1 0 = 1 - 1 := rfl
    have b1 : (OneStep.implicitEuler : Scheme ℚ).b 1 1 = 1 := rfl
    have d1 : (OneStep.implicitEuler : Scheme ℚ).d 1 = 1 := rfl
    unfold schemeForm
    simp only [Finset.sum_range_succ, Finset.sum_range_zero, a0, a1, b0, b1, d1, st_mass, factors, sub_self, zero_mul, add_zero, zero_add, one_mul, mul_one,
      if_true, if_false, one_ne_zero, stTransient_at, st_weak]
    simp [h0]
    ring

/- The initial velocities do not conserve mass. -/
example : ¬ Conserves 0 stTrafo stTransient 1 ![7, 1, 2, 0, 0] := by
  intro h
  have h1 := h ![0, 0, 0, 1, 0] ((st_dirichlet _).mpr rfl)
  rw [stTransient_at, st_work] at h1
  have h2 : (1 : ℚ) * (1 - 7) + 0 * (2 - 1) = 0 := by
    refine h1.trans ?_
    rw [Fin.sum_univ_two]
    simp [quadrature, stTransient, stMesh]
  norm_num at h2

/- Explicit stages: a pressure of the first cell is determined by no step of the explicit Euler method. -/
example (x : Nat → Fin 5 → ℚ) (w : Fin 5 → ℚ) :
    schemeForm 0 0 stTransient ⟨OneStep.explicitEuler, 0, 1, .divideOperator1ByDT, 1⟩ (OneStep.upd x 1 fun k => x 1 k + ![0, 0, 0, 1, 0] k) w =
      schemeForm 0 0 stTransient ⟨OneStep.explicitEuler, 0, 1, .divideOperator1ByDT, 1⟩ x w :=
  C252_explicit 0 0 stTransient stTrafo stPressure stTransient_separated OneStep.explicitEuler 1 rfl 0 1 _ x _ (by decide +kernel) w

/- Contraction: two runs with different initial velocities. -/
example (x y : Nat → Fin 5 → ℚ) (hx : StepSolution 0 0 stTrafo stTransient OneStep.implicitEuler 0 1 .divideOperator1ByDT (fun _ _ => 7) x)
    (hy : StepSolution 0 0 stTrafo stTransient OneStep.implicitEuler 0 1 .divideOperator1ByDT (fun _ _ => 7) y) :=
  C252_contraction 0 0 stTransient stTrafo stPressure stTransient_separated stTransient_stable 0 1 one_pos _ _ x y hx hy

/- Mass: here no fluid is stored, the velocity is that of the inflow. -/
example (x : Nat → Fin 5 → ℚ) (hx : StepSolution 0 0 stTrafo stTransient OneStep.implicitEuler 0 1 .divideOperator1ByDT (fun _ _ => 7) x) :
    Conserves 0 stTrafo stTransient (0 + 1 * 1) (x 1) :=
  C252_mass 0 0 stTransient stTrafo stPressure stTransient_separated OneStep.implicitEuler (fun r h1 h2 => (implicitEuler_implicit r h1 h2).2.1) 0 1 one_pos _ _ x hx
    (Or.inl fun r h1 h2 => by
      have : r = 1 := le_antisymm h2 h1
      subst this
      exact sub_self (1 : ℚ)) 1 (le_refl 1) (le_refl 1)

end Verif
