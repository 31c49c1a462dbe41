import Verif.Proofs.DGSolve
import Verif.Props.ConstrainedSolve
import Verif.Props.TransientSolve
/-
C242: the interior penalty discontinuous Galerkin method for the (instationary) convection-diffusion equation: from the local operators through the grid operators,
the solver and the time-stepping loop to the solution.
-/
namespace Verif
open LocalOp LocalOp.Spec LocalOp.DG ConstrainedSolve Constraints DGSolve
open OneStep (St Scheme DTMode OSM PDERes factors)

section
variable {K P Q : Type} [Field K] [LinearOrder K] [IsStrictOrderedRing K] {d N : Nat} {n : Fin N → Nat}

/-- **C242 (assembly).** Assembling throws exactly if an outflow condition is prescribed where the flow enters. Otherwise what is assembled, tested with a function,
is the form of the method. -/
theorem C242_assembled [Inhabited ((c : Fin N) × Fin (n c))] (op : Op K) (mesh : Mesh K P Q d n) (x : MeshVec K n) :
    (throws op mesh x = true ↔ ¬ Accepts op mesh) ∧ (Accepts op mesh → ∀ w, form (meshParts op mesh) x w = dgForm op mesh x w) :=
  ⟨throws_iff op mesh x, fun h w => form_dg op mesh h x w⟩

/-- **C242 (residual).** The residual of the grid operator is zero exactly if the form vanishes for all test functions. -/
theorem C242_residual [Inhabited ((c : Fin N) × Fin (n c))] (op : Op K) (mesh : Mesh K P Q d n) (h : Accepts op mesh) (x : MeshVec K n) :
    (∀ k, residual Trafo.empty (meshParts op mesh) x k = 0) ↔ ∀ w, dgForm op mesh x w = 0 := by
  rw [C232_residual Trafo.empty admissible]
  simp only [form_dg op mesh h]
  exact ⟨fun hx w => hx w (homogeneous w), fun hx w _ => hx w⟩

/-- **C242 (time).** What is assembled of the spatial operator at a time is the form of the mesh with the coefficients and boundary conditions of that time. -/
theorem C242_time [Inhabited ((c : Fin N) × Fin (n c))] (op : Op K) (pb : Transient K P Q d n) (τ : K) (mesh : Mesh K P Q d n) (hg : mesh.geo = pb.geo)
    (hp : mesh.par = pb.par τ) (hl : mesh.lfs = pb.lfs) (hi : mesh.inner = pb.inner) (hb : mesh.boundary = pb.boundary.map fun F => F τ)
    (h : Accepts op mesh) (x w : MeshVec K n) :
    form (partsAt (pb.spatial op) pb.trace τ) x w = dgForm op mesh x w := by
  have e : pb.at τ = mesh := by
    cases mesh
    simp only at hg hp hl hi hb
    subst hg hp hl hi hb
    rfl
  rw [parts_spatial, e, form_dg op mesh h]

/-- **C242 (linear solver).** With a penalty above the threshold `StationaryLinearProblemSolver` returns from any initial guess the solution, with or without the
modifications for hanging nodes. There is only one. -/
theorem C242_solver [Inhabited ((c : Fin N) × Fin (n c))] (op : Op K) (mesh : Mesh K P Q d n) (h : Definite op mesh) (symmetric hanging : Bool)
    (ci0 : Nat → (c : Fin N) × Fin (n c)) (solve : Assembly.Matrix ((c : Fin N) × Fin (n c)) K → MeshVec K n → MeshVec K n) (hs : Exact solve)
    (guess : MeshVec K n) :
    ∃ x, applyLinear Trafo.empty symmetric ci0 (meshPattern mesh) (meshParts op mesh) solve hanging guess = some x ∧ (∀ w, dgForm op mesh x w = 0) ∧
      ∀ y, (∀ w, dgForm op mesh y w = 0) → y = x := by
  have hA := accepts op mesh h.incompressible
  have key : ∃ x, applyLinear Trafo.empty symmetric ci0 (meshPattern mesh) (meshParts op mesh) solve hanging guess = some x ∧
      Galerkin Trafo.empty (meshParts op mesh) x ∧ (∀ k, (Trafo.empty : Trafo ((c : Fin N) × Fin (n c)) K).Dirichlet k → x k = guess k) ∧
      ∀ y, Galerkin Trafo.empty (meshParts op mesh) y →
        (∀ k, (Trafo.empty : Trafo ((c : Fin N) × Fin (n c)) K).Dirichlet k → y k = guess k) → y = x := by
    cases hanging
    · exact C232_dirichlet_only Trafo.empty admissible (fun k row hm => by cases hm) symmetric ci0 (meshPattern mesh) (meshParts op mesh)
        (pattern_fits op mesh _) _ _ (parts_affine op mesh hA) (regular op mesh h) solve hs guess
    · exact C232_linear_solver Trafo.empty admissible symmetric ci0 (meshPattern mesh) (meshParts op mesh)
        (pattern_fits op mesh _) _ _ (parts_affine op mesh hA) (regular op mesh h) solve hs guess
  obtain ⟨x, h1, h2, -, h4⟩ := key
  exact ⟨x, h1, (galerkin_iff op mesh hA x).mp h2, fun y hy => h4 y ((galerkin_iff op mesh hA y).mpr hy) fun k hk => by cases hk⟩

omit [IsStrictOrderedRing K] in
/-- **C242 (conservation).** In each cell whose basis contains the constants the solution balances reaction and sources with what flows through the faces. What
leaves a cell through an inner face enters the other one: over all cells only the flow through the boundary remains. -/
theorem C242_conservation (op : Op K) (mesh : Mesh K P Q d n) (x : MeshVec K n) :
    (∀ c, HasConstants (mesh.lfs c) → (∀ w, dgForm op mesh x w = 0) → netReaction op mesh c x + outOf op mesh c x = 0) ∧
      ∑ c, outOf op mesh c x = (mesh.boundary.map fun F => boundaryFlux op mesh F x).sum :=
  ⟨fun c hc hx => (dg_indicator op mesh c hc x).symm.trans (hx _), out_total op mesh x⟩

/-- **C242 (step).** `OneStepMethod::apply` for a parabolic problem: the step succeeds, keeps the old value, and the vectors of the stages are the only ones that
solve the equations of the scheme. -/
theorem C242_step [Inhabited ((c : Fin N) × Fin (n c))] {σ T : Type} [Add T] [Zero T] (op : Op K) (intorderadd : Int) (scaling : K) (pb : Transient K P Q d n)
    (hp : Parabolic op intorderadd scaling pb) (symmetric : Bool) (ci0 : Nat → (c : Fin N) × Fin (n c)) (S : Scheme K) (hS : FEM.SolvableStages S)
    (time dt : K) (hdt : 0 < dt) (mode : DTMode) (st0 : St K (MeshVec K n) (MeshVec K n))
    (solve : Assembly.Matrix ((c : Fin N) × Fin (n c)) K → MeshVec K n → MeshVec K n) (hs : Exact solve) (g : K → MeshVec K n) (res : PDERes T) (m : OSM T)
    (mem : Nat → MeshVec K n) (st : σ) :
    let out := m.apply (stageEnv Trafo.empty symmetric ci0 pb.pattern S time dt mode (pb.spatial op) (pb.temporal intorderadd scaling) pb.trace st0 solve g res)
      mem st
    out.1 = .success ∧ out.2.1.mem 0 = mem 0 ∧ StepEquations op intorderadd scaling pb S time dt mode out.2.1.mem ∧
      ∀ y, y 0 = mem 0 → StepEquations op intorderadd scaling pb S time dt mode y → ∀ r, r ≤ S.s → y r = out.2.1.mem r := by
  intro out
  have hA : ∀ τ, Accepts op (pb.at τ) := fun τ => accepts op (pb.at τ) (hp.stable τ).incompressible
  have hf := TransientSolve.factors_pos mode dt hdt
  obtain ⟨o1, o2, o3, o4⟩ := step (Trafo.empty : Trafo ((c : Fin N) × Fin (n c)) K) admissible symmetric ci0 pb.pattern (pb.spatial op)
    (pb.temporal intorderadd scaling) pb.trace S time dt mode st0 solve g res m mem st (by
      intro r h1 h2 x guess
      obtain ⟨ha, hb, ht⟩ := hS r h1 h2
      refine TransientSolve.stage _ admissible symmetric ci0 pb.pattern ⟨S, time, dt, mode, r⟩ (pb.spatial op) (pb.temporal intorderadd scaling)
        (fun _ _ => ⟨rfl, rfl⟩) pb.trace ha ht ?_ ?_ ?_ ?_ ?_ st0 solve hs x guess
      · rw [parts_spatial]
        exact pattern_fits op (pb.at (time + S.d r * dt)) Trafo.empty
      · rw [parts_temporal]
        exact mass_fits intorderadd scaling _ pb
      · rw [parts_spatial]
        exact parts_affine op (pb.at _) (hA _)
      · rw [parts_temporal, massPart_eq]
        exact TransientSolve.mass_affine intorderadd scaling (asFEM pb)
      · intro y _ hw
        simp only [parts_spatial, parts_temporal] at hw
        exact stage_regular op intorderadd scaling pb hp _ _ _ hf.2 (mul_nonneg hb hf.1.le) y fun w => hw w (homogeneous w))
  refine ⟨o1, o2, fun r h1 h2 w => ?_, fun y hy0 hy r hr => ?_⟩
  · have := (o3 r h1 h2).2.2 w (homogeneous w)
    rwa [scheme_form op intorderadd scaling pb hA] at this
  · refine o4 y hy0 (fun r h1 h2 => ⟨(homogeneous _).1, fun k hk => (by cases hk), fun w _ => ?_⟩) r hr
    rw [scheme_form op intorderadd scaling pb hA]
    exact hy r h1 h2 w

omit [IsStrictOrderedRing K] in
theorem dg_theta_step (op : Op K) (intorderadd : Int) (scaling : K) (pb : Transient K P Q d n) (theta time dt : K) (mode : DTMode) (x : Nat → MeshVec K n)
    (hx : StepEquations op intorderadd scaling pb (OneStep.oneStepTheta theta) time dt mode x) (w : MeshVec K n) :
    (factors mode dt).2 * (massOf intorderadd scaling pb (x 1) w - massOf intorderadd scaling pb (x 0) w) +
      (factors mode dt).1 * (theta * dgForm op (pb.at (time + dt)) (x 1) w + (1 - theta) * dgForm op (pb.at time) (x 0) w) = 0 := by
  have this := hx 1 (le_refl 1) (le_refl 1) w
  have hd0 : (OneStep.oneStepTheta theta).d 0 = 0 := rfl
  have hd1 : (OneStep.oneStepTheta theta).d 1 = 1 := rfl
  have a0 : (OneStep.oneStepTheta theta).a 1 0 = -1 := rfl
  have a1 : (OneStep.oneStepTheta theta).a 1 1 = 1 := rfl
  have b0 : (OneStep.oneStepTheta theta).b 1 0 = 1 - theta := rfl
  have b1 : (OneStep.oneStepTheta theta).b 1 1 = theta := rfl
  simp only [Finset.sum_range_succ, Finset.sum_range_zero, a0, a1, b0, b1, hd0, hd1, zero_mul, add_zero, one_mul] at this
  linear_combination this

/-- **C242 (contraction).** Two runs of the implicit Euler method with the same data: the `L2` distance does not grow in a step of any size, with coefficients that
depend on time. -/
theorem C242_contraction [Inhabited ((c : Fin N) × Fin (n c))] (op : Op K) (intorderadd : Int) (scaling : K) (pb : Transient K P Q d n)
    (hp : Parabolic op intorderadd scaling pb) (time dt : K) (hdt : 0 < dt) (mode : DTMode) (x y : Nat → MeshVec K n)
    (hx : StepEquations op intorderadd scaling pb OneStep.implicitEuler time dt mode x)
    (hy : StepEquations op intorderadd scaling pb OneStep.implicitEuler time dt mode y) :
    massOf intorderadd scaling pb (fun k => x 1 k - y 1 k) (fun k => x 1 k - y 1 k) ≤
      massOf intorderadd scaling pb (fun k => x 0 k - y 0 k) fun k => x 0 k - y 0 k := by
  have hf := TransientSolve.factors_pos mode dt hdt
  refine contraction intorderadd scaling pb hp.massWeights hp.nonneg 1 _ _ _ (by norm_num) hf.1 hf.2
    (monotone op (pb.at (time + dt)) (hp.stable _) (x 1) (y 1)) _ _ ?_
  have hw : (fun k => 1 * (x 1 k - y 1 k) + (1 - 1) * (x 0 k - y 0 k)) = fun k => x 1 k - y 1 k := by funext k; ring
  rw [hw]
  have ex := dg_theta_step op intorderadd scaling pb 1 time dt mode x hx fun k => x 1 k - y 1 k
  have ey := dg_theta_step op intorderadd scaling pb 1 time dt mode y hy fun k => x 1 k - y 1 k
  have s1 := TransientSolve.mass_sub_left intorderadd scaling (asFEM pb) (x 1) (y 1) fun k => x 1 k - y 1 k
  have s0 := TransientSolve.mass_sub_left intorderadd scaling (asFEM pb) (x 0) (y 0) fun k => x 1 k - y 1 k
  simp only [mass_eq] at ex ey ⊢
  rw [s1, s0]
  linear_combination ex - ey

/-- **C242 (contraction, theta).** The same for the one-step theta method with `theta ≥ 1/2`, if the bilinear form is the same at both times (sources and boundary
values may change). -/
theorem C242_contraction_theta [Inhabited ((c : Fin N) × Fin (n c))] (op : Op K) (intorderadd : Int) (scaling : K) (pb : Transient K P Q d n)
    (hp : Parabolic op intorderadd scaling pb) (theta time dt : K) (hth : 1 / 2 ≤ theta) (hdt : 0 < dt) (mode : DTMode)
    (hsame : ∀ x w, dgForm op (pb.at (time + dt)) x w - dgForm op (pb.at (time + dt)) (fun _ => 0) w =
      dgForm op (pb.at time) x w - dgForm op (pb.at time) (fun _ => 0) w) (x y : Nat → MeshVec K n)
    (hx : StepEquations op intorderadd scaling pb (OneStep.oneStepTheta theta) time dt mode x)
    (hy : StepEquations op intorderadd scaling pb (OneStep.oneStepTheta theta) time dt mode y) :
    massOf intorderadd scaling pb (fun k => x 1 k - y 1 k) (fun k => x 1 k - y 1 k) ≤
      massOf intorderadd scaling pb (fun k => x 0 k - y 0 k) fun k => x 0 k - y 0 k := by
  have hf := TransientSolve.factors_pos mode dt hdt
  have hA : ∀ τ, Accepts op (pb.at τ) := fun τ => accepts op (pb.at τ) (hp.stable τ).incompressible
  set v : MeshVec K n := fun k => theta * (x 1 k - y 1 k) + (1 - theta) * (x 0 k - y 0 k) with hv
  have hm := monotone op (pb.at (time + dt)) (hp.stable _) v fun _ => 0
  simp only [sub_zero] at hm
  refine contraction intorderadd scaling pb hp.massWeights hp.nonneg theta _ _ _ hth hf.1 hf.2 hm _ _ ?_
  rw [← hv]
  have ex := dg_theta_step op intorderadd scaling pb theta time dt mode x hx v
  have ey := dg_theta_step op intorderadd scaling pb theta time dt mode y hy v
  have s1 := TransientSolve.mass_sub_left intorderadd scaling (asFEM pb) (x 1) (y 1) v
  have s0 := TransientSolve.mass_sub_left intorderadd scaling (asFEM pb) (x 0) (y 0) v
  have hb : dgForm op (pb.at (time + dt)) v v - dgForm op (pb.at (time + dt)) (fun _ => 0) v =
      theta * (dgForm op (pb.at (time + dt)) (x 1) v - dgForm op (pb.at (time + dt)) (y 1) v) +
      (1 - theta) * (dgForm op (pb.at time) (x 0) v - dgForm op (pb.at time) (y 0) v) := by
    have d : ∀ a b : MeshVec K n, bilinear (meshParts op (pb.at (time + dt))) (fun k => a k - b k) v =
        bilinear (meshParts op (pb.at (time + dt))) a v - bilinear (meshParts op (pb.at (time + dt))) b v := by
      intro a b
      have : (fun k => a k - b k) = fun k => 1 * a k + (-1) * b k := by funext k; ring
      rw [this, bilinear_combine op (pb.at (time + dt)) (hA _)]
      ring
    have h1 := bilinear_combine op (pb.at (time + dt)) (hA _) theta (1 - theta) (fun k => x 1 k - y 1 k) (fun k => x 0 k - y 0 k) v
    rw [d (x 1), d (x 0), ← hv] at h1
    simp only [bilinear_dg op (pb.at (time + dt)) (hA _)] at h1
    have e := hsame (x 0) v
    have e' := hsame (y 0) v
    linear_combination h1 + (1 - theta) * (e - e')
  simp only [mass_eq] at ex ey ⊢
  rw [s1, s0, hb]
  linear_combination ex - ey

/-- **C242 (all steps).** Many steps of the implicit Euler method of any sizes: step `j` starts at time `T j` with the result of the step before. -/
theorem C242_contraction_steps [Inhabited ((c : Fin N) × Fin (n c))] (op : Op K) (intorderadd : Int) (scaling : K) (pb : Transient K P Q d n)
    (hp : Parabolic op intorderadd scaling pb) (T : Nat → K) (hT : ∀ j, T j < T (j + 1)) (mode : DTMode) (x y : Nat → Nat → MeshVec K n)
    (hx : ∀ j, StepEquations op intorderadd scaling pb OneStep.implicitEuler (T j) (T (j + 1) - T j) mode (x j) ∧ x (j + 1) 0 = x j 1)
    (hy : ∀ j, StepEquations op intorderadd scaling pb OneStep.implicitEuler (T j) (T (j + 1) - T j) mode (y j) ∧ y (j + 1) 0 = y j 1) (j : Nat) :
    massOf intorderadd scaling pb (fun k => x j 0 k - y j 0 k) (fun k => x j 0 k - y j 0 k) ≤
      massOf intorderadd scaling pb (fun k => x 0 0 k - y 0 0 k) fun k => x 0 0 k - y 0 0 k := by
  induction j with
  | zero => exact le_refl _
  | succ j ih =>
    rw [(hx j).2, (hy j).2]
    exact (C242_contraction op intorderadd scaling pb hp (T j) _ (sub_pos.mpr (hT j)) mode (x j) (y j) (hx j).1 (hy j).1).trans ih

omit [IsStrictOrderedRing K] in
/-- **C242 (balance).** The equation of every stage balances, in each cell whose basis contains the constants, the amount of substance with reaction, sources and
the flow through the faces. -/
theorem C242_balance (op : Op K) (intorderadd : Int) (scaling : K) (pb : Transient K P Q d n) (S : Scheme K) (time dt : K) (mode : DTMode)
    (x : Nat → MeshVec K n) (hx : StepEquations op intorderadd scaling pb S time dt mode x) (c : Fin N) (hc : HasConstants (pb.lfs c)) (r : Nat) (hr : 1 ≤ r)
    (hr' : r ≤ S.s) :
    ∑ s ∈ Finset.range (r + 1), (S.a r s * (factors mode dt).2 * amountIn intorderadd scaling pb c (x s) +
      S.b r s * (factors mode dt).1 * (netReaction op (pb.at (time + S.d s * dt)) c (x s) + outOf op (pb.at (time + S.d s * dt)) c (x s))) = 0 := by
  have key := hx r hr hr' (indicator c)
  simp only [mass_indicator intorderadd scaling pb c hc] at key
  have : ∀ τ y, dgForm op (pb.at τ) y (indicator c) = netReaction op (pb.at τ) c y + outOf op (pb.at τ) c y := fun τ y => dg_indicator op (pb.at τ) c hc y
  simp only [this] at key
  exact key

end

/-! A concrete case: the mesh of C235 with two cells, discontinuous coefficients and the penalty parameter 3. -/

instance : Inhabited ((_ : Fin 2) × Fin 2) := ⟨⟨0, 0⟩⟩

theorem dgMesh_reaction (w : MeshVec ℚ fun _ : Fin 2 => 2) (hR : reactionEnergy ⟨.SIPG, true, 3, 0⟩ dgMesh w = 0) : w = 0 := by
  simp only [reactionEnergy, integrate, value, dgMesh, cdGeo, cdBasis, cdPar, List.map_cons, List.map_nil, List.sum_cons, List.sum_nil, onCell] at hR
  norm_num [Fin.sum_univ_two] at hR
  have s1 := sq_nonneg (w ⟨0, 0⟩ * (3 / 4) + w ⟨0, 1⟩ * (1 / 4))
  have s2 := sq_nonneg (w ⟨0, 0⟩ * (1 / 4) + w ⟨0, 1⟩ * (3 / 4))
  have s3 := sq_nonneg (w ⟨1, 0⟩ * (3 / 4) + w ⟨1, 1⟩ * (1 / 4))
  have s4 := sq_nonneg (w ⟨1, 0⟩ * (1 / 4) + w ⟨1, 1⟩ * (3 / 4))
  have z1 := pow_eq_zero_iff two_ne_zero |>.mp (le_antisymm (by linarith : (w ⟨0, 0⟩ * (3 / 4) + w ⟨0, 1⟩ * (1 / 4)) ^ 2 ≤ 0) s1)
  have z2 := pow_eq_zero_iff two_ne_zero |>.mp (le_antisymm (by linarith : (w ⟨0, 0⟩ * (1 / 4) + w ⟨0, 1⟩ * (3 / 4)) ^ 2 ≤ 0) s2)
  have z3 := pow_eq_zero_iff two_ne_zero |>.mp (le_antisymm (by linarith : (w ⟨1, 0⟩ * (3 / 4) + w ⟨1, 1⟩ * (1 / 4)) ^ 2 ≤ 0) s3)
  have z4 := pow_eq_zero_iff two_ne_zero |>.mp (le_antisymm (by linarith : (w ⟨1, 0⟩ * (1 / 4) + w ⟨1, 1⟩ * (3 / 4)) ^ 2 ≤ 0) s4)
  funext ⟨c, i⟩
  fin_cases c <;> fin_cases i <;> simp <;> linarith

theorem dgMesh_definite : Definite ⟨.SIPG, true, 3, 0⟩ dgMesh where
  weightsOn := rfl
  alpha := by norm_num
  conditions := ⟨1, 2, zero_le_one, dgMesh_admissible 3, by decide, by norm_num [crossTerms]⟩
  incompressible := dgMesh_incompressible 3
  definite w _ hR _ := dgMesh_reaction w hR

theorem dgMesh_constants (c : Fin 2) : HasConstants (dgMesh.lfs c) :=
  fun p => ⟨by simp [dgMesh, cdBasis], by funext i; simp [dgMesh, cdBasis]⟩

/-- The computed solution balances sources, reaction (2), the inflow on the left and the outflow `u + 4` on the right. -/
example (symmetric hanging : Bool) (ci0 : Nat → (_ : Fin 2) × Fin 2) (guess : MeshVec ℚ fun _ : Fin 2 => 2) :
    ∃ x, applyLinear Trafo.empty symmetric ci0 (meshPattern dgMesh) (meshParts ⟨.SIPG, true, 3, 0⟩ dgMesh) chosen hanging guess = some x ∧
      ∑ c, netReaction ⟨.SIPG, true, 3, 0⟩ dgMesh c x + (dgMesh.boundary.map fun F => boundaryFlux ⟨.SIPG, true, 3, 0⟩ dgMesh F x).sum = 0 := by
  obtain ⟨x, h1, h2, -⟩ := C242_solver ⟨.SIPG, true, 3, 0⟩ dgMesh dgMesh_definite symmetric hanging ci0 chosen chosen_exact guess
  refine ⟨x, h1, ?_⟩
  obtain ⟨c1, c2⟩ := C242_conservation ⟨.SIPG, true, 3, 0⟩ dgMesh x
  rw [← c2, ← Finset.sum_add_distrib]
  exact Finset.sum_eq_zero fun c _ => c1 c (dgMesh_constants c) h2

/-- An outflow condition on the left is rejected. -/
example : throws ⟨.SIPG, true, 3, 0⟩ { dgMesh with boundary := [⟨dgLeft, 0, cdFacePar .outflow⟩] } (fun _ => 0) = true := by decide +kernel

/-- The mesh with a source that grows with time. -/
def dgTransient : Transient ℚ ℚ Unit 1 (N := 2) fun _ => 2 where
  geo := dgMesh.geo
  lfs := dgMesh.lfs
  par τ c := { dgMesh.par c with f := fun _ => 5 * τ }
  inner := dgMesh.inner
  boundary := dgMesh.boundary.map fun F _ => F

theorem dg_mass (x w : MeshVec ℚ fun _ : Fin 2 => 2) : massOf 0 1 dgTransient x w =
    5 / 32 * (x ⟨0, 0⟩ * w ⟨0, 0⟩ + x ⟨0, 1⟩ * w ⟨0, 1⟩) + 3 / 32 * (x ⟨0, 0⟩ * w ⟨0, 1⟩ + x ⟨0, 1⟩ * w ⟨0, 0⟩) +
    (5 / 32 * (x ⟨1, 0⟩ * w ⟨1, 0⟩ + x ⟨1, 1⟩ * w ⟨1, 1⟩) + 3 / 32 * (x ⟨1, 0⟩ * w ⟨1, 1⟩ + x ⟨1, 1⟩ * w ⟨1, 0⟩)) := by
  simp only [massOf, integrate, dgTransient, dgMesh]
  simp only [value, onCell, cdGeo, cdBasis, List.map_cons, List.map_nil, List.sum_cons, List.sum_nil, Fin.sum_univ_two]
  norm_num
  ring

theorem dgTransient_parabolic : Parabolic ⟨.SIPG, true, 3, 0⟩ 0 1 dgTransient where
  stable _ := {
    weightsOn := rfl
    alpha := by norm_num
    conditions := by
      have a := dgMesh_admissible 3
      exact ⟨1, 2, zero_le_one, ⟨a.dim, a.flag, a.volume, a.degree, a.weights, a.symmetric, a.diffusion, a.reaction, a.inner, a.boundary⟩,
        (by decide : ∀ c, faces dgMesh c ≤ 2), by norm_num [crossTerms]⟩
    incompressible := ⟨(dgMesh_incompressible 3).divergence, (dgMesh_incompressible 3).boundary⟩ }
  massWeights := (dgMesh_admissible 3).weights
  nonneg := zero_le_one
  definite w h k := by
    rw [dg_mass] at h
    have s1 := sq_nonneg (w ⟨0, 0⟩)
    have s2 := sq_nonneg (w ⟨0, 1⟩)
    have s3 := sq_nonneg (w ⟨1, 0⟩)
    have s4 := sq_nonneg (w ⟨1, 1⟩)
    have t1 := sq_nonneg (w ⟨0, 0⟩ + w ⟨0, 1⟩)
    have t2 := sq_nonneg (w ⟨1, 0⟩ + w ⟨1, 1⟩)
    have e1 := pow_eq_zero_iff two_ne_zero |>.mp (le_antisymm (by nlinarith : w ⟨0, 0⟩ ^ 2 ≤ 0) s1)
    have e2 := pow_eq_zero_iff two_ne_zero |>.mp (le_antisymm (by nlinarith : w ⟨0, 1⟩ ^ 2 ≤ 0) s2)
    have e3 := pow_eq_zero_iff two_ne_zero |>.mp (le_antisymm (by nlinarith : w ⟨1, 0⟩ ^ 2 ≤ 0) s3)
    have e4 := pow_eq_zero_iff two_ne_zero |>.mp (le_antisymm (by nlinarith : w ⟨1, 1⟩ ^ 2 ≤ 0) s4)
    obtain ⟨c, i⟩ := k
    fin_cases c <;> fin_cases i <;> assumption

/-- A step of Alexander's second order method (with a number close to √2). -/
example (symmetric : Bool) (ci0 : Nat → (_ : Fin 2) × Fin 2) (st0 : St ℚ (MeshVec ℚ fun _ : Fin 2 => 2) (MeshVec ℚ fun _ => 2)) (m : OSM Nat)
    (mem : Nat → MeshVec ℚ fun _ : Fin 2 => 2) (g : ℚ → MeshVec ℚ fun _ => 2) :
    (m.apply (stageEnv Trafo.empty symmetric ci0 dgTransient.pattern (OneStep.alexander2 (1415/1000)) 0 1 .divideOperator1ByDT
      (dgTransient.spatial ⟨.SIPG, true, 3, 0⟩) (dgTransient.temporal 0 1) dgTransient.trace st0 chosen g ⟨0, 0, 0, 1⟩) mem ()).1 = .success :=
  (C242_step (σ := Unit) _ 0 1 dgTransient dgTransient_parabolic symmetric ci0 _
    (C241_schemes (K := ℚ) 1 (1415/1000) (435/1000) (Or.inr (by norm_num)) (Or.inl rfl) (by norm_num) (by norm_num) (by norm_num) (by norm_num) _ (by simp))
    0 1 one_pos .divideOperator1ByDT st0 chosen chosen_exact g (⟨0, 0, 0, 1⟩ : PDERes Nat) m mem ()).1

/-- Two runs with the same data. -/
example (x y : Nat → MeshVec ℚ fun _ : Fin 2 => 2) (hx : StepEquations ⟨.SIPG, true, 3, 0⟩ 0 1 dgTransient OneStep.implicitEuler 3 (1 / 10) .multiplyOperator0ByDT x)
    (hy : StepEquations ⟨.SIPG, true, 3, 0⟩ 0 1 dgTransient OneStep.implicitEuler 3 (1 / 10) .multiplyOperator0ByDT y) :
    massOf 0 1 dgTransient (fun k => x 1 k - y 1 k) (fun k => x 1 k - y 1 k) ≤ massOf 0 1 dgTransient (fun k => x 0 k - y 0 k) fun k => x 0 k - y 0 k :=
  C242_contraction _ 0 1 dgTransient dgTransient_parabolic 3 (1 / 10) (by norm_num) _ x y hx hy

/-- The Crank-Nicolson method: sources do not matter for the distance of two runs. -/
example (x y : Nat → MeshVec ℚ fun _ : Fin 2 => 2)
    (hx : StepEquations ⟨.SIPG, true, 3, 0⟩ 0 1 dgTransient (OneStep.oneStepTheta (1 / 2)) 3 (1 / 10) .multiplyOperator0ByDT x)
    (hy : StepEquations ⟨.SIPG, true, 3, 0⟩ 0 1 dgTransient (OneStep.oneStepTheta (1 / 2)) 3 (1 / 10) .multiplyOperator0ByDT y) :
    massOf 0 1 dgTransient (fun k => x 1 k - y 1 k) (fun k => x 1 k - y 1 k) ≤ massOf 0 1 dgTransient (fun k => x 0 k - y 0 k) fun k => x 0 k - y 0 k := by
  refine C242_contraction_theta _ 0 1 dgTransient dgTransient_parabolic (1 / 2) 3 (1 / 10) (le_refl _) (by norm_num) _ (fun x w => ?_) x y hx hy
  have key : ∀ τ, dgForm ⟨.SIPG, true, 3, 0⟩ (dgTransient.at τ) x w - dgForm ⟨.SIPG, true, 3, 0⟩ (dgTransient.at τ) (fun _ => 0) w =
      dgForm ⟨.SIPG, true, 3, 0⟩ dgMesh x w - dgForm ⟨.SIPG, true, 3, 0⟩ dgMesh (fun _ => 0) w := by
    intro τ
    unfold dgForm
    simp only [Finset.sum_sub_distrib]
    have hv : ∀ c (u v : Fin 2 → ℚ), volumeForm ((dgTransient.at τ).geo c) ((dgTransient.at τ).par c) ((dgTransient.at τ).lfs c)
        (Op.intorder ⟨.SIPG, true, (3 : ℚ), 0⟩ ((dgTransient.at τ).lfs c).order) u v =
        volumeForm (dgMesh.geo c) (dgMesh.par c) (dgMesh.lfs c) (Op.intorder ⟨.SIPG, true, (3 : ℚ), 0⟩ (dgMesh.lfs c).order) u v := fun _ _ _ => rfl
    simp only [hv]
    rw [show (dgTransient.at τ).inner = dgMesh.inner from rfl, show (dgTransient.at τ).boundary = dgMesh.boundary from rfl]
    have hs : ∀ (F : Face ℚ ℚ Unit 1 2) (z : MeshVec ℚ fun _ : Fin 2 => 2), skeletonForm ⟨.SIPG, true, (3 : ℚ), 0⟩ F.geo ((dgTransient.at τ).geo F.inside)
        ((dgTransient.at τ).geo F.outside) ((dgTransient.at τ).par F.inside) ((dgTransient.at τ).par F.outside) ((dgTransient.at τ).lfs F.inside)
        ((dgTransient.at τ).lfs F.outside) (Op.intorder ⟨.SIPG, true, (3 : ℚ), 0⟩ (faceDegree (dgTransient.at τ) F)) (readFace F.inside F.outside z)
          (readFace F.inside F.outside w) =
        skeletonForm ⟨.SIPG, true, (3 : ℚ), 0⟩ F.geo (dgMesh.geo F.inside) (dgMesh.geo F.outside) (dgMesh.par F.inside) (dgMesh.par F.outside)
          (dgMesh.lfs F.inside) (dgMesh.lfs F.outside) (Op.intorder ⟨.SIPG, true, (3 : ℚ), 0⟩ (faceDegree dgMesh F)) (readFace F.inside F.outside z)
          (readFace F.inside F.outside w) := fun _ _ => rfl
    have hb : ∀ (F : BoundaryFace ℚ ℚ Unit 1 2) (u v : Fin 2 → ℚ), boundaryForm ⟨.SIPG, true, (3 : ℚ), 0⟩ F.geo ((dgTransient.at τ).geo F.inside)
        ((dgTransient.at τ).par F.inside) F.par ((dgTransient.at τ).lfs F.inside)
        (Op.intorder ⟨.SIPG, true, (3 : ℚ), 0⟩ ((dgTransient.at τ).lfs F.inside).order) u v =
        boundaryForm ⟨.SIPG, true, (3 : ℚ), 0⟩ F.geo (dgMesh.geo F.inside) (dgMesh.par F.inside) F.par (dgMesh.lfs F.inside)
        (Op.intorder ⟨.SIPG, true, (3 : ℚ), 0⟩ (dgMesh.lfs F.inside).order) u v := fun _ _ _ => rfl
    simp only [hs, hb]
    ring
  rw [key, key]

/-- Balance of a step of the implicit Euler method in the first cell. -/
example (x : Nat → MeshVec ℚ fun _ : Fin 2 => 2) (hx : StepEquations ⟨.SIPG, true, 3, 0⟩ 0 1 dgTransient OneStep.implicitEuler 3 (1 / 10) .divideOperator1ByDT x) :
    amountIn 0 1 dgTransient 0 (x 1) = amountIn 0 1 dgTransient 0 (x 0) - 1 / 10 *
      (netReaction ⟨.SIPG, true, 3, 0⟩ (dgTransient.at (3 + 1 / 10)) 0 (x 1) + outOf ⟨.SIPG, true, 3, 0⟩ (dgTransient.at (3 + 1 / 10)) 0 (x 1)) := by
  have key := C242_balance _ 0 1 dgTransient OneStep.implicitEuler 3 (1 / 10) _ x hx 0 (dgMesh_constants 0) 1 (le_refl 1) (le_refl 1)
  have a0 : (OneStep.implicitEuler : Scheme ℚ).a 1 0 = -1 := rfl
  have a1 : (OneStep.implicitEuler : Scheme ℚ).a 1 1 = 1 := rfl
  have b0 : (OneStep.implicitEuler : Scheme ℚ).b 1 0 = 1 - 1 := rfl
  have b1 : (OneStep.implicitEuler : Scheme ℚ).b 1 1 = 1 := rfl
  have d1 : (OneStep.implicitEuler : Scheme ℚ).d 1 = 1 := rfl
  simp only [Finset.sum_range_succ, Finset.sum_range_zero, a0, a1, b0, b1, d1, sub_self, zero_mul, add_zero, one_mul, zero_add, factors] at key
  linear_combination (1 / 10) * key

end Verif
