import Verif.Proofs.CCFVSolve
import Verif.Props.MaximumPrinciple
import Verif.Props.ConstrainedSolve
import Verif.Props.TransientSolve
/-
C243: the cell-centred finite volume method for the (instationary) convection-diffusion equation: from the local operators through the grid traversal, the grid
operators, the solver and the time-stepping loop to the solution.
-/
set_option linter.unusedSectionVars false
namespace Verif
open LocalOp LocalOp.Spec LocalOp.CCFV GridAssembler ConstrainedSolve Constraints CCFVSolve
open OneStep (St Scheme DTMode OSM PDERes factors)

section
variable {K P Q I : Type} [Field K] [LinearOrder K] [IsStrictOrderedRing K] [Inhabited I] [DecidableEq I] [Fintype I] {d : Nat}

/-- **C243 (residual).** The entry of the residual of the grid operator for a cell is reaction minus sources plus the fluxes through the faces of the cell. -/
theorem C243_residual (allPartitions : Bool) (pb : Problem K P Q d) (h : WellPosed allPartitions pb) (dof : Nat → I) (hn : Numbering pb.cells dof) (x : I → K)
    (c : Cell) (hc : c ∈ pb.cells) :
    residual Trafo.empty (meshParts allPartitions pb dof) x (dof c.id) = cellLoss allPartitions pb (inCells dof x) c := by
  rw [residual_empty, form_at allPartitions pb h.grid dof hn x c hc, loss_eq allPartitions pb h _ c hc]

theorem fv_form_iff (allPartitions : Bool) (pb : Problem K P Q d) (h : WellPosed allPartitions pb) (dof : Nat → I) (hn : Numbering pb.cells dof) (x : I → K) :
    (∀ w, form (meshParts allPartitions pb dof) x w = 0) ↔ Balanced allPartitions pb (inCells dof x) := by
  rw [form_zero_iff allPartitions pb h.grid dof hn x]
  exact forall₂_congr fun c hc => by rw [loss_eq allPartitions pb h _ c hc]

/-- **C243 (linear solver).** If every cell is connected to the Dirichlet boundary `StationaryLinearProblemSolver` returns from any initial guess the solution,
with or without the modifications for hanging nodes: fluxes, reaction and sources balance in every cell. There is only one. Its values lie between the bounds of the
data, and sources, reaction and the flow through the boundary balance in the whole domain. -/
theorem C243_solver (allPartitions : Bool) (pb : Problem K P Q d) (h : WellPosed allPartitions pb) (hr : ∀ c ∈ pb.cells, Reaches allPartitions pb c)
    (dof : Nat → I) (hn : Numbering pb.cells dof) (symmetric hanging : Bool) (ci0 : Nat → I)
    (solve : Assembly.Matrix I K → (I → K) → I → K) (hs : Exact solve) (guess : I → K) :
    ∃ x, applyLinear Trafo.empty symmetric ci0 (meshPattern allPartitions pb.cells dof) (meshParts allPartitions pb dof) solve hanging guess = some x ∧
      Balanced allPartitions pb (inCells dof x) ∧ (∀ y : I → K, Balanced allPartitions pb (inCells dof y) → y = x) ∧
      (∀ M, BoundedAbove allPartitions pb M → ∀ i, x i ≤ M) ∧ (∀ m, BoundedBelow allPartitions pb m → ∀ i, m ≤ x i) ∧
      (pb.cells.map fun c => production pb (inCells dof x) c.id + cellBoundaryFlux pb (inCells dof x) c).sum = 0 := by
  have key : ∃ x, applyLinear Trafo.empty symmetric ci0 (meshPattern allPartitions pb.cells dof) (meshParts allPartitions pb dof) solve hanging guess = some x ∧
      Galerkin Trafo.empty (meshParts allPartitions pb dof) x ∧ (∀ k, (Trafo.empty : Trafo I K).Dirichlet k → x k = guess k) ∧
      ∀ y, Galerkin Trafo.empty (meshParts allPartitions pb dof) y → (∀ k, (Trafo.empty : Trafo I K).Dirichlet k → y k = guess k) → y = x := by
    cases hanging
    · exact C232_dirichlet_only Trafo.empty admissible_empty (fun k row hm => by cases hm) symmetric ci0 _ _
        (pattern_fits allPartitions pb h.grid dof hn _) _ _ (parts_affine allPartitions pb dof) (regular allPartitions pb h hr dof hn) solve hs guess
    · exact C232_linear_solver Trafo.empty admissible_empty symmetric ci0 _ _
        (pattern_fits allPartitions pb h.grid dof hn _) _ _ (parts_affine allPartitions pb dof) (regular allPartitions pb h hr dof hn) solve hs guess
  obtain ⟨x, h1, h2, -, h4⟩ := key
  have hb : Balanced allPartitions pb (inCells dof x) := (fv_form_iff allPartitions pb h dof hn x).mp fun w => h2.2 w (homogeneous_any w)
  have hst : Stationary (fun v => total (residualCalls allPartitions pb v)) pb.cells (inCells dof x) := fun c hc =>
    (loss_eq allPartitions pb h _ c hc).trans (hb c hc)
  have hmax := C234_stationary allPartitions pb h.grid h.shared h.consistent h.stable h.accumulation hr _ hst
  refine ⟨x, h1, hb, fun y hy => h4 y ⟨(homogeneous_any y).1, fun w _ => (fv_form_iff allPartitions pb h dof hn y).mpr hy w⟩ fun k hk => (by cases hk),
    fun M hM i => ?_, fun m hm i => ?_, ?_⟩
  · obtain ⟨k, hk, rfl⟩ := hn.surjective i
    obtain ⟨c, hc, rfl⟩ := List.mem_map.mp hk
    exact hmax.1 M hM c hc
  · obtain ⟨k, hk, rfl⟩ := hn.surjective i
    obtain ⟨c, hc, rfl⟩ := List.mem_map.mp hk
    exact hmax.2 m hm c hc
  · rw [← total_loss allPartitions pb h]
    exact List.sum_eq_zero fun v hv => by
      obtain ⟨c, hc, rfl⟩ := List.mem_map.mp hv
      exact hb c hc

/-- **C243 (time).** What is assembled of the spatial operator at a time has in every cell the loss with the coefficients and boundary conditions of that time. -/
theorem C243_time (allPartitions : Bool) (pb : Transient K P Q d) (τ : K) (dof : Nat → I) (hn : Numbering pb.base.cells dof)
    (h : WellPosed allPartitions { pb.base with cellPar := pb.cellPar τ, facePar := pb.facePar τ }) (x : I → K) (c : Cell) (hc : c ∈ pb.base.cells) :
    residual Trafo.empty (partsAt (pb.spatial allPartitions dof) (pb.trace allPartitions) τ) x (dof c.id) =
      cellLoss allPartitions { pb.base with cellPar := pb.cellPar τ, facePar := pb.facePar τ } (inCells dof x) c := by
  rw [parts_spatial]
  exact C243_residual allPartitions (pb.at τ) h dof hn x c hc

/-- **C243 (step).** `OneStepMethod::apply`: the step succeeds, keeps the old value, and the vectors of the stages are the only ones that satisfy the equations of
the scheme in every cell. Coefficients and boundary conditions may depend on time, and the Dirichlet boundary may be empty. -/
theorem C243_step {σ T : Type} [Add T] [Zero T] (allPartitions : Bool) (pb : Transient K P Q d) (h : ∀ τ, WellPosed allPartitions (pb.at τ)) (dof : Nat → I)
    (hn : Numbering pb.base.cells dof) (symmetric : Bool) (ci0 : Nat → I) (S : Scheme K) (hS : FEM.SolvableStages S)
    (time dt : K) (hdt : 0 < dt) (mode : DTMode) (st0 : St K (I → K) (I → K)) (solve : Assembly.Matrix I K → (I → K) → I → K) (hs : Exact solve)
    (g : K → I → K) (res : PDERes T) (m : OSM T) (mem : Nat → I → K) (st : σ) :
    let out := m.apply (stageEnv Trafo.empty symmetric ci0 (meshPattern allPartitions pb.base.cells dof) S time dt mode (pb.spatial allPartitions dof)
      (pb.temporal allPartitions dof) (pb.trace allPartitions) st0 solve g res) mem st
    out.1 = .success ∧ out.2.1.mem 0 = mem 0 ∧ StageBalances allPartitions pb S time dt mode (fun s => inCells dof (out.2.1.mem s)) ∧
      ∀ y : Nat → I → K, y 0 = mem 0 → StageBalances allPartitions pb S time dt mode (fun s => inCells dof (y s)) → ∀ r, r ≤ S.s → y r = out.2.1.mem r := by
  intro out
  have hf := TransientSolve.factors_pos mode dt hdt
  obtain ⟨o1, o2, o3, o4⟩ := DGSolve.step (Trafo.empty : Trafo I K) admissible_empty symmetric ci0 (meshPattern allPartitions pb.base.cells dof)
    (pb.spatial allPartitions dof) (pb.temporal allPartitions dof) (pb.trace allPartitions) S time dt mode st0 solve g res m mem st (by
      intro r h1 h2 x guess
      obtain ⟨ha, hb, ht⟩ := hS r h1 h2
      refine TransientSolve.stage _ admissible_empty symmetric ci0 _ ⟨S, time, dt, mode, r⟩ (pb.spatial allPartitions dof) (pb.temporal allPartitions dof)
        (no_post allPartitions pb dof) (pb.trace allPartitions) ha ht ?_ ?_ ?_ ?_ ?_ st0 solve hs x guess
      · rw [parts_spatial]
        exact pattern_fits allPartitions (pb.at (time + S.d r * dt)) (h _).grid dof hn Trafo.empty
      · rw [parts_temporal]
        exact temporal_fits allPartitions pb.base (h 0).grid dof hn _
      · rw [parts_spatial]
        exact parts_affine allPartitions (pb.at _) dof
      · rw [parts_temporal]
        exact temporal_affine allPartitions pb.base dof
      · intro y _ hw
        simp only [parts_spatial, parts_temporal] at hw
        exact stage_regular allPartitions (pb.at _) (h _) dof hn _ _ hf.2 (mul_nonneg hb hf.1.le) y fun w => hw w (homogeneous_any w))
  refine ⟨o1, o2, fun r h1 h2 => ?_, fun y hy0 hy r hr => ?_⟩
  · exact (stage_iff allPartitions pb h dof hn ⟨S, time, dt, mode, r⟩ _).mp fun w => (o3 r h1 h2).2.2 w (homogeneous_any w)
  · refine o4 y hy0 (fun r h1 h2 => ⟨(homogeneous_any _).1, fun k hk => (by cases hk), fun w _ => ?_⟩) r hr
    exact (stage_iff allPartitions pb h dof hn ⟨S, time, dt, mode, r⟩ _).mpr (hy r h1 h2) w

theorem fv_euler (allPartitions : Bool) (pb : Transient K P Q d) (time dt : K) (mode : DTMode) (u : Nat → Nat → K)
    (hu : StageBalances allPartitions pb OneStep.implicitEuler time dt mode u) (c : Cell) (hc : c ∈ pb.base.cells) :
    (factors mode dt).2 * (content pb.base (u 1) c - content pb.base (u 0) c) + (factors mode dt).1 * cellLoss allPartitions (pb.at (time + dt)) (u 1) c = 0 := by
  have this := hu 1 (le_refl 1) (le_refl 1) c hc
  have hd0 : (OneStep.implicitEuler : Scheme K).d 0 = 0 := rfl
  have hd1 : (OneStep.implicitEuler : Scheme K).d 1 = 1 := rfl
  have a0 : (OneStep.implicitEuler : Scheme K).a 1 0 = -1 := rfl
  have a1 : (OneStep.implicitEuler : Scheme K).a 1 1 = 1 := rfl
  have b0 : (OneStep.implicitEuler : Scheme K).b 1 0 = 1 - 1 := rfl
  have b1 : (OneStep.implicitEuler : Scheme K).b 1 1 = 1 := rfl
  simp only [Finset.sum_range_succ, Finset.sum_range_zero, a0, a1, b0, b1, hd0, hd1, zero_mul, add_zero, one_mul, sub_self] at this
  linear_combination this

/-- **C243 (bounds in time).** An implicit Euler step of any size stays between bounds of the previous values and of the data at the new time. -/
theorem C243_bounds (allPartitions : Bool) (pb : Transient K P Q d) (h : ∀ τ, WellPosed allPartitions (pb.at τ)) (time dt : K) (hdt : 0 < dt) (mode : DTMode)
    (u : Nat → Nat → K) (hu : StageBalances allPartitions pb OneStep.implicitEuler time dt mode u) :
    (∀ M, BoundedAbove allPartitions (pb.at (time + dt)) M → (∀ c ∈ pb.base.cells, u 0 c.id ≤ M) → ∀ c ∈ pb.base.cells, u 1 c.id ≤ M) ∧
    ∀ m, BoundedBelow allPartitions (pb.at (time + dt)) m → (∀ c ∈ pb.base.cells, m ≤ u 0 c.id) → ∀ c ∈ pb.base.cells, m ≤ u 1 c.id := by
  have hf := TransientSolve.factors_pos mode dt hdt
  have hw := h (time + dt)
  refine C234_implicit_euler allPartitions (pb.at (time + dt)) hw.grid hw.shared hw.consistent hw.stable hw.accumulation
    ((factors mode dt).1 / (factors mode dt).2) (div_nonneg hf.1.le hf.2.le) (u 0) (u 1) fun c hc => ?_
  have e := fv_euler allPartitions pb time dt mode u hu c hc
  have t1 : total (temporalCalls allPartitions (pb.at (time + dt)) (u 1)) c.id = content pb.base (u 1) c := total_temporalCalls _ _ hw.grid.nodup _ c hc
  have t0 : total (temporalCalls allPartitions (pb.at (time + dt)) (u 0)) c.id = content pb.base (u 0) c := total_temporalCalls _ _ hw.grid.nodup _ c hc
  simp only
  rw [t1, t0, loss_eq allPartitions (pb.at (time + dt)) hw _ c hc]
  have hne := hf.2.ne'
  field_simp
  linear_combination e

/-- **C243 (conservation in time).** The content of the domain changes by what is produced and by what flows through the boundary, in every stage of every scheme:
nothing gets lost at inner faces. -/
theorem C243_conservation (allPartitions : Bool) (pb : Transient K P Q d) (h : ∀ τ, WellPosed allPartitions (pb.at τ)) (S : Scheme K) (time dt : K) (mode : DTMode)
    (u : Nat → Nat → K) (hu : StageBalances allPartitions pb S time dt mode u) (r : Nat) (h1 : 1 ≤ r) (h2 : r ≤ S.s) :
    ∑ s ∈ Finset.range (r + 1), (S.a r s * (factors mode dt).2 * (pb.base.cells.map fun c => content pb.base (u s) c).sum +
      S.b r s * (factors mode dt).1 * (pb.base.cells.map fun c => production (pb.at (time + S.d s * dt)) (u s) c.id +
        cellBoundaryFlux (pb.at (time + S.d s * dt)) (u s) c).sum) = 0 := by
  have e : ∀ s, (pb.base.cells.map fun c => production (pb.at (time + S.d s * dt)) (u s) c.id + cellBoundaryFlux (pb.at (time + S.d s * dt)) (u s) c).sum =
      (pb.base.cells.map fun c => cellLoss allPartitions (pb.at (time + S.d s * dt)) (u s) c).sum := fun s => (total_loss allPartitions (pb.at _) (h _) (u s)).symm
  simp only [e]
  have key : ∀ cells : List Cell, (∀ c ∈ cells, c ∈ pb.base.cells) → ∑ s ∈ Finset.range (r + 1),
      (S.a r s * (factors mode dt).2 * (cells.map fun c => content pb.base (u s) c).sum +
        S.b r s * (factors mode dt).1 * (cells.map fun c => cellLoss allPartitions (pb.at (time + S.d s * dt)) (u s) c).sum) = 0 := by
    intro cells
    induction cells with
    | nil => intro _; simp
    | cons c l ih =>
      intro hl
      have a := ih fun c hc => hl c (List.mem_cons_of_mem _ hc)
      have b := hu r h1 h2 c (hl c List.mem_cons_self)
      rw [← add_zero (0 : K)]
      nth_rewrite 1 [← b]
      rw [← a, ← Finset.sum_add_distrib]
      refine Finset.sum_congr rfl fun s _ => ?_
      simp only [List.map_cons, List.sum_cons]
      ring
  exact key _ fun _ hc => hc

/-- **C243 (histories).** A run of any number of implicit Euler steps of any sizes: all values lie between bounds of the initial values and of the data. -/
theorem C243_history {σ T : Type} [Add T] [Zero T] (allPartitions : Bool) (pb : Transient K P Q d) (h : ∀ τ, WellPosed allPartitions (pb.at τ)) (dof : Nat → I)
    (hn : Numbering pb.base.cells dof) (symmetric : Bool) (ci0 : Nat → I) (mode : DTMode) (solve : Assembly.Matrix I K → (I → K) → I → K) (hs : Exact solve)
    (g : K → I → K) (hS : FEM.SolvableStages (OneStep.implicitEuler : Scheme K)) (time dt : Nat → K) (hdt : ∀ n, 0 < dt n)
    (u : Nat → I → K)
    (hu : ∀ n, ∃ (m : OSM T) (mem : Nat → I → K) (st : σ) (st0 : St K (I → K) (I → K)) (res : PDERes T), mem 0 = u n ∧
      u (n + 1) = (m.apply (stageEnv Trafo.empty symmetric ci0 (meshPattern allPartitions pb.base.cells dof) OneStep.implicitEuler (time n) (dt n) mode
        (pb.spatial allPartitions dof) (pb.temporal allPartitions dof) (pb.trace allPartitions) st0 solve g res) mem st).2.1.mem 1) :
    (∀ M, (∀ τ, BoundedAbove allPartitions (pb.at τ) M) → (∀ i, u 0 i ≤ M) → ∀ n i, u n i ≤ M) ∧
    ∀ m, (∀ τ, BoundedBelow allPartitions (pb.at τ) m) → (∀ i, m ≤ u 0 i) → ∀ n i, m ≤ u n i := by
  have step : ∀ n, (∀ M, BoundedAbove allPartitions (pb.at (time n + dt n)) M → (∀ i, u n i ≤ M) → ∀ i, u (n + 1) i ≤ M) ∧
      ∀ m, BoundedBelow allPartitions (pb.at (time n + dt n)) m → (∀ i, m ≤ u n i) → ∀ i, m ≤ u (n + 1) i := by
    intro n
    obtain ⟨m, mem, st, st0, res, hm, hu1⟩ := hu n
    obtain ⟨-, o2, o3, -⟩ := C243_step allPartitions pb h dof hn symmetric ci0 OneStep.implicitEuler hS (time n) (dt n) (hdt n) mode st0 solve hs g res m mem st
    obtain ⟨b1, b2⟩ := C243_bounds allPartitions pb h (time n) (dt n) (hdt n) mode _ o3
    rw [hu1]
    rw [hm] at o2
    refine ⟨fun M hM hi i => ?_, fun m hm hi i => ?_⟩
    · obtain ⟨k, hk, rfl⟩ := hn.surjective i
      obtain ⟨c, hc, rfl⟩ := List.mem_map.mp hk
      exact b1 M hM (fun c _ => by simp only [inCells, o2]; exact hi _) c hc
    · obtain ⟨k, hk, rfl⟩ := hn.surjective i
      obtain ⟨c, hc, rfl⟩ := List.mem_map.mp hk
      exact b2 m hm (fun c _ => by simp only [inCells, o2]; exact hi _) c hc
  refine ⟨fun M hM h0 n => ?_, fun m hm h0 n => ?_⟩
  · induction n with
    | zero => exact h0
    | succ n ih => exact (step n).1 M (hM _) ih
  · induction n with
    | zero => exact h0
    | succ n ih => exact (step n).2 m (hm _) ih

end

/-! A concrete case: the two cells of `mpProblem`, and the same with an inflow whose value grows with time up to 1. -/

theorem mpWellPosed : WellPosed true mpProblem := ⟨fvProper, fvShared, mpConsistent, mpStable, mpNoAccumulation⟩

def mpDof (k : Nat) : Fin 2 := if k = 0 then 0 else 1

theorem mpNumbering : Numbering mpProblem.cells mpDof := by
  constructor
  · decide
  · intro i
    fin_cases i
    · exact ⟨0, by decide, rfl⟩
    · exact ⟨1, by decide, rfl⟩

/-- The solver finds the solution of `mpProblem`. -/
example (symmetric hanging : Bool) (ci0 : Nat → Fin 2) (guess : Fin 2 → ℚ) :
    ∃ x, applyLinear Trafo.empty symmetric ci0 (meshPattern true mpProblem.cells mpDof) (meshParts true mpProblem mpDof) chosen hanging guess = some x ∧
      (∀ i, 0 ≤ x i ∧ x i ≤ 1) ∧ x = fun i : Fin 2 => mpSolution i := by
  obtain ⟨x, h1, -, h3, h4, h5, -⟩ := C243_solver true mpProblem mpWellPosed mpReaches mpDof mpNumbering symmetric hanging ci0 chosen chosen_exact guess
  refine ⟨x, h1, fun i => ⟨h5 0 mpBoundedBelow i, h4 1 mpBoundedAbove i⟩, (h3 _ fun c hc => ?_).symm⟩
  have e := mpStationary c hc
  have hin : cellLoss true mpProblem (inCells mpDof fun i : Fin 2 => mpSolution i) c = cellLoss true mpProblem mpSolution c := by
    fin_cases hc <;> rfl
  rw [hin, ← loss_eq true mpProblem mpWellPosed _ c hc]
  exact e

def mpTransient : Transient ℚ Unit Unit 1 where
  base := mpProblem
  cellPar τ c := { mpProblem.cellPar c with g := fun _ => if τ < 0 then 0 else τ / (1 + τ) }
  facePar _ := mpProblem.facePar

theorem mpTransient_wellPosed (τ : ℚ) : WellPosed true (mpTransient.at τ) where
  grid := fvProper
  shared := fvShared
  consistent := ⟨mpConsistent.norm_neg, mpConsistent.area_eq, mpConsistent.normal_eq, mpConsistent.velocity_eq⟩
  stable := ⟨mpStable.volume_pos, mpStable.capacity_pos, mpStable.reaction_nonneg, mpStable.area_nonneg, mpStable.diffusion_nonneg, mpStable.norm_nonneg,
    mpStable.dirichlet, mpStable.outflow⟩
  accumulation := mpNoAccumulation

theorem mpTransient_above (τ : ℚ) : BoundedAbove true (mpTransient.at τ) 1 where
  source := mpBoundedAbove.source
  dirichlet c hc i hi hb ht := by
    change (if τ < 0 then 0 else τ / (1 + τ)) ≤ 1
    split
    · norm_num
    · rw [div_le_one (by linarith)]
      linarith
  neumann := mpBoundedAbove.neumann
  outflow := mpBoundedAbove.outflow

theorem mpTransient_below (τ : ℚ) : BoundedBelow true (mpTransient.at τ) 0 where
  source := mpBoundedBelow.source
  dirichlet c hc i hi hb ht := by
    change 0 ≤ if τ < 0 then 0 else τ / (1 + τ)
    split
    · exact le_refl _
    · exact div_nonneg (by linarith) (by linarith)
  neumann := mpBoundedBelow.neumann
  outflow := mpBoundedBelow.outflow

/-- At time 1 the inflow has the value 1/2. -/
example (x : Fin 2 → ℚ) (c : Cell) (hc : c ∈ mpTransient.base.cells) :
    residual Trafo.empty (partsAt (mpTransient.spatial true mpDof) (mpTransient.trace true) 1) x (mpDof c.id) =
      cellLoss true { mpProblem with cellPar := fun c => { mpProblem.cellPar c with g := fun _ => 1 / 2 } } (inCells mpDof x) c := by
  rw [C243_time true mpTransient 1 mpDof mpNumbering (mpTransient_wellPosed 1) x c hc]
  have : mpTransient.cellPar 1 = fun c => { mpProblem.cellPar c with g := fun _ => 1 / 2 } := by
    funext c
    have e : (if (1 : ℚ) < 0 then (0 : ℚ) else 1 / (1 + 1)) = 1 / 2 := by norm_num
    simp only [mpTransient, e]
  rw [this]
  rfl

theorem euler_solvable : FEM.SolvableStages (OneStep.implicitEuler : Scheme ℚ) :=
  C241_schemes (K := ℚ) 1 (1415/1000) (435/1000) (Or.inr (by norm_num)) (Or.inl rfl) (by norm_num) (by norm_num) (by norm_num) (by norm_num) _ (by simp)

/-- A step of Alexander's second order method (with a number close to √2). -/
example (symmetric : Bool) (ci0 : Nat → Fin 2) (st0 : St ℚ (Fin 2 → ℚ) (Fin 2 → ℚ)) (m : OSM Nat) (mem : Nat → Fin 2 → ℚ) (g : ℚ → Fin 2 → ℚ) :
    (m.apply (stageEnv Trafo.empty symmetric ci0 (meshPattern true mpTransient.base.cells mpDof) (OneStep.alexander2 (1415/1000)) 0 1 .divideOperator1ByDT
      (mpTransient.spatial true mpDof) (mpTransient.temporal true mpDof) (mpTransient.trace true) st0 chosen g ⟨0, 0, 0, 1⟩) mem ()).1 = .success :=
  (C243_step (σ := Unit) true mpTransient mpTransient_wellPosed mpDof mpNumbering symmetric ci0 _
    (C241_schemes (K := ℚ) 1 (1415/1000) (435/1000) (Or.inr (by norm_num)) (Or.inl rfl) (by norm_num) (by norm_num) (by norm_num) (by norm_num) _ (by simp))
    0 1 one_pos .divideOperator1ByDT st0 chosen chosen_exact g (⟨0, 0, 0, 1⟩ : PDERes Nat) m mem ()).1

/-- A run of the implicit Euler method from zero. -/
noncomputable def mpRun (st0 : St ℚ (Fin 2 → ℚ) (Fin 2 → ℚ)) (m : OSM Nat) : Nat → Fin 2 → ℚ
  | 0 => fun _ => 0
  | n + 1 => (m.apply (stageEnv Trafo.empty true (fun _ => 0) (meshPattern true mpTransient.base.cells mpDof) OneStep.implicitEuler (n : ℚ) (1 : ℚ) .multiplyOperator0ByDT
      (mpTransient.spatial true mpDof) (mpTransient.temporal true mpDof) (mpTransient.trace true) st0 chosen (fun _ _ => 0) ⟨0, 0, 0, 1⟩)
      (fun _ => mpRun st0 m n) ()).2.1.mem 1

example (st0 : St ℚ (Fin 2 → ℚ) (Fin 2 → ℚ)) (m : OSM Nat) (n : Nat) (i : Fin 2) : 0 ≤ mpRun st0 m n i ∧ mpRun st0 m n i ≤ 1 := by
  have key := C243_history (σ := Unit) (T := Nat) true mpTransient mpTransient_wellPosed mpDof mpNumbering true (fun _ => 0) .multiplyOperator0ByDT chosen
    chosen_exact (fun _ _ => 0) euler_solvable (fun n => n) (fun _ => 1) (fun _ => one_pos) (mpRun st0 m)
    fun n => ⟨m, fun _ => mpRun st0 m n, (), st0, ⟨0, 0, 0, 1⟩, rfl, rfl⟩
  exact ⟨key.2 0 mpTransient_below (fun _ => le_refl _) n i, key.1 1 mpTransient_above (fun _ => zero_le_one) n i⟩

end Verif
