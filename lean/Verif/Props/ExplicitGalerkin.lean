import Verif.Proofs.ExplicitGalerkin
import Verif.Props.ExplicitSolve
import Verif.Props.DGSolve
/-
C245: the explicit one-step method with continuous and discontinuous Galerkin methods.
-/
set_option linter.unusedSectionVars false
namespace Verif
open LocalOp LocalOp.Spec ConstrainedSolve Constraints ExplicitGalerkin
open OneStep (St Scheme explicitEuler heun shu3 rk4 factors)

section fem
variable {K P Q I : Type} [Field K] [LinearOrder K] [IsStrictOrderedRing K] [DecidableEq I] [Inhabited I] [Fintype I] {d N : Nat} {n : Fin N → Nat}

/-- **C245 (mass matrix, finite elements).** The matrix which is assembled with the temporal operator has the integrals of products of basis functions as entries:
times a vector and tested with another it is `∫ scaling u w`. -/
theorem C245_fem_matrix (intorderadd : Int) (scaling : K) (pb : FEM.Transient K P Q I d n) (τ : K) (y x w : I → K) :
    ∑ k, w k * matVec (OneStep.form (matrixContribution (pb.temporal intorderadd scaling)) pb.trace τ y) x k =
      FEM.massForm intorderadd scaling pb x w := by
  have e : matVec (OneStep.form (matrixContribution (pb.temporal intorderadd scaling)) pb.trace τ y) x =
      OneStep.form (contribution (pb.temporal intorderadd scaling)) pb.trace τ x :=
    ExplicitSolve.form_act _ (ExplicitGalerkin.fem_mass intorderadd scaling pb) pb.trace τ y x
  rw [e, TransientSolve.sum_contribution, TransientSolve.parts_temporal, TransientSolve.form_mass]

/-- **C245 (step, finite elements).** `ExplicitOneStepMethod::apply` with the finite element operator for convection, diffusion and reaction and the mass operator:
if the mass is positive definite, the stages are the only vectors that satisfy the equations of the scheme for all test functions. Nothing is required of
the spatial operator. -/
theorem C245_fem_step (add intorderadd : Int) (scaling : K) (pb : FEM.Transient K P Q I d n)
    (hm : ∀ w, FEM.massForm intorderadd scaling pb w w = 0 → ∀ k, w k = 0) (S : Scheme K) (hS : ExplicitScheme S) (time dt suggested : K)
    (hdt : dt ≤ suggested ∨ ∀ τ τ', pb.at τ = pb.at τ') (ls : (I → I → K) → (I → K) → (I → K) → I → K) (hls : SolvesRegular ls)
    (st : St K (I → K) (I → K)) (x : Nat → I → K) (g : K → I → K) :
    let out := explicitStep (pb.spatial add) (pb.temporal intorderadd scaling) pb.trace S time dt suggested ls st x
    out.2 = min suggested dt ∧ out.1 0 = x 0 ∧
      FEM.StepSolution add intorderadd scaling Trafo.empty pb S time out.2 .multiplyOperator0ByDT g out.1 ∧
      ∀ y, y 0 = x 0 → FEM.StepSolution add intorderadd scaling Trafo.empty pb S time out.2 .multiplyOperator0ByDT g y → ∀ r, r ≤ S.s → y r = out.1 r := by
  intro out
  obtain ⟨o1, o2, o3, o4⟩ := ExplicitSolve.step (pb.spatial add) (pb.temporal intorderadd scaling) (ExplicitGalerkin.fem_mass intorderadd scaling pb) pb.trace
    (fem_regular intorderadd scaling pb hm) S hS time dt suggested (by
      rcases hdt with hdt | hdt
      · exact Or.inl (min_eq_right hdt)
      · refine Or.inr ⟨fun k e τ τ' => ?_, fun k e τ τ' => rfl⟩
        have hb : pb.boundary.map (fun F => F τ) = pb.boundary.map fun F => F τ' := congrArg FEM.Mesh.boundary (hdt τ τ')
        have hb' : ∀ e : Nat, pb.boundary[e]?.map (fun F => F τ) = pb.boundary[e]?.map fun F => F τ' := by
          intro e
          have := congrArg (fun l => l[e]?) hb
          simpa only [List.getElem?_map] using this
        unfold FEM.Transient.spatial
        cases k <;> simp only [hdt τ τ']
        have e1 := congrArg (Option.map (FEM.facePart add (pb.at τ'))) (hb' e)
        simpa only [Option.map_map, Function.comp_def] using e1) ls hls st x
  refine ⟨o1, o2, fun r h1 h2 => ⟨(CCFVSolve.homogeneous_any _).1, fun k hk => (by cases hk), fun w _ => ?_⟩, fun y hy0 hy r hr => ?_⟩
  · have := o3 r h1 h2 w
    rwa [TransientSolve.scheme_form] at this
  · refine o4 y hy0 (fun r h1 h2 w => ?_) r hr
    rw [TransientSolve.scheme_form]
    exact (hy r h1 h2).2.2 w (CCFVSolve.homogeneous_any w)

end fem

section dg
open LocalOp.DG DGSolve
variable {K P Q : Type} [Field K] [LinearOrder K] [IsStrictOrderedRing K] {d N : Nat} {n : Fin N → Nat} [Inhabited ((c : Fin N) × Fin (n c))]

/-- **C245 (mass matrix, discontinuous Galerkin).** The matrix is block diagonal; the block of a cell contains the integrals of products of its basis functions. -/
theorem C245_dg_matrix (intorderadd : Int) (scaling : K) (pb : Transient K P Q d n) (τ : K) (y : MeshVec K n) :
    (∀ c c' (i : Fin (n c)) (j : Fin (n c')), c ≠ c' →
      OneStep.form (matrixContribution (pb.temporal intorderadd scaling)) pb.trace τ y ⟨c, i⟩ ⟨c', j⟩ = 0) ∧
    ∀ c (i j : Fin (n c)), OneStep.form (matrixContribution (pb.temporal intorderadd scaling)) pb.trace τ y ⟨c, i⟩ ⟨c, j⟩ =
      integrate (pb.geo c) (2 * (pb.lfs c).order + intorderadd) fun p => scaling * (pb.lfs c).phi p j * (pb.lfs c).phi p i := by
  have hv : ∀ c c' (j : Fin (n c')) p, value (pb.lfs c) (onCell (fun k' => if k' = ⟨c', j⟩ then 1 else 0) c) p =
      if h : c = c' then (pb.lfs c).phi p (h ▸ j) else 0 := by
    intro c c' j p
    unfold value onCell
    by_cases h : c = c'
    · subst h
      simp
    · have : ∀ i : Fin (n c), ((⟨c, i⟩ : (c : Fin N) × Fin (n c)) = ⟨c', j⟩) = False := fun i => by simp [h]
      simp [this, h]
  constructor
  · intro c c' i j h
    rw [dg_entry]
    unfold massOf
    refine Finset.sum_eq_zero fun e _ => ?_
    simp only [hv]
    by_cases he : e = c
    · subst he
      simp [h, integrate]
    · simp [he, integrate]
  · intro c i j
    rw [dg_entry]
    unfold massOf
    rw [Finset.sum_eq_single c]
    · simp [hv]
    · intro e _ he
      simp only [hv]
      simp [he, integrate]
    · simp

/-- **C245 (step, discontinuous Galerkin).** `ExplicitOneStepMethod::apply` with the interior penalty operator and the mass operator: if the mass is positive
definite and no outflow condition is prescribed where the flow enters, the stages are the only vectors that satisfy the equations of the scheme for all
test functions. Neither a large penalty nor an incompressible flow is required. In each cell whose basis contains the constants each stage balances the
amount of substance. -/
theorem C245_dg_step (op : Op K) (intorderadd : Int) (scaling : K) (pb : Transient K P Q d n) (hA : ∀ τ, Accepts op (pb.at τ))
    (hm : ∀ w, massOf intorderadd scaling pb w w = 0 → ∀ k, w k = 0) (S : Scheme K) (hS : ExplicitScheme S) (time dt suggested : K)
    (hdt : dt ≤ suggested ∨ ∀ τ τ', pb.at τ = pb.at τ')
    (ls : (((c : Fin N) × Fin (n c)) → ((c : Fin N) × Fin (n c)) → K) → MeshVec K n → MeshVec K n → MeshVec K n) (hls : SolvesRegular ls)
    (st : St K (MeshVec K n) (MeshVec K n)) (x : Nat → MeshVec K n) :
    let out := explicitStep (pb.spatial op) (pb.temporal intorderadd scaling) pb.trace S time dt suggested ls st x
    out.2 = min suggested dt ∧ out.1 0 = x 0 ∧ StepEquations op intorderadd scaling pb S time out.2 .multiplyOperator0ByDT out.1 ∧
      (∀ y, y 0 = x 0 → StepEquations op intorderadd scaling pb S time out.2 .multiplyOperator0ByDT y → ∀ r, r ≤ S.s → y r = out.1 r) ∧
      ∀ c, HasConstants (pb.lfs c) → ∀ r, 1 ≤ r → r ≤ S.s →
        ∑ s ∈ Finset.range (r + 1), (S.a r s * amountIn intorderadd scaling pb c (out.1 s) +
          S.b r s * min suggested dt * (netReaction op (pb.at (time + S.d s * min suggested dt)) c (out.1 s) +
            outOf op (pb.at (time + S.d s * min suggested dt)) c (out.1 s))) = 0 := by
  intro out
  obtain ⟨o1, o2, o3, o4⟩ := ExplicitSolve.step (pb.spatial op) (pb.temporal intorderadd scaling) (ExplicitGalerkin.dg_mass intorderadd scaling pb) pb.trace
    (dg_regular intorderadd scaling pb hm) S hS time dt suggested (by
      rcases hdt with hdt | hdt
      · exact Or.inl (min_eq_right hdt)
      · refine Or.inr ⟨fun k e τ τ' => ?_, fun k e τ τ' => rfl⟩
        have hb : pb.boundary.map (fun F => F τ) = pb.boundary.map fun F => F τ' := congrArg DG.Mesh.boundary (hdt τ τ')
        have hb' : ∀ e : Nat, pb.boundary[e]?.map (fun F => F τ) = pb.boundary[e]?.map fun F => F τ' := by
          intro e
          have := congrArg (fun l => l[e]?) hb
          simpa only [List.getElem?_map] using this
        unfold DG.Transient.spatial
        cases k <;> simp only [hdt τ τ']
        have e1 := congrArg (Option.map (DG.boundaryPart op (pb.at τ'))) (hb' e)
        simpa only [Option.map_map, Function.comp_def] using e1) ls hls st x
  have hE : StepEquations op intorderadd scaling pb S time out.2 .multiplyOperator0ByDT out.1 := fun r h1 h2 w => by
    have := o3 r h1 h2 w
    rwa [DGSolve.scheme_form op intorderadd scaling pb hA] at this
  refine ⟨o1, o2, hE, fun y hy0 hy r hr => ?_, fun c hc r h1 h2 => ?_⟩
  · refine o4 y hy0 (fun r h1 h2 w => ?_) r hr
    rw [DGSolve.scheme_form op intorderadd scaling pb hA]
    exact hy r h1 h2 w
  · have := C242_balance op intorderadd scaling pb S time _ _ _ hE c hc r h1 h2
    simp only [factors, mul_one, show out.2 = min suggested dt from o1] at this
    exact this

end dg

/-! Concrete cases: the meshes of C241 and C242. -/

theorem femTransient_definite (w : Fin 3 → ℚ) (h : FEM.massForm 0 1 femTransient w w = 0) : ∀ k, w k = 0 := by
  rw [fem_mass] at h
  have s0 := sq_nonneg (w 0)
  have s1 := sq_nonneg (w 1)
  have s2 := sq_nonneg (w 2)
  have t1 := sq_nonneg (w 0 + w 1)
  have t2 := sq_nonneg (w 1 + w 2)
  have e0 := pow_eq_zero_iff two_ne_zero |>.mp (le_antisymm (by nlinarith : w 0 ^ 2 ≤ 0) s0)
  have e1 := pow_eq_zero_iff two_ne_zero |>.mp (le_antisymm (by nlinarith : w 1 ^ 2 ≤ 0) s1)
  have e2 := pow_eq_zero_iff two_ne_zero |>.mp (le_antisymm (by nlinarith : w 2 ^ 2 ≤ 0) s2)
  intro k
  fin_cases k <;> assumption

/-- A step of Heun's method with finite elements, and an entry of the mass matrix. -/
example (st : St ℚ (Fin 3 → ℚ) (Fin 3 → ℚ)) (x : Nat → Fin 3 → ℚ) :
    FEM.StepSolution 0 0 1 Trafo.empty femTransient heun 3 (1 / 100) .multiplyOperator0ByDT (fun _ _ => 0)
      (explicitStep (femTransient.spatial 0) (femTransient.temporal 0 1) femTransient.trace heun 3 (1 / 100) 1 someSolution st x).1 ∧
    ∑ k, (![0, 1, 0] : Fin 3 → ℚ) k * matVec (OneStep.form (matrixContribution (femTransient.temporal 0 1)) femTransient.trace 0 (x 0)) ![0, 0, 1] k = 3 / 32 := by
  have h := C245_fem_step 0 0 1 femTransient femTransient_definite heun (C244_schemes _ (by simp)) 3 (1 / 100) 1
    (Or.inl (by norm_num)) someSolution someSolution_solves st x fun _ _ => 0
  have hm : min (1 : ℚ) (1 / 100) = 1 / 100 := by norm_num
  have h3 := h.2.2.1
  rw [h.1, hm] at h3
  refine ⟨h3, ?_⟩
  rw [C245_fem_matrix, fem_mass]
  simp

/-- A step of the classical Runge-Kutta method with the discontinuous Galerkin method. -/
example (st : St ℚ (LocalOp.Spec.MeshVec ℚ fun _ : Fin 2 => 2) (LocalOp.Spec.MeshVec ℚ fun _ => 2)) (x : Nat → LocalOp.Spec.MeshVec ℚ fun _ : Fin 2 => 2) :
    DG.StepEquations ⟨.SIPG, true, 3, 0⟩ 0 1 dgTransient rk4 3 (1 / 100) .multiplyOperator0ByDT
      (explicitStep (dgTransient.spatial ⟨.SIPG, true, 3, 0⟩) (dgTransient.temporal 0 1) dgTransient.trace rk4 3 (1 / 100) 1 someSolution st x).1 := by
  have h := C245_dg_step ⟨.SIPG, true, 3, 0⟩ 0 1 dgTransient
    (fun τ => DGSolve.accepts _ _ (dgTransient_parabolic.stable τ).incompressible) dgTransient_parabolic.definite rk4 (C244_schemes _ (by simp)) 3 (1 / 100) 1
    (Or.inl (by norm_num)) someSolution someSolution_solves st x
  have hm : min (1 : ℚ) (1 / 100) = 1 / 100 := by norm_num
  have h3 := h.2.2.1
  rw [h.1, hm] at h3
  exact h3

/-- Its mass matrix. -/
example (y : LocalOp.Spec.MeshVec ℚ fun _ : Fin 2 => 2) :
    OneStep.form (matrixContribution (dgTransient.temporal 0 1)) dgTransient.trace 0 y ⟨0, 0⟩ ⟨1, 1⟩ = 0 :=
  (C245_dg_matrix 0 1 dgTransient 0 y).1 0 1 0 1 (by decide)

end Verif
