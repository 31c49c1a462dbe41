import Verif.Proofs.ExplicitSolve
import Verif.Props.CCFVSolve
/-
C244: the explicit one-step method with the cell-centred finite volume method, from the local operators to any number of steps.
-/
set_option linter.unusedSectionVars false
namespace Verif
open LocalOp LocalOp.Spec LocalOp.CCFV GridAssembler ConstrainedSolve ExplicitSolve
open OneStep (St Scheme explicitEuler heun shu3 rk4)

/-- **C244 (schemes).** The explicit schemes of the library are explicit. -/
theorem C244_schemes {K : Type} [Field K] [LinearOrder K] [IsStrictOrderedRing K] (S : Scheme K) (hS : S = explicitEuler ∨ S = heun ∨ S = shu3 ∨ S = rk4) :
    ExplicitScheme S := by
  have hB := C23_builtin_schemes (0 : K) (1415/1000) (435/1000) (Or.inl rfl) (Or.inr (by norm_num)) (by norm_num) (by norm_num)
    (by norm_num) (by norm_num) S (by rcases hS with rfl | rfl | rfl | rfl <;> simp)
  intro r h1 h2
  refine ⟨(hB r h1 h2).1, ?_, (hB r h1 h2).2⟩
  rcases hS with rfl | rfl | rfl | rfl <;> simp only [explicitEuler, OneStep.oneStepTheta, heun, shu3, rk4] at h2 <;> interval_cases r <;>
    simp [Scheme.b, explicitEuler, OneStep.oneStepTheta, heun, shu3, rk4]

section
variable {K P Q I : Type} [Field K] [LinearOrder K] [IsStrictOrderedRing K] [Inhabited I] [DecidableEq I] [Fintype I] {d : Nat}

/-- **C244 (matrix).** The matrix that is assembled with the temporal operator is diagonal, with the capacities of the cells. -/
theorem C244_matrix (allPartitions : Bool) (pb : Transient K P Q d) (hg : ProperGrid allPartitions pb.base.cells) (dof : Nat → I) (hn : Numbering pb.base.cells dof)
    (τ : K) (y : I → K) (c : Cell) (hc : c ∈ pb.base.cells) (c' : Cell) (hc' : c' ∈ pb.base.cells) :
    OneStep.form (matrixContribution (pb.temporal allPartitions dof)) (pb.trace allPartitions) τ y (dof c.id) (dof c'.id) =
      if c.id = c'.id then pb.base.capacity c.id (pb.base.cellGeo c.id).center * (pb.base.cellGeo c.id).volume else 0 := by
  have e := congrFun (form_act _ (fv_mass allPartitions pb dof) (pb.trace allPartitions) τ y fun k => if k = dof c'.id then 1 else 0) (dof c.id)
  rw [fv_content allPartitions pb hg dof hn τ _ c hc] at e
  change matVec _ _ _ = _ at e
  simp only [matVec, mul_ite, mul_one, mul_zero, Finset.sum_ite_eq', Finset.mem_univ, if_true] at e
  rw [e]
  unfold content inCells
  by_cases h : c.id = c'.id
  · simp [h]
  · have : dof c.id ≠ dof c'.id := fun h' => h (hn.injective _ (List.mem_map_of_mem hc) _ (List.mem_map_of_mem hc') h')
    simp [h, this]

/-- **C244 (step).** `ExplicitOneStepMethod::apply` keeps the old value, takes the smaller of the given and the suggested step, and the vectors of the stages are
the only ones that satisfy the equations of the scheme in every cell. The controller keeps the given step, or the data do not depend on time. -/
theorem C244_step (allPartitions : Bool) (pb : Transient K P Q d) (h : ∀ τ, WellPosed allPartitions (pb.at τ)) (dof : Nat → I) (hn : Numbering pb.base.cells dof)
    (S : Scheme K) (hS : ExplicitScheme S) (time dt suggested : K) (hdt : dt ≤ suggested ∨ ∀ τ τ', pb.at τ = pb.at τ')
    (ls : (I → I → K) → (I → K) → (I → K) → I → K) (hls : SolvesRegular ls) (st : St K (I → K) (I → K)) (x : Nat → I → K) :
    let out := explicitStep (pb.spatial allPartitions dof) (pb.temporal allPartitions dof) (pb.trace allPartitions) S time dt suggested ls st x
    out.2 = min suggested dt ∧ out.1 0 = x 0 ∧ StageBalances allPartitions pb S time out.2 .multiplyOperator0ByDT (fun s => inCells dof (out.1 s)) ∧
      ∀ y : Nat → I → K, y 0 = x 0 → StageBalances allPartitions pb S time out.2 .multiplyOperator0ByDT (fun s => inCells dof (y s)) →
        ∀ r, r ≤ S.s → y r = out.1 r := by
  intro out
  obtain ⟨o1, o2, o3, o4⟩ := ExplicitSolve.step (pb.spatial allPartitions dof) (pb.temporal allPartitions dof) (fv_mass allPartitions pb dof)
    (pb.trace allPartitions) (fv_regular allPartitions pb (h 0) dof hn) S hS time dt suggested (by
      rcases hdt with hdt | hdt
      · exact Or.inl (min_eq_right hdt)
      · refine Or.inr ⟨fun k e τ τ' => ?_, fun k e τ τ' => rfl⟩
        unfold Transient.spatial
        rw [hdt τ τ']) ls hls st x
  refine ⟨o1, o2, fun r h1 h2 => ?_, fun y hy0 hy r hr => ?_⟩
  · exact (CCFVSolve.stage_iff allPartitions pb h dof hn ⟨S, time, _, .multiplyOperator0ByDT, r⟩ _).mp (o3 r h1 h2)
  · refine o4 y hy0 (fun r h1 h2 => ?_) r hr
    exact (CCFVSolve.stage_iff allPartitions pb h dof hn ⟨S, time, _, .multiplyOperator0ByDT, r⟩ _).mpr (hy r h1 h2)

/-- **C244 (explicit Euler).** In every cell the new content is the old one minus what the cell loses in the step at the old time, and the content of the whole
domain changes by production and the flow through the boundary only. -/
theorem C244_euler (allPartitions : Bool) (pb : Transient K P Q d) (h : ∀ τ, WellPosed allPartitions (pb.at τ)) (dof : Nat → I) (hn : Numbering pb.base.cells dof)
    (time dt suggested : K) (hdt : dt ≤ suggested ∨ ∀ τ τ', pb.at τ = pb.at τ')
    (ls : (I → I → K) → (I → K) → (I → K) → I → K) (hls : SolvesRegular ls) (st : St K (I → K) (I → K)) (x : Nat → I → K) :
    let new := (explicitStep (pb.spatial allPartitions dof) (pb.temporal allPartitions dof) (pb.trace allPartitions) explicitEuler time dt suggested ls st x).1 1
    (∀ c ∈ pb.base.cells, content pb.base (inCells dof new) c =
      content pb.base (inCells dof (x 0)) c - min suggested dt * cellLoss allPartitions (pb.at time) (inCells dof (x 0)) c) ∧
    (pb.base.cells.map fun c => content pb.base (inCells dof new) c).sum = (pb.base.cells.map fun c => content pb.base (inCells dof (x 0)) c).sum -
      min suggested dt * (pb.base.cells.map fun c => production (pb.at time) (inCells dof (x 0)) c.id + cellBoundaryFlux (pb.at time) (inCells dof (x 0)) c).sum := by
  intro new
  obtain ⟨o1, o2, o3, -⟩ := C244_step allPartitions pb h dof hn explicitEuler (C244_schemes _ (Or.inl rfl)) time dt suggested hdt ls hls st x
  have a0 : (explicitEuler : Scheme K).a 1 0 = -1 := rfl
  have a1 : (explicitEuler : Scheme K).a 1 1 = 1 := rfl
  have b0 : (explicitEuler : Scheme K).b 1 0 = 1 - 0 := rfl
  have b1 : (explicitEuler : Scheme K).b 1 1 = 0 := rfl
  have d0 : (explicitEuler : Scheme K).d 0 = 0 := rfl
  constructor
  · intro c hc
    have e := o3 1 (le_refl 1) (le_refl 1) c hc
    simp only [Finset.sum_range_succ, Finset.sum_range_zero, a0, a1, b0, b1, d0, OneStep.factors, zero_mul, add_zero, o1, o2] at e
    linear_combination e
  · have e := C243_conservation allPartitions pb h explicitEuler time _ .multiplyOperator0ByDT _ o3 1 (le_refl 1) (le_refl 1)
    simp only [Finset.sum_range_succ, Finset.sum_range_zero, a0, a1, b0, b1, d0, OneStep.factors, zero_mul, add_zero, o1, o2] at e
    linear_combination e

theorem explicit_convex (allPartitions : Bool) (pb : Transient K P Q d) (h : ∀ τ, WellPosed allPartitions (pb.at τ)) (dof : Nat → I)
    (hn : Numbering pb.base.cells dof) (S : Scheme K) (hS : S = explicitEuler ∨ S = heun ∨ S = shu3) (time dt suggested : K)
    (hdt : dt ≤ suggested ∨ ∀ τ τ', pb.at τ = pb.at τ')
    (ls : (I → I → K) → (I → K) → (I → K) → I → K) (hls : SolvesRegular ls) (st : St K (I → K) (I → K)) (x : Nat → I → K)
    (C : (I → K) → Prop) (hC : OneStep.ConvexSet (K := K) C)
    (hE : ∀ τ x y, C x → (∀ c ∈ pb.base.cells, content pb.base (inCells dof y) c =
      content pb.base (inCells dof x) c - min suggested dt * cellLoss allPartitions (pb.at τ) (inCells dof x) c) → C y) (h0 : C (x 0)) :
    ∀ r, r ≤ S.s → C ((explicitStep (pb.spatial allPartitions dof) (pb.temporal allPartitions dof) (pb.trace allPartitions) S time dt suggested ls st x).1 r) := by
  have hM := fv_mass allPartitions pb dof
  have hreg := fv_regular allPartitions pb (h 0) dof hn
  let A := OneStep.form (matrixContribution (pb.temporal allPartitions dof)) (pb.trace allPartitions) 0 fun _ => (0 : K)
  have hA : ∀ x, matVec A x = OneStep.form (contribution (pb.temporal allPartitions dof)) (pb.trace allPartitions) 0 x := fun x => form_act _ hM _ 0 _ x
  have hind : ∀ τ x, OneStep.form (contribution (pb.temporal allPartitions dof)) (pb.trace allPartitions) τ x =
      OneStep.form (contribution (pb.temporal allPartitions dof)) (pb.trace allPartitions) 0 x := fun τ x => rfl
  let m : (I → K) →ₗ[K] (I → K) :=
    { toFun := matVec A
      map_add' := fun x y => by funext i; simp [matVec, mul_add, Finset.sum_add_distrib]
      map_smul' := fun a x => by
        funext i
        simp only [matVec, Pi.smul_apply, smul_eq_mul, RingHom.id_apply, Finset.mul_sum]
        exact Finset.sum_congr rfl fun j _ => by ring }
  have hS4 : ExplicitScheme S := C244_schemes S (by rcases hS with h | h | h <;> simp [h])
  have hmx : ∀ x, m x = OneStep.form (contribution (pb.temporal allPartitions dof)) (pb.trace allPartitions) 0 x := hA
  refine C229_convex_sets S hS time dt suggested (contribution (pb.spatial allPartitions dof)) (contribution (pb.temporal allPartitions dof))
    (matrixContribution (pb.temporal allPartitions dof)) act ls (pb.trace allPartitions) st x
    (fun t y b g => regular_solves _ hM _ hreg ls hls t y b g) (fun k e t y z => hlin _ hM k e t y z)
    (fun k e t y h1 _ => by
      unfold matrixContribution
      rw [hM.volume k e t h1]
      rfl) ?_ m (fun t x => by rw [hmx, hind]) (fun x hx => hreg 0 x fun k => by rw [← hmx, hx]; rfl) C hC ?_ h0
  · rcases hdt with hdt | hdt
    · exact Or.inl (min_eq_right hdt)
    · refine Or.inr ⟨fun k e τ τ' x => ?_, fun k e τ τ' x => rfl⟩
      unfold contribution Transient.spatial
      rw [hdt τ τ']
  · intro τ x hx
    have hsurj : ∀ i, ∃ c ∈ pb.base.cells, dof c.id = i := by
      intro i
      obtain ⟨k, hk, rfl⟩ := hn.surjective i
      obtain ⟨c, hc, rfl⟩ := List.mem_map.mp hk
      exact ⟨c, hc, rfl⟩
    obtain ⟨y, hy⟩ : ∃ y, m y = m x - min suggested dt • OneStep.form (contribution (pb.spatial allPartitions dof)) (pb.trace allPartitions) τ x := by
      refine ⟨ls A _ (fun _ => 0), hls A _ _ fun z hz => hreg 0 z fun k => ?_⟩
      rw [← hA, hz]
    refine ⟨y, hE τ x y hx fun c hc => ?_, hy⟩
    have e := congrFun hy (dof c.id)
    rw [hmx, Pi.sub_apply, hmx, Pi.smul_apply, smul_eq_mul, fv_content allPartitions pb (h 0).grid dof hn 0 y c hc,
      fv_content allPartitions pb (h 0).grid dof hn 0 x c hc, fv_loss allPartitions pb τ (h τ) dof hn x c hc] at e
    exact e

/-- **C244 (bounds).** Explicit Euler, Heun's and Shu's method: if in a step no more leaves a cell than it contains, then all stages stay between bounds of the old
values and of the data. -/
theorem C244_bounds (allPartitions : Bool) (pb : Transient K P Q d) (h : ∀ τ, WellPosed allPartitions (pb.at τ)) (dof : Nat → I) (hn : Numbering pb.base.cells dof)
    (S : Scheme K) (hS : S = explicitEuler ∨ S = heun ∨ S = shu3) (time dt suggested : K) (hdt : dt ≤ suggested ∨ ∀ τ τ', pb.at τ = pb.at τ')
    (hpos : 0 ≤ min suggested dt) (hsize : ∀ τ, StepSizeBound allPartitions (pb.at τ) (min suggested dt))
    (ls : (I → I → K) → (I → K) → (I → K) → I → K) (hls : SolvesRegular ls) (st : St K (I → K) (I → K)) (x : Nat → I → K) :
    let out := explicitStep (pb.spatial allPartitions dof) (pb.temporal allPartitions dof) (pb.trace allPartitions) S time dt suggested ls st x
    (∀ M, (∀ τ, BoundedAbove allPartitions (pb.at τ) M) → (∀ i, x 0 i ≤ M) → ∀ r, r ≤ S.s → ∀ i, out.1 r i ≤ M) ∧
    ∀ m, (∀ τ, BoundedBelow allPartitions (pb.at τ) m) → (∀ i, m ≤ x 0 i) → ∀ r, r ≤ S.s → ∀ i, m ≤ out.1 r i := by
  intro out
  have hsurj : ∀ i, ∃ c ∈ pb.base.cells, dof c.id = i := by
    intro i
    obtain ⟨k, hk, rfl⟩ := hn.surjective i
    obtain ⟨c, hc, rfl⟩ := List.mem_map.mp hk
    exact ⟨c, hc, rfl⟩
  constructor
  · intro M hM h0
    refine explicit_convex allPartitions pb h dof hn S hS time dt suggested hdt ls hls st x (fun x => ∀ i, x i ≤ M) ?_ ?_ h0
    · intro x y hx hy a b ha hb hab i
      have h1 := mul_le_mul_of_nonneg_left (hx i) ha
      have h2 := mul_le_mul_of_nonneg_left (hy i) hb
      calc (a • x + b • y) i = a * x i + b * y i := rfl
        _ ≤ a * M + b * M := add_le_add h1 h2
        _ = M := by rw [← add_mul, hab, one_mul]
    · intro τ x y hx hy i
      obtain ⟨c, hc, rfl⟩ := hsurj i
      exact euler_le allPartitions (pb.at τ) (h τ) M (hM τ) _ hpos (hsize τ) (inCells dof x) (fun c _ => hx _) c hc (inCells dof y) (hy c hc)
  · intro m hm h0
    refine explicit_convex allPartitions pb h dof hn S hS time dt suggested hdt ls hls st x (fun x => ∀ i, m ≤ x i) ?_ ?_ h0
    · intro x y hx hy a b ha hb hab i
      have h1 := mul_le_mul_of_nonneg_left (hx i) ha
      have h2 := mul_le_mul_of_nonneg_left (hy i) hb
      calc m = a * m + b * m := by rw [← add_mul, hab, one_mul]
        _ ≤ a * x i + b * y i := add_le_add h1 h2
        _ = (a • x + b • y) i := rfl
    · intro τ x y hx hy i
      obtain ⟨c, hc, rfl⟩ := hsurj i
      exact euler_ge allPartitions (pb.at τ) (h τ) m (hm τ) _ hpos (hsize τ) (inCells dof x) (fun c _ => hx _) c hc (inCells dof y) (hy c hc)

/-- **C244 (histories).** A run of any number of steps with any of these schemes, which may change from step to step, and steps of different sizes: as long as in
each step no more leaves a cell than it contains, all values lie between bounds of the initial values and of the data. -/
theorem C244_history (allPartitions : Bool) (pb : Transient K P Q d) (h : ∀ τ, WellPosed allPartitions (pb.at τ)) (dof : Nat → I) (hn : Numbering pb.base.cells dof)
    (S : Nat → Scheme K) (hS : ∀ n, S n = explicitEuler ∨ S n = heun ∨ S n = shu3) (time dt suggested : Nat → K)
    (hdt : ∀ n, dt n ≤ suggested n ∨ ∀ τ τ', pb.at τ = pb.at τ') (hpos : ∀ n, 0 ≤ min (suggested n) (dt n))
    (hsize : ∀ n τ, StepSizeBound allPartitions (pb.at τ) (min (suggested n) (dt n)))
    (ls : (I → I → K) → (I → K) → (I → K) → I → K) (hls : SolvesRegular ls) (u : Nat → I → K)
    (hu : ∀ n, ∃ (st : St K (I → K) (I → K)) (x : Nat → I → K), x 0 = u n ∧
      u (n + 1) = (explicitStep (pb.spatial allPartitions dof) (pb.temporal allPartitions dof) (pb.trace allPartitions) (S n) (time n) (dt n) (suggested n) ls
        st x).1 (S n).s) :
    (∀ M, (∀ τ, BoundedAbove allPartitions (pb.at τ) M) → (∀ i, u 0 i ≤ M) → ∀ n i, u n i ≤ M) ∧
    ∀ m, (∀ τ, BoundedBelow allPartitions (pb.at τ) m) → (∀ i, m ≤ u 0 i) → ∀ n i, m ≤ u n i := by
  refine ⟨fun M hM h0 n => ?_, fun m hm h0 n => ?_⟩
  · induction n with
    | zero => exact h0
    | succ n ih =>
      obtain ⟨st, x, hx, hu1⟩ := hu n
      rw [hu1]
      exact (C244_bounds allPartitions pb h dof hn (S n) (hS n) (time n) (dt n) (suggested n) (hdt n) (hpos n) (hsize n) ls hls st x).1 M hM
        (by rw [hx]; exact ih) _ (le_refl _)
  · induction n with
    | zero => exact h0
    | succ n ih =>
      obtain ⟨st, x, hx, hu1⟩ := hu n
      rw [hu1]
      exact (C244_bounds allPartitions pb h dof hn (S n) (hS n) (time n) (dt n) (suggested n) (hdt n) (hpos n) (hsize n) ls hls st x).2 m hm
        (by rw [hx]; exact ih) _ (le_refl _)

end

/-! A concrete case: the two cells of `mpTransient`, where the value at the inflow grows with time. -/

open Classical in
/-- A solver that finds a solution if there is one. -/
noncomputable def someSolution {I : Type} [Fintype I] (A : I → I → ℚ) (b _ : I → ℚ) : I → ℚ := if h : ∃ x, matVec A x = b then h.choose else fun _ => 0

theorem someSolution_solves {I : Type} [Fintype I] : SolvesRegular (someSolution : (I → I → ℚ) → (I → ℚ) → (I → ℚ) → I → ℚ) := by
  classical
  intro A b g h
  have hex : ∃ x, matVec A x = b := by
    have hinj : Function.Injective (Matrix.mulVecLin (A : Matrix I I ℚ)) := by
      rw [← LinearMap.ker_eq_bot, LinearMap.ker_eq_bot']
      exact fun x hx => h x hx
    exact (LinearMap.injective_iff_surjective.mp hinj) b
  unfold someSolution
  rw [dif_pos hex]
  exact hex.choose_spec

theorem mpTransient_size (τ : ℚ) : StepSizeBound true (mpTransient.at τ) (1 / 100) := by
  have h : StepSizeBound true mpProblem (1 / 100) := by
    intro c hc
    fin_cases hc <;> decide +kernel
  exact fun c hc => h c hc

/-- A step of the third order method: it is computed, and stays between 0 and 1. -/
example (st : St ℚ (Fin 2 → ℚ) (Fin 2 → ℚ)) :
    let out := explicitStep (mpTransient.spatial true mpDof) (mpTransient.temporal true mpDof) (mpTransient.trace true) shu3 (0 : ℚ) (1 / 100) 1 someSolution st
      fun _ _ => (0 : ℚ)
    out.2 = 1 / 100 ∧ StageBalances true mpTransient shu3 0 out.2 .multiplyOperator0ByDT (fun s => inCells mpDof (out.1 s)) ∧
      ∀ i, 0 ≤ out.1 3 i ∧ out.1 3 i ≤ 1 := by
  have h1 := C244_step true mpTransient mpTransient_wellPosed mpDof mpNumbering shu3 (C244_schemes _ (by simp)) (0 : ℚ) (1 / 100) 1 (Or.inl (by norm_num))
    someSolution someSolution_solves st fun _ _ => (0 : ℚ)
  have hm : min (1 : ℚ) (1 / 100) = 1 / 100 := by norm_num
  have h2 := C244_bounds true mpTransient mpTransient_wellPosed mpDof mpNumbering shu3 (by simp) (0 : ℚ) (1 / 100) 1 (Or.inl (by norm_num))
    (by norm_num) (fun τ => by rw [hm]; exact mpTransient_size τ) someSolution someSolution_solves st fun _ _ => (0 : ℚ)
  exact ⟨h1.1.trans hm, h1.2.2.1, fun i => ⟨h2.2 0 mpTransient_below (fun _ => le_refl _) 3 (le_refl _) i, h2.1 1 mpTransient_above (fun _ => zero_le_one) 3 (le_refl _) i⟩⟩

/-- The Euler step and the matrix for it. -/
example (st : St ℚ (Fin 2 → ℚ) (Fin 2 → ℚ)) (x : Nat → Fin 2 → ℚ) :
    (∀ c ∈ mpTransient.base.cells, content mpProblem (inCells mpDof ((explicitStep (mpTransient.spatial true mpDof) (mpTransient.temporal true mpDof)
      (mpTransient.trace true) explicitEuler (0 : ℚ) (1 / 100) 1 someSolution st x).1 1)) c =
      content mpProblem (inCells mpDof (x 0)) c - min 1 (1 / 100) * cellLoss true (mpTransient.at 0) (inCells mpDof (x 0)) c) ∧
    OneStep.form (matrixContribution (mpTransient.temporal true mpDof)) (mpTransient.trace true) 0 (x 0) (mpDof 0) (mpDof 1) = 0 :=
  ⟨(C244_euler true mpTransient mpTransient_wellPosed mpDof mpNumbering (0 : ℚ) (1 / 100) 1 (Or.inl (by norm_num)) someSolution someSolution_solves st x).1,
    C244_matrix true mpTransient fvProper mpDof mpNumbering 0 (x 0) (mpProblem.cells[0]'(by decide)) (List.getElem_mem _) (mpProblem.cells[1]'(by decide)) (List.getElem_mem _)⟩

/-- A run that takes the three schemes in turn. -/
noncomputable def mpScheme (n : Nat) : Scheme ℚ := if n % 3 = 0 then explicitEuler else if n % 3 = 1 then heun else shu3

noncomputable def mpExplicitRun (st : St ℚ (Fin 2 → ℚ) (Fin 2 → ℚ)) : Nat → Fin 2 → ℚ
  | 0 => fun _ => 0
  | n + 1 => (explicitStep (mpTransient.spatial true mpDof) (mpTransient.temporal true mpDof) (mpTransient.trace true) (mpScheme n) ((n : ℚ) / 100) (1 / 100) 1
      someSolution st fun _ => mpExplicitRun st n).1 (mpScheme n).s

example (st : St ℚ (Fin 2 → ℚ) (Fin 2 → ℚ)) (n : Nat) (i : Fin 2) : 0 ≤ mpExplicitRun st n i ∧ mpExplicitRun st n i ≤ 1 := by
  have hm : min (1 : ℚ) (1 / 100) = 1 / 100 := by norm_num
  have key := C244_history true mpTransient mpTransient_wellPosed mpDof mpNumbering mpScheme
    (fun n => by unfold mpScheme; split <;> [simp; split <;> simp]) (fun n => (n : ℚ) / 100) (fun _ => 1 / 100) (fun _ => 1)
    (fun _ => Or.inl (by norm_num)) (fun _ => by norm_num) (fun _ τ => by rw [hm]; exact mpTransient_size τ) someSolution someSolution_solves (mpExplicitRun st)
    fun n => ⟨st, fun _ => mpExplicitRun st n, rfl, rfl⟩
  exact ⟨key.2 0 mpTransient_below (fun _ => le_refl _) n i, key.1 1 mpTransient_above (fun _ => zero_le_one) n i⟩

end Verif
