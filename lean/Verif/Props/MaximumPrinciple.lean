import Verif.Proofs.MaximumPrinciple
import Verif.Props.CCFV
/-
C234: the maximum principle for the cell-centred finite volume scheme.
-/
set_option linter.unusedSectionVars false
namespace Verif
open LocalOp LocalOp.Spec LocalOp.CCFV Matrix GridAssembler MaximumPrinciple

section
variable {K P Q : Type} [Field K] [LinearOrder K] [IsStrictOrderedRing K] {d : Nat}

/-- **C234 (stationary problems).** Solutions of the discrete stationary problem lie between the bounds of the data. -/
theorem C234_stationary (allPartitions : Bool) (pb : Problem K P Q d) (hg : ProperGrid allPartitions pb.cells)
    (hsh : SharedFaces allPartitions pb.cells) (hc : ConsistentFaces allPartitions pb) (hd : StableData pb)
    (ha : NoAccumulation allPartitions pb) (hr : ∀ c ∈ pb.cells, Reaches allPartitions pb c) (u : Nat → K)
    (h : Stationary (fun v => total (residualCalls allPartitions pb v)) pb.cells u) :
    (∀ M, BoundedAbove allPartitions pb M → ∀ c ∈ pb.cells, u c.id ≤ M) ∧
    ∀ m, BoundedBelow allPartitions pb m → ∀ c ∈ pb.cells, m ≤ u c.id := by
  refine ⟨fun M hM => stationary_le allPartitions pb hg hsh hc hd ha hr M hM u h, fun m hm c hcm => ?_⟩
  have := stationary_le allPartitions (negated pb) hg hsh ⟨hc.norm_neg, hc.area_eq, hc.normal_eq, hc.velocity_eq⟩ (negated_stable pb hd) ha
    (fun c hcm => negated_reaches allPartitions pb c (hr c hcm)) (-m) (negated_bounded allPartitions pb m hm) (fun k => -u k)
    (fun c hcm => by
      have := h c hcm
      simp only at this ⊢
      rw [negated_residual allPartitions pb hg hsh hc u c hcm, this, neg_zero]) c hcm
  exact neg_le_neg_iff.mp this

/-- **C234 (time steps).** An implicit Euler step of any size stays within the bounds of the data and of the previous values. -/
theorem C234_implicit_euler (allPartitions : Bool) (pb : Problem K P Q d) (hg : ProperGrid allPartitions pb.cells)
    (hsh : SharedFaces allPartitions pb.cells) (hc : ConsistentFaces allPartitions pb) (hd : StableData pb)
    (ha : NoAccumulation allPartitions pb) (dt : K) (hdt : 0 ≤ dt) (uold u : Nat → K)
    (h : ImplicitEulerStep (fun v => total (temporalCalls allPartitions pb v)) (fun v => total (residualCalls allPartitions pb v))
      pb.cells dt uold u) :
    (∀ M, BoundedAbove allPartitions pb M → (∀ c ∈ pb.cells, uold c.id ≤ M) → ∀ c ∈ pb.cells, u c.id ≤ M) ∧
    ∀ m, BoundedBelow allPartitions pb m → (∀ c ∈ pb.cells, m ≤ uold c.id) → ∀ c ∈ pb.cells, m ≤ u c.id := by
  refine ⟨fun M hM hold => step_le allPartitions pb hg hsh hc hd ha M hM dt hdt uold u hold h, fun m hm hold c hcm => ?_⟩
  have := step_le allPartitions (negated pb) hg hsh ⟨hc.norm_neg, hc.area_eq, hc.normal_eq, hc.velocity_eq⟩ (negated_stable pb hd) ha
    (-m) (negated_bounded allPartitions pb m hm) dt hdt (fun k => -uold k) (fun k => -u k) (fun c hcm => neg_le_neg (hold c hcm))
    (fun c hcm => by
      have h1 := h c hcm
      simp only at h1 ⊢
      rw [negated_residual allPartitions pb hg hsh hc u c hcm, total_temporalCalls _ _ (by exact hg.nodup) _ c hcm,
        total_temporalCalls _ _ (by exact hg.nodup) _ c hcm]
      rw [total_temporalCalls _ _ hg.nodup _ c hcm, total_temporalCalls _ _ hg.nodup _ c hcm] at h1
      have e : (negated pb).capacity = pb.capacity ∧ (negated pb).cellGeo = pb.cellGeo := ⟨rfl, rfl⟩
      rw [e.1, e.2]
      linarith) c hcm
  exact neg_le_neg_iff.mp this

/-- **C234 (uniqueness).** The stationary problem has at most one solution, whatever the sources and boundary values. -/
theorem C234_unique (allPartitions : Bool) (pb : Problem K P Q d) (hg : ProperGrid allPartitions pb.cells)
    (hsh : SharedFaces allPartitions pb.cells) (hc : ConsistentFaces allPartitions pb) (hd : StableData pb)
    (ha : NoAccumulation allPartitions pb) (hr : ∀ c ∈ pb.cells, Reaches allPartitions pb c) (u v : Nat → K)
    (hu : Stationary (fun v => total (residualCalls allPartitions pb v)) pb.cells u)
    (hv : Stationary (fun v => total (residualCalls allPartitions pb v)) pb.cells v) : ∀ c ∈ pb.cells, u c.id = v c.id := by
  intro c hcm
  have h1 := homogeneous_le allPartitions pb hg hsh hc hd ha hr _ (homogeneous_stationary allPartitions pb u v hu hv) c hcm
  have h2 := homogeneous_le allPartitions pb hg hsh hc hd ha hr _ (homogeneous_stationary allPartitions pb v u hv hu) c hcm
  exact le_antisymm (sub_nonpos.mp h1) (sub_nonpos.mp h2)

end

/-! A concrete case: two cells, a flow from the left end, where the value is 1, to the right end, and a reaction. -/

def mpProblem : Problem ℚ Unit Unit 1 :=
  { fvProblem with
    cellPar := fun c => { fvProblem.cellPar c with c := fun _ => 2, g := fun _ => 1 }
    facePar := fun _ f => { bctype := fun _ => if f = 0 then .dirichlet else .outflow, j := fun _ => 0, o := fun _ => 0 } }

theorem mpConsistent : ConsistentFaces true mpProblem :=
  ⟨fvConsistent.norm_neg, fvConsistent.area_eq, fvConsistent.normal_eq, fvConsistent.velocity_eq⟩

theorem mpStable : StableData mpProblem := by
  constructor
  case norm_nonneg => exact fvStable.norm_nonneg
  all_goals
    intro c hc
    first
      | (fin_cases hc <;> decide +kernel)
      | (intro i hi
         fin_cases hc <;> fin_cases hi <;> decide +kernel)

theorem mpNoAccumulation : NoAccumulation true mpProblem := by
  intro c hc
  fin_cases hc <;> decide +kernel

theorem mpReaches : ∀ c ∈ mpProblem.cells, Reaches true mpProblem c := by
  intro c hc
  fin_cases hc
  · exact .boundary _ ⟨0, false, true, 0, false, false⟩ (by decide) (by decide) rfl (by decide +kernel)
  · exact .inner _ _ ⟨1, true, false, 0, true, true⟩ (by decide) (by decide) (by decide +kernel) (List.mem_cons_self ..) rfl
      (.boundary _ ⟨0, false, true, 0, false, false⟩ (by decide) (by decide) rfl (by decide +kernel))

theorem mpBoundedAbove : BoundedAbove true mpProblem 1 := by
  constructor <;> intro c hc
  · fin_cases hc <;> decide +kernel
  all_goals
    intro i hi
    fin_cases hc <;> fin_cases hi <;> decide +kernel

theorem mpBoundedBelow : BoundedBelow true mpProblem 0 := by
  constructor <;> intro c hc
  · fin_cases hc <;> decide +kernel
  all_goals
    intro i hi
    fin_cases hc <;> fin_cases hi <;> decide +kernel

/-- The stationary solution, about 10/13 and 15/26. -/
def mpSolution (c : Nat) : ℚ :=
  let e : ℚ := 4 / 10 ^ 30
  let u := (5 - e) / (13 / 2 - e)
  if c = 0 then u else 3 / 4 * u

theorem mpStationary : Stationary (fun v => total (residualCalls true mpProblem v)) mpProblem.cells mpSolution := by
  intro c hc
  fin_cases hc <;> decide +kernel

example : ∀ c ∈ mpProblem.cells, 0 ≤ mpSolution c.id ∧ mpSolution c.id ≤ 1 := fun c hc =>
  have h := C234_stationary true mpProblem fvProper fvShared mpConsistent mpStable mpNoAccumulation mpReaches mpSolution mpStationary
  ⟨h.2 0 mpBoundedBelow c hc, h.1 1 mpBoundedAbove c hc⟩

/-- Staying there is a time step of any size. -/
example (dt : ℚ) : ImplicitEulerStep (fun v => total (temporalCalls true mpProblem v)) (fun v => total (residualCalls true mpProblem v))
    mpProblem.cells dt mpSolution mpSolution := by
  intro c hc
  have h := mpStationary c hc
  simp only at h ⊢
  rw [h]
  ring

end Verif
