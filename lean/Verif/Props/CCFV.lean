import Verif.Proofs.CCFV
import Mathlib.Algebra.Field.Rat
import Mathlib.Algebra.Order.Ring.Rat
import Mathlib.Tactic.FinCases
import Mathlib.Tactic.NormNum
/-
C95, C96: the cell-centred finite volume scheme is conservative and preserves nonnegativity.
-/
namespace Verif
open LocalOp LocalOp.Spec LocalOp.CCFV Matrix GridAssembler

section
variable {K P Q : Type} [Field K] [LinearOrder K] {d : Nat}

/-- **C95 (balance of a cell).** On a grid whose faces are seen consistently from both sides, although each face is visited
from one side only, the residual of every cell is its production plus the fluxes out of it through all of its faces. The
flux through an inner face is the upwind flux of the convection and the two-point flux of the diffusion. -/
theorem C95_ccfv_cell_balance [IsStrictOrderedRing K] (allPartitions : Bool) (pb : Problem K P Q d)
    (hg : ProperGrid allPartitions pb.cells) (hs : SharedFaces allPartitions pb.cells)
    (hc : ConsistentFaces allPartitions pb) (u : Nat → K) :
    ∀ c ∈ pb.cells, total (residualCalls allPartitions pb u) c.id
      = production pb u c.id + cellInteriorFlux allPartitions pb u c + cellBoundaryFlux pb u c :=
  fun c hm => cell_balance allPartitions pb hg hs hc u c hm

/-- **C95 (balance of the domain).** The sum of the residuals of all cells is the production in all cells plus the fluxes
through the boundary: whatever leaves a cell through an inner face enters the other one, whatever the geometry and the
coefficients are. -/
theorem C95_ccfv_mass_balance (allPartitions : Bool) (pb : Problem K P Q d) (hg : ProperGrid allPartitions pb.cells)
    (u : Nat → K) :
    ((ids pb.cells).map (total (residualCalls allPartitions pb u))).sum
      = (pb.cells.map fun c => production pb u c.id + cellBoundaryFlux pb u c).sum :=
  mass_balance allPartitions pb hg u

variable [IsStrictOrderedRing K]

/-- **C96 (nonnegativity).** If the data are nonnegative and the initial values are, so is the result of an implicit Euler
step, for every step size and every grid. -/
theorem C96_ccfv_preserves_nonnegativity (allPartitions : Bool) (pb : Problem K P Q d)
    (hg : ProperGrid allPartitions pb.cells) (hd : StableData pb) (hs : NonnegativeSources pb)
    (dt : K) (hdt : 0 ≤ dt) (uold u : Nat → K) (hold : ∀ c ∈ pb.cells, 0 ≤ uold c.id)
    (hsol : ImplicitEulerStep (fun v => total (temporalCalls allPartitions pb v))
      (fun v => total (residualCalls allPartitions pb v)) pb.cells dt uold u) :
    ∀ c ∈ pb.cells, 0 ≤ u c.id :=
  positivity allPartitions pb hg hd hs dt hdt uold u hold hsol

/-- **C96 (uniqueness).** The equations of an implicit Euler step have at most one solution, whatever the sources and
boundary values are. -/
theorem C96_ccfv_step_unique (allPartitions : Bool) (pb : Problem K P Q d) (hg : ProperGrid allPartitions pb.cells)
    (hd : StableData pb) (dt : K) (hdt : 0 ≤ dt) (uold u v : Nat → K)
    (hu : ImplicitEulerStep (fun v => total (temporalCalls allPartitions pb v))
      (fun v => total (residualCalls allPartitions pb v)) pb.cells dt uold u)
    (hv : ImplicitEulerStep (fun v => total (temporalCalls allPartitions pb v))
      (fun v => total (residualCalls allPartitions pb v)) pb.cells dt uold v) :
    ∀ c ∈ pb.cells, u c.id = v c.id :=
  step_unique allPartitions pb hg hd dt hdt uold u v hu hv

end

/-! A concrete case: the unit interval with two cells; a flux of 1 flows in on the left, the right end is an outflow
boundary. The diffusion coefficient is chosen such that the regularised harmonic mean is 1. -/

def fvProblem : Problem ℚ Unit Unit 1 where
  cells := [⟨0, [⟨0, false, true, 0, false, false⟩, ⟨1, true, false, 1, true, true⟩]⟩,
    ⟨1, [⟨1, true, false, 0, true, true⟩, ⟨2, false, true, 0, false, false⟩]⟩]
  twoNorm x := if x 0 < 0 then -x 0 else x 0
  cellGeo c :=
    { center := ()
      volume := 1 / 2
      global := fun _ _ => (c : ℚ) / 2 + 1 / 4
      integrationElement := fun _ => 1 / 2
      jacobianInverseTransposed := fun _ _ _ => 2
      quadratureRule := fun _ => [((), 1)] }
  cellPar _ :=
    { permeabilityIsConstantPerCell := true
      A := fun _ _ _ => 1 - 1 / 10 ^ 30
      b := fun _ _ => 1
      c := fun _ => 0
      f := fun _ => 0
      g := fun _ => 0 }
  faceGeo c f :=
    { center := ()
      refVolume := 1
      volume := 1
      global := fun _ _ => (f : ℚ) / 2
      integrationElement := fun _ => 1
      inInside := fun _ => ()
      inOutside := fun _ => ()
      centerUnitOuterNormal := fun _ => if c = f then -1 else 1
      unitOuterNormal := fun _ _ => if c = f then -1 else 1
      quadratureRule := fun _ => [((), 1)] }
  facePar _ f :=
    { bctype := fun _ => if f = 0 then .neumann else .outflow
      j := fun _ => -1
      o := fun _ => 0 }
  capacity _ _ := 1

theorem fvProper : ProperGrid true fvProblem.cells := by
  constructor <;> decide

theorem fvShared : SharedFaces true fvProblem.cells := by
  intro c hc
  fin_cases hc <;> decide

theorem fvNorm (x : Fin 1 → ℚ) : fvProblem.twoNorm x = if x 0 < 0 then -x 0 else x 0 := rfl

theorem fvConsistent : ConsistentFaces true fvProblem := by
  constructor
  · intro x
    rw [fvNorm, fvNorm]
    rcases lt_trichotomy (x 0) 0 with h | h | h
    · rw [if_neg (by simp; linarith), if_pos h]; rfl
    · simp [h]
    · rw [if_pos (by simp; linarith), if_neg (by linarith)]; simp
  all_goals
    intro c hc i hi h
    fin_cases hc <;> fin_cases hi <;> revert h <;> decide +kernel

theorem fvStable : StableData fvProblem := by
  constructor
  case norm_nonneg =>
    intro x
    rw [fvNorm]
    split <;> linarith
  all_goals
    intro c hc
    first
      | (fin_cases hc <;> decide +kernel)
      | (intro i hi
         fin_cases hc <;> fin_cases hi <;> decide +kernel)

theorem fvSources : NonnegativeSources fvProblem := by
  constructor <;> intro c hc
  · fin_cases hc <;> decide +kernel
  all_goals
    intro i hi
    fin_cases hc <;> fin_cases hi <;> decide +kernel

example : ImplicitEulerStep (fun v => total (temporalCalls true fvProblem v)) (fun v => total (residualCalls true fvProblem v))
    fvProblem.cells (1 / 2) (fun c => if c = 0 then 2 else 1) (fun c => if c = 0 then 7 / 5 else 13 / 10) := by
  intro c hc
  fin_cases hc <;> decide +kernel

end Verif
