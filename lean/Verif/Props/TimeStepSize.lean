import Verif.Proofs.TimeStepSize
import Verif.Props.CCFV
/-
C230: explicit time steps with finite volumes, and the suggestion of their size.
-/
namespace Verif
open LocalOp LocalOp.Spec LocalOp.CCFV Matrix GridAssembler TimeStepSize Finset OneStep

section
variable {K P Q : Type} [Field K] [LinearOrder K] {d : Nat}

/-- **C230 (explicit steps).** Take a step with the explicit Euler method, Heun's method or the third order method of Shu, with the residuals and
the capacity terms that the assembler computes with the finite volume operators. If sources are not negative and in a step no more leaves a cell
than it contains, then no stage has a negative value in any cell. -/
theorem C230_explicit_steps_partial [IsStrictOrderedRing K] (S : Scheme K) (hS : S = explicitEuler ∨ S = heun ∨ S = shu3) (allPartitions : Bool)
    (pb : Problem K P Q d) (hg : ProperGrid allPartitions pb.cells) (hsh : SharedFaces allPartitions pb.cells)
    (hc : ConsistentFaces allPartitions pb) (hd : StableData pb) (hs : NonnegativeSources pb) (dt : K) (hdt : 0 ≤ dt)
    (hb : StepSizeBound allPartitions pb dt) (u : Nat → Nat → K) (h0 : ∀ c ∈ pb.cells, 0 ≤ u 0 c.id)
    (h : SchemeStages S (fun v => total (temporalCalls allPartitions pb v)) (fun v => total (residualCalls allPartitions pb v)) pb.cells dt u) :
    ∀ r, r ≤ S.s → ∀ c ∈ pb.cells, 0 ≤ u r c.id :=
  stages_nonneg S hS allPartitions pb hg hsh hc hd hs dt hdt hb u h0 h

/-- **C230 (agreement of the processes).** The step suggested by the instationary operator is the smallest of the steps suggested by the two local
operators on any of the processes. So all processes get the same. -/
theorem C230_minimum (procs : Nat) (local0 local1 : Nat → K) (p : Nat) (hp : p < procs) :
    ((∀ q < procs, suggest procs local0 local1 p ≤ local0 q ∧ suggest procs local0 local1 p ≤ local1 q) ∧
      ∃ q < procs, suggest procs local0 local1 p = local0 q ∨ suggest procs local0 local1 p = local1 q) ∧
    ∀ q < procs, suggest procs local0 local1 q = suggest procs local0 local1 p := by
  refine ⟨suggest_spec procs local0 local1 p hp, fun q hq => ?_⟩
  obtain ⟨h1, r, hr, h2⟩ := suggest_spec procs local0 local1 p hp
  obtain ⟨g1, t, ht, g2⟩ := suggest_spec procs local0 local1 q hq
  refine le_antisymm ?_ ?_
  · rcases h2 with h2 | h2 <;> rw [h2]
    · exact (g1 r hr).1
    · exact (g1 r hr).2
  · rcases g2 with g2 | g2 <;> rw [g2]
    · exact (h1 t ht).1
    · exact (h1 t ht).2

/-- **C230 (what the operator suggests).** Whatever the problem, the grid and the members of the operator before, after the preparation of the
first stage and the assembly the finite volume operator suggests `10^100`: the term which computes a bound is never called. -/
theorem C230_suggests_constant (allPartitions : Bool) (pb : Problem K P Q d) (s : FV K) (dt : K) :
    ((s.preStage 1).assembled allPartitions pb).suggestTimestep dt = 10 ^ 100 := by
  rw [assembled_eq]; rfl

end

/-! ### A problem for which the suggested step is too large -/

/-- A step of size `dt` from the values `1, 0`. -/
def fvStages (dt : ℚ) : Nat → Nat → ℚ
  | 0, 0 => 1
  | 0, _ => 0
  | _, 0 => 1 - dt * total (residualCalls true fvProblem fun c => if c = 0 then 1 else 0) 0 * 2
  | _, _ => 0 - dt * total (residualCalls true fvProblem fun c => if c = 0 then 1 else 0) 1 * 2

theorem fvStages_zero (dt : ℚ) : fvStages dt 0 = fun c => if c = 0 then 1 else 0 := by
  funext c
  cases c <;> rfl

theorem fvStages_one0 : fvStages (1 / 2) 1 0 < 0 := by decide +kernel

theorem fvStages_step (dt : ℚ) : SchemeStages explicitEuler (fun v => total (temporalCalls true fvProblem v))
    (fun v => total (residualCalls true fvProblem v)) fvProblem.cells dt (fvStages dt) := by
  intro r h1 h2 c hc
  obtain rfl : r = 1 := by simp only [explicitEuler, oneStepTheta] at h2; omega
  rw [sum_range_succ, sum_range_succ, sum_range_zero]
  dsimp only
  rw [total_temporalCalls true fvProblem fvProper.nodup _ c hc, total_temporalCalls true fvProblem fvProper.nodup _ c hc]
  have e1 : (explicitEuler : Scheme ℚ).b 1 1 = 0 := by decide +kernel
  have e2 : (explicitEuler : Scheme ℚ).b 1 0 = 1 := by decide +kernel
  have e3 : (explicitEuler : Scheme ℚ).a 1 0 = -1 := by decide +kernel
  have e4 : (explicitEuler : Scheme ℚ).a 1 1 = 1 := by decide +kernel
  rw [e1, e2, e3, e4, zero_mul, zero_mul]
  fin_cases hc
  · rw [fvStages_zero]
    simp only [fvStages, fvProblem]
    norm_num
    ring
  · rw [fvStages_zero]
    simp only [fvStages, fvProblem]
    norm_num
    ring

/-- The hypotheses of `C230_explicit_steps_partial` are met by a step of size 1/8, in which the values do change. -/
example : StepSizeBound true fvProblem (1 / 8) ∧ (∀ c ∈ fvProblem.cells, 0 ≤ fvStages (1 / 8) 0 c.id) ∧ fvStages (1 / 8) 1 1 ≠ fvStages (1 / 8) 0 1 := by
  refine ⟨?_, ?_, by decide +kernel⟩
  · intro c hc
    fin_cases hc <;> decide +kernel
  · intro c hc
    fin_cases hc <;> decide +kernel

/-- **C230 (the suggestion) is false of the code.** It is not true that the step which the controller selects from the suggestion keeps the values
nonnegative: for a problem with nonnegative sources the controller with the CFL number 1 lets a step of 1/2 pass, after which a value
is negative. -/
theorem C230_suggestion_false :
    ¬ ∀ (pb : Problem ℚ Unit Unit 1) (s : FV ℚ) (cfl target dt given : ℚ) (u : Nat → Nat → ℚ),
      ProperGrid true pb.cells → SharedFaces true pb.cells → ConsistentFaces true pb → StableData pb → NonnegativeSources pb →
      0 < cfl → cfl ≤ 1 → 0 < given → 2 * given < target →
      dt = chooseDt (cflSuggest cfl target (suggest 1 (fun _ => ((s.preStage 1).assembled true pb).suggestTimestep given) (fun _ => given) 0) 0) given →
      SchemeStages explicitEuler (fun v => total (temporalCalls true pb v)) (fun v => total (residualCalls true pb v)) pb.cells dt u →
      (∀ c ∈ pb.cells, 0 ≤ u 0 c.id) → ∀ c ∈ pb.cells, 0 ≤ u 1 c.id := by
  intro h
  have := h fvProblem ⟨false, 0, 0⟩ 1 10 (1 / 2) (1 / 2) (fvStages (1 / 2)) fvProper fvShared fvConsistent fvStable fvSources
    (by norm_num) (by norm_num) (by norm_num) (by norm_num) (by rw [C230_suggests_constant]; decide +kernel) (fvStages_step _)
    (by intro c hc; fin_cases hc <;> decide +kernel) ⟨0, _⟩ List.mem_cons_self
  exact absurd this (not_le.2 fvStages_one0)

end Verif
