import Verif.Spec.NewtonMesh
import Verif.Props.NewtonSolve
import Verif.Props.VectorMesh
import Verif.Props.MixedMesh
import Verif.Props.NewtonModified
/-
C251: Newton's method for flow, elasticity and mixed methods on a mesh.
-/
namespace Verif
open LocalOp LocalOp.Spec ConstrainedSolve Constraints FEMMesh VectorMesh MixedMesh Tested NewtonMesh
open NewtonSolve (problem KeepsTrivialRows)

section
variable {I K : Type} [DecidableEq I] [Fintype I] [Field K] [LinearOrder K] [IsStrictOrderedRing K]

/-- **C251 (defect).** Whatever the local operator: if `apply` returns, the solution has the Dirichlet values of the guess, the reported defect `d` is below the
absolute limit or the wanted fraction of the first one, and for every test function the residual form is at most `d` times the dual norm of the test function. -/
theorem C251_defect (t : Trafo I K) (h : Admissible t) (symmetric : Bool) (ci0 : Nat → I) (pattern : List (Assembly.PatternPart I)) (parts : List (Part I K))
    (hp : PatternFits t pattern parts) (norm dual : (I → K) → K) (hnorm : DualNorms norm dual)
    (solve : Assembly.Matrix I K → (I → K) → Option K → Bool × (I → K) × Nat) (unassembled : (I → K) → Option K → Bool × (I → K) × Nat) (q : Newton.Params K)
    (hq : Setup solve q) (kept : Option (Option (I → K))) (x : I → K)
    (hret : (Newton.apply (problem t symmetric ci0 pattern parts norm solve unassembled) q kept x).2 = none) :
    let s := (Newton.apply (problem t symmetric ci0 pattern parts norm solve unassembled) q kept x).1
    (∀ k, t.Dirichlet k → s.solution k = x k) ∧
    ∃ d, s.result.defect = some d ∧ (d < q.absoluteLimit ∨ d < norm (residual t parts x) * q.reduction) ∧
      ∀ w, Homogeneous t w → |form parts s.solution w| ≤ d * dual w := by
  intro s
  have h1 := C28_newton_partial (problem t symmetric ci0 pattern parts norm solve unassembled) q hq.damped kept x
  refine ⟨C246_dirichlet t h symmetric ci0 pattern parts hp norm solve hq.keeps unassembled q hq.noForce hq.positive hq.reassembles kept x,
    norm (residual t parts s.solution), h1.2.1, ?_, fun w hw => ?_⟩
  · rcases (h1.2.2.2.1 hret).2.1 with ⟨a, b, ea, eb, hlt⟩ | ⟨a, b, ea, eb, hlt⟩
    · left
      have e1 : norm (residual t parts s.solution) = a := Option.some.inj ea
      rw [e1, Option.some.inj eb]
      exact hlt
    · right
      have e1 : norm (residual t parts s.solution) = a := Option.some.inj ea
      have e2 : norm (residual t parts x) * q.reduction = b := Option.some.inj eb
      rw [e1, e2]
      exact hlt
  · rw [form_residual h parts s.solution w hw]
    exact hnorm _ _

end

section
open TaylorHood
variable {K P Q I : Type} [Field K] [LinearOrder K] [IsStrictOrderedRing K] [Inhabited I] [DecidableEq I] [Fintype I] {d N : Nat} {n m : Fin N → Nat}

/-- **C251 (Navier-Stokes).** Newton's method with the Taylor-Hood operator, with or without convection. If it returns, the weak form of the result is at most the
reported defect times the dual norm of the test function, and the mass balance is: for every test pressure the integral of `q div u` differs from that of `g₂ q` by at
most the defect times the dual norm of `q`. -/
theorem C251_flow (s : Int) (mesh : TaylorHood.Mesh K P Q I d n m) (t : Trafo I K) (h : Admissible t) (pressureDof : I → Bool) (hsep : Separated t mesh pressureDof)
    (symmetric : Bool) (ci0 : Nat → I) (norm dual : (I → K) → K) (hnorm : DualNorms norm dual)
    (solve : Assembly.Matrix I K → (I → K) → Option K → Bool × (I → K) × Nat) (unassembled : (I → K) → Option K → Bool × (I → K) × Nat) (q : Newton.Params K)
    (hq : Setup solve q) (kept : Option (Option (I → K))) (x : I → K)
    (hret : (Newton.apply (problem t symmetric ci0 (meshPattern mesh) (meshParts s mesh) norm solve unassembled) q kept x).2 = none) :
    let out := (Newton.apply (problem t symmetric ci0 (meshPattern mesh) (meshParts s mesh) norm solve unassembled) q kept x).1
    (∀ k, t.Dirichlet k → out.solution k = x k) ∧
    ∃ def_, out.result.defect = some def_ ∧ (def_ < q.absoluteLimit ∨ def_ < norm (residual t (meshParts s mesh) x) * q.reduction) ∧
      (∀ w, Homogeneous t w → |weakForm s mesh out.solution w| ≤ def_ * dual w) ∧
      ∀ w, Homogeneous t w → (∀ k, pressureDof k = false → w k = 0) →
        |mesh.pressureWork s w out.solution -
          ∑ c, quadrature ((mesh.geo c).quadratureRule (massOrder d (mesh.v c).order (mesh.isSimplex c) s)) (mesh.geo c).integrationElement
            (fun p => (mesh.par c).g2 p * mesh.pressure w c p)| ≤ def_ * dual w := by
  intro out
  obtain ⟨h1, dd, h2, h3, h4⟩ := C251_defect t h symmetric ci0 (meshPattern mesh) (meshParts s mesh) (flow_fits s t mesh hsep.used) norm dual hnorm solve unassembled q hq
    kept x hret
  refine ⟨h1, dd, h2, h3, fun w hw => ?_, fun w hw hp => ?_⟩
  · rw [← C239_weak_form]
    exact h4 w hw
  · have e : alone pressureDof w = w := by
      funext k
      unfold alone
      cases e1 : pressureDof k
      · simp [hp k e1]
      · simp
    have h5 := h4 w hw
    rw [C239_weak_form] at h5
    have h6 := flow_mass_form s mesh t pressureDof hsep out.solution w
    rw [e] at h6
    rw [abs_sub_comm, ← h6]
    exact h5

/-- **C251 (Stokes).** For a stable Stokes problem Newton's method with an exact linear solver returns after at most one iteration, from any guess, and after an
iteration the result is a solution. -/
theorem C251_stokes (s : Int) (mesh : TaylorHood.Mesh K P Q I d n m) (t : Trafo I K) (h : Admissible t) (hdir : ∀ k row, (k, row) ∈ t.rows → row = [])
    (pressureDof : I → Bool) (hsep : Separated t mesh pressureDof) (hst : StableStokes s t mesh pressureDof) (symmetric : Bool) (ci0 : Nat → I)
    (norm : (I → K) → K) (hnorm : NewtonSolve.Definite norm) (solve : Assembly.Matrix I K → (I → K) → Option K → Bool × (I → K) × Nat)
    (unassembled : (I → K) → Option K → Bool × (I → K) × Nat) (q : Newton.Params K) (hq : ExactSetup solve q) (kept : Option (Option (I → K))) (x : I → K) :
    let out := Newton.apply (problem t symmetric ci0 (meshPattern mesh) (meshParts s mesh) norm solve unassembled) q kept x
    out.2 = none ∧ out.1.result.iterations ≤ 1 ∧ (∀ k, t.Dirichlet k → out.1.solution k = x k) ∧
      (out.1.result.iterations = 1 → Solution s t mesh out.1.solution) := by
  intro out
  obtain ⟨h1, h2, h3, h4⟩ := C246_linear t h hdir symmetric ci0 (meshPattern mesh) (meshParts s mesh) (flow_fits s t mesh hsep.used)
    _ _ (stokes_affine s mesh hst.stokes) (stokes_regular t mesh pressureDof hsep s hst) norm hnorm solve hq.solves unassembled q hq.noForce hq.positive hq.reassembles
    hq.trials hq.allowed kept x
  exact ⟨h1, h2, h3, fun hi => (flow_galerkin t mesh s _).mp (h4 hi).1⟩

end

section
open Elasticity
variable {K P Q I : Type} [Field K] [LinearOrder K] [IsStrictOrderedRing K] [Inhabited I] [DecidableEq I] [Fintype I] {d N : Nat} {n : Fin N → Nat}

/-- **C251 (elasticity).** The same for a body that is held. -/
theorem C251_elasticity (intorder : Int) (mesh : Elasticity.Mesh K P Q I d n) (t : Trafo I K) (h : Admissible t) (hdir : ∀ k row, (k, row) ∈ t.rows → row = [])
    (hin : Elasticity.ConstrainedInCells t mesh) (hh : Held intorder t mesh) (symmetric : Bool) (ci0 : Nat → I)
    (norm : (I → K) → K) (hnorm : NewtonSolve.Definite norm) (solve : Assembly.Matrix I K → (I → K) → Option K → Bool × (I → K) × Nat)
    (unassembled : (I → K) → Option K → Bool × (I → K) × Nat) (q : Newton.Params K) (hq : ExactSetup solve q) (kept : Option (Option (I → K))) (x : I → K) :
    let out := Newton.apply (problem t symmetric ci0 (meshPattern mesh) (meshParts intorder mesh) norm solve unassembled) q kept x
    out.2 = none ∧ out.1.result.iterations ≤ 1 ∧ (∀ k, t.Dirichlet k → out.1.solution k = x k) ∧
      (out.1.result.iterations = 1 → Equilibrium intorder t mesh out.1.solution) := by
  intro out
  obtain ⟨h1, h2, h3, h4⟩ := C246_linear t h hdir symmetric ci0 (meshPattern mesh) (meshParts intorder mesh) (elasticity_fits intorder t mesh hin)
    _ _ (elasticity_affine intorder mesh) (elasticity_regular intorder t mesh hh) norm hnorm solve hq.solves unassembled q hq.noForce hq.positive hq.reassembles
    hq.trials hq.allowed kept x
  exact ⟨h1, h2, h3, fun hi => (elasticity_galerkin intorder t mesh _).mp (h4 hi).1⟩

end

section
open MixedDiffusion
variable {K P Q I : Type} [Field K] [LinearOrder K] [IsStrictOrderedRing K] [Inhabited I] [DecidableEq I] [Fintype I] {d N : Nat} {n m : Fin N → Nat}

/-- **C251 (mixed method).** The same for the mixed method with its numerical Jacobian and a stable pair of spaces. -/
theorem C251_mixed (o : Method K P d) (heps : 0 < o.eps) (mesh : MixedDiffusion.Mesh K P Q I d n m) (F : Fin N → Matrix (Fin d) (Fin d) K) (det : Fin N → K)
    (ha : MixedDiffusion.Affine o mesh F det) (t : Trafo I K) (h : Admissible t) (hdir : ∀ k row, (k, row) ∈ t.rows → row = []) (pressureDof : I → Bool)
    (hsep : MixedDiffusion.Separated mesh t pressureDof) (hst : Stable o mesh F det t pressureDof) (symmetric : Bool) (ci0 : Nat → I)
    (norm : (I → K) → K) (hnorm : NewtonSolve.Definite norm) (solve : Assembly.Matrix I K → (I → K) → Option K → Bool × (I → K) × Nat)
    (unassembled : (I → K) → Option K → Bool × (I → K) × Nat) (q : Newton.Params K) (hq : ExactSetup solve q) (kept : Option (Option (I → K))) (x : I → K) :
    let out := Newton.apply (problem t symmetric ci0 (meshPattern mesh) (meshParts o mesh) norm solve unassembled) q kept x
    out.2 = none ∧ out.1.result.iterations ≤ 1 ∧ (∀ k, t.Dirichlet k → out.1.solution k = x k) ∧
      (out.1.result.iterations = 1 → Solution o mesh F det t out.1.solution) := by
  intro out
  obtain ⟨h1, h2, h3, h4⟩ := C246_linear t h hdir symmetric ci0 (meshPattern mesh) (meshParts o mesh) (mixed_fits o mesh t hsep.used)
    _ _ (mixed_affine o mesh heps) (mixed_regular o mesh F det t pressureDof hsep ha hst) norm hnorm solve hq.solves unassembled q hq.noForce hq.positive hq.reassembles
    hq.trials hq.allowed kept x
  exact ⟨h1, h2, h3, fun hi => (mixed_galerkin o mesh F det t pressureDof hsep ha _).mp (h4 hi).1⟩

end

/-! Concrete cases. First the channel of C239 with convection, with the velocity 1 at the inflow: one iteration with a solver that knows a single correction. -/

def nsMesh : TaylorHood.Mesh ℚ ℚ Unit (Fin 5) 1 (N := 2) (fun _ => 2) fun _ => 1 := { stMesh with par := fun c => { stMesh.par c with navier := true } }

theorem nsMesh_separated : TaylorHood.Separated stTrafo nsMesh stPressure where
  velocity := stMesh_separated.velocity
  pressure := stMesh_separated.pressure
  used := stMesh_separated.used
  rows := stMesh_separated.rows

/-- A linear solver that tries one correction, and fails if it is none. -/
def trySolve {I F : Type} [DecidableEq I] [Fintype I] [Field F] [DecidableEq F] (z : I → F) (m : Assembly.Matrix I F) (r : I → F) (_ : Option F) : Bool × (I → F) × Nat :=
  (decide (∀ i, ∑ c, m.val i c * z c = r i), z, 1)

theorem trySolve_keeps {I F : Type} [DecidableEq I] [Fintype I] [Field F] [LinearOrder F] (z : I → F) : KeepsTrivialRows (trySolve z) := by
  intro m r red k hk hr h
  have h1 := of_decide_eq_true h k
  simp only [hk, ite_mul, one_mul, zero_mul, Finset.sum_ite_eq', Finset.mem_univ, if_true] at h1
  exact h1.trans hr

theorem sum_abs_dual {I F : Type} [Fintype I] [Field F] [LinearOrder F] [IsStrictOrderedRing F] :
    DualNorms (fun r : I → F => ∑ k, |r k|) fun w => ∑ k, |w k| := by
  intro r w
  refine (Finset.abs_sum_le_sum_abs _ _).trans ?_
  rw [Finset.sum_mul]
  refine Finset.sum_le_sum fun k _ => ?_
  rw [abs_mul, mul_comm]
  exact mul_le_mul_of_nonneg_left (Finset.single_le_sum (f := fun k => |w k|) (fun _ _ => abs_nonneg _) (Finset.mem_univ k)) (abs_nonneg _)

theorem trySetup {I : Type} [DecidableEq I] [Fintype I] (z : I → ℚ) : Setup (trySolve z) cubicParams :=
  ⟨trySolve_keeps z, by unfold Newton.Spec.Damped cubicParams; norm_num, rfl, by decide +kernel, by decide +kernel⟩

theorem chosenSetup {I : Type} [DecidableEq I] [Fintype I] : ExactSetup (chosenReport : Assembly.Matrix I ℚ → (I → ℚ) → Option ℚ → _) cubicParams :=
  ⟨chosenReport_solves, rfl, by decide +kernel, by decide +kernel, fun n e b h => by
    simp only [cubicParams, Newton.LineSearch.hackbuschReusken.injEq] at h; omega, by decide +kernel⟩

theorem nsMesh_run : let out := Newton.apply (problem stTrafo true (fun _ => 0) (TaylorHood.meshPattern nsMesh) (TaylorHood.meshParts 0 nsMesh) (fun r => ∑ k, |r k|)
    (trySolve ![0, -1, -1, 33 / 16, -3 / 4]) fun _ _ => (false, 0, 0)) cubicParams none ![1, 0, 0, 0, 0]
    out.2 = none ∧ out.1.solution = ![1, 1, 1, -33 / 16, 3 / 4] ∧ out.1.result.iterations = 1 ∧ out.1.result.defect = some (5 / 16) := by
  decide +kernel

example (w : Fin 5 → ℚ) (hw : w 0 = 0) : |TaylorHood.weakForm 0 nsMesh ![1, 1, 1, -33 / 16, 3 / 4] w| ≤ 5 / 16 * ∑ k, |w k| := by
  obtain ⟨-, d, h1, -, h2, -⟩ := C251_flow 0 nsMesh stTrafo stTrafo_admissible stPressure nsMesh_separated true (fun _ => 0) _ _ sum_abs_dual _ (fun _ _ => (false, 0, 0))
    cubicParams (trySetup ![0, -1, -1, 33 / 16, -3 / 4]) none ![1, 0, 0, 0, 0] nsMesh_run.1
  have h3 := h2 w ((st_dirichlet w).mpr hw)
  rw [nsMesh_run.2.1] at h3
  rwa [Option.some.inj (h1.symm.trans nsMesh_run.2.2.2)] at h3

/-- The pressure of the first cell is a test function of the mass balance. -/
example : Homogeneous stTrafo ![0, 0, 0, 1, 0] ∧ ∀ k, stPressure k = false → (![0, 0, 0, 1, 0] : Fin 5 → ℚ) k = 0 :=
  ⟨(st_dirichlet _).mpr rfl, by decide +kernel⟩

/-- Without convection: one iteration, from any guess. -/
example (kept : Option (Option (Fin 5 → ℚ))) (x : Fin 5 → ℚ) :
    (Newton.apply (problem stTrafo true (fun _ => 0) (TaylorHood.meshPattern stMesh) (TaylorHood.meshParts 0 stMesh) (fun r => ∑ k, |r k|) chosenReport
      fun _ _ => (false, 0, 0)) cubicParams kept x).1.result.iterations ≤ 1 :=
  (C251_stokes 0 stMesh stTrafo stTrafo_admissible (fun _ _ h => (stTrafo_empty h).2) stPressure stMesh_separated stMesh_stable true (fun _ => 0) _ sum_abs_definite _
    (fun _ _ => (false, 0, 0)) cubicParams chosenSetup kept x).2.1

/-- From the guess 0 the first defect is not below the limit: the iteration is made. -/
example : let r := residual stTrafo (TaylorHood.meshParts 0 stMesh) (fun _ => (0 : ℚ))
    cubicParams.absoluteLimit ≤ ∑ k, |r k| := by
  decide +kernel

/-- The elastic body of C238. -/
example (kept : Option (Option (Fin 6 → ℚ))) (x : Fin 6 → ℚ) :
    let out := Newton.apply (problem elTrafo true (fun _ => 0) (Elasticity.meshPattern elMesh) (Elasticity.meshParts 0 elMesh) (fun r => ∑ k, |r k|) chosenReport
      fun _ _ => (false, 0, 0)) cubicParams kept x
    out.2 = none ∧ (out.1.result.iterations = 1 → Elasticity.Equilibrium 0 elTrafo elMesh out.1.solution) :=
  have h := C251_elasticity 0 elMesh elTrafo elTrafo_admissible (fun _ _ h => elTrafo_empty h) el_used elMesh_held true (fun _ => 0) _ sum_abs_definite _
    (fun _ _ => (false, 0, 0)) cubicParams chosenSetup kept x
  ⟨h.1, h.2.2.2⟩

/-- The mixed method of C240. -/
example (kept : Option (Option (Fin 5 → ℚ))) (x : Fin 5 → ℚ) :
    let out := Newton.apply (problem mixTrafo true (fun _ => 0) (MixedDiffusion.meshPattern mixMesh) (MixedDiffusion.meshParts mixMethod mixMesh) (fun r => ∑ k, |r k|)
      chosenReport fun _ _ => (false, 0, 0)) cubicParams kept x
    out.2 = none ∧ (out.1.result.iterations = 1 →
      MixedDiffusion.Solution mixMethod mixMesh (fun _ => !![1 / 2]) (fun _ => 1 / 2) mixTrafo out.1.solution) :=
  have h := C251_mixed mixMethod (by norm_num [mixMethod]) mixMesh _ _ mixMesh_affine mixTrafo mixTrafo_admissible (fun _ _ h => (mixTrafo_empty h).2) mixPressure
    mixMesh_separated mixMesh_stable true (fun _ => 0) _ sum_abs_definite _ (fun _ _ => (false, 0, 0)) cubicParams chosenSetup kept x
  ⟨h.1, h.2.2.2⟩

end Verif
