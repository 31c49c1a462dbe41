import Verif.Model.NewtonSolve
import Verif.Model.TransientSolve
/-
Implicit time steps of nonlinear problems: the stages of `OneStepMethod` solved by Newton's method with the instationary grid operator.
-/
namespace Verif.NewtonStep
open Constraints Assembly ConstrainedSolve
open OneStep (Kind Setting St)

variable {I K : Type} [DecidableEq I] [Field K] [LinearOrder K]

/-- What `NewtonMethod` calls in a stage, solver/newton.hh:98-175 and 342-368, with the residual of the instationary grid operator, onestep.hh:158-167, and its
Jacobian, onestep.hh:169-178; `const` is the constant part, which `preStage` has assembled. -/
def stageProblem (t : Trafo I K) (symmetric : Bool) (ci0 : Nat → I) (pattern : List (PatternPart I)) (P : Setting K) (L0 L1 : LocalParts I K)
    (trace : List (Kind × Nat)) (const : I → K) (norm : (I → K) → K) (solve : Matrix I K → (I → K) → Option K → Bool × (I → K) × Nat)
    (unassembled : (I → K) → Option K → Bool × (I → K) × Nat) : Newton.Problem K (I → K) where
  defect x := some (norm (stageResidual t P L0 L1 const trace x))
  jacobianOk x := (jacobian t symmetric ci0 pattern (stageParts P L0 L1 trace) x).isSome
  solve z x reduction :=
    match z.bind (jacobian t symmetric ci0 pattern (stageParts P L0 L1 trace)) with
    | some m => solve m (stageResidual t P L0 L1 const trace x) reduction
    | none => unassembled (stageResidual t P L0 L1 const trace x) reduction

/-- What `OneStepMethod::apply` with a boundary function calls, implicitonestep.hh:291-425, with Newton's method as solver (`pdesolver.apply(*x[r])`,
implicitonestep.hh:356-381). Its state is the kept matrix (newton.hh:334-338); a matrix kept from another stage is for this one a matrix with unknown
contents. An exception of the solver makes the step fail. `stats` are the statistics that are added up. -/
def newtonEnv {T : Type} (t : Trafo I K) (symmetric : Bool) (ci0 : Nat → I) (pattern : List (PatternPart I)) (S : OneStep.Scheme K) (time dt : K)
    (mode : OneStep.DTMode) (L0 L1 : LocalParts I K) (trace : List (Kind × Nat)) (st0 : St K (I → K) (I → K)) (norm : (I → K) → K)
    (solve : Matrix I K → (I → K) → Option K → Bool × (I → K) × Nat) (unassembled : (I → K) → Option K → Bool × (I → K) × Nat)
    (q : Newton.Params K) (g : K → I → K) (stats : Newton.Result K → OneStep.PDERes T) : OneStep.Env (Option (Option (I → K))) (I → K) T where
  s := S.s
  preStageOk _ _ := true
  initStage := OneStep.initInterpolate (fun k => (find? k t.rows).isSome) (fun r => g (time + S.d r * dt)) S.s
  solve kept r xs guess :=
    let P : Setting K := ⟨S, time, dt, mode, r⟩
    let const := stageConst t P L0 L1 trace (fun s => xs.getD s fun _ => 0) st0
    let out := Newton.apply (stageProblem t symmetric ci0 pattern P L0 L1 trace const norm solve unassembled) q (kept.map fun _ => none) guess
    (out.1.jacobian, out.2.isNone, out.1.solution, stats out.1.result)

end Verif.NewtonStep
