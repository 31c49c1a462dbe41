import Verif.Model.OneStepOperator
/-
Model of the implicit time-stepping loop `OneStepMethod` (dune/pdelab/instationary/implicitonestep.hh), of the time controllers
and of the explicit loop `ExplicitOneStepMethod` (dune/pdelab/instationary/explicitonestep.hh).

The vectors of the stages live in a memory indexed by the number of the stage: `x[0]` is `xold`, `x[r]` for `0 < r < s` is allocated in
stage `r`, and `x[s]` is `xnew`. Console output is not modelled.
-/
namespace Verif.OneStep

/-- The parts of `PDESOLVER::Result` that are read. Used for `Stats.addSolve`, implicitonestep.hh:216-220 and 234-238. -/
structure PDERes (T : Type) where
  assemblerTime : T
  linearSolverTime : T
  linearIterations : Nat
  iterations : Nat
deriving DecidableEq, Repr

/-- implicitonestep.hh:22-37  `OneStepMethodPartialResult`. -/
structure Stats (T : Type) where
  timesteps : Nat
  assemblerTime : T
  linearSolverTime : T
  linearIterations : Nat
  nonlinearIterations : Nat
deriving DecidableEq, Repr

/-- implicitonestep.hh:30-36  the default constructor. -/
def Stats.zero {T : Type} [Zero T] : Stats T := ⟨0, 0, 0, 0, 0⟩

/-- implicitonestep.hh:216-220 and 234-238  add the result of the solver to the statistics of the step. -/
def Stats.addSolve {T : Type} [Add T] (a : Stats T) (p : PDERes T) : Stats T :=
  ⟨a.timesteps, a.assemblerTime + p.assemblerTime, a.linearSolverTime + p.linearSolverTime,
   a.linearIterations + p.linearIterations, a.nonlinearIterations + p.iterations⟩

/-- implicitonestep.hh:221-225, 251-255 and 256-260  add the statistics of one step to the total. -/
def Stats.addStep {T : Type} [Add T] (a b : Stats T) : Stats T :=
  ⟨a.timesteps + 1, a.assemblerTime + b.assemblerTime, a.linearSolverTime + b.linearSolverTime,
   a.linearIterations + b.linearIterations, a.nonlinearIterations + b.nonlinearIterations⟩

/-- implicitonestep.hh:427-434  the state of a `OneStepMethod` (`step` and `res`). -/
structure OSM (T : Type) where
  step : Nat
  total : Stats T
  successful : Stats T
deriving DecidableEq, Repr

/-- implicitonestep.hh:75-81  the constructor. -/
def OSM.init {T : Type} [Zero T] : OSM T := ⟨1, Stats.zero, Stats.zero⟩

/-- implicitonestep.hh:118-122  `setResult`. -/
def OSM.setResult {T : Type} (total successful : Stats T) : OSM T := ⟨successful.timesteps + 1, total, successful⟩

/-- Observable calls during one step. Used for `OSM.applyAll`, implicitonestep.hh:144-278. -/
inductive Ev (X T : Type) where
  | preStep
  | preStage (r : Nat) (xs : List X)
  | alloc (r : Nat)
  | solve (r : Nat) (guess result : X) (res : PDERes T) (ok : Bool)
  | postStage (r : Nat)
  | free (r : Nat)
  | postStep
deriving DecidableEq, Repr

/-- What one step calls: the number of stages; whether assembling the constant part succeeds (it may throw); how the stage vector is
initialised; the solver (with state `σ`; it sees the stages
from which the constant part of the residual was assembled), which returns whether it succeeded, the vector it leaves behind and its
statistics. Used for `stageLoop`, implicitonestep.hh:176-242. -/
structure Env (σ X T : Type) where
  s : Nat
  preStageOk : Nat → List X → Bool
  initStage : Nat → (Nat → X) → (Nat → X)
  solve : σ → Nat → List X → X → σ × Bool × X × PDERes T

/-- How `apply` is left: normally, by an exception of the solver, or by another exception. Used for `stageLoop`, implicitonestep.hh:176-242. -/
inductive Exit where
  | success | solverFailed | exception
deriving DecidableEq, Repr

/-- What the loop over the stages changes: the vectors, the state of the solver and the statistics, implicitonestep.hh:176-242. -/
structure Run (σ X T : Type) where
  mem : Nat → X
  st : σ
  acc : Stats T
  log : List (Ev X T)

variable {σ X T : Type}

/-- Assignment to the vector of a stage. Used for `initPlain`, implicitonestep.hh:192-207. -/
def upd (mem : Nat → X) (r : Nat) (x : X) : Nat → X := fun i => if i = r then x else mem i

/-- implicitonestep.hh:192-207  initialisation of the stage vector without boundary function: `xnew` (which is `x[s]`) in the first stage,
the previous stage afterwards. -/
def initPlain (s r : Nat) (mem : Nat → X) : Nat → X :=
  if r = s then (if r > 1 then upd mem r (mem (r - 1)) else mem)
  else if r > 1 then upd mem r (mem (r - 1)) else upd mem r (mem s)

/-- constraints/common/constraints.hh  `copy_nonconstrained_dofs(cg, xin, xout)`: copy the DOFs without constraint (see
`Verif.Model.Constraints` for the container). Used for `gridInterpolate`, gridoperator.hh:154-165. -/
def copyFree {D K : Type} (constrained : D → Bool) (xin xout : D → K) : D → K :=
  fun d => if constrained d then xout d else xin d

/-- gridoperator.hh:154-165  `GridOperator::interpolate(xold, f, x)` on the memory: `src` and `dst` are the addresses of `xold` and `x`;
if they agree the source is saved first. `f` is the interpolation of the function. -/
def gridInterpolate {D K : Type} (constrained : D → Bool) (f : D → K) (src dst : Nat) (mem : Nat → D → K) : Nat → D → K :=
  let tmp : Option (D → K) := if src = dst then some (mem src) else none
  let mem := upd mem dst f
  upd mem dst (copyFree constrained (tmp.getD (mem src)) (mem dst))

/-- onestep.hh:214-236 and implicitonestep.hh:339-354  initialisation with a boundary function: `interpolate(r, *init_guess, f, *x[r])`
(`f r` is the interpolation at the time of stage `r`), where `init_guess` is `&xnew` in the first stage and the previous stage
otherwise. Communication between processes is not modelled. -/
def initInterpolate {D K : Type} (constrained : D → Bool) (f : Nat → D → K) (s r : Nat) (mem : Nat → D → K) : Nat → D → K :=
  let src := if r = 1 then s else r - 1
  let mem := gridInterpolate constrained (f r) src r mem
  upd mem r (copyFree constrained (mem src) (mem r))

/-- implicitonestep.hh:176-242  the loop over the stages, with `n` stages to go; `r` is the current one. -/
def stageLoop [Add T] (E : Env σ X T) : Nat → Nat → Run σ X T → Exit × Run σ X T
  | 0, _, R => (.success, R)
  | n + 1, r, R =>
    let xs := (List.range r).map R.mem
    let log := R.log ++ [.preStage r xs]
    if E.preStageOk r xs = false then (.exception, { R with log := log })
    else
      let log := if r = E.s then log else log ++ [.alloc r]
      let mem := E.initStage r R.mem
      let out := E.solve R.st r xs (mem r)
      let acc := R.acc.addSolve out.2.2.2
      let log := log ++ [.solve r (mem r) out.2.2.1 out.2.2.2 out.2.1]
      let mem := upd mem r out.2.2.1
      if out.2.1 = true then
        stageLoop E n (r + 1) ⟨mem, out.1, acc, log ++ [.postStage r]⟩
      else
        let log := log ++ (List.range' 1 (r - 1)).map .free
        let log := if r < E.s then log ++ [.free r] else log
        (.solverFailed, ⟨mem, out.1, acc, log⟩)

/-- implicitonestep.hh:144-278  `apply`, and 291-425 for the version with boundary function. Returns how it is left, the memory and
solver state afterwards with the log of the calls, and the state of the method. -/
def OSM.apply [Add T] [Zero T] (m : OSM T) (E : Env σ X T) (mem : Nat → X) (st : σ) :
    Exit × Run σ X T × OSM T :=
  match stageLoop E E.s 1 ⟨mem, st, Stats.zero, [.preStep]⟩ with
  | (.success, R) =>
    let log := R.log ++ (List.range' 1 (E.s - 1)).map .free ++ [.postStep]
    (.success, { R with log := log }, ⟨m.step + 1, m.total.addStep R.acc, m.successful.addStep R.acc⟩)
  | (.solverFailed, R) => (.solverFailed, R, ⟨m.step, m.total.addStep R.acc, m.successful⟩)
  | (.exception, R) => (.exception, R, m)

/-- A sequence of calls of `apply`, each with its own environment and memory; the solver keeps its state. Returns the exits and logs.
Source: the calls of `apply`, implicitonestep.hh:144-278. -/
def OSM.applyAll [Add T] [Zero T] (m : OSM T) (st : σ) :
    List (Env σ X T × (Nat → X)) → List (Exit × List (Ev X T)) × OSM T
  | [] => ([], m)
  | c :: cs =>
    let out := m.apply c.1 c.2 st
    let rest := out.2.2.applyAll out.2.1.st cs
    ((out.1, out.2.1.log) :: rest.1, rest.2)

/-! ### Time controllers -/

/-- explicitonestep.hh:82-90  `CFLTimeController::suggestTimestep`; `bound` is `igos.suggestTimestep(givendt)`. -/
def cflSuggest {K : Type} [Field K] [LinearOrder K] (cfl target bound time : K) : K :=
  let suggested := cfl * bound
  if time + 2 * suggested < target then suggested
  else if time + suggested < target then 1/2 * (target - time)
  else target - time

/-- explicitonestep.hh:404-405 and 429  the step used by `apply`, given the suggestion of the controller. -/
def chooseDt {K : Type} [LinearOrder K] (suggested dt : K) : K := min suggested dt

/-! ### The explicit method -/

/-- explicitonestep.hh:350-464  one stage of the explicit method: `xs` holds the stages up to `r-1` and the initial guess at `r`. The
assembler uses the `dt` given to `preStep` (`P.dt`), the right-hand side is combined with the selected step `dt`. `ls` is the linear
solver. The limiter is not modelled (`DefaultLimiter` does nothing). -/
def explicitStage {K X V M : Type} [Field K] [LinearOrder K] [AddCommGroup V] [Module K V] [AddCommGroup M] [Module K M]
    (P : Setting K) (R0 R1 : Op K X V) (J1 : Op K X M) (ls : M → V → X → X) (trace : List (Kind × Nat)) (dt : K)
    (st : St K X V) (x : Nat → X) (r : Nat) : Nat → X :=
  let P := { P with stage := r }
  let guess := initPlain P.scheme.s r x
  let out := explicitJacobianResidual P R0 R1 J1 guess trace st 0
  upd guess r (ls out.1 (out.2.2 + dt • out.2.1) (guess r))

/-- explicitonestep.hh:307-478  `apply` of the explicit method: the stages `1..s` with the step selected in stage 1. (The controller is
called in stage 1 after the assembly; its suggestion is a parameter.) Returns the stages and the selected step. -/
def explicitApply {K X V M : Type} [Field K] [LinearOrder K] [AddCommGroup V] [Module K V] [AddCommGroup M] [Module K M]
    (S : Scheme K) (time dt suggested : K) (R0 R1 : Op K X V) (J1 : Op K X M) (ls : M → V → X → X)
    (trace : List (Kind × Nat)) (st : St K X V) (x : Nat → X) : (Nat → X) × K :=
  let P : Setting K := ⟨S, time, dt, .doNotAssembleDT, 0⟩
  let newdt := chooseDt suggested dt
  ((List.range' 1 S.s).foldl (explicitStage P R0 R1 J1 ls trace newdt st) x, newdt)

end Verif.OneStep
