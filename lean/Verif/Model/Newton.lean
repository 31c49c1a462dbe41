import Mathlib.Algebra.Field.Defs
import Mathlib.Order.Defs.LinearOrder
import Mathlib.Algebra.Module.Defs
/-
Model of the Newton solver (dune/pdelab/solver/newton.hh), of its line searches (dune/pdelab/solver/linesearch.hh) and of its
termination criterion (dune/pdelab/solver/terminate.hh).

Defects are `Option K`: `none` is a NaN, all comparisons with which are false. Infinite defects, console output, timings and the
modifications for hanging nodes are not modelled. The matrix-based variant is modelled.
-/
namespace Verif.Newton

variable {K X : Type} [Field K] [LinearOrder K] [AddCommGroup X] [Module K X]

/-- `a < b` for floating point numbers that may be NaN. Used for `hrLoop`, linesearch.hh:104-132. -/
def ltF (a b : Option K) : Bool :=
  match a, b with
  | some a, some b => decide (a < b)
  | _, _ => false

/-- `a <= b` for floating point numbers that may be NaN. Used for `hrLoop`, linesearch.hh:104-132. -/
def leF (a b : Option K) : Bool :=
  match a, b with
  | some a, some b => decide (a ≤ b)
  | _, _ => false

/-- `a / b` for floating point numbers that may be NaN; division by zero gives zero here, not infinity. Used for `loop`, newton.hh:221-319. -/
def divF (a b : Option K) : Option K :=
  match a, b with
  | some a, some b => some (a / b)
  | _, _ => none

/-- solver/utility.hh:8-30 and backend/solver.hh:30-51  the fields of `PDESolverResult` that are modelled. -/
structure Result (K : Type) where
  converged : Bool
  iterations : Nat
  reduction : Option K
  firstDefect : Option K
  defect : Option K
  linearIterations : Nat
deriving DecidableEq, Repr

/-- solver/utility.hh:21-29 and backend/solver.hh:43-50  `clear`. -/
def Result.clear : Result K := ⟨false, 0, some 0, some 0, some 0, 0⟩

/-- The line searches (linesearch.hh:35-61 and 71-210). -/
inductive LineSearch (K : Type) where
  | none
  | hackbuschReusken (maxIterations : Nat) (damping : K) (acceptBest : Bool)

/-- The parameters of the Newton solver (newton.hh:657-669) and of the termination criterion (terminate.hh:73-75). -/
structure Params (K : Type) where
  reduction : K
  absoluteLimit : K
  keepMatrix : Bool
  minLinearReduction : K
  fixedLinearReduction : Bool
  reassembleThreshold : K
  maxIterations : Nat
  forceIteration : Bool
  lineSearch : LineSearch K

/-- What the solver calls: `defect x` is the norm of the residual at `x` (possibly NaN), `jacobianOk x` whether assembling the Jacobian
succeeds, `solve A x red` the linear solver applied to the matrix `A` (given by its linearisation point, `none` if it was never
assembled) and the residual at `x`: whether it converged, the correction and the number of iterations. Used for `update`, newton.hh:342-368. -/
structure Problem (K X : Type) where
  defect : X → Option K
  jacobianOk : X → Bool
  solve : Option X → X → Option K → Bool × X × Nat

/-- Exceptions. Used for `hackbuschReusken`, linesearch.hh:81-169. -/
inductive Error where
  | terminate | linearSolver | lineSearch | assembly | outOfFuel
deriving DecidableEq, Repr

/-- Observable calls: assembling the Jacobian at `x`; a linear solve with the matrix assembled at `matrix` and the residual at `x`, with
requested reduction and the number of iterations made. Used for `prepareStep`, newton.hh:98-120. -/
inductive Ev (K X : Type) where
  | assemble (x : X)
  | linearSolve (matrix : Option X) (x : X) (reduction : Option K) (iterations : Nat)
deriving DecidableEq, Repr

/-- State of the line search: solution and defect of the solver. Used for `update`, newton.hh:342-368. -/
structure LS (K X : Type) where
  solution : X
  defect : Option K

/-- newton.hh:342-368  `updateDefect` after a change of the solution. -/
def update (P : Problem K X) (x : X) : LS K X := ⟨x, P.defect x⟩

/-- Loop state of the Hackbusch-Reusken line search (linesearch.hh:93-97). -/
structure HR (K X : Type) where
  cur : LS K X
  lambda : K
  bestLambda : K
  bestDefect : Option K
  converged : Bool

/-- linesearch.hh:104-132  the loop with `n` iterations to go; `prev` is the saved solution with its defect. -/
def hrLoop (P : Problem K X) (correction : X) (damping : K) (prev : LS K X) : Nat → HR K X → HR K X
  | 0, s => s
  | n + 1, s =>
    let cur := update P (s.cur.solution - s.lambda • correction)
    if leF cur.defect (prev.defect.map fun d => (1 - s.lambda / 4) * d) then { s with cur := cur, converged := true }
    else
      let s := if ltF cur.defect s.bestDefect then { s with bestDefect := cur.defect, bestLambda := s.lambda } else s
      hrLoop P correction damping prev n
        { s with cur := ⟨prev.solution, cur.defect⟩, lambda := s.lambda * damping }

/-- linesearch.hh:81-169  `LineSearchHackbuschReusken::lineSearch`; the result is the state with or without exception. -/
def hackbuschReusken (P : Problem K X) (absoluteLimit : K) (maxIterations : Nat) (damping : K) (acceptBest : Bool)
    (cur : LS K X) (correction : X) : LS K X × Option Error :=
  if ltF cur.defect (some absoluteLimit) then (update P (cur.solution - (1 : K) • correction), none)
  else
    let s := hrLoop P correction damping cur maxIterations ⟨cur, 1, 0, cur.defect, false⟩
    if s.converged then (s.cur, none)
    else if acceptBest = false then (update P cur.solution, some .lineSearch)
    else if s.bestLambda = 0 then (update P cur.solution, some .lineSearch)
    else if s.bestLambda ≠ s.lambda then (update P (cur.solution - s.bestLambda • correction), none)
    else (s.cur, none)

/-- linesearch.hh:45-49 and 81  `lineSearch` of the chosen line search. -/
def lineSearch (P : Problem K X) (q : Params K) (cur : LS K X) (correction : X) : LS K X × Option Error :=
  match q.lineSearch with
  | .none => (update P (cur.solution - (1 : K) • correction), none)
  | .hackbuschReusken n d b => hackbuschReusken P q.absoluteLimit n d b cur correction

/-- State of the Newton solver: solution, `_result`, `_previousDefect`, `*_jacobian` (outer `none`: not allocated, inner `none`: allocated
but never assembled), and the log. Used for `prepareStep`, newton.hh:98-120. -/
structure State (K X : Type) where
  solution : X
  result : Result K
  previousDefect : Option K
  jacobian : Option (Option X)
  log : List (Ev K X)

/-- terminate.hh:36-46  `DefaultTerminate::terminate`: sets `converged`; throws if the iteration count is reached. -/
def terminate (q : Params K) (r : Result K) : Result K × Except Error Bool :=
  if q.forceIteration && r.iterations == 0 then (r, .ok false)
  else
    let converged := ltF r.defect (some q.absoluteLimit) || ltF r.defect (r.firstDefect.map (· * q.reduction))
    let r := { r with converged := converged }
    if r.iterations ≥ q.maxIterations ∧ converged = false then (r, .error .terminate)
    else (r, .ok converged)

/-- newton.hh:101  `defect/previousDefect > threshold` with floating point division: a positive number divided by zero is infinite, zero
divided by zero is NaN. -/
def ratioGt (d p : Option K) (threshold : K) : Bool :=
  match d, p with
  | some d, some p => if p = 0 then decide (d > 0) else decide (d / p > threshold)
  | _, _ => false

/-- newton.hh:122-137  the linear reduction; `none` if a NaN is involved (simplification: the result of `std::max` with a NaN depends on the
order of its arguments). Division by zero is not infinity here. -/
def linearReduction (q : Params K) (r : Result K) (previousDefect : Option K) : Option K :=
  if q.fixedLinearReduction = false ∧ ¬ (r.iterations = 0 ∧ ltF r.firstDefect (some q.absoluteLimit) = true) then
    match r.firstDefect, r.defect, previousDefect with
    | some f, some d, some p =>
      let stop := max (f * q.reduction) q.absoluteLimit
      some (max (stop / (10 * d)) (min q.minLinearReduction (d * d / (p * p))))
    | _, _, _ => none
  else some q.minLinearReduction

/-- newton.hh:98-120  the first part of `prepareStep`: reassemble the Jacobian if the defect was not reduced enough. -/
def prepareStep (P : Problem K X) (q : Params K) (s : State K X) : Except (State K X) (State K X) :=
  if ratioGt s.result.defect s.previousDefect q.reassembleThreshold then
    if P.jacobianOk s.solution then .ok { s with jacobian := some (some s.solution), log := s.log ++ [.assemble s.solution] }
    else .error { s with jacobian := some none, log := s.log ++ [.assemble s.solution] }
  else .ok s

/-- newton.hh:221-319  the loop, with fuel; returns the final state and the exception, if any. -/
def loop (P : Problem K X) (q : Params K) : Nat → State K X → State K X × Option Error
  | 0, s => (s, some .outOfFuel)
  | n + 1, s =>
    let t := terminate q s.result
    let s := { s with result := t.1 }
    match t.2 with
    | .error e => (s, some e)
    | .ok true => (s, none)
    | .ok false =>
      match prepareStep P q s with
      | .error s => (s, some .assembly)
      | .ok s =>
        let red := linearReduction q s.result s.previousDefect
        let s := { s with previousDefect := s.result.defect }
        let matrix := s.jacobian.getD none
        let out := P.solve matrix s.solution red
        let s := { s with log := s.log ++ [.linearSolve matrix s.solution red out.2.2],
                          result := { s.result with linearIterations := s.result.linearIterations + out.2.2 } }
        if out.1 = false then (s, some .linearSolver)
        else
          let ls := lineSearch P q ⟨s.solution, s.result.defect⟩ out.2.1
          let s := { s with solution := ls.1.solution, result := { s.result with defect := ls.1.defect } }
          match ls.2 with
          | some e => (s, some e)
          | none =>
            loop P q n { s with result := { s.result with reduction := divF s.result.defect s.result.firstDefect,
                                                          iterations := s.result.iterations + 1 } }

/-- newton.hh:177-339  `apply`; the fuel is enough for `max (maxIterations, 1)` iterations (theorem C71). -/
def apply (P : Problem K X) (q : Params K) (jacobian : Option (Option X)) (x : X) : State K X × Option Error :=
  let d := P.defect x
  let r : Result K := { Result.clear with defect := d, firstDefect := d }
  let jacobian := jacobian.orElse fun _ => some none
  let out := loop P q (q.maxIterations + 2) ⟨x, r, d, jacobian, []⟩
  match out.2 with
  | none => if q.keepMatrix then out else ({ out.1 with jacobian := none }, none)
  | some _ => out

/-- linesearch.hh:213-218  the strategies. -/
inductive Strategy where
  | noLineSearch | hackbuschReusken | hackbuschReuskenAcceptBest
deriving DecidableEq, Repr

/-- A parameter tree: the keys read by `setParameters` (newton.hh:502-538, terminate.hh:48-52, linesearch.hh:184-191); `none` is an absent
key, `terminate`/`lineSearch` say whether the sub tree exists, with its keys. Verbosity, `UseMaxNorm` and `HangingNodeModifications` are
not modelled, an unknown strategy name (exception) neither. -/
structure ParamTree (K : Type) where
  reduction : Option K := none
  absoluteLimit : Option K := none
  keepMatrix : Option Bool := none
  minLinearReduction : Option K := none
  fixedLinearReduction : Option Bool := none
  reassembleThreshold : Option K := none
  strategy : Option Strategy := none
  maxIterations : Option Nat := none
  forceIteration : Option Bool := none
  lineSearchMaxIterations : Option Nat := none
  lineSearchDampingFactor : Option K := none
  lineSearchAcceptBest : Option Bool := none
  terminate : Option (Option Nat × Option Bool) := none
  lineSearch : Option (Option Nat × Option K × Option Bool) := none

/-- newton.hh:502-538  `setParameters`, with `createLineSearch` (linesearch.hh:252-271): the line search is created anew with its default
parameters (linesearch.hh:205-209: 10 iterations, damping 0.5, best not accepted). `toString` is the round trip of a number through
`std::to_string`. -/
def setParameters (toString : K → K) (t : ParamTree K) (q : Params K) : Params K :=
  let term := match t.terminate with
    | some (n, f) => (n.getD q.maxIterations, f.getD q.forceIteration)
    | none => (t.maxIterations.getD 40, t.forceIteration.getD false)
  let ls := match t.lineSearch with
    | some (n, d, b) => (n.getD 10, d.getD (1 / 2), b.getD false)
    | none => (t.lineSearchMaxIterations.getD 10, toString (t.lineSearchDampingFactor.getD (1 / 2)), t.lineSearchAcceptBest.getD false)
  { reduction := t.reduction.getD q.reduction
    absoluteLimit := t.absoluteLimit.getD q.absoluteLimit
    keepMatrix := t.keepMatrix.getD q.keepMatrix
    minLinearReduction := t.minLinearReduction.getD q.minLinearReduction
    fixedLinearReduction := t.fixedLinearReduction.getD q.fixedLinearReduction
    reassembleThreshold := t.reassembleThreshold.getD q.reassembleThreshold
    maxIterations := term.1
    forceIteration := term.2
    lineSearch := match t.strategy.getD .hackbuschReusken with
      | .noLineSearch => .none
      | .hackbuschReusken => .hackbuschReusken ls.1 ls.2.1 ls.2.2
      | .hackbuschReuskenAcceptBest => .hackbuschReusken ls.1 ls.2.1 true }

end Verif.Newton
