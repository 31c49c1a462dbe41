import Verif.Model.Newton
/-
Model of the deprecated Newton solver (dune/pdelab/newton/newton.hh), whose classes `NewtonSolver`, `NewtonTerminate`, `NewtonPrepareStep`
and `NewtonLineSearch` are the bases of `Newton`. All line numbers without a file name are of dune/pdelab/newton/newton.hh.

Defects are `Option K`: `none` is a NaN or an infinite value. Assembling residuals and Jacobians and solving linear systems are
parameters (functions of their arguments). Console output and timings are not modelled, nor are exceptions thrown by the residual or by
the linear solver itself (instead of a result that is not converged).
-/
namespace Verif.OldNewton

open Verif.Newton (ltF leF ratioGt)

variable {K X : Type} [Field K] [LinearOrder K] [AddCommGroup X] [Module K X]

/-- newton/newton.hh:631-639  `NewtonLineSearch::Strategy`. -/
inductive Strategy where
  | noLineSearch | hackbuschReusken | hackbuschReuskenAcceptBest
deriving DecidableEq, Repr

/-- The parameters with a setter: newton/newton.hh:112-114, 257, 492-493, 615-617 and 782-784. -/
structure Params (K : Type) where
  reduction : K
  absLimit : K
  keepMatrix : Bool
  useMaxNorm : Bool
  maxIterations : Nat
  forceIteration : Bool
  minLinearReduction : K
  fixedLinearReduction : Bool
  reassembleThreshold : K
  strategy : Strategy
  lineSearchMaxIterations : Nat
  dampingFactor : K
deriving DecidableEq, Repr

/-- newton/newton.hh:116-134, 158-171, 441-457, 506-519 and 641-653  the defaults of the constructors. -/
def Params.default : Params K :=
  ⟨1 / 10 ^ 8, 1 / 10 ^ 12, true, false, 40, false, 1 / 10 ^ 3, false, 0, .hackbuschReusken, 10, 1 / 2⟩

/-- newton/newton.hh:45-57 and backend/solver.hh:30-51  the fields of `NewtonResult` that are modelled; `none` is not a finite number. -/
structure Result (K : Type) where
  converged : Bool
  iterations : Nat
  reduction : Option K
  firstDefect : Option K
  defect : Option K
  linearIterations : Nat
deriving DecidableEq, Repr

/-- What the solver calls. `fix` is the modification of the solution for hanging nodes (lines 200-208 and 564-572), `norm useMaxNorm x` the norm of
the residual at `x` (lines 211-224), `jacobianOk x` whether assembling the Jacobian succeeds (lines 577-578), `solve A x red reuse` the linear
solver applied to the matrix `A` (given by its linearisation point, `none` if it was never assembled) and the residual at `x`: whether it
converged, the correction and the number of iterations (newton/newton.hh:232-253). -/
structure Problem (K X : Type) where
  fix : X → X
  norm : Bool → X → Option K
  jacobianOk : X → Bool
  solve : Option X → X → Option K → Bool → Bool × X × Nat

/-- The exceptions (newton/newton.hh:41-42 and 225-227, 243-246), reading an uninitialised flag, and the end of the fuel of the model. -/
inductive Error where
  | notConverged | linearSolver | lineSearch | defect | assembly | undefined | outOfFuel
deriving DecidableEq, Repr

/-- Observable calls: assembling the Jacobian at `x` (newton/newton.hh:577-578), and a linear solve with its matrix, the point of the residual,
the requested reduction, the flag told to the backend that the matrix is that of the last solve, and its iterations (lines 236-239). -/
inductive Ev (K X : Type) where
  | assemble (x : X)
  | linearSolve (matrix : Option X) (x : X) (reduction : Option K) (reuse : Bool) (iterations : Nat)
deriving DecidableEq, Repr

/-- A solution with the defect the solver has stored for it. Used for `evalDefect`, newton/newton.hh:197-228. -/
structure LS (K X : Type) where
  solution : X
  defect : Option K
deriving DecidableEq, Repr

/-- newton/newton.hh:197-228  `defect`: modifies the solution if hanging nodes are to be treated, and stores the norm of the residual. It throws
if that is not finite, that is, `none`; see `raised`. -/
def evalDefect (P : Problem K X) (q : Params K) (hangingNodes : Bool) (x : X) : LS K X :=
  let y := if hangingNodes then P.fix x else x
  ⟨y, P.norm q.useMaxNorm y⟩

/-- newton/newton.hh:225-227  the exception thrown by `defect`. -/
def raised (s : LS K X) : Option Error := if s.defect = none then some .defect else none

/-- newton/newton.hh:728-756  the end of a line search without sufficient decrease: `cur` is the last trial, of step length `l`; `best` and
`bestLambda` are what the trials found. -/
def giveUp (P : Problem K X) (q : Params K) (hn : Bool) (prev z : X) (cur : LS K X) (l bestLambda : K) : LS K X × Option Error :=
  match q.strategy with
  | .hackbuschReusken =>
    let s := evalDefect P q hn prev
    (s, some ((raised s).getD .lineSearch))
  | .hackbuschReuskenAcceptBest =>
    if bestLambda = 0 then
      let s := evalDefect P q hn prev
      (s, some ((raised s).getD .lineSearch))
    else if bestLambda ≠ l then
      let s := evalDefect P q hn (prev - bestLambda • z)
      (s, raised s)
    else (cur, none)
  | .noLineSearch => (cur, none)

/-- newton/newton.hh:693-762  the trials; `n` is the number of trials allowed after this one. A defect that is not finite is caught (lines
702-709). -/
def trials (P : Problem K X) (q : Params K) (hn : Bool) (prev z : X) (prevDefect : Option K) :
    Nat → K → K → Option K → LS K X × Option Error
  | n, l, bestLambda, bestDefect =>
    let cur := evalDefect P q hn (prev - l • z)
    if leF cur.defect (prevDefect.map fun d => (1 - l / 4) * d) then (cur, none)
    else
      let better := ltF cur.defect bestDefect
      let bestLambda := if better then l else bestLambda
      let bestDefect := if better then cur.defect else bestDefect
      match n with
      | 0 => giveUp P q hn prev z cur l bestLambda
      | n + 1 => trials P q hn prev z prevDefect n (l * q.dampingFactor) bestLambda bestDefect

/-- newton/newton.hh:675-767  `line_search`. -/
def lineSearch (P : Problem K X) (q : Params K) (hn : Bool) (prevDefect : Option K) (cur : LS K X) (z : X) : LS K X × Option Error :=
  if q.strategy = .noLineSearch ∨ ltF cur.defect (some q.absLimit) = true then
    let s := evalDefect P q hn (cur.solution - (1 : K) • z)
    (s, raised s)
  else trials P q hn cur.solution z prevDefect (q.lineSearchMaxIterations - 1) 1 0 cur.defect

/-- The state during `apply`: `*u_`, `res_`, `prev_defect_`, `*A_` (outer `none`: not allocated; inner `none`: allocated but never assembled),
`reassembled_` (newton/newton.hh:103-111) and the log. -/
structure State (K X : Type) where
  solution : X
  result : Result K
  prevDefect : Option K
  jacobian : Option (Option X)
  reassembled : Bool
  log : List (Ev K X)

/-- newton/newton.hh:479-489  `terminate`. -/
def terminate (q : Params K) (r : Result K) : Result K × Except Error Bool :=
  if q.forceIteration && r.iterations == 0 then (r, .ok false)
  else
    let converged := ltF r.defect (some q.absLimit) || ltF r.defect (r.firstDefect.map (· * q.reduction))
    let r := { r with converged := converged }
    if r.iterations ≥ q.maxIterations ∧ converged = false then (r, .error .notConverged)
    else (r, .ok converged)

/-- newton/newton.hh:582-602  the requested linear reduction; `none` if a division by zero is involved. -/
def linearReduction (q : Params K) (r : Result K) (prevDefect : Option K) : Option K :=
  if q.fixedLinearReduction = true ∨ (r.iterations = 0 ∧ ltF r.firstDefect (some q.absLimit) = true) then some q.minLinearReduction
  else
    match r.firstDefect, r.defect, prevDefect with
    | some f, some d, some p =>
      if d = 0 ∨ p = 0 then none
      else some (max (max (f * q.reduction) q.absLimit / (10 * d)) (min q.minLinearReduction (d * d / (p * p))))
    | _, _, _ => none

/-- newton/newton.hh:558-580  the first part of `prepare_step`; `hn` is the flag of `NewtonPrepareStep` (line 618), `none` if it was never set. -/
def reassemble (P : Problem K X) (q : Params K) (hn : Option Bool) (s : State K X) : State K X × Option Error :=
  let s := { s with reassembled := false }
  if ratioGt s.result.defect s.prevDefect q.reassembleThreshold then
    match hn with
    | none => (s, some .undefined)
    | some h =>
      let x := if h then P.fix s.solution else s.solution
      let log := s.log ++ [.assemble x]
      if P.jacobianOk x then ({ s with solution := x, jacobian := some (some x), reassembled := true, log := log }, none)
      else ({ s with solution := x, jacobian := some none, log := log }, some .assembly)
  else (s, none)

/-- newton/newton.hh:344-380  one run of the loop from the linear solve on, with the second part of `prepare_step` (lines 582-604); the residual is
that of the last call of `defect`, at `residualAt` (as the flags of the two base classes may differ, the solution may have been changed
since). Left: the end of `apply` with its exception; right: the state for the next run. -/
def finish (P : Problem K X) (q : Params K) (hn : Bool) (residualAt : X) (s : State K X) : (State K X × Option Error) ⊕ State K X :=
  let red := linearReduction q s.result s.prevDefect
  let s := { s with prevDefect := s.result.defect }
  let matrix := s.jacobian.getD none
  let out := P.solve matrix residualAt red (!s.reassembled)
  let s := { s with log := s.log ++ [.linearSolve matrix residualAt red (!s.reassembled) out.2.2],
                    result := { s.result with linearIterations := s.result.linearIterations + out.2.2 } }
  match out.1 with
  | false => .inl (s, some .linearSolver)
  | true =>
    let ls := lineSearch P q hn s.prevDefect ⟨s.solution, s.result.defect⟩ out.2.1
    let s := { s with solution := ls.1.solution, result := { s.result with defect := ls.1.defect } }
    match ls.2 with
    | some .lineSearch => if s.reassembled then .inl (s, some .lineSearch) else .inr s
    | some e => .inl (s, some e)
    | none =>
      let reduction := match s.result.defect, s.result.firstDefect with
        | some d, some f => if f = 0 then none else some (d / f)
        | _, _ => none
      .inr { s with result := { s.result with reduction := reduction, iterations := s.result.iterations + 1 } }

/-- newton/newton.hh:315-409  one run of the loop: left, the end of `apply` with its exception; right, the state for the next run. -/
def iter (P : Problem K X) (q : Params K) (hn : Bool) (hnPrepare : Option Bool) (s : State K X) : (State K X × Option Error) ⊕ State K X :=
  let t := terminate q s.result
  let s := { s with result := t.1 }
  match t.2 with
  | .error e => .inl (s, some e)
  | .ok true => .inl (s, none)
  | .ok false =>
    let p := reassemble P q hnPrepare s
    match p.2 with
    | some e => .inl (p.1, some e)
    | none => finish P q hn s.solution p.1

/-- newton/newton.hh:315-409  the loop, with fuel. -/
def loop (P : Problem K X) (q : Params K) (hn : Bool) (hnPrepare : Option Bool) : Nat → State K X → State K X × Option Error
  | 0, s => (s, some .outOfFuel)
  | n + 1, s =>
    match iter P q hn hnPrepare s with
    | .inl o => o
    | .inr s => loop P q hn hnPrepare n s

/-- The solver object between calls: `res_` (newton/newton.hh:107), `A_` (line 106), the flags for hanging nodes of `NewtonSolver` (line 258) and of
`NewtonPrepareStep` (line 618), `none` if indeterminate, and `result_valid_` (line 256). -/
structure Obj (K X : Type) where
  result : Result K
  jacobian : Option (Option X)
  hnSolver : Option Bool
  hnPrepare : Option Bool
  resultValid : Bool

/-- newton/newton.hh:54-56, 116-134, 158-171, 506-519 and 798-813  the constructors of `Newton`; the one that is given a vector initialises neither
of the flags for hanging nodes. -/
def construct (withVector : Bool) : Obj K X :=
  let flag := if withVector then none else some false
  ⟨⟨false, 0, some 0, some 0, some 0, 0⟩, none, flag, flag, false⟩

/-- newton/newton.hh:191-194  `NewtonSolver::setHangingNodeModifications`. -/
def setHnSolver (b : Bool) (o : Obj K X) : Obj K X := { o with hnSolver := some b }

/-- newton/newton.hh:553-556  `NewtonPrepareStep::setHangingNodeModifications`. As both bases have it, a call for an object of class `Newton` has to
name the base. -/
def setHnPrepare (b : Bool) (o : Obj K X) : Obj K X := { o with hnPrepare := some b }

/-- newton/newton.hh:95-99  `discardMatrix`. -/
def discardMatrix (o : Obj K X) : Obj K X := { o with jacobian := none }

/-- newton/newton.hh:177-183  `result`; `none` is the exception. -/
def getResult (o : Obj K X) : Option (Result K) := if o.resultValid then some o.result else none

/-- The outcome of `apply` (newton/newton.hh:261-430): the object, the solution vector, the log and the exception. -/
structure Outcome (K X : Type) where
  obj : Obj K X
  solution : X
  log : List (Ev K X)
  error : Option Error

/-- newton/newton.hh:261-430  `apply` with `fuel` runs of the loop. -/
def apply (P : Problem K X) (q : Params K) (fuel : Nat) (o : Obj K X) (x : X) : Outcome K X :=
  let r := { o.result with iterations := 0, converged := false, reduction := some 1, linearIterations := 0 }
  let o := { o with resultValid := true }
  match o.hnSolver with
  | none => ⟨{ o with result := r }, x, [], some .undefined⟩
  | some hn =>
    let cur := evalDefect P q hn x
    let r := { r with defect := cur.defect }
    match raised cur with
    | some e => ⟨{ o with result := r }, cur.solution, [], some e⟩
    | none =>
      let r := { r with firstDefect := cur.defect }
      let jacobian := o.jacobian.orElse fun _ => some none
      let out := loop P q hn o.hnPrepare fuel ⟨cur.solution, r, cur.defect, jacobian, false, []⟩
      let keep := match out.2 with
        | none => if q.keepMatrix then out.1.jacobian else none
        | some _ => out.1.jacobian
      ⟨{ o with result := out.1.result, jacobian := keep }, out.1.solution, out.1.log, out.2⟩

/-- The value of a key of a parameter tree, as the types asked for by newton/newton.hh:836-878. -/
inductive Val (K : Type) where
  | num (x : K) | nat (n : Nat) | bool (b : Bool) | str (s : String)
deriving DecidableEq, Repr

/-- newton/newton.hh:771-779  `strategyFromName`; `none` is the exception. -/
def strategyFromName (s : String) : Option Strategy :=
  if s = "noLineSearch" then some .noLineSearch
  else if s = "hackbuschReusken" then some .hackbuschReusken
  else if s = "hackbuschReuskenAcceptBest" then some .hackbuschReuskenAcceptBest
  else none

/-- A setter for the value of a key, `none` if the value cannot be converted (the exception of `ParameterTree::get`). Used for newton/newton.hh:839-877. -/
def onNum (f : K → Params K → Params K) : Val K → Params K → Option (Params K)
  | .num x, q => some (f x q)
  | _, _ => none

/-- The same for a number of type `unsigned int`, newton/newton.hh:845-847 and 866-868. -/
def onNat (f : Nat → Params K → Params K) : Val K → Params K → Option (Params K)
  | .nat x, q => some (f x q)
  | _, _ => none

/-- The same for a flag, newton/newton.hh:848-850, 857-859 and 872-877. -/
def onBool (f : Bool → Params K → Params K) : Val K → Params K → Option (Params K)
  | .bool x, q => some (f x q)
  | _, _ => none

/-- newton/newton.hh:863-865 with 660-663  the line search strategy by its name. -/
def onStrategy : Val K → Params K → Option (Params K)
  | .str x, q => (strategyFromName x).map fun y => { q with strategy := y }
  | _, _ => none

/-- newton/newton.hh:842-877  the keys in the order in which they are read, each with the setter it is given to (lines 83-86, 186-189, 459-477,
527-551 and 660-673). The key `VerbosityLevel` (lines 839-841) only concerns the output. -/
def steps : List (String × (Val K → Params K → Option (Params K))) :=
  [("Reduction", onNum fun x q => { q with reduction := x }),
   ("MaxIterations", onNat fun x q => { q with maxIterations := x }),
   ("ForceIteration", onBool fun x q => { q with forceIteration := x }),
   ("AbsoluteLimit", onNum fun x q => { q with absLimit := x }),
   ("MinLinearReduction", onNum fun x q => { q with minLinearReduction := x }),
   ("FixedLinearReduction", onBool fun x q => { q with fixedLinearReduction := x }),
   ("ReassembleThreshold", onNum fun x q => { q with reassembleThreshold := x }),
   ("LineSearchStrategy", onStrategy),
   ("LineSearchMaxIterations", onNat fun x q => { q with lineSearchMaxIterations := x }),
   ("LineSearchDampingFactor", onNum fun x q => { q with dampingFactor := x }),
   ("KeepMatrix", onBool fun x q => { q with keepMatrix := x }),
   ("UseMaxNorm", onBool fun x q => { q with useMaxNorm := x })]

/-- newton/newton.hh:842-877  running the steps; the second component is whether no exception was thrown. -/
def runSteps (tree : String → Option (Val K)) : List (String × (Val K → Params K → Option (Params K))) → Params K → Params K × Bool
  | [], q => (q, true)
  | (k, f) :: l, q =>
    match tree k with
    | none => runSteps tree l q
    | some v =>
      match f v q with
      | none => (q, false)
      | some q => runSteps tree l q

/-- newton/newton.hh:836-878  `setParameters`. -/
def setParameters (tree : String → Option (Val K)) (q : Params K) : Params K × Bool := runSteps tree steps q

end Verif.OldNewton
