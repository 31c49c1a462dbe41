import Verif.Model.Newton
/-
Model of the Newton solver with modifications of the solution (dune/pdelab/solver/newton.hh with `_hangingNodeModifications`, and its line
searches, dune/pdelab/solver/linesearch.hh): whenever the defect is computed, and before the Jacobian is assembled, the solution is
modified. The modification is a parameter here (`modify`); for hanging nodes it is `Verif.ConstrainedSolve.interpolate`.

As in `Verif.Model.Newton` otherwise.
-/
namespace Verif.NewtonModified
open Newton

variable {K X : Type} [Field K] [LinearOrder K] [AddCommGroup X] [Module K X]

/-- newton.hh:342-368  `updateDefect`: modifies the solution, then computes the defect. -/
def update (modify : X → X) (P : Problem K X) (x : X) : LS K X := ⟨modify x, P.defect (modify x)⟩

/-- linesearch.hh:104-132  the loop with `n` iterations to go; `prev` is the saved solution with its defect. -/
def hrLoop (modify : X → X) (P : Problem K X) (correction : X) (damping : K) (prev : LS K X) : Nat → HR K X → HR K X
  | 0, s => s
  | n + 1, s =>
    let cur := update modify P (s.cur.solution - s.lambda • correction)
    if leF cur.defect (prev.defect.map fun d => (1 - s.lambda / 4) * d) then { s with cur := cur, converged := true }
    else
      let s := if ltF cur.defect s.bestDefect then { s with bestDefect := cur.defect, bestLambda := s.lambda } else s
      hrLoop modify P correction damping prev n { s with cur := ⟨prev.solution, cur.defect⟩, lambda := s.lambda * damping }

/-- linesearch.hh:81-169  `LineSearchHackbuschReusken::lineSearch`. -/
def hackbuschReusken (modify : X → X) (P : Problem K X) (absoluteLimit : K) (maxIterations : Nat) (damping : K) (acceptBest : Bool)
    (cur : LS K X) (correction : X) : LS K X × Option Error :=
  if ltF cur.defect (some absoluteLimit) then (update modify P (cur.solution - (1 : K) • correction), none)
  else
    let s := hrLoop modify P correction damping cur maxIterations ⟨cur, 1, 0, cur.defect, false⟩
    if s.converged then (s.cur, none)
    else if acceptBest = false then (update modify P cur.solution, some .lineSearch)
    else if s.bestLambda = 0 then (update modify P cur.solution, some .lineSearch)
    else if s.bestLambda ≠ s.lambda then (update modify P (cur.solution - s.bestLambda • correction), none)
    else (s.cur, none)

/-- linesearch.hh:45-49 and 81  `lineSearch` of the chosen line search. -/
def lineSearch (modify : X → X) (P : Problem K X) (q : Params K) (cur : LS K X) (correction : X) : LS K X × Option Error :=
  match q.lineSearch with
  | .none => (update modify P (cur.solution - (1 : K) • correction), none)
  | .hackbuschReusken n d b => hackbuschReusken modify P q.absoluteLimit n d b cur correction

/-- newton.hh:98-120  the first part of `prepareStep`: if the defect was not reduced enough, modify the solution and reassemble the Jacobian. -/
def prepareStep (modify : X → X) (P : Problem K X) (q : Params K) (s : State K X) : Except (State K X) (State K X) :=
  if ratioGt s.result.defect s.previousDefect q.reassembleThreshold then
    let s := { s with solution := modify s.solution }
    if P.jacobianOk s.solution then .ok { s with jacobian := some (some s.solution), log := s.log ++ [.assemble s.solution] }
    else .error { s with jacobian := some none, log := s.log ++ [.assemble s.solution] }
  else .ok s

/-- newton.hh:221-319  the loop, with fuel; returns the final state and the exception, if any. -/
def loop (modify : X → X) (P : Problem K X) (q : Params K) : Nat → State K X → State K X × Option Error
  | 0, s => (s, some .outOfFuel)
  | n + 1, s =>
    let t := terminate q s.result
    let s := { s with result := t.1 }
    match t.2 with
    | .error e => (s, some e)
    | .ok true => (s, none)
    | .ok false =>
      match prepareStep modify P q s with
      | .error s => (s, some .assembly)
      | .ok s =>
        let red := linearReduction q s.result s.previousDefect
        let s := { s with previousDefect := s.result.defect }
        let matrix := s.jacobian.getD none
        let out := P.solve matrix s.solution red
        let s := { s with log := s.log ++ [.linearSolve matrix s.solution red out.2.2],
                          result := { s.result with linearIterations := s.result.linearIterations + out.2.2 } }
        if out.1 = false then (s, some .linearSolver)
        else
          let ls := lineSearch modify P q ⟨s.solution, s.result.defect⟩ out.2.1
          let s := { s with solution := ls.1.solution, result := { s.result with defect := ls.1.defect } }
          match ls.2 with
          | some e => (s, some e)
          | none =>
            loop modify P q n { s with result := { s.result with reduction := divF s.result.defect s.result.firstDefect,
                                                                 iterations := s.result.iterations + 1 } }

/-- newton.hh:177-339  `apply`. -/
def apply (modify : X → X) (P : Problem K X) (q : Params K) (jacobian : Option (Option X)) (x : X) : State K X × Option Error :=
  let l := update modify P x
  let r : Result K := { Result.clear with defect := l.defect, firstDefect := l.defect }
  let jacobian := jacobian.orElse fun _ => some none
  let out := loop modify P q (q.maxIterations + 2) ⟨l.solution, r, l.defect, jacobian, []⟩
  match out.2 with
  | none => if q.keepMatrix then out else ({ out.1 with jacobian := none }, none)
  | some _ => out

end Verif.NewtonModified
