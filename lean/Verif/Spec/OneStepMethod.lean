import Verif.Model.OneStepMethod
import Verif.Spec.OneStepOperator
/-
What a user reads from the calls made during time steps.
-/
namespace Verif.OneStep

variable {X T : Type}

/-- The results of all calls of the solver in a log. -/
def solves (log : List (Ev X T)) : List (PDERes T) :=
  log.filterMap fun
    | .solve _ _ _ res _ => some res
    | _ => none

/-- Statistics of attempts, each given by its log: their number and the sums over all solver calls. -/
def statsOf [AddCommMonoid T] (logs : List (List (Ev X T))) : Stats T :=
  let all := logs.flatMap solves
  ⟨logs.length, (all.map (·.assemblerTime)).sum, (all.map (·.linearSolverTime)).sum,
   (all.map (·.linearIterations)).sum, (all.map (·.iterations)).sum⟩

/-- The attempts that completed: `postStep` was called. -/
def Completed (log : List (Ev X T)) : Prop := log.getLast? = some .postStep

instance (log : List (Ev X T)) : Decidable (Completed log) :=
  match h : log.getLast? with
  | some .postStep => .isTrue h
  | none => .isFalse (by simp [Completed, h])
  | some .preStep => .isFalse (by simp [Completed, h])
  | some (.preStage _ _) => .isFalse (by simp [Completed, h])
  | some (.alloc _) => .isFalse (by simp [Completed, h])
  | some (.solve _ _ _ _ _) => .isFalse (by simp [Completed, h])
  | some (.postStage _) => .isFalse (by simp [Completed, h])
  | some (.free _) => .isFalse (by simp [Completed, h])

/-- The blocks that are allocated after the calls of a log, or `none` if some block was allocated twice or freed without being
allocated. -/
def heapAfter : List (Ev X T) → List Nat → Option (List Nat)
  | [], h => some h
  | .alloc r :: l, h => if r ∈ h then none else heapAfter l (r :: h)
  | .free r :: l, h => if r ∈ h then heapAfter l (h.erase r) else none
  | _ :: l, h => heapAfter l h

end Verif.OneStep
