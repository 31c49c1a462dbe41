import Verif.Model.OldNewton
import Verif.Spec.Newton
/-
Specification of the deprecated Newton solver. Defects are `Option K`; `none` is NaN or infinite.
-/
namespace Verif.OldNewton.Spec

open Verif.Newton.Spec (Lt Le Sufficient)

variable {K X : Type} [Field K] [LinearOrder K] [AddCommGroup X] [Module K X]

/-- The solution that is evaluated instead of `x`: that with modified hanging nodes, if they are to be treated. -/
def point (P : Problem K X) (hn : Bool) (x : X) : X := if hn then P.fix x else x

/-- Modifying hanging nodes twice is modifying them once. -/
def Idempotent (P : Problem K X) : Prop := ∀ x, P.fix (P.fix x) = P.fix x

/-- The trial with step length `damping^k`. -/
def trial (P : Problem K X) (q : Params K) (hn : Bool) (x z : X) (k : Nat) : X := point P hn (x - q.dampingFactor ^ k • z)

/-- The admissible outcomes of a line search at `x` in direction `-z`. -/
structure LineSearchOutcome (P : Problem K X) (q : Params K) (hn : Bool) (x z : X) (x' : X) (d' : Option K) (e : Option Error) : Prop where
  /-- the stored defect belongs to the stored solution, which has modified hanging nodes -/
  consistent : d' = P.norm q.useMaxNorm x'
  fixed : point P hn x' = x'
  /-- there are no other exceptions -/
  errors : e = none ∨ e = some .lineSearch ∨ e = some .defect
  /-- success: a full step without line search or below the absolute limit, or the first sufficient trial, or (if allowed) a best trial that
  improves the defect; in any case the new defect is a number -/
  success : e = none → d' ≠ none ∧
    (((q.strategy = .noLineSearch ∨ Lt (P.norm q.useMaxNorm x) (some q.absLimit)) ∧ x' = point P hn (x - z)) ∨
    (q.strategy ≠ .noLineSearch ∧ ∃ k, k < max q.lineSearchMaxIterations 1 ∧ x' = trial P q hn x z k ∧
      Sufficient (P.norm q.useMaxNorm x) d' (q.dampingFactor ^ k) ∧
      ∀ j, j < k → ¬ Sufficient (P.norm q.useMaxNorm x) (P.norm q.useMaxNorm (trial P q hn x z j)) (q.dampingFactor ^ j)) ∨
    (q.strategy = .hackbuschReuskenAcceptBest ∧
      (∀ j, j < max q.lineSearchMaxIterations 1 →
        ¬ Sufficient (P.norm q.useMaxNorm x) (P.norm q.useMaxNorm (trial P q hn x z j)) (q.dampingFactor ^ j)) ∧
      ∃ k, k < max q.lineSearchMaxIterations 1 ∧ x' = trial P q hn x z k ∧ Lt d' (P.norm q.useMaxNorm x) ∧
        ∀ j, j < max q.lineSearchMaxIterations 1 → ¬ Lt (P.norm q.useMaxNorm (trial P q hn x z j)) d'))
  /-- failure: the old solution, no trial was sufficient, and none improved the defect or the best trial is not to be accepted -/
  failure : e = some .lineSearch → q.strategy ≠ .noLineSearch ∧ ¬ Lt (P.norm q.useMaxNorm x) (some q.absLimit) ∧ x' = x ∧
    (∀ j, j < max q.lineSearchMaxIterations 1 →
      ¬ Sufficient (P.norm q.useMaxNorm x) (P.norm q.useMaxNorm (trial P q hn x z j)) (q.dampingFactor ^ j)) ∧
    (q.strategy = .hackbuschReuskenAcceptBest →
      ∀ j, j < max q.lineSearchMaxIterations 1 → ¬ Lt (P.norm q.useMaxNorm (trial P q hn x z j)) (P.norm q.useMaxNorm x))
  /-- a full step to a solution whose defect is not a number -/
  notFinite : e = some .defect →
    (q.strategy = .noLineSearch ∨ Lt (P.norm q.useMaxNorm x) (some q.absLimit)) ∧ x' = point P hn (x - z) ∧ d' = none

/-- The termination criterion: the defect is below the absolute limit or below the wanted fraction of the first defect. -/
def Criterion (q : Params K) (first d : Option K) : Prop :=
  Lt d (some q.absLimit) ∨ Lt d (first.map (· * q.reduction))

/-- Number of linear solves in a log. -/
def solves : List (Ev K X) → Nat
  | [] => 0
  | .linearSolve _ _ _ _ _ :: l => solves l + 1
  | .assemble _ :: l => solves l

/-- Total number of linear iterations in a log. -/
def linearIterations : List (Ev K X) → Nat
  | [] => 0
  | .linearSolve _ _ _ _ n :: l => n + linearIterations l
  | .assemble _ :: l => linearIterations l

/-- The bound on the number of Newton iterations: a forced iteration is made even if none is allowed. -/
def bound (q : Params K) : Nat := if q.forceIteration then max q.maxIterations 1 else q.maxIterations

/-- The matrix after the calls `l`, if it was `m` before: that of the last assembly. -/
def matrixAfter (m : Option X) : List (Ev K X) → Option X
  | [] => m
  | .assemble x :: l => matrixAfter (some x) l
  | .linearSolve _ _ _ _ _ :: l => matrixAfter m l

/-- In the log, starting with matrix `kept`, every linear solve has the matrix assembled last; it is announced as new exactly if it was
assembled just before, namely at the solution of that solve. -/
def MatrixUse (kept : Option X) (log : List (Ev K X)) : Prop :=
  ∀ l₁ m y red reuse k l₂, log = l₁ ++ Ev.linearSolve m y red reuse k :: l₂ →
    m = matrixAfter kept l₁ ∧ (reuse = false ↔ ∃ l₀, l₁ = l₀ ++ [Ev.assemble y])

/-- The number in a value. -/
def asNum : Val K → Option K
  | .num x => some x
  | _ => none

/-- The natural number in a value. -/
def asNat : Val K → Option Nat
  | .nat x => some x
  | _ => none

/-- The flag in a value. -/
def asBool : Val K → Option Bool
  | .bool x => some x
  | _ => none

/-- The line search whose name is the value. -/
def asStrategy : Val K → Option Strategy
  | .str "noLineSearch" => some .noLineSearch
  | .str "hackbuschReusken" => some .hackbuschReusken
  | .str "hackbuschReuskenAcceptBest" => some .hackbuschReuskenAcceptBest
  | _ => none

/-- A parameter is set from a key: it takes the value if there is one, and is unchanged otherwise. -/
def FromKey {A : Type} (tree : String → Option (Val K)) (key : String) (get : Val K → Option A) (old new : A) : Prop :=
  (tree key = none → new = old) ∧ ∀ v, tree key = some v → get v = some new

/-- All parameters are set from their keys. -/
structure ParametersSet (tree : String → Option (Val K)) (q q' : Params K) : Prop where
  reduction : FromKey tree "Reduction" asNum q.reduction q'.reduction
  absLimit : FromKey tree "AbsoluteLimit" asNum q.absLimit q'.absLimit
  keepMatrix : FromKey tree "KeepMatrix" asBool q.keepMatrix q'.keepMatrix
  useMaxNorm : FromKey tree "UseMaxNorm" asBool q.useMaxNorm q'.useMaxNorm
  maxIterations : FromKey tree "MaxIterations" asNat q.maxIterations q'.maxIterations
  forceIteration : FromKey tree "ForceIteration" asBool q.forceIteration q'.forceIteration
  minLinearReduction : FromKey tree "MinLinearReduction" asNum q.minLinearReduction q'.minLinearReduction
  fixedLinearReduction : FromKey tree "FixedLinearReduction" asBool q.fixedLinearReduction q'.fixedLinearReduction
  reassembleThreshold : FromKey tree "ReassembleThreshold" asNum q.reassembleThreshold q'.reassembleThreshold
  strategy : FromKey tree "LineSearchStrategy" asStrategy q.strategy q'.strategy
  lineSearchMaxIterations : FromKey tree "LineSearchMaxIterations" asNat q.lineSearchMaxIterations q'.lineSearchMaxIterations
  dampingFactor : FromKey tree "LineSearchDampingFactor" asNum q.dampingFactor q'.dampingFactor

end Verif.OldNewton.Spec
