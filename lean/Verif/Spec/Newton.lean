import Verif.Model.Newton
/-
Specification of the line search and of the Newton solver. Defects are `Option K`; `none` is NaN.
-/
namespace Verif.Newton.Spec

variable {K X : Type} [Field K] [LinearOrder K] [AddCommGroup X] [Module K X]

/-- Both are numbers and the first is smaller. -/
def Lt (a b : Option K) : Prop := ∃ x y, a = some x ∧ b = some y ∧ x < y

/-- Both are numbers and the first is at most the second. -/
def Le (a b : Option K) : Prop := ∃ x y, a = some x ∧ b = some y ∧ x ≤ y

/-- Sufficient decrease: the defect `d` after a step of length `l` is at most `(1 - l/4)` times the defect `d0` before it. -/
def Sufficient (d0 d : Option K) (l : K) : Prop := Le d (d0.map ((1 - l / 4) * ·))

/-- The admissible outcomes of a line search with step lengths `damping^k`, `k < n`, starting at `x` in direction `-c`: new solution `x'`
with defect `d'`, `ok` if there was no exception. -/
structure LineSearchOutcome (defect : X → Option K) (absoluteLimit : K) (n : Nat) (damping : K) (acceptBest : Bool) (x c : X)
    (x' : X) (d' : Option K) (ok : Prop) : Prop where
  /-- the stored defect belongs to the stored solution -/
  consistent : d' = defect x'
  /-- success: full step below the absolute limit, or the first sufficient trial, or (if allowed) a best trial that improves -/
  success : ok →
    (Lt (defect x) (some absoluteLimit) ∧ x' = x - (1 : K) • c) ∨
    (∃ k, k < n ∧ x' = x - (damping ^ k) • c ∧ Sufficient (defect x) d' (damping ^ k) ∧
      ∀ j, j < k → ¬ Sufficient (defect x) (defect (x - (damping ^ j) • c)) (damping ^ j)) ∨
    (acceptBest = true ∧ (∀ j, j < n → ¬ Sufficient (defect x) (defect (x - (damping ^ j) • c)) (damping ^ j)) ∧
      ∃ k, k < n ∧ x' = x - (damping ^ k) • c ∧ Lt d' (defect x) ∧ ∀ j, j < n → ¬ Lt (defect (x - (damping ^ j) • c)) d')
  /-- failure: nothing changed, no trial was sufficient, and none improved the defect or the best trial is not to be accepted -/
  failure : ¬ ok → x' = x ∧ (∀ j, j < n → ¬ Sufficient (defect x) (defect (x - (damping ^ j) • c)) (damping ^ j)) ∧
    (acceptBest = true → ∀ j, j < n → ¬ Lt (defect (x - (damping ^ j) • c)) (defect x))

/-- The termination criterion: the defect is below the absolute limit or below the wanted fraction of the first defect. -/
def Criterion (q : Params K) (first d : Option K) : Prop :=
  Lt d (some q.absoluteLimit) ∨ Lt d (first.map (· * q.reduction))

/-- The quotient of two defects, if both are numbers. -/
def quotient (a b : Option K) : Option K := a.bind fun a => b.map fun b => a / b

/-- Number of linear solves in a log. -/
def solves : List (Ev K X) → Nat
  | [] => 0
  | .linearSolve _ _ _ _ :: l => solves l + 1
  | .assemble _ :: l => solves l

/-- Total number of linear iterations in a log. -/
def linearIterations : List (Ev K X) → Nat
  | [] => 0
  | .linearSolve _ _ _ n :: l => n + linearIterations l
  | .assemble _ :: l => linearIterations l

/-- The iteration bound: a forced iteration is made even if no iterations are allowed. -/
def bound (q : Params K) : Nat := if q.forceIteration then max q.maxIterations 1 else q.maxIterations

/-- The damping factor is a positive number other than one (any line search is fine if there is none). -/
def Damped (q : Params K) : Prop :=
  match q.lineSearch with
  | .none => True
  | .hackbuschReusken _ d _ => 0 < d ∧ d ≠ 1

end Verif.Newton.Spec
