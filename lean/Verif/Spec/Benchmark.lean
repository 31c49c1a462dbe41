import Verif.Model.Benchmark
import Mathlib.Algebra.BigOperators.Group.List.Basic
/-
Specification of a benchmark: which times belong to which run, and what the statistics of a list of times are.
-/
namespace Verif.Benchmark.Spec

open Verif.Benchmark

variable {N K : Type}

/-- The number of runs that were completed in a history. -/
def completed : List (Event N K) → Nat
  | [] => 0
  | .endRun _ :: es => completed es + 1
  | _ :: es => completed es

/-- Whether a run was started and not ended yet. -/
def inRun (b : Bool) : List (Event N K) → Bool
  | [] => b
  | .startRun _ :: es => inRun true es
  | .endRun _ :: es => inRun false es
  | _ :: es => inRun b es

/-- A task was started. -/
def Started (name : N) (es : List (Event N K)) : Prop := ∃ t, Event.start name t ∈ es

variable [DecidableEq N]

/-- The times at which a task (or, for `none`, a run) was started, each with the number of the run; `k` runs were completed before. -/
def starts (name : Option N) (k : Nat) : List (Event N K) → List (Nat × K)
  | [] => []
  | .startRun t :: es => if name = none then (k, t) :: starts name k es else starts name k es
  | .start n t :: es => if name = some n then (k, t) :: starts name k es else starts name k es
  | .endRun _ :: es => starts name (k + 1) es
  | _ :: es => starts name k es

/-- The times at which a task (or, for `none`, a run) was ended, each with the number of the run; `k` runs were completed before. -/
def stops (name : Option N) (k : Nat) : List (Event N K) → List (Nat × K)
  | [] => []
  | .stop n t :: es => if name = some n then (k, t) :: stops name k es else stops name k es
  | .endRun t :: es => if name = none then (k, t) :: stops name (k + 1) es else stops name (k + 1) es
  | _ :: es => stops name k es

/-- The last of the times in run `k`, `0` if there is none. -/
def lastIn [Zero K] (k : Nat) (l : List (Nat × K)) : K := (((l.filter fun x => x.1 = k).getLast?).map (·.2)).getD 0

/-- The time which a task (or, for `none`, the run) took in run `k`: from the last start to the last end in this run. -/
def duration [Zero K] [Sub K] (es : List (Event N K)) (name : Option N) (k : Nat) : K := lastIn k (stops name 0 es) - lastIn k (starts name 0 es)

/-- `s` are the statistics of the times `x`: minimum, maximum, mean, and the root of the mean squared deviation from the mean. -/
def IsStatistics [Field K] [LinearOrder K] (sqrt : K → K) (x : List K) (s : Stats K) : Prop :=
  (s.min ∈ x ∧ ∀ y ∈ x, s.min ≤ y) ∧ (s.max ∈ x ∧ ∀ y ∈ x, y ≤ s.max) ∧ s.avg * (x.length : K) = x.sum ∧
    ∃ v, s.dev = sqrt v ∧ 0 ≤ v ∧ v * (x.length : K) = (x.map fun y => (y - s.avg) ^ 2).sum

/-- The history keeps the protocol: runs are ended only if they were started, and nothing is printed during a run. -/
def Proper (es : List (Event N K)) : Prop :=
  ∀ (es₁ es₂ : List (Event N K)) (e : Event N K), es = es₁ ++ e :: es₂ →
    (e = .print → inRun false es₁ = false) ∧ ∀ t, e = .endRun t → inRun false es₁ = true

/-- The operations are allowed: at most `n` runs, and only tasks that were started are ended. -/
def Allowed (n : Nat) (es : List (Event N K)) : Prop :=
  ∀ (es₁ es₂ : List (Event N K)) (e : Event N K), es = es₁ ++ e :: es₂ →
    (e ≠ .print → completed es₁ < n) ∧ ∀ name t, e = .stop name t → Started name es₁

end Verif.Benchmark.Spec
