import Verif.Model.LocalContainers
import Mathlib.Algebra.BigOperators.Group.List.Basic
/-
Specification of the local containers and of accumulation through weighted views.
-/
namespace Verif.LocalContainers.Spec

variable {K : Type} [Ring K]

/-- The container has one cell per entry. -/
def WellFormed (m : LocalMatrix K) : Prop := m.container.length = m.rows * m.cols

/-- All index pairs of an `r` times `c` matrix, row by row. -/
def rowMajor (r c : Nat) : List (Nat × Nat) := (List.range r).flatMap fun i => (List.range c).map fun j => (i, j)

/-- `sum_j alpha a_ij x_j`, for entries given as a function. -/
def rowProduct (a : Nat → Nat → K) (c : Nat) (alpha : K) (x : Nat → K) (i : Nat) : K :=
  ((List.range c).map fun j => alpha * a i j * x j).sum

/-- The weights on the way from each view to the container, innermost last: `view` starts a way, `nest` prolongs one, `setWeight` replaces it. -/
def ways {ι : Type} (w : List (List K)) : VOp ι K → List (List K)
  | .view x => w ++ [[x]]
  | .nest k x => w ++ [x :: w.getD k []]
  | .setWeight k x => w.set k [x]
  | _ => w

/-- The contributions of a history to entry `e`: each accumulated value is multiplied by all weights on the way, raw values by none. -/
def contributions {ι : Type} [DecidableEq ι] (e : ι) : List (List K) → List (VOp ι K) → K
  | _, [] => 0
  | w, op :: ops =>
    (match op with
      | .accumulate k e' v => if e = e' then (w.getD k []).prod * v else 0
      | .rawAccumulate _ e' v => if e = e' then v else 0
      | _ => 0) + contributions e (ways w op) ops

/-- Whether view `k` was written to, or handed out its container, since it was last reset. -/
def touched {ι : Type} (k : Nat) (b : Bool) : List (VOp ι K) → Bool
  | [] => b
  | .accumulate k' _ _ :: ops => touched k (if k' = k then true else b) ops
  | .rawAccumulate k' _ _ :: ops => touched k (if k' = k then true else b) ops
  | .nest k' _ :: ops => touched k (if k' = k then true else b) ops
  | .resetModified k' :: ops => touched k (if k' = k then false else b) ops
  | _ :: ops => touched k b ops

end Verif.LocalContainers.Spec
