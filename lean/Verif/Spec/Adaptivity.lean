import Verif.Model.Adaptivity
import Mathlib.Algebra.Order.Field.Basic
import Mathlib.Algebra.BigOperators.Group.List.Basic
/-
Specification of marking and of the time adaptation strategy.
-/
namespace Verif.Adaptivity.Spec

variable {K : Type} [Field K] [LinearOrder K]

/-- The sum of the errors of all cells with error at least `eta`. -/
def errorAbove (x : List K) (eta : K) : K := (x.filter fun e => decide (eta ≤ e)).sum

/-- The sum of the errors of all cells with error below `eta`. -/
def errorBelow (x : List K) (eta : K) : K := (x.filter fun e => decide (e < eta)).sum

/-- The number of cells with error at least `eta`. -/
def countAbove (x : List K) (eta : K) : K := ((x.filter fun e => decide (eta ≤ e)).length : K)

/-- The number of cells with error below `eta`. -/
def countBelow (x : List K) (eta : K) : K := ((x.filter fun e => decide (e < eta)).length : K)

/-- Bisection result for a threshold `eta` such that the share `above eta` of a total is the wanted fraction: `eta` is an end of an interval of
length `m / 2^20` in `[0, m]`, on whose left end (unless it is 0) the share is too large, and on whose right end (unless it is `m`) it is not
too large. -/
def BracketsAbove (above : K → K) (fraction total m eta : K) : Prop :=
  ∃ l r, 0 ≤ l ∧ l ≤ r ∧ r ≤ m ∧ r - l = m / 2 ^ 20 ∧ (eta = l ∨ eta = r) ∧
    (l = 0 ∨ above l > fraction * total) ∧ (r = m ∨ above r ≤ fraction * total)

/-- The same for the share `below eta`, which grows with `eta`. -/
def BracketsBelow (below : K → K) (fraction total m eta : K) : Prop :=
  ∃ l r, 0 ≤ l ∧ l ≤ r ∧ r ≤ m ∧ r - l = m / 2 ^ 20 ∧ (eta = l ∨ eta = r) ∧
    (l = 0 ∨ below l ≤ fraction * total) ∧ (r = m ∨ below r > fraction * total)

/-- The share is the wanted fraction of the total up to one per cent. -/
def Met [IsStrictOrderedRing K] (fraction share total : K) : Prop := |fraction - share / total| ≤ 1 / 100

/-- The estimated error of an evaluation. -/
def estimate [IsStrictOrderedRing K] (p : Params K) (a : Args K) : K :=
  (a.cells.map fun c => |c.error|).sum + p.scaling * (a.etaTime.map fun e => |e|).sum

/-- The tolerated error of an evaluation. -/
def allowed (p : Params K) (a : Args K) : K := p.tol ^ 2 * (a.energy + p.minEnergyRate * a.dt)

/-- The step is acceptable. -/
def Acceptable [IsStrictOrderedRing K] (p : Params K) (a : Args K) : Prop := p.noAdapt = true ∨ estimate p a ≤ allowed p a

/-- The sum of the estimated errors of all acceptable steps in a history. -/
noncomputable def acceptedErrors [IsStrictOrderedRing K] : List (Event K) → K
  | [] => 0
  | .start :: es => acceptedErrors es
  | .evaluate p _ a :: es => (open Classical in if Acceptable p a then estimate p a else 0) + acceptedErrors es

end Verif.Adaptivity.Spec
